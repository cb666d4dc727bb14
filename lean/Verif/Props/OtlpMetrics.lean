import Verif.Model.OtlpMetrics
import Verif.Props.OtlpGroup
/-!
# C70: OTLP encoding of metrics; C71: preferred temporality
-/
namespace Otel
namespace Otlp

theorem mapM_forall₂ {α β : Type} (f : α → Option β) (l : List α) (l' : List β) (h : l.mapM f = some l') :
    List.Forall₂ (fun a b => f a = some b) l l' := by
  induction l generalizing l' with
  | nil => simp only [List.mapM_nil, Option.pure_def, Option.some.injEq] at h; subst h; exact .nil
  | cons x l ih =>
    simp only [List.mapM_cons, Option.bind_eq_bind, Option.bind_eq_some_iff, Option.pure_def, Option.some.injEq] at h
    obtain ⟨q, hq, l2, hl2, rfl⟩ := h
    exact .cons hq (ih l2 hl2)

theorem mapM_isSome {α β : Type} (f : α → Option β) (l : List α) : (l.mapM f).isSome ↔ ∀ x ∈ l, (f x).isSome := by
  induction l with
  | nil => simp
  | cons x l ih =>
    simp only [List.mapM_cons, Option.bind_eq_bind, Option.pure_def, List.forall_mem_cons, ← ih]
    cases f x <;> cases l.mapM f <;> simp

/-- The exported exemplar says what the exemplar said. -/
def SameExemplar (e : SdkExemplar) (p : PBExemplar) : Prop :=
  p.value = e.value ∧ p.time = e.time ∧ ((∀ kv ∈ e.attrs, Encodable false kv.2) → meaning p.attrs = e.attrs) ∧
  (∀ s t, e.spanId = some s → e.traceId = some t → p.spanId.length = 8 ∧ p.traceId.length = 16 ∧ (fromBytes p.spanId : Int) = s ∧ (fromBytes p.traceId : Int) = t) ∧
  (e.spanId = none ∨ e.traceId = none → p.spanId = [] ∧ p.traceId = [])

/-- The exported point has the same attributes, times and exemplars; `withStart` if its kind has a start time (gauges
have none, which protobuf writes as 0). -/
def SameHead (withStart : Bool) (h : PointHead) (p : PBHead) : Prop :=
  p.time = h.time ∧ p.start = (if withStart then h.start else 0) ∧ ((∀ kv ∈ h.attrs, Encodable false kv.2) → meaning p.attrs = h.attrs) ∧
  List.Forall₂ SameExemplar h.exemplars p.exemplars

theorem num_spec (n v : Num) (h : encodeNum n = some v) : v = n := by
  cases n with
  | int i => simp only [encodeNum] at h; split at h <;> simp_all
  | float f => simp only [encodeNum, Option.some.injEq] at h; exact h.symm

theorem exemplar_spec (e : SdkExemplar) (p : PBExemplar) (h : encodeExemplar e = some p) : SameExemplar e p := by
  unfold encodeExemplar at h
  split at h
  · rename_i s t v hids hv
    injection h with h
    subst h
    refine ⟨num_spec _ _ hv, rfl, fun ha => (C43_attributes e.attrs).2.1.2 ha, ?_, ?_⟩
    · intro a b ha hb
      simp only [exemplarIds, ha, hb] at hids
      split at hids
      · rename_i s' t' hs ht
        simp only [Option.some.injEq, Prod.mk.injEq] at hids
        obtain ⟨rfl, rfl⟩ := hids
        have h1 := (C45_span_id a).2 s' hs
        have h2 := (C45_trace_id b).2 t' ht
        exact ⟨h1.1, h2.1, h1.2.2, h2.2.2⟩
      · simp at hids
    · intro hn
      unfold exemplarIds at hids
      split at hids
      · rename_i a b ha hb
        rcases hn with hn | hn
        · rw [ha] at hn; simp at hn
        · rw [hb] at hn; simp at hn
      · simp only [Option.some.injEq, Prod.mk.injEq] at hids
        exact ⟨hids.1.symm, hids.2.symm⟩
  · simp at h

theorem head_spec (w : Bool) (h : PointHead) (p : PBHead) (he : encodeHead w h = some p) : SameHead w h p := by
  unfold encodeHead at he
  rw [Option.map_eq_some_iff] at he
  obtain ⟨ex, hex, rfl⟩ := he
  refine ⟨rfl, rfl, fun ha => (C43_attributes h.attrs).2.1.2 ha, ?_⟩
  exact (mapM_forall₂ _ _ _ hex).imp (fun a b hab => exemplar_spec a b hab)

/-- Encoded points, in order. -/
def SameNumbers (w : Bool) : List NumberPoint → List PBNumber → Prop := List.Forall₂ (fun a b => SameHead w a.head b.head ∧ b.value = a.value)

/-- The exported buckets are those of the point; missing ones are empty. -/
def SameBuckets (a : SdkBuckets) (b : Option SdkBuckets) : Prop := (a.counts = [] ∧ b = none) ∨ b = some a

/-- What the exported data must say. -/
def SameData : Data → PBData → Prop
  | .gauge pts, .gauge q => SameNumbers false pts q
  | .sum t m pts, .sum t' m' q => t' = t ∧ m' = m ∧ SameNumbers true pts q
  | .histogram t pts, .histogram t' q => t' = t ∧ List.Forall₂ (fun (a : HistPoint) (b : PBHist) => SameHead true a.head b.head ∧ b.count = a.count ∧
      b.sum = a.sum ∧ b.bucketCounts = a.bucketCounts ∧ b.bounds = a.bounds ∧ b.min = a.min ∧ b.max = a.max) pts q
  | .exponential t pts, .exponential t' q => t' = t ∧ List.Forall₂ (fun (a : ExpPoint) (b : PBExp) => SameHead true a.head b.head ∧ b.count = a.count ∧
      b.sum = a.sum ∧ b.scale = a.scale ∧ b.zeroCount = a.zeroCount ∧ SameBuckets a.positive b.positive ∧ SameBuckets a.negative b.negative ∧
      b.flags = a.flags ∧ b.min = a.min ∧ b.max = a.max) pts q
  | _, _ => False

/-- The number of data points. -/
def Data.size : Data → Nat
  | .gauge l => l.length
  | .sum _ _ l => l.length
  | .histogram _ l => l.length
  | .exponential _ l => l.length
  | .other => 0

theorem number_spec (w : Bool) (a : NumberPoint) (b : PBNumber) (h : encodeNumber w a = some b) : SameHead w a.head b.head ∧ b.value = a.value := by
  unfold encodeNumber at h
  split at h
  · rename_i hd v hh hv
    injection h with h
    subst h
    exact ⟨head_spec _ _ _ hh, num_spec _ _ hv⟩
  · simp at h

theorem isEmpty_false_of {α β : Type} {Q : α → β → Prop} {l : List α} {l' : List β} (h : List.Forall₂ Q l l') (hl : l.length ≠ 0) : l'.isEmpty = false := by
  cases h with
  | nil => simp at hl
  | cons => rfl

/-- **C70** An encoded metric has the name, description and unit of the metric and, if it has data points at all, the same kind of data,
temporality, monotonicity and points, in order, each with its attributes, times, numbers and exemplars. -/
theorem C70_metric (m : SdkMetric) (p : PBMetric) (h : encodeMetric m = some p) :
    p.name = m.name ∧ p.description = m.description ∧ p.unit = m.unit ∧ (m.data.size ≠ 0 → SameData m.data p.data) := by
  unfold encodeMetric at h
  rw [Option.map_eq_some_iff] at h
  obtain ⟨d, hd, rfl⟩ := h
  refine ⟨rfl, rfl, rfl, ?_⟩
  intro hn
  dsimp only
  cases hm : m.data with
  | gauge l =>
    rw [hm] at hd hn
    simp only [encodeData, Option.map_eq_some_iff] at hd
    obtain ⟨q, hq, rfl⟩ := hd
    have hf := (mapM_forall₂ _ _ _ hq).imp (fun a b hab => number_spec false a b hab)
    rw [isEmpty_false_of hf hn]
    exact hf
  | sum t mo l =>
    rw [hm] at hd hn
    simp only [encodeData, Option.map_eq_some_iff] at hd
    obtain ⟨q, hq, rfl⟩ := hd
    have hf := (mapM_forall₂ _ _ _ hq).imp (fun a b hab => number_spec true a b hab)
    rw [isEmpty_false_of hf hn]
    exact ⟨rfl, rfl, hf⟩
  | histogram t l =>
    rw [hm] at hd hn
    simp only [encodeData, Option.map_eq_some_iff] at hd
    obtain ⟨q, hq, rfl⟩ := hd
    have hf := (mapM_forall₂ _ _ _ hq)
    rw [isEmpty_false_of hf hn]
    refine ⟨rfl, hf.imp ?_⟩
    intro a b hab
    unfold encodeHist at hab
    split at hab
    · rw [Option.map_eq_some_iff] at hab
      obtain ⟨hh, hhh, rfl⟩ := hab
      exact ⟨head_spec _ _ _ hhh, rfl, rfl, rfl, rfl, rfl, rfl⟩
    · simp at hab
  | exponential t l =>
    rw [hm] at hd hn
    simp only [encodeData, Option.map_eq_some_iff] at hd
    obtain ⟨q, hq, rfl⟩ := hd
    have hf := (mapM_forall₂ _ _ _ hq)
    rw [isEmpty_false_of hf hn]
    refine ⟨rfl, hf.imp ?_⟩
    intro a b hab
    have hb : ∀ x : SdkBuckets, SameBuckets x (encodeBuckets x) := by
      intro x
      unfold encodeBuckets SameBuckets
      split
      · rename_i hx; exact .inl ⟨List.isEmpty_iff.1 hx, rfl⟩
      · exact .inr rfl
    unfold encodeExp at hab
    split at hab
    · rw [Option.map_eq_some_iff] at hab
      obtain ⟨hh, hhh, rfl⟩ := hab
      exact ⟨head_spec _ _ _ hhh, rfl, rfl, rfl, rfl, hb _, hb _, rfl, rfl, rfl⟩
    · simp at hab
  | other => rw [hm] at hn; simp [Data.size] at hn

/-- An exemplar that can be encoded. -/
def ExemplarOk (e : SdkExemplar) : Prop :=
  (∀ s t, e.spanId = some s → e.traceId = some t → (0 ≤ s ∧ s < 2 ^ 64) ∧ (0 ≤ t ∧ t < 2 ^ 128)) ∧
  ∀ i, e.value = .int i → -(2 ^ 63) ≤ i ∧ i < 2 ^ 63

theorem num_ok (n : Num) : (encodeNum n).isSome ↔ ∀ i, n = .int i → -(2 ^ 63) ≤ i ∧ i < 2 ^ 63 := by
  cases n with
  | int i =>
    simp only [encodeNum, Num.int.injEq, forall_eq']
    split <;> simp_all
  | float f => simp [encodeNum]

theorem exemplar_ok (e : SdkExemplar) : (encodeExemplar e).isSome ↔ ExemplarOk e := by
  have h1 : (exemplarIds e).isSome ↔ ∀ s t, e.spanId = some s → e.traceId = some t → (0 ≤ s ∧ s < 2 ^ 64) ∧ (0 ≤ t ∧ t < 2 ^ 128) := by
    unfold exemplarIds
    cases e.spanId with
    | none => simp
    | some s =>
      cases e.traceId with
      | none => simp
      | some t =>
        have hq : (∀ s' t', some s = some s' → some t = some t' → (0 ≤ s' ∧ s' < 2 ^ 64) ∧ (0 ≤ t' ∧ t' < 2 ^ 128)) ↔
            (0 ≤ s ∧ s < 2 ^ 64) ∧ (0 ≤ t ∧ t < 2 ^ 128) :=
          ⟨fun h => h s t rfl rfl, fun h s' t' hs ht => by injection hs with hs; injection ht with ht; rw [← hs, ← ht]; exact h⟩
        rw [hq, ← (C45_span_id s).1, ← (C45_trace_id t).1]
        dsimp only
        cases encodeSpanId s <;> cases encodeTraceId t <;> simp
  unfold ExemplarOk
  rw [← h1, ← num_ok]
  unfold encodeExemplar
  cases exemplarIds e with
  | none => simp
  | some x => cases encodeNum e.value <;> simp

/-- **C70** A sum or gauge is encoded exactly if all its exemplars can be and every integer value has 64 bits: a sum that has grown beyond
that is never exported again, and takes the whole batch with it (see `C44_metrics`). -/
theorem C70_number_encodable (w : Bool) (p : NumberPoint) : (encodeNumber w p).isSome ↔
    (∀ e ∈ p.head.exemplars, ExemplarOk e) ∧ ∀ i, p.value = .int i → -(2 ^ 63) ≤ i ∧ i < 2 ^ 63 := by
  rw [← num_ok]
  have : (∀ e ∈ p.head.exemplars, ExemplarOk e) ↔ (encodeHead w p.head).isSome := by
    unfold encodeHead
    rw [Option.isSome_map, mapM_isSome]
    exact forall₂_congr (fun e _ => (exemplar_ok e).symm)
  rw [this]
  unfold encodeNumber
  cases encodeHead w p.head <;> cases encodeNum p.value <;> simp

/-- **C70** (finding) A metric without data points loses its kind, temporality and monotonicity. -/
theorem C70_empty (t : Nat) (m : Bool) : encodeData (.sum t m []) = some .unset ∧ encodeData (.gauge []) = some .unset := ⟨rfl, rfl⟩

example : encodeMetric ⟨['n'], [], ['1'], .sum 2 true [⟨⟨[(['k'], .int 1)], 5, 6, [⟨[], .int 3, 4, some 1, some 2⟩]⟩, .int 7⟩]⟩ =
    some ⟨['n'], [], ['1'], .sum 2 true [⟨⟨[(['k'], some (.int 1))], 5, 6, [⟨[], .int 3, 4, [0,0,0,0,0,0,0,1], [0,0,0,0,0,0,0,0,0,0,0,0,0,0,0,2]⟩]⟩, .int 7⟩]⟩ := rfl

/-! ## C71 -/
open Metrics (Temporality)

theorem readerLoop_spec (d : Dict Metrics.Kind Temporality) (l : Preferred) (r : Dict Metrics.Kind Temporality) (h : readerLoop d l = some r) :
    ∃ l' : List (Metrics.Kind × Temporality), l = l'.map (fun kt => (some kt.1, some kt.2)) ∧ r = Dict.update d l' := by
  induction l generalizing d with
  | nil => simp only [readerLoop, Option.some.injEq] at h; exact ⟨[], rfl, by rw [← h]; rfl⟩
  | cons kt l ih =>
    obtain ⟨k, t⟩ := kt
    cases k with
    | none => simp [readerLoop] at h
    | some k =>
      cases t with
      | none => simp [readerLoop] at h
      | some t =>
        simp only [readerLoop] at h
        obtain ⟨l', rfl, rfl⟩ := ih _ h
        exact ⟨(k, t) :: l', rfl, rfl⟩

theorem readerLoop_isSome (d : Dict Metrics.Kind Temporality) (l : Preferred) : (readerLoop d l).isSome ↔ ∀ kt ∈ l, kt.1.isSome ∧ kt.2.isSome := by
  induction l generalizing d with
  | nil => simp [readerLoop]
  | cons kt l ih =>
    obtain ⟨k, t⟩ := kt
    cases k with
    | none => simp [readerLoop]
    | some k =>
      cases t with
      | none => simp [readerLoop]
      | some t => simpa [readerLoop] using ih _

theorem allCumulative_get (k : Metrics.Kind) : Dict.get? allCumulative k = some .cumulative := by cases k <;> rfl

/-- **C71** A reader is made exactly if every preference is for an instrument class and is delta or cumulative; then the temporality of
every instrument class is the one preferred or, failing that, cumulative (a dictionary has each class once). -/
theorem C71_reader (preferred : Preferred) :
    ((readerTemporality preferred).isSome ↔ ∀ kt ∈ preferred, kt.1.isSome ∧ kt.2.isSome) ∧
    ∀ r, readerTemporality preferred = some r → (preferred.map Prod.fst).Nodup →
      ∀ (k : Metrics.Kind) (t : Temporality), Dict.get? r k = some t ↔
        (some k, some t) ∈ preferred ∨ (t = .cumulative ∧ ∀ t', (some k, t') ∉ preferred) := by
  constructor
  · unfold readerTemporality
    by_cases hp : preferred.all (fun kt => kt.2.isSome)
    · rw [if_pos hp, readerLoop_isSome]
    · rw [if_neg hp]
      simp only [Option.isSome_none, Bool.false_eq_true, false_iff]
      intro h
      exact hp (List.all_eq_true.2 (fun kt hkt => (h kt hkt).2))
  · intro r h hn k t
    unfold readerTemporality at h
    split at h
    · obtain ⟨l', rfl, rfl⟩ := readerLoop_spec _ _ _ h
      have hn' : (Dict.keys l').Nodup := by
        rw [List.map_map] at hn
        exact List.Nodup.of_map (some : Metrics.Kind → Option Metrics.Kind) (by simpa [Dict.keys, List.map_map, Function.comp_def] using hn)
      rw [Dict.get?_update _ _ _ hn']
      have hmem : ∀ t, (some k, some t) ∈ l'.map (fun kt => (some kt.1, some kt.2)) ↔ Dict.get? l' k = some t := by
        intro t
        constructor
        · intro hm
          obtain ⟨⟨a, b⟩, hab, he⟩ := List.mem_map.1 hm
          simp only [Prod.mk.injEq, Option.some.injEq] at he
          obtain ⟨rfl, rfl⟩ := he
          exact Dict.get?_of_mem _ hn' _ _ hab
        · intro hg
          exact List.mem_map.2 ⟨(k, t), Dict.mem_of_get? _ _ _ hg, rfl⟩
      rw [hmem]
      cases hg : Dict.get? l' k with
      | some t0 =>
        simp only [Option.some_or, Option.some.injEq]
        constructor
        · exact .inl
        · rintro (h | ⟨_, h⟩)
          · exact h
          · exact absurd ((hmem t0).2 hg) (h _)
      | none =>
        simp only [Option.none_or, allCumulative_get, Option.some.injEq, reduceCtorEq, false_or]
        constructor
        · rintro rfl
          refine ⟨rfl, ?_⟩
          intro t' hm
          obtain ⟨⟨a, b⟩, hab, he⟩ := List.mem_map.1 hm
          simp only [Prod.mk.injEq, Option.some.injEq] at he
          obtain ⟨rfl, rfl⟩ := he
          rw [Dict.get?_of_mem _ hn' _ _ hab] at hg
          simp at hg
        · rintro ⟨rfl, _⟩; rfl
    · simp at h

/-- The classes whose sums OTLP reports as deltas under a preference. -/
def deltaKinds (pref : Str) : List Metrics.Kind :=
  if pref = "DELTA".toList then [.counter, .histogram, .obsCounter]
  else if pref = "LOWMEMORY".toList then [.counter, .histogram]
  else []

theorem envTemporality_spec (pref : Str) : (Dict.keys (envTemporality pref)).Nodup ∧ Metrics.Kind.gauge ∉ Dict.keys (envTemporality pref) ∧
    ∀ k, k ≠ .gauge → Dict.get? (envTemporality pref) k = some (if k ∈ deltaKinds pref then .delta else .cumulative) := by
  unfold envTemporality deltaKinds
  split
  · refine ⟨by decide, by decide, ?_⟩; intro k hk; cases k <;> first | rfl | exact absurd rfl hk
  · split
    · refine ⟨by decide, by decide, ?_⟩; intro k hk; cases k <;> first | rfl | exact absurd rfl hk
    · refine ⟨by decide, by decide, ?_⟩; intro k hk; cases k <;> first | rfl | exact absurd rfl hk

/-- **C71** A periodic reader over an OTLP exporter can always be made; every instrument class has exactly one temporality: the explicitly
preferred one, else delta for the classes the environment variable (case and outer white space ignored) says, else cumulative. -/
theorem C71_otlp (env : Option Str) (preferred : Dict Metrics.Kind Temporality) (hn : (Dict.keys preferred).Nodup) :
    ∃ r, otlpReader env preferred = some r ∧ ∀ k, Dict.get? r k = some (match Dict.get? preferred k with
      | some t => t
      | none => if k ∈ deltaKinds (pyStrip (upper (env.getD "CUMULATIVE".toList))) then .delta else .cumulative) := by
  generalize hp : pyStrip (upper (env.getD "CUMULATIVE".toList)) = pref
  obtain ⟨e1, e2, e3⟩ := envTemporality_spec pref
  have hT : (Dict.keys (getTemporality env preferred)).Nodup := by unfold getTemporality; rw [hp]; exact Dict.nodup_update _ _ e1
  have hsome : (otlpReader env preferred).isSome := by
    rw [otlpReader, (C71_reader _).1]
    intro kt hkt
    obtain ⟨x, _, rfl⟩ := List.mem_map.1 hkt
    simp
  obtain ⟨r, hr⟩ := Option.isSome_iff_exists.1 hsome
  refine ⟨r, hr, ?_⟩
  have hnod : ((List.map (fun kt : Metrics.Kind × Temporality => (some kt.1, some kt.2)) (getTemporality env preferred)).map Prod.fst).Nodup := by
    rw [List.map_map]
    have := List.Nodup.map (f := (some : Metrics.Kind → Option Metrics.Kind)) (fun a b h => by injection h) hT
    simpa [Dict.keys, List.map_map, Function.comp_def] using this
  intro k
  rw [(C71_reader _).2 r hr hnod]
  have hmem : ∀ t, (some k, some t) ∈ (getTemporality env preferred).map (fun kt : Metrics.Kind × Temporality => (some kt.1, some kt.2)) ↔
      Dict.get? (getTemporality env preferred) k = some t := by
    intro t
    constructor
    · intro hm
      obtain ⟨⟨a, b⟩, hab, he⟩ := List.mem_map.1 hm
      simp only [Prod.mk.injEq, Option.some.injEq] at he
      obtain ⟨rfl, rfl⟩ := he
      exact Dict.get?_of_mem _ hT _ _ hab
    · intro hg
      exact List.mem_map.2 ⟨(k, t), Dict.mem_of_get? _ _ _ hg, rfl⟩
  have hget : Dict.get? (getTemporality env preferred) k = (Dict.get? preferred k).or (Dict.get? (envTemporality pref) k) := by
    unfold getTemporality; rw [hp, Dict.get?_update _ _ _ hn]
  rw [hmem, hget]
  cases hg : Dict.get? preferred k with
  | some t => left; rfl
  | none =>
    simp only [Option.none_or]
    by_cases hk : k = .gauge
    · right
      subst hk
      have hnone : Dict.get? (envTemporality pref) Metrics.Kind.gauge = none := (Dict.get?_eq_none_iff _ _).2 e2
      refine ⟨?_, ?_⟩
      · rw [if_neg]
        unfold deltaKinds
        split
        · decide
        · split <;> decide
      · intro t' hm
        cases t' with
        | none => simp at hm
        | some t' =>
          have := (hmem t').1 hm
          rw [hget, hg, hnone] at this
          simp at this
    · left
      exact e3 k hk

/-- **C71** The words are read in any case. -/
theorem C71_case : pyStrip (upper " delta ".toList) = "DELTA".toList ∧ pyStrip (upper "LowMemory".toList) = "LOWMEMORY".toList := by decide

end Otlp
end Otel
