import Verif.Props.Prometheus
import Mathlib.Data.List.Induction
/-!
# C72: what a Prometheus scrape exposes
-/
namespace Otel
namespace Prom
variable {α ν : Type}

/-- What identifies a family: its class, name, description, unit and labels. -/
structure Ident where
  kind : FKind
  name : Str
  description : Str
  unit : Str
  labels : List Str
deriving DecidableEq

def Family.ident (f : Family ν) : Ident := ⟨f.kind, f.name, f.description, f.unit, f.labels⟩

/-- The family a data point of a metric belongs to. -/
def identOf (env : Env α) (m : PMetric α ν) (k : FKind) (p : Dict Str α × ν) : Ident :=
  ⟨k, sanitizeFullName env.isdigit m.name, m.description, mapUnit m.unit, labelKeys env p.1⟩

/-- All data points of the metrics, each with its family and its sample. -/
def samplesOf (env : Env α) (ms : List (PMetric α ν)) : List (Ident × (List Str × ν)) :=
  ms.flatMap (fun m => match familyKind m.kind with
    | some k => m.points.map (fun p => (identOf env m k p, (labelValues env p.1, p.2)))
    | none => [])

/-! ## Identifiers are faithful -/

theorem split_left {a a' b b' : Str} {c : Char} (ha : c ∉ a) (ha' : c ∉ a') (h : a ++ c :: b = a' ++ c :: b') : a = a' ∧ b = b' := by
  have h1 := cutC_append c a b ha
  rw [h, cutC_append c a' b' ha'] at h1
  simp only [Prod.mk.injEq, Option.some.injEq] at h1
  exact ⟨h1.1.symm, h1.2.symm⟩

theorem split_right {a a' b b' : Str} {c : Char} (hb : c ∉ b) (hb' : c ∉ b') (h : a ++ c :: b = a' ++ c :: b') : a = a' ∧ b = b' := by
  have h2 : b.reverse ++ c :: a.reverse = b'.reverse ++ c :: a'.reverse := by
    have := congrArg List.reverse h
    simpa using this
  obtain ⟨h3, h4⟩ := split_left (by simpa using hb) (by simpa using hb') h2
  exact ⟨List.reverse_injective h4, List.reverse_injective h3⟩

/-- The identifiers that occur: names, labels and units consist of legal characters, and no label is empty. -/
def Ident.Good (i : Ident) : Prop := '|' ∉ i.name ∧ '|' ∉ i.unit ∧ ∀ l ∈ i.labels, '|' ∉ l ∧ '%' ∉ l ∧ l ≠ []

def Ident.id (i : Ident) : Str := familyId i.name i.description i.labels i.unit i.kind

theorem joinS_not_mem (c : Char) (sep : Str) (hs : c ∉ sep) (l : List Str) (h : ∀ p ∈ l, c ∉ p) : c ∉ joinS sep l := by
  induction l with
  | nil => simp [joinS]
  | cons a l ih =>
    cases l with
    | nil => simpa [joinS] using h a List.mem_cons_self
    | cons b l =>
      simp only [joinS, List.mem_append, not_or]
      exact ⟨⟨h a List.mem_cons_self, hs⟩, ih (fun p hp => h p (List.mem_cons_of_mem _ hp))⟩

theorem joinS_ne_nil (sep : Str) (l : List Str) (hl : l ≠ []) (h : ∀ p ∈ l, p ≠ []) : joinS sep l ≠ [] := by
  cases l with
  | nil => exact absurd rfl hl
  | cons a l =>
    have ha := h a List.mem_cons_self
    cases l with
    | nil => simpa [joinS] using ha
    | cons b l => simp [joinS, ha]

theorem labels_inj {l l' : List Str} (h : ∀ p ∈ l, '%' ∉ p ∧ p ≠ []) (h' : ∀ p ∈ l', '%' ∉ p ∧ p ≠ []) (he : joinS ['%'] l = joinS ['%'] l') : l = l' := by
  by_cases hl : l = []
  · by_cases hl' : l' = []
    · rw [hl, hl']
    · exact absurd (by rw [← he, hl]; rfl) (joinS_ne_nil ['%'] l' hl' (fun p hp => (h' p hp).2))
  · by_cases hl' : l' = []
    · exact absurd (by rw [he, hl']; rfl) (joinS_ne_nil ['%'] l hl (fun p hp => (h p hp).2))
    · have := splitC_joinS '%' l (fun p hp => (h p hp).1) hl
      rw [he, splitC_joinS '%' l' (fun p hp => (h' p hp).1) hl'] at this
      exact this.symm

theorem text_inj (k k' : FKind) (h : k.text = k'.text) : k = k' := by
  cases k <;> cases k' <;> first | rfl | exact absurd h (by decide)

theorem id_inj {i j : Ident} (hi : i.Good) (hj : j.Good) (h : i.id = j.id) : i = j := by
  obtain ⟨k, n, d, u, l⟩ := i
  obtain ⟨k', n', d', u', l'⟩ := j
  obtain ⟨hi1, hi2, hi3⟩ := hi
  obtain ⟨hj1, hj2, hj3⟩ := hj
  simp only [Ident.id, familyId, joinS] at h
  simp only at hi1 hi2 hi3 hj1 hj2 hj3
  have hk : ∀ k : FKind, '|' ∉ k.text := by intro k; cases k <;> decide
  simp only [List.append_assoc, List.cons_append, List.nil_append] at h
  have h' : (n ++ '|' :: (d ++ '|' :: (joinS ['%'] l ++ '|' :: u))) ++ '|' :: k.text = (n' ++ '|' :: (d' ++ '|' :: (joinS ['%'] l' ++ '|' :: u'))) ++ '|' :: k'.text := by
    simpa using h
  obtain ⟨h1, h2⟩ := split_right (hk _) (hk _) h'
  obtain ⟨h3, h4⟩ := split_left hi1 hj1 h1
  have h4' : (d ++ '|' :: joinS ['%'] l) ++ '|' :: u = (d' ++ '|' :: joinS ['%'] l') ++ '|' :: u' := by simpa using h4
  obtain ⟨h5, h6⟩ := split_right hi2 hj2 h4'
  obtain ⟨h7, h8⟩ := split_right (joinS_not_mem '|' _ (by decide) l (fun p hp => (hi3 p hp).1)) (joinS_not_mem '|' _ (by decide) l' (fun p hp => (hj3 p hp).1)) h5
  have h9 := labels_inj (fun p hp => (hi3 p hp).2) (fun p hp => (hj3 p hp).2) h8
  rw [text_inj _ _ h2, h3, h6, h7, h9]

/-! ## Translation is grouping -/

/-- One sample. -/
def step (d : Dict Str (Family ν)) (x : Ident × (List Str × ν)) : Dict Str (Family ν) :=
  addSample d x.1.id ⟨x.1.kind, x.1.name, x.1.description, x.1.unit, x.1.labels, []⟩ x.2.1 x.2.2

/-- An exponential histogram with data points. -/
def PMetric.unsupported (m : PMetric α ν) : Prop := familyKind m.kind = none ∧ m.points ≠ []

theorem translate_eq (env : Env α) (ms : List (PMetric α ν)) (d : Dict Str (Family ν)) (h : ∀ m ∈ ms, ¬ m.unsupported) :
    translate env d ms = some ((samplesOf env ms).foldl step d) := by
  induction ms generalizing d with
  | nil => rfl
  | cons m ms ih =>
    have hm := h m List.mem_cons_self
    have hms : ∀ m ∈ ms, ¬ m.unsupported := fun x hx => h x (List.mem_cons_of_mem _ hx)
    simp only [translate, addMetric, samplesOf, List.flatMap_cons, List.foldl_append]
    cases hk : familyKind m.kind with
    | some k =>
      simp only
      rw [ih _ hms, samplesOf, List.foldl_map]
      rfl
    | none =>
      have : m.points.isEmpty = true := by
        by_contra hc
        exact hm ⟨hk, by simpa using hc⟩
      simp only [this, if_true, List.foldl_nil]
      exact ih _ hms

theorem translate_raises (env : Env α) (ms : List (PMetric α ν)) (d : Dict Str (Family ν)) (h : ∃ m ∈ ms, m.unsupported) :
    translate env d ms = none := by
  induction ms generalizing d with
  | nil => simp at h
  | cons m ms ih =>
    simp only [translate]
    by_cases hm : m.unsupported
    · simp [addMetric, hm.1, hm.2]
    · obtain ⟨m', hm', hu⟩ := h
      rcases List.mem_cons.1 hm' with rfl | hm'
      · exact absurd hu hm
      · cases addMetric env d m with
        | none => rfl
        | some d => exact ih d ⟨m', hm', hu⟩

/-- The families are exactly the groups of the samples `l`. -/
def Groups (d : Dict Str (Family ν)) (l : List (Ident × (List Str × ν))) : Prop :=
  (d.map Prod.fst).Nodup ∧ (∀ q ∈ d, q.1 = q.2.ident.id ∧ (∃ x ∈ l, x.1 = q.2.ident)) ∧
  ∀ i : Ident, ((Dict.get? d i.id).map (·.samples)).getD [] = (l.filter (fun x => decide (x.1 = i))).map Prod.snd ∨ ¬ i.Good

theorem groups_step (d : Dict Str (Family ν)) (l : List (Ident × (List Str × ν))) (x : Ident × (List Str × ν)) (h : Groups d l)
    (hx : x.1.Good) (hl : ∀ y ∈ l, y.1.Good) : Groups (step d x) (l ++ [x]) := by
  obtain ⟨h1, h2, h3⟩ := h
  have hf : ∀ f, Dict.get? d x.1.id = some f → f.ident = x.1 := by
    intro f hf
    obtain ⟨e, y, hy, hye⟩ := h2 _ (Dict.mem_of_get? _ _ _ hf)
    exact (id_inj hx (hye ▸ hl y hy) e).symm
  refine ⟨Dict.nodup_set _ _ _ h1, ?_, ?_⟩
  · intro q hq
    rcases Otlp.set_mem _ _ _ _ hq with rfl | hq
    · simp only
      have hid : Family.ident ({ (Dict.get? d x.1.id).getD ⟨x.1.kind, x.1.name, x.1.description, x.1.unit, x.1.labels, []⟩ with
          samples := ((Dict.get? d x.1.id).getD ⟨x.1.kind, x.1.name, x.1.description, x.1.unit, x.1.labels, []⟩).samples ++ [(x.2.1, x.2.2)] } : Family ν) = x.1 := by
        cases hg : Dict.get? d x.1.id with
        | none => rfl
        | some f => exact hf f hg
      rw [hid]
      exact ⟨rfl, x, by simp, rfl⟩
    · obtain ⟨e, y, hy, hye⟩ := h2 q hq
      exact ⟨e, y, by simp [hy], hye⟩
  · intro i
    by_cases hi : i.Good
    · left
      rw [step, addSample, Dict.get?_set]
      by_cases hxi : x.1.id = i.id
      · obtain rfl := id_inj hx hi hxi
        rw [if_pos rfl]
        have := (h3 x.1).resolve_right (fun h => h hx)
        simp only [Option.map_some, Option.getD_some, List.filter_append, List.map_append, ← this]
        cases Dict.get? d x.1.id <;> simp
      · rw [if_neg hxi]
        have hne : x.1 ≠ i := fun h => hxi (by rw [h])
        simpa [hne] using (h3 i).resolve_right (fun h => h hi)
    · exact .inr hi

theorem groups_fold (l : List (Ident × (List Str × ν))) (hl : ∀ y ∈ l, y.1.Good) : Groups (l.foldl step []) l := by
  induction l using List.reverseRecOn with
  | nil => exact ⟨by simp, by simp, fun i => .inl (by simp)⟩
  | append_singleton l x ih =>
    rw [List.foldl_append]
    exact groups_step _ _ _ (ih (fun y hy => hl y (by simp [hy]))) (hl x (by simp)) (fun y hy => hl y (by simp [hy]))

theorem insertItem_perm (kv : Str × α) (l : List (Str × α)) : (insertItem kv l).Perm (kv :: l) := by
  induction l with
  | nil => exact .rfl
  | cons x l ih =>
    rw [insertItem]
    split
    · exact .rfl
    · exact (ih.cons x).trans (.swap _ _ _)

theorem sortItems_perm (d : Dict Str α) : (sortItems d).Perm d := by
  induction d with
  | nil => exact .rfl
  | cons x d ih => exact (insertItem_perm _ _).trans (ih.cons x)

theorem insertItem_sorted (kv : Str × α) (l : List (Str × α)) (h : l.Pairwise (fun a b => a.1 ≤ b.1)) : (insertItem kv l).Pairwise (fun a b => a.1 ≤ b.1) := by
  induction l with
  | nil => simp [insertItem]
  | cons x l ih =>
    rw [insertItem]
    split
    · next hle =>
      refine List.pairwise_cons.2 ⟨?_, h⟩
      intro b hb
      rcases List.mem_cons.1 hb with rfl | hb
      · exact hle
      · exact List.le_trans hle ((List.pairwise_cons.1 h).1 b hb)
    · next hle =>
      refine List.pairwise_cons.2 ⟨?_, ih (List.pairwise_cons.1 h).2⟩
      intro b hb
      rcases List.mem_cons.1 ((insertItem_perm kv l).mem_iff.1 hb) with rfl | hb
      · exact (List.le_total _ _).resolve_left hle
      · exact (List.pairwise_cons.1 h).1 b hb

theorem sortItems_sorted (d : Dict Str α) : (sortItems d).Pairwise (fun a b => a.1 ≤ b.1) := by
  induction d with
  | nil => exact .nil
  | cons x d ih => exact insertItem_sorted _ _ ih

theorem sortItems_unique (l l' : List (Str × α)) (hp : l.Perm l') (hs : l.Pairwise (fun a b => a.1 ≤ b.1)) (hs' : l'.Pairwise (fun a b => a.1 ≤ b.1))
    (hn : (l.map Prod.fst).Nodup) : l = l' := by
  induction l generalizing l' with
  | nil => exact (List.nil_perm.1 hp).symm
  | cons x l ih =>
    cases l' with
    | nil => exact absurd hp.length_eq (by simp)
    | cons y l' =>
      have hxy : x = y := by
        by_contra hne
        have hx : x ∈ l' := (List.mem_cons.1 (hp.mem_iff.1 List.mem_cons_self)).resolve_left hne
        have hy : y ∈ l := (List.mem_cons.1 (hp.mem_iff.2 List.mem_cons_self)).resolve_left (fun h => hne h.symm)
        have h1 := (List.pairwise_cons.1 hs).1 y hy
        have h2 := (List.pairwise_cons.1 hs').1 x hx
        simp only [List.map_cons, List.nodup_cons] at hn
        exact hn.1 (List.le_antisymm h1 h2 ▸ List.mem_map.2 ⟨y, hy, rfl⟩)
      subst hxy
      rw [ih l' ((List.perm_cons _).1 hp) (List.pairwise_cons.1 hs).2 (List.pairwise_cons.1 hs').2 (by simp only [List.map_cons, List.nodup_cons] at hn; exact hn.2)]

/-- Every attribute key is non-empty. -/
def KeysOk (ms : List (PMetric α ν)) : Prop := ∀ m ∈ ms, ∀ p ∈ m.points, [] ∉ p.1.map Prod.fst

theorem subRuns_eq_nil {keep : Char → Bool} (s : Str) : subRuns keep false s = [] ↔ s = [] := by
  cases s with
  | nil => simp [subRuns]
  | cons c cs => obtain ⟨r, hr⟩ := subRuns_head (keep := keep) c cs; simp [hr]

theorem lead_eq_nil (isdigit : Char → Bool) (s : Str) : lead isdigit s = [] ↔ s = [] := by
  cases s with
  | nil => simp [lead]
  | cons c cs => simp only [lead]; split <;> simp

theorem samples_good (env : Env α) (ms : List (PMetric α ν)) (hk : KeysOk ms) : ∀ y ∈ samplesOf env ms, y.1.Good := by
  intro y hy
  simp only [samplesOf, List.mem_flatMap] at hy
  obtain ⟨m, hm, hy⟩ := hy
  cases hf : familyKind m.kind with
  | none => simp [hf] at hy
  | some k =>
    simp only [hf, List.mem_map] at hy
    obtain ⟨p, hp, rfl⟩ := hy
    refine ⟨?_, ?_, ?_⟩
    · intro h
      rcases subRuns_chars _ _ _ h with h | h
      · exact absurd h (by decide)
      · exact absurd h (by decide)
    · intro h
      rcases unitChars_mapUnit _ _ h with h | h | h | h | h <;> exact absurd h (by decide)
    · intro l hl
      simp only [identOf, labelKeys, List.mem_map] at hl
      obtain ⟨kv, hkv, rfl⟩ := hl
      refine ⟨?_, ?_, ?_⟩
      · intro h
        rcases subRuns_chars _ _ _ h with h | h <;> exact absurd h (by decide)
      · intro h
        rcases subRuns_chars _ _ _ h with h | h <;> exact absurd h (by decide)
      · intro h
        rw [sanitizeAttribute, subRuns_eq_nil, lead_eq_nil] at h
        have hmem : kv ∈ p.1 := by
          exact (sortItems_perm p.1).mem_iff.1 hkv
        exact hk m hm p hp (List.mem_map.2 ⟨kv, hmem, h⟩)

/-- **C72** One collection is exposed faithfully: no two families have the same class, name, description, unit and labels; every family
contains exactly the samples of the data points that belong to it, in their order; and every data point belongs to one. -/
theorem C72_families (env : Env α) (ms : List (PMetric α ν)) (hk : KeysOk ms) (hu : ∀ m ∈ ms, ¬ m.unsupported) :
    ∃ fams : List (Family ν), collectLoop env [] [ms] = (fams, false) ∧ (fams.map Family.ident).Nodup ∧
      (∀ f ∈ fams, f.samples = ((samplesOf env ms).filter (fun x => decide (x.1 = f.ident))).map Prod.snd ∧ f.samples ≠ []) ∧
      (∀ x ∈ samplesOf env ms, ∃ f ∈ fams, f.ident = x.1) := by
  have hg := samples_good env ms hk
  obtain ⟨h1, h2, h3⟩ := groups_fold (samplesOf env ms) hg
  refine ⟨((samplesOf env ms).foldl step []).map Prod.snd, by simp [collectLoop, translate_eq env ms [] hu], ?_, ?_, ?_⟩
  · rw [List.map_map]
    have : (((samplesOf env ms).foldl step []).map (Family.ident ∘ Prod.snd)).map Ident.id = ((samplesOf env ms).foldl step []).map Prod.fst := by
      rw [List.map_map]
      apply List.map_congr_left
      intro q hq
      exact (h2 q hq).1.symm
    rw [← this] at h1
    exact List.Nodup.of_map _ h1
  · intro f hf
    obtain ⟨q, hq, rfl⟩ := List.mem_map.1 hf
    obtain ⟨e, x, hx, hxe⟩ := h2 q hq
    have hgood : q.2.ident.Good := hxe ▸ hg x hx
    have h4 := (h3 q.2.ident).resolve_right (fun h => h hgood)
    rw [← e, Dict.get?_of_mem _ h1 q.1 q.2 hq] at h4
    simp only [Option.map_some, Option.getD_some] at h4
    refine ⟨h4, ?_⟩
    rw [h4]
    intro hnil
    have : x ∈ (samplesOf env ms).filter (fun y => decide (y.1 = q.2.ident)) := List.mem_filter.2 ⟨hx, by simp [hxe]⟩
    rw [List.map_eq_nil_iff] at hnil
    rw [hnil] at this
    cases this
  · intro x hx
    have h4 := (h3 x.1).resolve_right (fun h => h (hg x hx))
    cases hget : Dict.get? ((samplesOf env ms).foldl step []) x.1.id with
    | none =>
      rw [hget] at h4
      have : x ∈ (samplesOf env ms).filter (fun y => decide (y.1 = x.1)) := List.mem_filter.2 ⟨hx, by simp⟩
      have hnil := List.map_eq_nil_iff.1 h4.symm
      rw [hnil] at this
      cases this
    | some f =>
      refine ⟨f, List.mem_map.2 ⟨_, Dict.mem_of_get? _ _ _ hget, rfl⟩, ?_⟩
      obtain ⟨e, y, hy, hye⟩ := h2 _ (Dict.mem_of_get? _ _ _ hget)
      exact (id_inj (hg x hx) (hye ▸ hg y hy) e).symm

/-- **C72** Which family a data point belongs to: gauges and non-monotonic cumulative sums to a gauge, other sums to a counter, explicit
histograms to a histogram; under the sanitised name, the description, the mapped unit and the sanitised keys of its attributes. -/
theorem C72_kinds (mono cum : Bool) : familyKind .gauge = some .gauge ∧ familyKind .histogram = some .histogram ∧
    (familyKind (.sum mono cum) = some .gauge ↔ mono = false ∧ cum = true) ∧ (familyKind (.sum mono cum) = some .counter ↔ mono = true ∨ cum = false) := by
  cases mono <;> cases cum <;> decide

/-- **C72** The labels of a sample are its attributes: the values are listed in the same order as the keys. -/
theorem C72_labels (env : Env α) (d : Dict Str α) :
    ((labelKeys env d).zip (labelValues env d)).Perm (d.map (fun kv => (sanitizeAttribute env.isdigit kv.1, env.render kv.2))) ∧
    (labelKeys env d).length = d.length ∧ (labelValues env d).length = d.length := by
  have hp : (sortItems d).Perm d := sortItems_perm d
  refine ⟨?_, by simp [labelKeys, hp.length_eq], by simp [labelValues, hp.length_eq]⟩
  rw [labelKeys, labelValues, List.zip_map']
  exact hp.map _

/-- **C72** Two data points with the same attributes, in whatever order they were given, have the same labels. -/
theorem C72_labels_order (env : Env α) (d d' : Dict Str α) (hp : d.Perm d') (hn : (d.map Prod.fst).Nodup) :
    labelKeys env d = labelKeys env d' ∧ labelValues env d = labelValues env d' := by
  have : sortItems d = sortItems d' := sortItems_unique _ _ ((sortItems_perm d).trans (hp.trans (sortItems_perm d').symm)) (sortItems_sorted d) (sortItems_sorted d')
    (((sortItems_perm d).map Prod.fst).nodup_iff.2 hn)
  simp only [labelKeys, labelValues, this, and_self]

/-- **C72** The refuted part, several collections before a scrape (`force_flush`, or a collection whose scrape failed): every family of the
first is exposed again with the second. -/
theorem C72_repeated (env : Env α) (ms ms' : List (PMetric α ν)) (hu : ∀ m ∈ ms, ¬ m.unsupported) (hu' : ∀ m ∈ ms', ¬ m.unsupported) :
    collectLoop env [] [ms, ms'] = (((samplesOf env ms).foldl step []).map Prod.snd ++ ((samplesOf env (ms ++ ms')).foldl step []).map Prod.snd, false) := by
  have : samplesOf env (ms ++ ms') = samplesOf env ms ++ samplesOf env ms' := by simp [samplesOf]
  rw [this, List.foldl_append]
  simp [collectLoop, translate_eq env ms [] hu, translate_eq env ms' _ hu']

/-- **C72** The refuted part, exponential histograms: one such metric with a data point makes every scrape raise and expose nothing. -/
theorem C72_exponential (env : Env α) (ms : List (PMetric α ν)) (d : Dict Str (Family ν)) (rest : List (List (PMetric α ν))) (h : ∃ m ∈ ms, m.unsupported) :
    collectLoop env d (ms :: rest) = ([], true) := by
  simp [collectLoop, translate_raises env ms d h]

/-- **C72** The refuted part, an empty attribute key: a data point without attributes and one with the key `""` share a family. -/
theorem C72_empty_key (isdigit : Char → Bool) (render : α → Str) (v : α) (name description unit : Str) (k : FKind) :
    familyId name description (labelKeys ⟨isdigit, render⟩ ([] : Dict Str α)) unit k =
    familyId name description (labelKeys ⟨isdigit, render⟩ [([], v)]) unit k := rfl

private def exEnv : Env Str := ⟨isDig, fun s => s⟩
private def exMetrics : List (PMetric Str Nat) :=
  [⟨"reqs".toList, "d".toList, "1".toList, .sum true true, [([("b.c".toList, "y".toList), ("a".toList, "x".toList)], 1), ([], 2)]⟩,
   ⟨"reqs".toList, "d".toList, "1".toList, .sum true true, [([("a".toList, "x".toList), ("b-c".toList, "z".toList)], 3)]⟩]

example : KeysOk exMetrics ∧ (∀ m ∈ exMetrics, ¬ m.unsupported) ∧
    (collectLoop exEnv [] [exMetrics]).1.map (fun f => (f.labels, f.samples)) =
      [(["a".toList, "b_c".toList], [(["x".toList, "y".toList], 1), (["x".toList, "z".toList], 3)]), ([], [([], 2)])] := by
  refine ⟨by unfold KeysOk; decide +kernel, ?_, by decide +kernel⟩
  have : ∀ m ∈ exMetrics, (familyKind m.kind).isSome = true := by decide +kernel
  intro m hm h
  have h2 := this m hm
  rw [h.1] at h2
  cases h2

end Prom
end Otel
