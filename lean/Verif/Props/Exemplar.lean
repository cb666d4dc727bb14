import Verif.Model.Exemplar
import Verif.Spec.Metrics
import Verif.Props.Histogram
import Mathlib.Data.List.Perm.Subperm
import Mathlib.Data.List.Nodup
import Mathlib.Data.List.Range
/-!
# C39, C40: exemplars
-/
namespace Otel
namespace Exemplar
open Metrics
open scoped List
variable {α : Type}

/-- The exemplar that describes an offered measurement, on a data point with the given attributes. -/
def exemplarOf (point : MAttrs) (o : Offer α) : Ex α :=
  ⟨filtered point o.attrs, o.value, o.time, o.span.map Prod.fst, o.span.map Prod.snd⟩

/-- An exemplar describes an offered measurement up to the ids. -/
def SameMeasurement (point : MAttrs) (e : Ex α) (o : Offer α) : Prop :=
  e.value = o.value ∧ e.time = o.time ∧ e.attrs = filtered point o.attrs

/-- The measurements offered since the last collection. -/
def since (ops : List (Op α)) : List (Offer α) :=
  ops.foldl (fun acc op => match op with | .offer o _ => acc ++ [o] | .collect _ => []) []

/-- The state of a simple reservoir after a history. -/
def afterSimple [Zero α] (size : Nat) (ops : List (Op α)) : Res α := ops.foldl (stepSimple size) .new

/-- The state of an aligned reservoir after a history. -/
def afterAligned [Zero α] [LinearOrder α] (bounds : List α) (ops : List (Op α)) : Res α := ops.foldl (stepAligned bounds) .new

/-- **C39** The attributes of an exemplar are the measurement's attributes that the data point does not have. -/
theorem C39_attributes (point : MAttrs) (a : MAttrs) (kv : Str × MVal) (l : MAttrs) (h : filtered point (some a) = some l) :
    kv ∈ l ↔ kv ∈ a ∧ kv.1 ∉ point.map Prod.fst := by
  cases a with
  | nil => simp [filtered] at h
  | cons x a =>
    simp only [filtered, Option.some.injEq] at h
    subst h
    rw [List.mem_filter]
    simp

/-! ## Invariant of the simple reservoir -/

/-- A bucket holds offer `o`; the ids are `o`'s if it has a span. -/
def Holds (b : Bucket α) (o : Offer α) : Prop :=
  b.value = o.value ∧ b.time = o.time ∧ b.attrs = o.attrs ∧
    (o.span.isSome → b.spanId = o.span.map Prod.fst ∧ b.traceId = o.span.map Prod.snd)

/-- State and offers of the interval: where each offered bucket's content comes from. -/
structure Inv (size : Nat) (s : Res α) (cur : List (Offer α)) (pos : Nat → Option Nat) : Prop where
  seen : s.seen = cur.length
  filled : ∀ k p, pos k = some p → ∃ h : p < cur.length, (s.bucket k).offered = true ∧ Holds (s.bucket k) cur[p]
  vacant : ∀ k, pos k = none → (s.bucket k).offered = false ∧ (s.bucket k).spanId = none ∧ (s.bucket k).traceId = none
  inj : ∀ k k' p, pos k = some p → pos k' = some p → k = k'
  small : ∀ k, (pos k).isSome → k < size ∧ k < s.bound
  fill : ∀ k, k < cur.length → k + 1 < size → (pos k).isSome
  exact : cur.length < size → ∀ k, k < cur.length → pos k = some k
  exact' : cur.length < size → ∀ k, cur.length ≤ k → pos k = none
  ids : cur.length < size → ∀ k (h : k < cur.length), (s.bucket k).spanId = cur[k].span.map Prod.fst ∧
    (s.bucket k).traceId = cur[k].span.map Prod.snd
  one : size = 1 → 0 < cur.length → (pos 0).isSome

theorem holds_offer (b : Bucket α) (o : Offer α) : Holds (b.offer o) o ∧ (b.offer o).offered = true := by
  unfold Holds Bucket.offer
  cases h : o.span <;> simp [h]

theorem inv_put (size : Nat) (s : Res α) (cur : List (Offer α)) (pos : Nat → Option Nat) (h : Inv size s cur pos) (i : Nat) (o : Offer α)
    (hi : i < size) (h1 : cur.length + 1 < size → i = cur.length)
    (h2 : i = cur.length ∨ size ≤ cur.length + 1) (h3 : size = 1 → i = 0) :
    Inv size ({ s with seen := s.seen + 1 }.put i o) (cur ++ [o]) (Function.update pos i (some cur.length)) := by
  have hold : ∀ k p, k ≠ i → pos k = some p → ∃ h : p < (cur ++ [o]).length,
      (s.bucket k).offered = true ∧ Holds (s.bucket k) (cur ++ [o])[p] := by
    intro k p _ hp
    obtain ⟨hlt, ho, hh⟩ := h.filled k p hp
    refine ⟨by rw [List.length_append]; omega, ho, ?_⟩
    rw [List.getElem_append_left hlt]; exact hh
  constructor
  · simp [Res.put, h.seen]
  · intro k p hp
    by_cases hk : k = i
    · subst hk
      simp only [Function.update_self, Option.some.injEq] at hp
      subst hp
      refine ⟨by simp, ?_⟩
      simp only [Res.put, Function.update_self]
      have := holds_offer (s.bucket k) o
      refine ⟨this.2, ?_⟩
      simpa using this.1
    · rw [Function.update_of_ne hk] at hp
      obtain ⟨hlt, ho⟩ := hold k p hk hp
      refine ⟨hlt, ?_⟩
      simp only [Res.put, Function.update_of_ne hk]
      exact ho
  · intro k hk
    by_cases hki : k = i
    · subst hki; simp at hk
    · rw [Function.update_of_ne hki] at hk
      simp only [Res.put, Function.update_of_ne hki]
      exact h.vacant k hk
  · intro k k' p hp hp'
    by_cases hk : k = i <;> by_cases hk' : k' = i
    · omega
    · subst hk
      rw [Function.update_of_ne hk'] at hp'
      simp only [Function.update_self, Option.some.injEq] at hp
      obtain ⟨hlt, _⟩ := h.filled k' p hp'
      omega
    · subst hk'
      rw [Function.update_of_ne hk] at hp
      simp only [Function.update_self, Option.some.injEq] at hp'
      obtain ⟨hlt, _⟩ := h.filled k p hp
      omega
    · rw [Function.update_of_ne hk] at hp
      rw [Function.update_of_ne hk'] at hp'
      exact h.inj k k' p hp hp'
  · intro k hk
    by_cases hki : k = i
    · subst hki
      refine ⟨hi, ?_⟩
      simp only [Res.put]
      omega
    · rw [Function.update_of_ne hki] at hk
      have := h.small k hk
      refine ⟨this.1, ?_⟩
      simp only [Res.put]
      omega
  · intro k hk hs
    by_cases hki : k = i
    · subst hki; simp
    · rw [Function.update_of_ne hki]
      apply h.fill k _ hs
      rw [List.length_append, List.length_singleton] at hk
      by_contra hc
      have hkl : k = cur.length := by omega
      exact hki (by rw [hkl]; exact (h1 (by omega)).symm)
  · intro hlt k hk
    rw [List.length_append, List.length_singleton] at hlt hk
    have hii := h1 hlt
    by_cases hki : k = i
    · subst hki; simp [hii]
    · rw [Function.update_of_ne hki]
      exact h.exact (by omega) k (by omega)
  · intro hlt k hk
    rw [List.length_append, List.length_singleton] at hlt hk
    have hii := h1 hlt
    rw [Function.update_of_ne (by omega)]
    exact h.exact' (by omega) k (by omega)
  · intro hlt k hk
    have hlt' : cur.length + 1 < size := by simpa using hlt
    have hk' : k < cur.length + 1 := by simpa using hk
    have hii := h1 hlt'
    by_cases hki : k = i
    · have hb := h.vacant i (h.exact' (by omega) i (by omega))
      subst hki
      simp only [Res.put, Function.update_self]
      subst hii
      simp only [List.getElem_concat_length]
      unfold Bucket.offer
      cases hsp : o.span with
      | none => exact hb.2
      | some x => exact ⟨rfl, rfl⟩
    · simp only [Res.put, Function.update_of_ne hki]
      rw [List.getElem_append_left (by omega)]
      exact h.ids (by omega) k (by omega)
  · intro hs _
    rw [h3 hs]
    simp

/-- Dropping an offer when the reservoir is full keeps the invariant, provided the simple facts. -/
theorem inv_skip (size : Nat) (s : Res α) (cur : List (Offer α)) (pos : Nat → Option Nat) (h : Inv size s cur pos) (o : Offer α)
    (hs : size ≤ cur.length) : Inv size { s with seen := s.seen + 1 } (cur ++ [o]) pos := by
  constructor
  · simp [h.seen]
  · intro k p hp
    obtain ⟨hlt, ho, hh⟩ := h.filled k p hp
    refine ⟨by rw [List.length_append]; omega, ho, ?_⟩
    rw [List.getElem_append_left hlt]; exact hh
  · exact h.vacant
  · exact h.inj
  · exact h.small
  · intro k _ hk
    exact h.fill k (by omega) hk
  · intro hlt; rw [List.length_append, List.length_singleton] at hlt; omega
  · intro hlt; rw [List.length_append, List.length_singleton] at hlt; omega
  · intro hlt; simp at hlt; omega
  · intro h1 _
    exact h.one h1 (by omega)

theorem inv_offer (size : Nat) (hsize : 0 < size) (s : Res α) (cur : List (Offer α)) (pos : Nat → Option Nat) (h : Inv size s cur pos)
    (o : Offer α) (r : Nat) : ∃ pos', Inv size (s.offerSimple size o r) (cur ++ [o]) pos' := by
  unfold Res.offerSimple
  simp only
  split
  · rename_i hlt
    rw [h.seen] at hlt
    have := inv_put size s cur pos h cur.length o (by omega) (fun _ => rfl) (.inl rfl) (by omega)
    rw [h.seen] at this ⊢
    exact ⟨_, this⟩
  · rename_i hlt
    rw [h.seen] at hlt
    split
    · rename_i hidx
      rw [h.seen] at hidx ⊢
      have := inv_put size s cur pos h (r % (cur.length + 1)) o hidx (by omega) (.inr (by omega)) (by omega)
      rw [h.seen] at this
      exact ⟨_, this⟩
    · rename_i hidx
      rw [h.seen] at hidx
      have : r % (cur.length + 1) < cur.length + 1 := Nat.mod_lt _ (by omega)
      exact ⟨pos, inv_skip size s cur pos h o (by omega)⟩

theorem inv_collect [Zero α] (size : Nat) (s : Res α) (cur : List (Offer α)) (pos : Nat → Option Nat) (h : Inv size s cur pos)
    (point : MAttrs) : Inv size (s.collect point).2 [] (fun _ => none) := by
  have hreset : ∀ k, ((s.bucket k).collect point).2.offered = false ∧ ((s.bucket k).collect point).2.spanId = none ∧
      ((s.bucket k).collect point).2.traceId = none := by
    intro k
    unfold Bucket.collect
    split
    · exact ⟨rfl, rfl, rfl⟩
    · rename_i ho
      cases hp : pos k with
      | none => exact h.vacant k hp
      | some p => obtain ⟨_, ho', _⟩ := h.filled k p hp; exact absurd ho' ho
  constructor
  · rfl
  · intro k p hp; simp at hp
  · intro k _; exact hreset k
  · intro k k' p hp; simp at hp
  · intro k hk; simp at hk
  · intro k hk; simp at hk
  · intro _ k hk; simp at hk
  · intro _ k _; rfl
  · intro _ k hk; simp at hk
  · intro _ hk; simp at hk

theorem inv_after [Zero α] (size : Nat) (hsize : 0 < size) (ops : List (Op α)) :
    ∃ pos, Inv size (afterSimple size ops) (since ops) pos := by
  suffices h : ∀ (s : Res α) (cur : List (Offer α)) pos, Inv size s cur pos →
      ∃ pos', Inv size (ops.foldl (stepSimple size) s)
        (ops.foldl (fun acc op => match op with | .offer o _ => acc ++ [o] | .collect _ => []) cur) pos' by
    refine h .new [] (fun _ => none) ?_
    constructor <;> simp [Res.new, Bucket.empty]
  induction ops with
  | nil => intro s cur pos h; exact ⟨pos, h⟩
  | cons op ops ih =>
    intro s cur pos h
    cases op with
    | offer o r =>
      obtain ⟨pos', h'⟩ := inv_offer size hsize s cur pos h o r
      exact ih _ _ pos' h'
    | collect point => exact ih _ _ _ (inv_collect size s cur pos h point)

/-- What is collected, by buckets. -/
theorem collected_eq [Zero α] (size : Nat) (s : Res α) (cur : List (Offer α)) (pos : Nat → Option Nat) (h : Inv size s cur pos)
    (point : MAttrs) : (s.collect point).1 =
      ((List.range s.bound).filter (fun k => (pos k).isSome)).map (fun k =>
        ⟨filtered point (s.bucket k).attrs, (s.bucket k).value, (s.bucket k).time, (s.bucket k).spanId, (s.bucket k).traceId⟩) := by
  simp only [Res.collect]
  generalize List.range s.bound = l
  induction l with
  | nil => rfl
  | cons k l ih =>
    cases hp : pos k with
    | none =>
      have ho := (h.vacant k hp).1
      rw [List.filterMap_cons, List.filter_cons]
      simp only [Bucket.collect, ho, hp, Option.isSome_none, Bool.false_eq_true, if_false]
      exact ih
    | some p =>
      obtain ⟨_, ho, _⟩ := h.filled k p hp
      rw [List.filterMap_cons, List.filter_cons]
      simp only [Bucket.collect, ho, hp, Option.isSome_some, if_true, List.map_cons]
      exact congrArg _ ih

/-- The buckets with content. -/
def full (s : Res α) (pos : Nat → Option Nat) : List Nat := (List.range s.bound).filter (fun k => (pos k).isSome)

theorem full_nodup (s : Res α) (pos : Nat → Option Nat) : (full s pos).Nodup := List.Nodup.filter _ List.nodup_range

theorem full_sources (size : Nat) (s : Res α) (cur : List (Offer α)) (pos : Nat → Option Nat) (h : Inv size s cur pos) :
    ((full s pos).map (fun k => (pos k).getD 0)) <+~ List.range cur.length := by
  apply List.Nodup.subperm
  · rw [List.nodup_map_iff_inj_on (full_nodup s pos)]
    intro k hk k' hk' he
    simp only [full, List.mem_filter] at hk hk'
    obtain ⟨p, hp⟩ := Option.isSome_iff_exists.1 hk.2
    obtain ⟨p', hp'⟩ := Option.isSome_iff_exists.1 hk'.2
    rw [hp, hp'] at he
    simp only [Option.getD_some] at he
    subst he
    exact h.inj k k' p hp hp'
  · intro p hp
    simp only [full, List.mem_map, List.mem_filter] at hp
    obtain ⟨k, ⟨_, hk⟩, rfl⟩ := hp
    obtain ⟨p, hp⟩ := Option.isSome_iff_exists.1 hk
    obtain ⟨hlt, _⟩ := h.filled k p hp
    rw [hp]
    simpa using hlt

theorem map_getD_subperm (l : List (Offer α)) (d : Offer α) (is : List Nat) (h : is <+~ List.range l.length) :
    is.map (fun i => l.getD i d) <+~ l := by
  obtain ⟨w, hp, hs⟩ := h
  have hl : (List.range l.length).map (fun i => l.getD i d) = l := by
    apply List.ext_getElem
    · simp
    · intro n h1 h2; simp [List.getD_eq_getElem?_getD, h2]
  refine ⟨w.map (fun i => l.getD i d), hp.map _, ?_⟩
  conv_rhs => rw [← hl]
  exact hs.map _

/-- **C39 (partial)** Whatever was offered and collected before and whatever the random choices were, the exemplars of a collection correspond, in
some order and without repetition, to measurements offered since the previous collection: value, timestamp and filtered attributes are
those of the measurement, and if it was made in a span also the ids. *Missing*: the ids of measurements made outside a span, for which the
statement is false (`C39_stale_ids`); with the default filter there are none (`C39_trace_based`). -/
theorem C39_from_offers_partial [Zero α] (size : Nat) (hsize : 0 < size) (ops : List (Op α)) (point : MAttrs) :
    ∃ l, l <+~ since ops ∧
      List.Forall₂ (fun e o => SameMeasurement point e o ∧ (o.span.isSome → e = exemplarOf point o))
        ((afterSimple size ops).collect point).1 l := by
  obtain ⟨pos, h⟩ := inv_after size hsize ops
  generalize afterSimple size ops = s at h ⊢
  generalize since ops = cur at h ⊢
  rw [collected_eq size s cur pos h]
  have d : Offer α := ⟨0, 0, none, none⟩
  refine ⟨(full s pos).map (fun k => cur.getD ((pos k).getD 0) d), ?_, ?_⟩
  · have := map_getD_subperm cur d _ (full_sources size s cur pos h)
    rw [List.map_map] at this
    exact this
  · rw [List.forall₂_map_left_iff, List.forall₂_map_right_iff]
    change List.Forall₂ _ (full s pos) (full s pos)
    rw [List.forall₂_same]
    intro k hk
    obtain ⟨p, hp⟩ := Option.isSome_iff_exists.1 (List.mem_filter.1 hk).2
    obtain ⟨hlt, _, hv, ht, ha, hi⟩ := h.filled k p hp
    have hg : cur.getD ((pos k).getD 0) d = cur[p] := by simp [hp, List.getD_eq_getElem?_getD, hlt]
    rw [hg]
    refine ⟨⟨hv, ht, by rw [ha]⟩, ?_⟩
    intro hs
    simp [exemplarOf, hv, ht, ha, hi hs]

/-- **C39** With the trace-based filter, which is the default, every offered measurement was made in a span, so the exemplars are exactly
those of distinct measurements of the interval: value, timestamp, attributes and ids belong together. -/
theorem C39_trace_based [Zero α] (size : Nat) (hsize : 0 < size) (ops : List (Op α)) (point : MAttrs)
    (hf : ∀ o ∈ since ops, o.span.isSome) :
    ∃ l, l <+~ since ops ∧ ((afterSimple size ops).collect point).1 = l.map (exemplarOf point) := by
  obtain ⟨l, hl, h⟩ := C39_from_offers_partial size hsize ops point
  refine ⟨l, hl, ?_⟩
  have hs : ∀ o ∈ l, o.span.isSome := fun o ho => hf o (hl.subset ho)
  clear hl
  generalize ((afterSimple size ops).collect point).1 = es at h ⊢
  induction h with
  | nil => rfl
  | cons hab _ ih =>
    rw [List.map_cons, hab.2 (hs _ (by simp)), ih (fun o ho => hs o (List.mem_cons_of_mem _ ho))]

/-- **C39** The trace-based filter offers exactly the measurements made in a sampled span. -/
theorem C39_filter (o : Offer α) (sampled : Bool) (r : Nat) :
    Filter.offers .traceBased o sampled r = if o.span.isSome ∧ sampled = true then [.offer o r] else [] := by
  unfold Filter.offers
  cases hsp : o.span with
  | none => simp [Filter.sample]
  | some x => cases sampled <;> rfl

/-- **C39** The other filters offer every measurement, or none. -/
theorem C39_filter_on_off (o : Offer α) (sampled : Bool) (r : Nat) :
    Filter.offers .alwaysOn o sampled r = [.offer o r] ∧ Filter.offers .alwaysOff o sampled r = [] := ⟨rfl, rfl⟩

/-- **C39** (refutation for the always-on filter) A measurement made outside any span replaces one made in a span: the exemplar has the
value of the second and the ids of the first. -/
theorem C39_stale_ids :
    ((afterSimple 1 [.offer (⟨5, 10, none, some (7, 8)⟩ : Offer Int) 0, .offer ⟨6, 11, none, none⟩ 0]).collect []).1 =
      [⟨none, 6, 11, some 7, some 8⟩] := by decide

/-- **C39** (refutation under concurrency) Two threads offering to one bucket at the same time: the exemplar has the value of one and the
time and ids of the other. -/
theorem C39_torn :
    let o : Offer Int := ⟨5, 10, none, some (7, 8)⟩
    let p : Offer Int := ⟨6, 11, none, some (70, 80)⟩
    ((interleave o p (writes o) (writes p)
        [false, true, true, false, false, false, false, true, true, true, true, false] .empty).collect []).1 =
      some ⟨none, 6, 10, some 70, some 80⟩ := by decide

/-- A single offer done without interruption is what the reservoir model uses. -/
theorem interleave_alone (o p : Offer α) (b : Bucket α) :
    interleave o p (writes o) [] (List.replicate (writes o).length false) b = b.offer o := by
  cases hs : o.span with
  | none => simp [writes, hs, interleave, List.replicate, Bucket.write, Bucket.offer]
  | some x => simp [writes, hs, interleave, List.replicate, Bucket.write, Bucket.offer]

/-! ## C40: how many -/

/-- **C39** At most `size` exemplars. -/
theorem C39_at_most [Zero α] (size : Nat) (hsize : 0 < size) (ops : List (Op α)) (point : MAttrs) :
    ((afterSimple size ops).collect point).1.length ≤ size := by
  obtain ⟨pos, h⟩ := inv_after size hsize ops
  rw [collected_eq size _ _ pos h, List.length_map]
  have : full (afterSimple size ops) pos <+~ List.range size := by
    apply List.Nodup.subperm (full_nodup _ _)
    intro k hk
    have := (h.small k (List.mem_filter.1 hk).2).1
    simpa using this
  simpa [full] using this.length_le

/-- **C40** Fewer offers than the size: all of them, in order, each with its own ids. -/
theorem C40_all_while_small [Zero α] (size : Nat) (ops : List (Op α)) (point : MAttrs) (h : (since ops).length < size) :
    ((afterSimple size ops).collect point).1 = (since ops).map (exemplarOf point) := by
  obtain ⟨pos, hi⟩ := inv_after size (by omega) ops
  rw [collected_eq size _ _ pos hi]
  generalize afterSimple size ops = s at hi ⊢
  generalize since ops = cur at hi h ⊢
  have hb : cur.length ≤ s.bound := by
    by_contra hc
    have h1 := hi.exact h (cur.length - 1) (by omega)
    have := (hi.small (cur.length - 1) (by rw [h1]; rfl)).2
    omega
  have hfull : (List.range s.bound).filter (fun k => (pos k).isSome) = List.range cur.length := by
    obtain ⟨m, hm⟩ := Nat.exists_eq_add_of_le hb
    rw [hm, List.range_add, List.filter_append]
    have e1 : (List.range cur.length).filter (fun k => (pos k).isSome) = List.range cur.length := by
      rw [List.filter_eq_self]
      intro k hk
      rw [hi.exact h k (by simpa using hk)]
      rfl
    have e2 : ((List.range m).map (cur.length + ·)).filter (fun k => (pos k).isSome) = [] := by
      rw [List.filter_eq_nil_iff]
      intro k hk
      simp only [List.mem_map] at hk
      obtain ⟨j, _, rfl⟩ := hk
      rw [hi.exact' h _ (by omega)]
      simp
    rw [e1, e2, List.append_nil]
  rw [hfull]
  apply List.ext_getElem
  · simp
  · intro k h1 h2
    have hk : k < cur.length := by simpa using h1
    obtain ⟨_, _, hv, ht, ha, _⟩ := hi.filled k k (hi.exact h k hk)
    have := hi.ids h k hk
    simp [exemplarOf, hv, ht, ha, this.1, this.2]

/-- **C40 (partial)** With at least `size` offers the reservoir returns `size` or `size - 1` exemplars, and at least one. *Missing*: exactly
`size`, which is false (`C40_not_filled`). -/
theorem C40_count_partial [Zero α] (size : Nat) (hsize : 0 < size) (ops : List (Op α)) (point : MAttrs) (h : size ≤ (since ops).length) :
    size - 1 ≤ ((afterSimple size ops).collect point).1.length ∧ 0 < ((afterSimple size ops).collect point).1.length ∧
      ((afterSimple size ops).collect point).1.length ≤ size := by
  refine ⟨?_, ?_, C39_at_most size hsize ops point⟩
  · obtain ⟨pos, hi⟩ := inv_after size hsize ops
    rw [collected_eq size _ _ pos hi, List.length_map]
    have : List.range (size - 1) <+~ full (afterSimple size ops) pos := by
      apply List.Nodup.subperm List.nodup_range
      intro k hk
      have hk' : k < size - 1 := by simpa using hk
      have := hi.fill k (by omega) (by omega)
      simp only [full, List.mem_filter, List.mem_range]
      exact ⟨(hi.small k this).2, this⟩
    simpa [full] using this.length_le
  · obtain ⟨pos, hi⟩ := inv_after size hsize ops
    rw [collected_eq size _ _ pos hi, List.length_map, List.length_pos_iff_exists_mem]
    have h0 : (pos 0).isSome := by
      by_cases h1 : size = 1
      · exact hi.one h1 (by omega)
      · exact hi.fill 0 (by omega) (by omega)
    exact ⟨0, by simp only [List.mem_filter, List.mem_range]; exact ⟨(hi.small 0 h0).2, h0⟩⟩

/-- **C40** (refutation) Two measurements, room for two, and the random choice 0: only the second is kept. -/
theorem C40_not_filled :
    ((afterSimple 2 [.offer (⟨5, 10, none, none⟩ : Offer Int) 0, .offer ⟨6, 11, none, none⟩ 0]).collect []).1 =
      [⟨none, 6, 11, none, none⟩] := by decide

/-! ## The aligned reservoir -/

theorem alignedIndex_le [LinearOrder α] (v : α) (bounds : List α) : alignedIndex v bounds ≤ bounds.length := by
  induction bounds with
  | nil => simp [alignedIndex]
  | cons b l ih => simp only [alignedIndex]; split <;> simp; omega

theorem alignedIndex_spec [LinearOrder α] (v : α) (bounds : List α) :
    (∀ j y, j < alignedIndex v bounds → bounds[j]? = some y → y < v) ∧
    (∀ y, bounds[alignedIndex v bounds]? = some y → v ≤ y) := by
  induction bounds with
  | nil => simp [alignedIndex]
  | cons b l ih =>
    simp only [alignedIndex]
    split
    · rename_i hb
      refine ⟨by intro j y hj; omega, ?_⟩
      intro y hy
      simp only [List.getElem?_cons_zero, Option.some.injEq] at hy
      rw [← hy]; exact hb
    · rename_i hb
      refine ⟨?_, ?_⟩
      · intro j y hj hy
        cases j with
        | zero => simp only [List.getElem?_cons_zero, Option.some.injEq] at hy; rw [← hy]; exact lt_of_not_ge hb
        | succ j => exact ih.1 j y (by omega) (by simpa using hy)
      · intro y hy; exact ih.2 y (by simpa using hy)

/-- **C39** An offer goes to the bucket in which the histogram counts the value. -/
theorem C39_aligned_bucket [LinearOrder α] (bounds : List α) (v : α) :
    inBucket bounds (alignedIndex v bounds) v ∧ alignedIndex v bounds ≤ bounds.length := by
  refine ⟨⟨?_, ?_⟩, alignedIndex_le v bounds⟩
  · intro b h0 hb; exact (alignedIndex_spec v bounds).1 _ b (by omega) hb
  · intro b hb; exact (alignedIndex_spec v bounds).2 b hb

/-- The last offer that belongs to bucket `k`. -/
def lastIn [LinearOrder α] (bounds : List α) (k : Nat) (l : List (Offer α)) : Option (Offer α) :=
  (l.filter (fun o => alignedIndex o.value bounds == k)).getLast?

/-- State of an aligned reservoir. -/
structure AInv [LinearOrder α] (bounds : List α) (s : Res α) (cur : List (Offer α)) : Prop where
  filled : ∀ k o, lastIn bounds k cur = some o → (s.bucket k).offered = true ∧ Holds (s.bucket k) o ∧ k < s.bound
  vacant : ∀ k, lastIn bounds k cur = none → (s.bucket k).offered = false
  bound : s.bound ≤ bounds.length + 1

theorem lastIn_append [LinearOrder α] (bounds : List α) (k : Nat) (l : List (Offer α)) (o : Offer α) :
    lastIn bounds k (l ++ [o]) = if alignedIndex o.value bounds = k then some o else lastIn bounds k l := by
  unfold lastIn
  rw [List.filter_append]
  split
  · rename_i h; simp [h]
  · rename_i h; simp [h]

theorem ainv_after [Zero α] [LinearOrder α] (bounds : List α) (ops : List (Op α)) : AInv bounds (afterAligned bounds ops) (since ops) := by
  suffices h : ∀ (s : Res α) (cur : List (Offer α)), AInv bounds s cur →
      AInv bounds (ops.foldl (stepAligned bounds) s)
        (ops.foldl (fun acc op => match op with | .offer o _ => acc ++ [o] | .collect _ => []) cur) by
    refine h .new [] ⟨?_, ?_, ?_⟩ <;> simp [lastIn, Res.new, Bucket.empty]
  induction ops with
  | nil => intro s cur h; exact h
  | cons op ops ih =>
    intro s cur h
    apply ih
    cases op with
    | offer o r =>
      refine ⟨?_, ?_, ?_⟩
      · intro k o' ho'
        rw [lastIn_append] at ho'
        simp only [stepAligned, Res.offerAligned, Res.put]
        split at ho'
        · rename_i hk
          injection ho' with ho'
          subst ho'
          rw [hk, Function.update_self]
          have := holds_offer (s.bucket k) o
          exact ⟨this.2, this.1, by omega⟩
        · rename_i hk
          rw [Function.update_of_ne (Ne.symm hk)]
          have := h.filled k o' ho'
          exact ⟨this.1, this.2.1, by omega⟩
      · intro k hk
        rw [lastIn_append] at hk
        simp only [stepAligned, Res.offerAligned, Res.put]
        split at hk
        · simp at hk
        · rename_i hne
          rw [Function.update_of_ne (Ne.symm hne)]
          exact h.vacant k hk
      · simp only [stepAligned, Res.offerAligned, Res.put]
        have := alignedIndex_le o.value bounds
        have := h.bound
        omega
    | collect point =>
      refine ⟨by simp [lastIn], ?_, h.bound⟩
      intro k _
      simp only [stepAligned, Res.collect, Bucket.collect]
      split
      · rfl
      · rename_i ho; simpa using ho

/-- **C39** The aligned reservoir returns, bucket by bucket, the last measurement offered in it since the previous collection (up to the
ids if that was made outside a span). -/
theorem C39_aligned [Zero α] [LinearOrder α] (bounds : List α) (ops : List (Op α)) (point : MAttrs) :
    List.Forall₂ (fun e o => SameMeasurement point e o ∧ (o.span.isSome → e = exemplarOf point o))
      ((afterAligned bounds ops).collect point).1
      ((List.range (bounds.length + 1)).filterMap (fun k => lastIn bounds k (since ops))) := by
  have h := ainv_after bounds ops
  generalize afterAligned bounds ops = s at h ⊢
  generalize since ops = cur at h ⊢
  obtain ⟨m, hm⟩ := Nat.exists_eq_add_of_le h.bound
  have hrest : (List.range (bounds.length + 1)).filterMap (fun k => lastIn bounds k cur) =
      (List.range s.bound).filterMap (fun k => lastIn bounds k cur) := by
    rw [hm, List.range_add, List.filterMap_append]
    have : ((List.range m).map (s.bound + ·)).filterMap (fun k => lastIn bounds k cur) = [] := by
      rw [List.filterMap_eq_nil_iff]
      intro k hk
      simp only [List.mem_map] at hk
      obtain ⟨j, _, rfl⟩ := hk
      cases hl : lastIn bounds (s.bound + j) cur with
      | none => rfl
      | some o => have := (h.filled _ o hl).2.2; omega
    rw [this, List.append_nil]
  rw [hrest]
  simp only [Res.collect]
  generalize List.range s.bound = l
  induction l with
  | nil => exact .nil
  | cons k l ih =>
    rw [List.filterMap_cons, List.filterMap_cons]
    cases hl : lastIn bounds k cur with
    | none =>
      have ho := h.vacant k hl
      simp only [Bucket.collect, ho, Bool.false_eq_true, if_false]
      exact ih
    | some o =>
      obtain ⟨ho, ⟨hv, ht, ha, hi⟩, _⟩ := h.filled k o hl
      simp only [Bucket.collect, ho, if_true]
      refine .cons ⟨⟨hv, ht, by rw [ha]⟩, ?_⟩ ih
      intro hs
      simp [exemplarOf, hv, ht, ha, hi hs]

example : ((afterAligned [10, 20] [.offer (⟨5, 1, none, some (1, 2)⟩ : Offer Int) 0, .offer ⟨10, 2, none, some (3, 4)⟩ 0,
    .offer ⟨25, 3, some [(['k'], .atom (.int 1)), (['l'], .atom (.int 2))], some (5, 6)⟩ 0]).collect [(['k'], .atom (.int 1))]).1 =
    [⟨none, 10, 2, some 3, some 4⟩, ⟨some [(['l'], .atom (.int 2))], 25, 3, some 5, some 6⟩] := by decide

end Exemplar
end Otel
