import Verif.Lemmas.ExpMerge
import Verif.Spec.ExpHist
import Verif.Props.Histogram
/-!
# The state of an exponential histogram between collections
-/
namespace Otel
namespace Metrics
namespace Exp
open Buckets
variable {α : Type}

/-! ## Points of bucket arrays -/

theorem sum_range_count (s : Int) (n : Nat) (M : List Int) (h : ∀ x ∈ M, s ≤ x ∧ x < s + n) :
    ((List.range n).map (fun (j : Nat) => M.count (s + j))).sum = M.length := by
  induction M with
  | nil => simp [List.map_const']
  | cons y M ih =>
    have ih := ih (fun x hx => h x (List.mem_cons_of_mem _ hx))
    have hy := h y List.mem_cons_self
    rw [List.length_cons, ← ih]
    have : ∀ m : Nat, ((List.range m).map (fun (j : Nat) => (y :: M).count (s + j))).sum =
        ((List.range m).map (fun (j : Nat) => M.count (s + j))).sum + if (y - s).toNat < m then 1 else 0 := by
      intro m
      induction m with
      | zero => simp
      | succ m ihm =>
        rw [List.range_succ, List.map_append, List.map_append, List.sum_append, List.sum_append, ihm]
        simp only [List.map_cons, List.map_nil, List.sum_cons, List.sum_nil, List.count_cons, beq_iff_eq]
        by_cases c1 : (y - s).toNat < m
        · rw [if_pos c1, if_neg (by omega), if_pos (by omega)]; omega
        · by_cases c2 : (y - s).toNat = m
          · rw [if_neg c1, if_pos (by omega), if_pos (by omega)]; omega
          · rw [if_neg c1, if_neg (by omega), if_neg (by omega)]; omega
    rw [this n, if_pos (by omega)]

theorem Holds_counts {b : Buckets} {idx : Int → α → Int} {s : Int} {A : List α} (h : b.Holds (A.map (idx s))) : Counts idx s b.point A := by
  have h1 := h.sb; have h2 := h.bs; have h3 := h.len
  constructor
  · intro i
    have hcp : A.countP (fun v => idx s v == i) = (A.map (idx s)).count i := by
      rw [List.count, List.countP_map]; rfl
    rw [hcp]
    unfold BucketsPoint.at Buckets.point
    simp only
    by_cases hi : b.start ≤ i
    · rw [if_pos hi]
      by_cases hj : (i - b.start).toNat < b.counts.length
      · rw [h.offset _ hj]; congr 1; omega
      · rw [List.getD_eq_getElem?_getD, List.getElem?_eq_none (by rw [Holds.offset_length]; omega), h.count_out (Or.inr (by omega))]; rfl
    · rw [if_neg hi, h.count_out (Or.inl (by omega))]
  · show b.offsetCounts.sum = _
    rw [h.offset_eq, sum_range_count]
    · simp
    · intro x hx; have := h.mem x hx; omega

/-! ## Lists of values -/

section Vals
variable [AddCommGroup α] [LinearOrder α]

theorem positives_snoc (vs : List α) (v : α) : positives (vs ++ [v]) = if 0 < v then positives vs ++ [v] else positives vs := by
  unfold positives; rw [List.filter_append]; by_cases h : 0 < v <;> simp [h]

theorem negatives_snoc (vs : List α) (v : α) : negatives (vs ++ [v]) = if v < 0 then negatives vs ++ [-v] else negatives vs := by
  unfold negatives; rw [List.filter_append]; by_cases h : v < 0 <;> simp [h]

theorem positives_append (vs ws : List α) : positives (vs ++ ws) = positives vs ++ positives ws := by
  unfold positives; rw [List.filter_append]

theorem negatives_append (vs ws : List α) : negatives (vs ++ ws) = negatives vs ++ negatives ws := by
  unfold negatives; rw [List.filter_append, List.map_append]

theorem length_parts (vs : List α) : vs.length = vs.count 0 + (positives vs).length + (negatives vs).length := by
  induction vs with
  | nil => simp [positives, negatives]
  | cons v vs ih =>
    rw [List.length_cons, ih, List.count_cons]
    unfold positives negatives
    rcases lt_trichotomy v 0 with h | h | h
    · simp [h, not_lt_of_gt h, ne_of_lt h]; omega
    · subst h; simp; omega
    · simp [h, not_lt_of_gt h, ne_of_gt h]; omega

theorem mem_positives {vs : List α} {x : α} : x ∈ positives vs ↔ x ∈ vs ∧ 0 < x := by simp [positives]
theorem mem_negatives {vs : List α} {x : α} : x ∈ negatives vs ↔ ∃ v ∈ vs, v < 0 ∧ -v = x := by simp [negatives, and_assoc]

theorem magnitudes_ok {V : α → Prop} {vs : List α} (h : ∀ v ∈ vs, v ≠ 0 → V (mag v)) :
    (∀ x ∈ positives vs, V x) ∧ (∀ x ∈ negatives vs, V x) := by
  constructor
  · intro x hx
    rw [mem_positives] at hx
    have := h x hx.1 (ne_of_gt hx.2)
    simpa [mag, hx.2] using this
  · intro x hx
    rw [mem_negatives] at hx
    obtain ⟨v, hv, hlt, rfl⟩ := hx
    have := h v hv (ne_of_lt hlt)
    simpa [mag, not_lt_of_gt hlt] using this

end Vals

/-! ## Invariant of the current cycle -/

section Cur
variable [AddCommGroup α] [LinearOrder α]

/-- What the state says about the measurements `here` since the last collection. -/
structure Cur (idx : Int → α → Int) (s : Agg α) (here : List α) : Prop where
  inst : s.inst = .delta
  size2 : 2 ≤ s.maxSize
  low : -10 ≤ s.mapScale
  high : s.mapScale ≤ 20
  none : here = [] → s.pos = none ∧ s.neg = none ∧ s.scale = none
  some : here ≠ [] → ∃ p n, s.pos = some p ∧ s.neg = some n ∧ Side idx s.maxSize s.mapScale p (positives here) ∧
    Side idx s.maxSize s.mapScale n (negatives here) ∧
    s.scale = some (if nonzero here = [] then 0 else s.mapScale)
  sum : s.sum = here.sum
  count : s.count = here.length
  zero : s.zeroCount = here.count 0
  min : s.min = minOf true here
  max : s.max = maxOf true here

theorem nonzero_nil_iff (vs : List α) : nonzero vs = [] ↔ vs.length = vs.count 0 := by
  unfold nonzero
  rw [List.filter_eq_nil_iff, eq_comm, List.count_eq_length]
  constructor
  · intro h b hb; have := h b hb; simpa using (by simpa using this : b = 0).symm
  · intro h b hb; have := h b hb; simp [← this]

theorem nonzero_nil_parts (vs : List α) : nonzero vs = [] ↔ positives vs = [] ∧ negatives vs = [] := by
  rw [nonzero_nil_iff]
  have := length_parts vs
  constructor
  · intro h
    exact ⟨List.length_eq_zero_iff.1 (by omega), List.length_eq_zero_iff.1 (by omega)⟩
  · rintro ⟨h1, h2⟩
    rw [h1, h2] at this; simpa using this

/-- `aggregate` never raises; it records the value and lowers the scale only if values of one sign would need more than
`maxSize` buckets. -/
theorem aggregate_spec {idx : Int → α → Int} {V : α → Prop} (hco : Coherent idx V) {s : Agg α} {here : List α} (h : Cur idx s here)
    (hV : ∀ v ∈ here, v ≠ 0 → V (mag v)) (v : α) (hv : v ≠ 0 → V (mag v)) :
    ∃ s', s.aggregate idx v = some s' ∧ Cur idx s' (here ++ [v]) ∧ s'.mapScale ≤ s.mapScale ∧ s'.maxSize = s.maxSize ∧
      s'.start = s.start ∧ s'.prevStart = s.prevStart ∧ s'.prevPos = s.prevPos ∧ s'.prevNeg = s.prevNeg ∧ s'.prevMin = s.prevMin ∧
      s'.prevMax = s.prevMax ∧ s'.prevSum = s.prevSum ∧ s'.prevCount = s.prevCount ∧ s'.prevZero = s.prevZero ∧ s'.prevScale = s.prevScale ∧
      ∀ t, s'.mapScale < t → t ≤ s.mapScale →
        (∃ x ∈ positives (here ++ [v]), ∃ y ∈ positives (here ++ [v]), (s.maxSize : Int) ≤ idx t y - idx t x) ∨
        (∃ x ∈ negatives (here ++ [v]), ∃ y ∈ negatives (here ++ [v]), (s.maxSize : Int) ≤ idx t y - idx t x) := by
  have hparts : ∃ p n, s.pos.getD Buckets.new = p ∧ s.neg.getD Buckets.new = n ∧ Side idx s.maxSize s.mapScale p (positives here) ∧
      Side idx s.maxSize s.mapScale n (negatives here) := by
    by_cases hn : here = []
    · obtain ⟨h1, h2, _⟩ := h.none hn
      subst hn
      exact ⟨_, _, rfl, rfl, by rw [h1]; exact side_new idx _ h.size2 _, by rw [h2]; exact side_new idx _ h.size2 _⟩
    · obtain ⟨p, n, h1, h2, h3, h4, _⟩ := h.some hn
      exact ⟨p, n, by rw [h1]; rfl, by rw [h2]; rfl, h3, h4⟩
  obtain ⟨p, n, ep, en, hp, hn⟩ := hparts
  obtain ⟨okp, okn⟩ := magnitudes_ok hV
  unfold Agg.aggregate
  simp only [ep, en]
  by_cases hz : v = 0
  · subst hz
    rw [if_pos rfl]
    have e1 : positives (here ++ [0]) = positives here := by rw [positives_snoc, if_neg (lt_irrefl _)]
    have e2 : negatives (here ++ [0]) = negatives here := by rw [negatives_snoc, if_neg (lt_irrefl _)]
    have hcnt : (here ++ [(0 : α)]).count 0 = s.zeroCount + 1 := by rw [List.count_append, h.zero]; simp
    have hlen : (here ++ [(0 : α)]).length = s.count + 1 := by rw [List.length_append, h.count]; rfl
    have hnz : nonzero (here ++ [(0 : α)]) = [] ↔ s.count + 1 = s.zeroCount + 1 := by rw [nonzero_nil_iff, hcnt, hlen]
    refine ⟨_, rfl, ?_, ?_⟩
    · by_cases hc : s.count + 1 = s.zeroCount + 1
      · rw [if_pos hc]
        exact { inst := h.inst, size2 := h.size2, low := h.low, high := h.high, none := by simp,
                some := fun _ => ⟨p, n, rfl, rfl, by rw [e1]; exact hp, by rw [e2]; exact hn, by rw [if_pos (hnz.2 hc)]⟩,
                sum := by simp [h.sum], count := by simp [h.count], zero := hcnt.symm, min := by rw [minOf_snoc]; simp [h.min],
                max := by rw [maxOf_snoc]; simp [h.max] }
      · rw [if_neg hc]
        have hne : here ≠ [] := by
          rintro rfl
          have h1 := h.count; have h2 := h.zero; simp at h1 h2; omega
        have hnz' : ¬ nonzero here = [] := by
          rw [nonzero_nil_iff, ← h.count, ← h.zero]; omega
        obtain ⟨_, _, _, _, _, _, hsc⟩ := h.some hne
        rw [if_neg hnz'] at hsc
        exact { inst := h.inst, size2 := h.size2, low := h.low, high := h.high, none := by simp,
                some := fun _ => ⟨p, n, rfl, rfl, by rw [e1]; exact hp, by rw [e2]; exact hn, by rw [if_neg (fun e => hc (hnz.1 e))]; exact hsc⟩,
                sum := by simp [h.sum], count := by simp [h.count], zero := hcnt.symm, min := by rw [minOf_snoc]; simp [h.min],
                max := by rw [maxOf_snoc]; simp [h.max] }
    · by_cases hc : s.count + 1 = s.zeroCount + 1
      · rw [if_pos hc]
        exact ⟨le_rfl, rfl, rfl, rfl, rfl, rfl, rfl, rfl, rfl, rfl, rfl, rfl, by intro t h1 h2; simp at h1; omega⟩
      · rw [if_neg hc]
        exact ⟨le_rfl, rfl, rfl, rfl, rfl, rfl, rfl, rfl, rfl, rfl, rfl, rfl, by intro t h1 h2; simp at h1; omega⟩
  · rw [if_neg hz]
    have hnz : ¬ nonzero (here ++ [v]) = [] := by unfold nonzero; simp [hz]
    have hcnt : s.zeroCount = (here ++ [v]).count 0 := by rw [List.count_append, h.zero]; simp [hz]
    by_cases hpos : 0 < v
    · rw [if_pos hpos]
      have hVv : V v := by have := hv hz; simpa [mag, hpos] using this
      have e1 : positives (here ++ [v]) = positives here ++ [v] := by rw [positives_snoc, if_pos hpos]
      have e2 : negatives (here ++ [v]) = negatives here := by rw [negatives_snoc, if_neg (not_lt_of_gt hpos)]
      obtain ⟨p', n', sc, i1, i2, i3, i4, i5, i6⟩ := insert_spec hco h.size2 h.low h.high hp hn okp okn v hVv
      rw [i1]
      refine ⟨_, rfl, ?_, i5, rfl, rfl, rfl, rfl, rfl, rfl, rfl, rfl, rfl, rfl, rfl, ?_⟩
      · exact { inst := h.inst, size2 := h.size2, low := i4, high := le_trans i5 h.high, none := by simp,
                some := fun _ => ⟨p', n', rfl, rfl, by rw [e1]; exact i2, by rw [e2]; exact i3, by rw [if_neg hnz]⟩,
                sum := by simp [h.sum], count := by simp [h.count], zero := hcnt, min := by rw [minOf_snoc]; simp [h.min],
                max := by rw [maxOf_snoc]; simp [h.max] }
      · intro t h1 h2
        left; rw [e1]
        exact i6 t h1 h2
    · rw [if_neg hpos]
      have hneg : v < 0 := lt_of_le_of_ne (not_lt.1 hpos) hz
      have hVv : V (-v) := by have := hv hz; simpa [mag, hpos] using this
      have e1 : positives (here ++ [v]) = positives here := by rw [positives_snoc, if_neg hpos]
      have e2 : negatives (here ++ [v]) = negatives here ++ [-v] := by rw [negatives_snoc, if_pos hneg]
      obtain ⟨n', p', sc, i1, i2, i3, i4, i5, i6⟩ := insert_spec hco h.size2 h.low h.high hn hp okn okp (-v) hVv
      rw [i1]
      refine ⟨_, rfl, ?_, i5, rfl, rfl, rfl, rfl, rfl, rfl, rfl, rfl, rfl, rfl, rfl, ?_⟩
      · exact { inst := h.inst, size2 := h.size2, low := i4, high := le_trans i5 h.high, none := by simp,
                some := fun _ => ⟨p', n', rfl, rfl, by rw [e1]; exact i3, by rw [e2]; exact i2, by rw [if_neg hnz]⟩,
                sum := by simp [h.sum], count := by simp [h.count], zero := hcnt, min := by rw [minOf_snoc]; simp [h.min],
                max := by rw [maxOf_snoc]; simp [h.max] }
      · intro t h1 h2
        right; rw [e2]
        exact i6 t h1 h2

end Cur

end Exp
end Metrics
end Otel
