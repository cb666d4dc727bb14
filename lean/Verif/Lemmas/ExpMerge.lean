import Verif.Lemmas.ExpInsert
/-!
# Merging bucket arrays
-/
namespace Otel
namespace Metrics
namespace Exp
open Buckets

theorem count_filter_step (pos : Int → Nat) (g : Int → Int) (M : List Int) (k : Nat) (xk : Int) (h : ∀ y ∈ M, pos y = k ↔ y = xk) (z : Int) :
    ((M.filter (fun y => decide (pos y < k + 1))).map g).count z =
    ((M.filter (fun y => decide (pos y < k))).map g).count z + (if g xk = z then M.count xk else 0) := by
  induction M with
  | nil => simp
  | cons y M ih =>
    have ih := ih (fun y hy => h y (List.mem_cons_of_mem _ hy))
    have hy := h y List.mem_cons_self
    rw [List.count_cons]
    rcases lt_trichotomy (pos y) k with hc | hc | hc
    · rw [List.filter_cons_of_pos (by simp; omega), List.filter_cons_of_pos (by simpa using hc), List.map_cons, List.map_cons,
        List.count_cons, List.count_cons, ih]
      have : ¬ (y == xk) = true := by
        simp; intro e; have := hy.2 e; omega
      simp only [this]
      simp
      omega
    · rw [List.filter_cons_of_pos (by simp; omega), List.filter_cons_of_neg (by simp; omega), List.map_cons, List.count_cons, ih]
      have hyx := hy.1 hc
      subst hyx
      by_cases hz : g y = z <;> simp [hz]
      omega
    · rw [List.filter_cons_of_neg (by simp; omega), List.filter_cons_of_neg (by simp; omega), ih]
      have : ¬ (y == xk) = true := by
        simp; intro e; have := hy.2 e; omega
      simp only [this]
      simp

/-- The bucket index at position `j` of the array. -/
def indexAt (b : Buckets) (j : Nat) : Int := if b.base + j > b.stop then b.base + j - b.counts.length else b.base + j

/-- If position `j` is occupied, it is the position of the index `indexAt b j`, and of no other element. -/
theorem indexAt_spec {b : Buckets} {M : List Int} (h : b.Holds M) (j : Nat) (hj : j < b.counts.length) :
    (∀ y ∈ M, b.posOf y = j ↔ y = indexAt b j ∧ b.start ≤ indexAt b j) ∧
    (b.counts.getD j 0 ≠ 0 → b.start ≤ indexAt b j ∧ indexAt b j ≤ b.stop ∧ b.counts.getD j 0 = M.count (indexAt b j)) := by
  have h1 := h.sb; have h2 := h.bs; have h3 := h.len
  constructor
  · intro y hy
    have := h.mem y hy
    unfold posOf indexAt
    by_cases c1 : y < b.base <;> by_cases c2 : b.base + j > b.stop <;> simp only [c1, c2, if_true, if_false] <;> omega
  · intro hne
    -- the index this position stands for
    by_cases hc : b.base + j < b.start + b.counts.length
    · have hv := h.val (b.base + j) (by omega) hc
      have hp : b.posOf (b.base + j) = j := by unfold posOf; rw [if_neg (by omega)]; omega
      rw [hp] at hv
      have hin : ¬ b.stop < b.base + j := by
        intro hlt; rw [h.count_out (Or.inr hlt)] at hv; exact hne hv
      have : indexAt b j = b.base + j := by unfold indexAt; rw [if_neg (by omega)]
      rw [this]
      exact ⟨by omega, by omega, hv⟩
    · have hv := h.val (b.base + j - b.counts.length) (by omega) (by omega)
      have hp : b.posOf (b.base + j - b.counts.length) = j := by unfold posOf; rw [if_pos (by omega)]; omega
      rw [hp] at hv
      have : indexAt b j = b.base + j - b.counts.length := by unfold indexAt; rw [if_pos (by omega)]
      rw [this]
      exact ⟨by omega, by omega, hv⟩

/-- The indices of `cur`, shifted, fit together with the range of `prev`. -/
def Fits (maxSize : Nat) (prev : Buckets) (N : List Int) : Prop :=
  ∃ lo hi, lo ≤ prev.start ∧ prev.stop ≤ hi ∧ hi - lo < maxSize ∧ ∀ y ∈ N, lo ≤ y ∧ y ≤ hi

theorem mergeLoop_spec (maxSize change : Nat) {cur : Buckets} {M P : List Int} (hcur : cur.Holds M) (ns : List Nat) (k : Nat)
    (hk : ns = cur.counts.drop k) (prev : Buckets) (hs : prev.counts.length ≤ maxSize)
    (hp : prev.Holds ((M.filter (fun y => decide (cur.posOf y < k))).map (fun x => shr x change) ++ P)) :
    (Fits maxSize prev (M.map (fun x => shr x change)) → (mergeLoop maxSize change cur prev k ns).2 = true) ∧
    ((mergeLoop maxSize change cur prev k ns).2 = true →
      (mergeLoop maxSize change cur prev k ns).1.Holds (M.map (fun x => shr x change) ++ P) ∧
      (mergeLoop maxSize change cur prev k ns).1.counts.length ≤ maxSize ∧
      ((mergeLoop maxSize change cur prev k ns).1.start = prev.start ∨
        (mergeLoop maxSize change cur prev k ns).1.start ∈ M.map (fun x => shr x change)) ∧
      ((mergeLoop maxSize change cur prev k ns).1.stop = prev.stop ∨
        (mergeLoop maxSize change cur prev k ns).1.stop ∈ M.map (fun x => shr x change)) ∧
      (mergeLoop maxSize change cur prev k ns).1.start ≤ prev.start ∧ prev.stop ≤ (mergeLoop maxSize change cur prev k ns).1.stop) := by
  induction ns generalizing k prev with
  | nil =>
    have hlen : cur.counts.length ≤ k := by
      have := congrArg List.length hk; simp at this; omega
    rw [mergeLoop]
    refine ⟨fun _ => rfl, fun _ => ⟨?_, hs, Or.inl rfl, Or.inl rfl, le_rfl, le_rfl⟩⟩
    have : M.filter (fun y => decide (cur.posOf y < k)) = M := by
      rw [List.filter_eq_self]
      intro y hy
      have hm := hcur.mem y hy
      have := posOf_lt hcur hm.1 (by have := hcur.len; omega)
      simp; omega
    rw [this] at hp
    exact hp
  | cons n ns ih =>
    have hklt : k < cur.counts.length := by
      have := congrArg List.length hk; simp at this; omega
    have hn : cur.counts.getD k 0 = n := by
      rw [List.getD_eq_getElem?_getD, List.getElem?_eq_getElem hklt]
      rw [List.drop_eq_getElem_cons hklt, List.cons.injEq] at hk
      simp [hk.1]
    have hns : ns = cur.counts.drop (k + 1) := by
      rw [List.drop_eq_getElem_cons hklt, List.cons.injEq] at hk
      exact hk.2
    obtain ⟨s1, s2⟩ := indexAt_spec hcur k hklt
    rw [mergeLoop]
    by_cases hz : n = 0
    · have hone : mergeOne maxSize change cur prev k n = (prev, true) := by unfold mergeOne; rw [if_pos hz]
      rw [hone, if_pos rfl]
      refine ih (k + 1) hns prev hs (hp.perm ?_)
      intro x
      have hfil : M.filter (fun y => decide (cur.posOf y < k + 1)) = M.filter (fun y => decide (cur.posOf y < k)) := by
        apply List.filter_congr
        intro y hy
        have hne : cur.posOf y ≠ k := by
          intro e
          have hm := hcur.mem y hy
          have := hcur.val y hm.1 (by have := hcur.len; omega)
          rw [e, hn, hz] at this
          have := List.count_pos_iff.2 hy
          omega
        simp; omega
      rw [hfil]
    · obtain ⟨i1, i2, i3⟩ := s2 (by rw [hn]; exact hz)
      have hM : indexAt cur k ∈ M := by
        rw [← List.count_pos_iff, ← i3, hn]; omega
      have hci : (if cur.base + (k : Int) > cur.stop then cur.base + (k : Int) - cur.counts.length else cur.base + (k : Int)) = indexAt cur k := rfl
      have hin : shr (indexAt cur k) change ∈ M.map (fun x => shr x change) := List.mem_map_of_mem (f := fun x => shr x change) hM
      unfold mergeOne
      rw [if_neg hz]
      simp only [hci]
      by_cases g1 : shr (indexAt cur k) change < prev.start ∧ prev.stop - shr (indexAt cur k) change ≥ maxSize
      · rw [if_pos g1]
        simp only [Bool.false_eq_true, if_false]
        refine ⟨?_, fun h => by cases h⟩
        rintro ⟨lo, hi, f1, f2, f3, f4⟩
        have := f4 _ hin
        omega
      · rw [if_neg g1]
        by_cases g2 : shr (indexAt cur k) change > prev.stop ∧ shr (indexAt cur k) change - prev.start ≥ maxSize
        · rw [if_pos g2]
          simp only [Bool.false_eq_true, if_false]
          refine ⟨?_, fun h => by cases h⟩
          rintro ⟨lo, hi, f1, f2, f3, f4⟩
          have := f4 _ hin
          omega
        · rw [if_neg g2]
          have hl := hp.len; have hsb := hp.sb; have hbs := hp.bs
          obtain ⟨e1, e2, e3, e4⟩ := hp.extend (shr (indexAt cur k) change) maxSize hs
            (by by_contra hc; by_cases hlt : shr (indexAt cur k) change < prev.start
                · exact g1 ⟨hlt, by omega⟩
                · omega)
            (by by_contra hc; by_cases hlt : shr (indexAt cur k) change > prev.stop
                · exact g2 ⟨hlt, by omega⟩
                · omega)
          obtain ⟨b', a1, a2, a3, a4, a5⟩ := e1.add (shr (indexAt cur k) change) n (by rw [e3]; exact min_le_right _ _) (by rw [e4]; exact le_max_right _ _)
          rw [a1]
          simp only [if_true]
          obtain ⟨r1, r2⟩ := ih (k + 1) hns b' (by omega) (a2.perm (by
            intro x
            rw [List.count_append, List.count_append, List.count_append,
              count_filter_step cur.posOf (fun x => shr x change) M k (indexAt cur k) (fun y hy => by rw [s1 y hy]; simp [i1]) x,
              List.count_replicate, ← i3, hn]
            simp only [beq_iff_eq]
            omega))
          have hmn : b'.start = prev.start ∨ b'.start ∈ M.map (fun x => shr x change) := by
            rw [a4, e3]
            rcases min_choice prev.start (shr (indexAt cur k) change) with hm | hm
            · exact Or.inl hm
            · exact Or.inr (by rw [hm]; exact hin)
          have hmx : b'.stop = prev.stop ∨ b'.stop ∈ M.map (fun x => shr x change) := by
            rw [a5, e4]
            rcases max_choice prev.stop (shr (indexAt cur k) change) with hm | hm
            · exact Or.inl hm
            · exact Or.inr (by rw [hm]; exact hin)
          constructor
          · rintro ⟨lo, hi, f1, f2, f3, f4⟩
            have := f4 _ hin
            exact r1 ⟨lo, hi, by omega, by omega, f3, f4⟩
          · intro hok
            obtain ⟨q1, q2, q3, q4, q5, q6⟩ := r2 hok
            refine ⟨q1, q2, ?_, ?_, by omega, by omega⟩
            · rcases q3 with q3 | q3
              · rw [q3]; exact hmn
              · exact Or.inr q3
            · rcases q4 with q4 | q4
              · rw [q4]; exact hmx
              · exact Or.inr q4

/-- Merging succeeds exactly if the ranges fit together, and then adds the shifted indices. -/
theorem merge_spec (maxSize change : Nat) {prev cur : Buckets} {M P : List Int} (hcur : cur.Holds M) (hs : prev.counts.length ≤ maxSize)
    (hp : prev.Holds P) :
    ((merge maxSize change prev cur).2 = true ↔ Fits maxSize prev (M.map (fun x => shr x change))) ∧
    ((merge maxSize change prev cur).2 = true →
      (merge maxSize change prev cur).1.Holds (M.map (fun x => shr x change) ++ P) ∧
      (merge maxSize change prev cur).1.counts.length ≤ maxSize ∧
      ((merge maxSize change prev cur).1.start = prev.start ∨ (merge maxSize change prev cur).1.start ∈ M.map (fun x => shr x change)) ∧
      ((merge maxSize change prev cur).1.stop = prev.stop ∨ (merge maxSize change prev cur).1.stop ∈ M.map (fun x => shr x change))) := by
  obtain ⟨h1, h2⟩ := mergeLoop_spec maxSize change (P := P) hcur cur.counts 0 (by simp) prev hs (by
    have : M.filter (fun y => decide (cur.posOf y < 0)) = [] := by
      rw [List.filter_eq_nil_iff]; intro y _; simp
    rw [this]; exact hp)
  refine ⟨⟨?_, h1⟩, ?_⟩
  · intro hok
    obtain ⟨q1, q2, _, _, q5, q6⟩ := h2 hok
    refine ⟨_, _, q5, q6, ?_, ?_⟩
    · have := q1.len; omega
    · intro y hy; exact q1.mem y (by simp only [List.mem_append]; exact Or.inl hy)
  · intro hok
    obtain ⟨q1, q2, q3, q4, _, _⟩ := h2 hok
    exact ⟨q1, q2, q3, q4⟩

end Exp
end Metrics
end Otel
