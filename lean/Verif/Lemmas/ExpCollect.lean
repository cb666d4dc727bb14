import Verif.Lemmas.ExpAgg
/-!
# Cumulative collection of an exponential histogram
-/
namespace Otel
namespace Metrics
namespace Exp
open Buckets
variable {α : Type}

/-- The previous buckets of one sign represent the magnitudes `A` at scale `s`. -/
structure PSide (idx : Int → α → Int) (maxSize : Nat) (s : Int) (b : Buckets) (A : List α) : Prop where
  holds : b.Holds (A.map (idx s))
  size : b.counts.length ≤ maxSize
  empty : A = [] → b = Buckets.new
  startR : InRange s b.start
  stopR : InRange s b.stop

theorem Side.psideR {idx : Int → α → Int} {V : α → Prop} (hco : Coherent idx V) {maxSize : Nat} {s : Int} {b : Buckets} {A : List α}
    (h : Side idx maxSize s b A) (hA : ∀ v ∈ A, V v) (h1 : -10 ≤ s) (h2 : s ≤ 20) : PSide idx maxSize s b A := by
  refine ⟨h.holds, h.size, h.empty, ?_, ?_⟩
  · by_cases hn : A = []
    · rw [h.empty hn]; exact inRange_zero s
    · obtain ⟨x, hx, e⟩ := List.mem_map.1 (h.startIn hn)
      rw [← e]; exact hco.inRange (hA x hx) h1 h2
  · by_cases hn : A = []
    · rw [h.empty hn]; exact inRange_zero s
    · obtain ⟨x, hx, e⟩ := List.mem_map.1 (h.stopIn hn)
      rw [← e]; exact hco.inRange (hA x hx) h1 h2

/-- Current and previous buckets of one sign as `_merge` is about to see them. `first` says there was no earlier collection. -/
structure Pair (idx : Int → α → Int) (maxSize : Nat) (sc ps : Int) (v p : Buckets) (C P : List α) (first : Prop) : Prop where
  vh : v.Holds (C.map (idx sc))
  ph : p.Holds (P.map (idx ps))
  vs : v.counts.length ≤ maxSize
  psz : p.counts.length ≤ maxSize
  v1 : InRange sc v.start
  v2 : InRange sc v.stop
  p1 : InRange ps p.start
  p2 : InRange ps p.stop
  cempty : C = [] → P = [] → p = Buckets.new
  /-- nothing before: the previous buckets are either a blank copy of the current ones, or blank at 0 -/
  blank : P = [] → (first ∧ sc = ps ∧ p = v.copyEmpty) ∨ (¬ first ∧ p = Buckets.new)

theorem mergeLoop_zero (maxSize change : Nat) (cur : Buckets) (ns : List Nat) (k : Nat) (prev : Buckets) (h : ∀ n ∈ ns, n = 0) :
    mergeLoop maxSize change cur prev k ns = (prev, true) := by
  induction ns generalizing k with
  | nil => rfl
  | cons n ns ih =>
    rw [mergeLoop]
    have hone : mergeOne maxSize change cur prev k n = (prev, true) := by unfold mergeOne; rw [if_pos (h n List.mem_cons_self)]
    rw [hone, if_pos rfl]
    exact ih (k + 1) (fun m hm => h m (List.mem_cons_of_mem _ hm))

theorem Holds_nil_counts {b : Buckets} (h : b.Holds []) : ∀ n ∈ b.counts, n = 0 := by
  intro n hn
  obtain ⟨j, hj, e⟩ := List.getElem_of_mem hn
  by_contra hne
  have := (indexAt_spec h j hj).2 (by rw [List.getD_eq_getElem?_getD, List.getElem?_eq_getElem hj]; simpa [e] using hne)
  have h3 := this.2.2
  rw [List.getD_eq_getElem?_getD, List.getElem?_eq_getElem hj] at h3
  simp [e] at h3
  exact hne h3

theorem Holds_counts_ne {b : Buckets} {M : List Int} (h : b.Holds M) (hM : M ≠ []) : b.counts ≠ [0] := by
  intro e
  obtain ⟨x, hx⟩ := List.exists_mem_of_ne_nil M hM
  have hm := h.mem x hx
  have hv := h.val x hm.1 (by have := h.len; omega)
  have := List.count_pos_iff.2 hx
  rw [e, List.getD_eq_getElem?_getD] at hv
  have h0 : ([0] : List Nat)[b.posOf x]?.getD 0 = 0 := by
    cases b.posOf x <;> simp
  omega

/-- The scale both sides are brought to. -/
def mergeScale (maxSize : Nat) (sc ps : Int) (v p : Buckets) : Nat :=
  let m := min ps sc
  let l := lowHighBoth p v (ps - m).toNat (sc - m).toNat
  scaleChange maxSize (scaleFuel l.1 l.2) l.1 l.2

theorem lowHighBoth_spec {idx : Int → α → Int} {maxSize : Nat} {sc ps : Int} {v p : Buckets} {C P : List α} {first : Prop}
    (h : Pair idx maxSize sc ps v p C P first) (h1 : -10 ≤ sc) (h2 : -10 ≤ ps) :
    let m := min ps sc
    let l := lowHighBoth p v (ps - m).toNat (sc - m).toNat
    InRange m l.1 ∧ (InRange m l.2 ∨ l = (0, -1)) ∧
    (C ≠ [] → l.1 ≤ shr v.start (sc - m).toNat ∧ shr v.stop (sc - m).toNat ≤ l.2) ∧
    (C ≠ [] → P ≠ [] → l.1 ≤ shr p.start (ps - m).toNat ∧ shr p.stop (ps - m).toNat ≤ l.2) := by
  intro m l
  have hm1 : m ≤ ps := min_le_left _ _
  have hm2 : m ≤ sc := min_le_right _ _
  have hm3 : -10 ≤ m := le_min h2 h1
  have rv1 : InRange m (shr v.start (sc - m).toNat) := by
    have := h.v1.shift (sc - m).toNat (by omega); rwa [show sc - ((sc - m).toNat : Int) = m by omega] at this
  have rv2 : InRange m (shr v.stop (sc - m).toNat) := by
    have := h.v2.shift (sc - m).toNat (by omega); rwa [show sc - ((sc - m).toNat : Int) = m by omega] at this
  have rp1 : InRange m (shr p.start (ps - m).toNat) := by
    have := h.p1.shift (ps - m).toNat (by omega); rwa [show ps - ((ps - m).toNat : Int) = m by omega] at this
  have rp2 : InRange m (shr p.stop (ps - m).toNat) := by
    have := h.p2.shift (ps - m).toNat (by omega); rwa [show ps - ((ps - m).toNat : Int) = m by omega] at this
  have hvs : shr v.start (sc - m).toNat ≤ shr v.stop (sc - m).toNat := shr_mono _ (le_trans h.vh.sb h.vh.bs)
  have hps : shr p.start (ps - m).toNat ≤ shr p.stop (ps - m).toNat := shr_mono _ (le_trans h.ph.sb h.ph.bs)
  have lv : lowHigh v (sc - m).toNat = if v.counts = [0] then (0, -1) else (shr v.start (sc - m).toNat, shr v.stop (sc - m).toNat) := rfl
  have lp : lowHigh p (ps - m).toNat = if p.counts = [0] then (0, -1) else (shr p.start (ps - m).toNat, shr p.stop (ps - m).toNat) := rfl
  have hl : l = lowHighBoth p v (ps - m).toNat (sc - m).toNat := rfl
  unfold lowHighBoth at hl
  by_cases cv : v.counts = [0]
  · have hC : C = [] := by
      by_contra hn
      exact Holds_counts_ne h.vh (by simpa using hn) cv
    rw [lv, if_pos cv] at hl
    simp only [gt_iff_lt, show (-1 : Int) < 0 by decide, if_true] at hl
    by_cases cp : p.counts = [0]
    · rw [lp, if_pos cp] at hl
      rw [hl]
      exact ⟨inRange_zero m, Or.inr rfl, fun hn => absurd hC hn, fun hn => absurd hC hn⟩
    · rw [lp, if_neg cp] at hl
      rw [hl]
      exact ⟨rp1, Or.inl rp2, fun hn => absurd hC hn, fun hn => absurd hC hn⟩
  · rw [lv, if_neg cv] at hl
    simp only [gt_iff_lt] at hl
    rw [if_neg (by omega)] at hl
    by_cases cp : p.counts = [0]
    · have hP : P = [] := by
        by_contra hn
        exact Holds_counts_ne h.ph (by simpa using hn) cp
      rw [lp, if_pos cp] at hl
      simp only [show (-1 : Int) < 0 by decide, if_true] at hl
      rw [hl]
      exact ⟨rv1, Or.inl rv2, fun _ => ⟨le_rfl, le_rfl⟩, fun _ hn => absurd hP hn⟩
    · rw [lp, if_neg cp] at hl
      simp only at hl
      rw [if_neg (by omega)] at hl
      rw [hl]
      refine ⟨?_, Or.inl ?_, fun _ => ⟨min_le_right _ _, le_max_right _ _⟩, fun _ _ => ⟨min_le_left _ _, le_max_left _ _⟩⟩
      · show InRange m (min _ _)
        rcases min_choice (shr p.start (ps - m).toNat) (shr v.start (sc - m).toNat) with e | e <;> rw [e] <;> assumption
      · show InRange m (max _ _)
        rcases max_choice (shr p.stop (ps - m).toNat) (shr v.stop (sc - m).toNat) with e | e <;> rw [e] <;> assumption

theorem mergeScale_low {idx : Int → α → Int} {maxSize : Nat} (hm : 2 ≤ maxSize) {sc ps : Int} {v p : Buckets} {C P : List α} {first : Prop}
    (h : Pair idx maxSize sc ps v p C P first) (h1 : -10 ≤ sc) (h2 : -10 ≤ ps) : -10 ≤ min ps sc - (mergeScale maxSize sc ps v p : Int) := by
  obtain ⟨q1, q2, _, _⟩ := lowHighBoth_spec h h1 h2
  rcases q2 with q2 | q2
  · exact scaleChange_inRange maxSize hm _ _ _ (le_min h2 h1) q1 q2
  · unfold mergeScale
    simp only
    rw [q2]
    have : scaleChange maxSize (scaleFuel 0 (-1)) 0 (-1) = 0 := by
      unfold scaleFuel
      rw [scaleChange, if_neg (by omega)]
    simp only [this]
    omega

/-- The side has values now, had none at an earlier collection, and there was an earlier collection. -/
def Late (first : Prop) (C P : List α) : Prop := ¬ first ∧ P = [] ∧ C ≠ []

/-- Unless the side starts late, the merge fits. -/
theorem pair_fits {idx : Int → α → Int} {V : α → Prop} (hco : Coherent idx V) {maxSize : Nat} (hm : 2 ≤ maxSize) {sc ps : Int} {v p p' : Buckets}
    {C P : List α} {first : Prop} (h : Pair idx maxSize sc ps v p C P first) (hC : ∀ x ∈ C, V x) (h1 : -10 ≤ sc) (h1' : sc ≤ 20) (h2 : -10 ≤ ps)
    (ms : Int) (hms : ms ≤ min ps sc - (mergeScale maxSize sc ps v p : Int)) (hlow : -10 ≤ ms)
    (e1 : p'.start = shr p.start (ps - ms).toNat) (e2 : p'.stop = shr p.stop (ps - ms).toNat) (hl : ¬ Late first C P) :
    Fits maxSize p' (C.map (idx ms)) := by
  have hms1 : ms ≤ ps := by have := min_le_left ps sc; omega
  have hms2 : ms ≤ sc := by have := min_le_right ps sc; omega
  by_cases hCn : C = []
  · subst hCn
    refine ⟨p'.start, p'.stop, le_rfl, le_rfl, ?_, by simp⟩
    rw [e1, e2]
    have := shr_fit_mono maxSize p.start p.stop (le_trans h.ph.sb h.ph.bs) 0 (ps - ms).toNat (by omega)
      (by rw [shr_zero, shr_zero]; have := h.ph.len; have := h.psz; omega)
    exact this
  · obtain ⟨_, _, q3, q4⟩ := lowHighBoth_spec h h1 h2
    have q3 := q3 hCn
    have hdef : mergeScale maxSize sc ps v p = scaleChange maxSize (scaleFuel (lowHighBoth p v (ps - min ps sc).toNat (sc - min ps sc).toNat).1
        (lowHighBoth p v (ps - min ps sc).toNat (sc - min ps sc).toNat).2) (lowHighBoth p v (ps - min ps sc).toNat (sc - min ps sc).toNat).1
        (lowHighBoth p v (ps - min ps sc).toNat (sc - min ps sc).toNat).2 := rfl
    have hmin1 := min_le_left ps sc
    have hmin2 := min_le_right ps sc
    generalize hmm : min ps sc = m at q3 q4 hdef hms hmin1 hmin2
    generalize hll : lowHighBoth p v (ps - m).toNat (sc - m).toNat = l at q3 q4 hdef
    obtain ⟨f1, _⟩ := scaleChange_fit maxSize hm l.1 l.2
    rw [← hdef] at f1
    have hvs : shr v.start (sc - m).toNat ≤ shr v.stop (sc - m).toNat := shr_mono _ (le_trans h.vh.sb h.vh.bs)
    have f2 := shr_fit_mono maxSize l.1 l.2 (by omega) _ (m - ms).toNat (by omega : mergeScale maxSize sc ps v p ≤ (m - ms).toNat) f1
    have hin : ∀ y ∈ C.map (idx ms), shr l.1 (m - ms).toNat ≤ y ∧ y ≤ shr l.2 (m - ms).toNat := by
      intro y hy
      obtain ⟨x, hx, rfl⟩ := List.mem_map.1 hy
      have hmem := h.vh.mem (idx sc x) (List.mem_map_of_mem hx)
      have e : idx ms x = shr (idx sc x) ((sc - m).toNat + (m - ms).toNat) := by
        have := hco.shift x (hC x hx) sc (sc - ms).toNat h1' (by omega)
        rw [show sc - ((sc - ms).toNat : Int) = ms by omega] at this
        rw [this]; congr 1; omega
      rw [e, ← shr_shr]
      exact ⟨shr_mono _ (le_trans q3.1 (shr_mono _ hmem.1)), shr_mono _ (le_trans (shr_mono _ hmem.2) q3.2)⟩
    have hsplit : (ps - ms).toNat = (ps - m).toNat + (m - ms).toNat := by omega
    by_cases hPn : P = []
    · rcases h.blank hPn with ⟨_, es, ep⟩ | ⟨hf, _⟩
      · -- the previous buckets are a blank copy
        refine ⟨_, _, ?_, ?_, f2, hin⟩
        · rw [e1, hsplit, ← shr_shr, ep, ← es]; exact shr_mono _ q3.1
        · rw [e2, hsplit, ← shr_shr, ep, ← es]; exact shr_mono _ q3.2
      · exact absurd ⟨hf, hPn, hCn⟩ hl
    · have q4 := q4 hCn hPn
      refine ⟨_, _, ?_, ?_, f2, hin⟩
      · rw [e1, hsplit, ← shr_shr]; exact shr_mono _ q4.1
      · rw [e2, hsplit, ← shr_shr]; exact shr_mono _ q4.2

/-- The merge of one side, given that it fits (and only then). -/
theorem pair_merge {idx : Int → α → Int} {V : α → Prop} (hco : Coherent idx V) {maxSize : Nat} {sc ps : Int} {v p : Buckets}
    {C P : List α} {first : Prop} (h : Pair idx maxSize sc ps v p C P first) (hC : ∀ x ∈ C, V x) (hP : ∀ x ∈ P, V x)
    (h1' : sc ≤ 20) (h2' : ps ≤ 20) (ms : Int) (hms1 : ms ≤ ps) (hms2 : ms ≤ sc) (hlow : -10 ≤ ms) (p' : Buckets)
    (hp' : p' = if ps - ms = 0 then p else p.downscale (ps - ms).toNat) :
    p'.start = shr p.start (ps - ms).toNat ∧ p'.stop = shr p.stop (ps - ms).toNat ∧ (P = [] → ¬ first → p' = Buckets.new) ∧
    ((merge maxSize (sc - ms).toNat p' v).2 = true ↔ Fits maxSize p' (C.map (idx ms))) ∧
    ((merge maxSize (sc - ms).toNat p' v).2 = true → PSide idx maxSize ms (merge maxSize (sc - ms).toNat p' v).1 (P ++ C)) := by
  have hdown : p'.Holds (P.map (idx ms)) ∧ p'.counts.length = p.counts.length ∧ p'.start = shr p.start (ps - ms).toNat ∧
      p'.stop = shr p.stop (ps - ms).toNat ∧ (p = Buckets.new → p' = Buckets.new) := by
    by_cases h0 : ps - ms = 0
    · rw [if_pos h0] at hp'
      subst hp'
      obtain rfl : ps = ms := by omega
      refine ⟨h.ph, rfl, ?_, ?_, id⟩ <;> simp [shr_zero]
    · rw [if_neg h0] at hp'
      subst hp'
      obtain ⟨d1, d2, d3, d4⟩ := h.ph.downscale (ps - ms).toNat
      have e := map_idx_shift hco hP h2' (ps - ms).toNat (by omega)
      rw [show ps - ((ps - ms).toNat : Int) = ms by omega] at e
      exact ⟨by rw [e]; exact d1, d2, d3, d4, by rintro rfl; exact new_downscale _⟩
  obtain ⟨d1, d2, d3, d4, d5⟩ := hdown
  have eC := map_idx_shift hco hC h1' (sc - ms).toNat (by omega)
  rw [show sc - ((sc - ms).toNat : Int) = ms by omega] at eC
  obtain ⟨m1, m2⟩ := merge_spec maxSize (sc - ms).toNat (P := P.map (idx ms)) h.vh (by rw [d2]; exact h.psz) d1
  rw [← eC] at m1 m2
  have hR : ∀ y ∈ C.map (idx ms), InRange ms y := by
    intro y hy
    obtain ⟨x, hx, rfl⟩ := List.mem_map.1 hy
    exact hco.inRange (hC x hx) hlow (by omega)
  have r1 : InRange ms p'.start := by
    rw [d3]; have := h.p1.shift (ps - ms).toNat (by omega); rwa [show ps - ((ps - ms).toNat : Int) = ms by omega] at this
  have r2 : InRange ms p'.stop := by
    rw [d4]; have := h.p2.shift (ps - ms).toNat (by omega); rwa [show ps - ((ps - ms).toNat : Int) = ms by omega] at this
  refine ⟨d3, d4, ?_, m1, ?_⟩
  · intro hPn hf
    rcases h.blank hPn with ⟨hf', _⟩ | ⟨_, e⟩
    · exact absurd hf' hf
    · exact d5 e
  · intro hok
    obtain ⟨g1, g2, g3, g4⟩ := m2 hok
    refine ⟨g1.perm ?_, g2, ?_, ?_, ?_⟩
    · intro x; rw [List.map_append, List.count_append, List.count_append]; omega
    · intro hn
      simp only [List.append_eq_nil_iff] at hn
      have hz : merge maxSize (sc - ms).toNat p' v = (p', true) := by
        unfold merge
        apply mergeLoop_zero
        have := h.vh; rw [hn.2] at this
        exact Holds_nil_counts this
      rw [hz]
      exact d5 (h.cempty hn.2 hn.1)
    · rcases g3 with g3 | g3
      · rw [g3]; exact r1
      · exact hR _ g3
    · rcases g4 with g4 | g4
      · rw [g4]; exact r2
      · exact hR _ g4

end Exp
end Metrics
end Otel
