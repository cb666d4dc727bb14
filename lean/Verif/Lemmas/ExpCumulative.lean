import Verif.Lemmas.ExpCollect
/-!
# Cumulative collection: the whole state
-/
namespace Otel
namespace Metrics
namespace Exp
open Buckets
variable {α : Type} [AddCommGroup α] [LinearOrder α]

/-- What the state says about the measurements `old` of the earlier cycles; `first` says nothing was collected yet. -/
structure Prev (idx : Int → α → Int) (s : Agg α) (old : List α) (first : Bool) : Prop where
  yes : first = true → old = [] ∧ s.prevPos = none ∧ s.prevNeg = none ∧ s.prevScale = none
  no : first = false → ∃ pp pn ps, s.prevPos = some pp ∧ s.prevNeg = some pn ∧ s.prevScale = some ps ∧
    PSide idx s.maxSize ps pp (positives old) ∧ PSide idx s.maxSize ps pn (negatives old) ∧ -10 ≤ ps ∧ ps ≤ 20
  sum : s.prevSum = old.sum
  count : s.prevCount = old.length
  zero : s.prevZero = old.count 0
  min : s.prevMin = minOf true old
  max : s.prevMax = maxOf true old

theorem copyEmpty_new : Buckets.new.copyEmpty = Buckets.new := rfl

theorem new_pside (idx : Int → α → Int) (maxSize : Nat) (h : 2 ≤ maxSize) (s : Int) : PSide idx maxSize s Buckets.new [] :=
  ⟨Buckets.holds_new, by simp [Buckets.new]; omega, fun _ => rfl, inRange_zero s, inRange_zero s⟩

theorem copyEmpty_size (b : Buckets) : b.copyEmpty.counts.length = b.counts.length := by simp [copyEmpty]

/-- One side, all four cases. -/
theorem mkPair {idx : Int → α → Int} {maxSize : Nat} (hm : 2 ≤ maxSize) {sc ps : Int} {co po : Option Buckets} {C P : List α} {first : Bool}
    (hcn : co = none → C = []) (hcs : ∀ b, co = some b → PSide idx maxSize sc b C)
    (hpn : first = true → po = none ∧ P = [] ∧ sc = ps) (hps : first = false → ∃ b, po = some b ∧ PSide idx maxSize ps b P)
    (hsame : co = none → sc = ps) :
    Pair idx maxSize sc ps (pair co po).1 (pair co po).2 C P (first = true) := by
  cases hf : first with
  | true =>
    obtain ⟨e1, e2, e3⟩ := hpn hf
    subst e1 e2 e3
    cases hc : co with
    | none =>
      have := hcn hc
      subst this
      have hp := new_pside idx maxSize hm sc
      exact ⟨hp.holds, hp.holds, hp.size, hp.size, hp.startR, hp.stopR, hp.startR, hp.stopR, fun _ _ => rfl, fun _ => Or.inl ⟨rfl, rfl, rfl⟩⟩
    | some b =>
      have hb := hcs b hc
      refine ⟨hb.holds, hb.holds.copyEmpty, hb.size, by rw [pair, copyEmpty_size]; exact hb.size, hb.startR, hb.stopR, hb.startR, hb.stopR, ?_,
        fun _ => Or.inl ⟨rfl, rfl, rfl⟩⟩
      intro hn _
      rw [pair, hb.empty hn]; rfl
  | false =>
    obtain ⟨b, e1, hb⟩ := hps hf
    subst e1
    cases hc : co with
    | none =>
      have := hcn hc
      subst this
      have hs := hsame hc
      subst hs
      refine ⟨hb.holds.copyEmpty, hb.holds, by rw [pair, copyEmpty_size]; exact hb.size, hb.size, hb.startR, hb.stopR, hb.startR, hb.stopR,
        fun _ hn => hb.empty hn, fun hn => Or.inr ⟨by simp, hb.empty hn⟩⟩
    | some v =>
      have hv := hcs v hc
      exact ⟨hv.holds, hb.holds, hv.size, hb.size, hv.startR, hv.stopR, hb.startR, hb.stopR, fun _ hn => hb.empty hn,
        fun hn => Or.inr ⟨by simp, hb.empty hn⟩⟩

/-- The scales of the two operands of the merge. -/
theorem scales_spec {idx : Int → α → Int} {s : Agg α} {here old : List α} {first : Bool} (h : Cur idx s here) (hp : Prev idx s old first) :
    let r := pairScale s.mapScale s.scale s.prevScale
    (-10 : Int) ≤ r.1 ∧ r.1 ≤ 20 ∧ -10 ≤ r.2 ∧ r.2 ≤ 20 ∧ (first = true → r.1 = r.2) ∧ (here = [] → r.1 = r.2) ∧
    (nonzero here ≠ [] → r.1 = s.mapScale) ∧ (∀ x, s.prevScale = some x → r.2 = x) := by
  have h1 := h.low; have h2 := h.high
  by_cases hn : here = []
  · obtain ⟨_, _, e⟩ := h.none hn
    subst hn
    cases first with
    | true =>
      obtain ⟨_, _, _, e'⟩ := hp.yes rfl
      simp [e, e', pairScale, nonzero]; omega
    | false =>
      obtain ⟨_, _, ps, _, _, e', _, _, g1, g2⟩ := hp.no rfl
      simp [e, e', pairScale, nonzero]; omega
  · obtain ⟨_, _, _, _, _, _, e⟩ := h.some hn
    cases first with
    | true =>
      obtain ⟨_, _, _, e'⟩ := hp.yes rfl
      simp only [e, e', pairScale]
      by_cases hz : nonzero here = [] <;> simp [hz, hn] <;> omega
    | false =>
      obtain ⟨_, _, ps, _, _, e', _, _, g1, g2⟩ := hp.no rfl
      simp only [e, e', pairScale]
      by_cases hz : nonzero here = [] <;> simp [hz, hn] <;> omega

theorem psides {idx : Int → α → Int} {V : α → Prop} (hco : Coherent idx V) {s : Agg α} {here old : List α} {first : Bool}
    (h : Cur idx s here) (hp : Prev idx s old first) (hV : ∀ v ∈ here, v ≠ 0 → V (mag v)) :
    let r := pairScale s.mapScale s.scale s.prevScale
    Pair idx s.maxSize r.1 r.2 (pair s.pos s.prevPos).1 (pair s.pos s.prevPos).2 (positives here) (positives old) (first = true) ∧
    Pair idx s.maxSize r.1 r.2 (pair s.neg s.prevNeg).1 (pair s.neg s.prevNeg).2 (negatives here) (negatives old) (first = true) := by
  intro r
  obtain ⟨q1, q2, q3, q4, q5, q6, q7, q8⟩ := scales_spec h hp
  obtain ⟨okp, okn⟩ := magnitudes_ok hV
  have hnone : here = [] → positives here = [] ∧ negatives here = [] := by rintro rfl; simp [positives, negatives]
  have hside : ∀ (b : Buckets) (A : List α), (nonzero here = [] → A = []) → (∀ x ∈ A, V x) →
      Side idx s.maxSize s.mapScale b A → PSide idx s.maxSize r.1 b A := by
    intro b A hA hAV hb
    by_cases hz : nonzero here = []
    · have hA := hA hz
      have := hb.empty hA
      subst hA this
      exact new_pside idx s.maxSize h.size2 _
    · have e := q7 hz
      have e' : r.1 = s.mapScale := e
      rw [e']
      exact hb.psideR hco hAV h.low h.high
  constructor
  · apply mkPair h.size2
    · intro hc
      by_cases hn : here = []
      · exact (hnone hn).1
      · obtain ⟨p, n, e, _⟩ := h.some hn; rw [e] at hc; cases hc
    · intro b hc
      by_cases hn : here = []
      · rw [(h.none hn).1] at hc; cases hc
      · obtain ⟨p, n, e, _, e3, _⟩ := h.some hn
        rw [e] at hc; cases hc
        exact hside b _ (fun hz => ((nonzero_nil_parts here).1 hz).1) okp e3
    · intro hf
      obtain ⟨e1, e2, _, _⟩ := hp.yes hf
      exact ⟨e2, by rw [e1]; rfl, q5 hf⟩
    · intro hf
      obtain ⟨pp, pn, ps, e1, e2, e3, e4, e5, _⟩ := hp.no hf
      exact ⟨pp, e1, by have := q8 ps e3; change PSide idx s.maxSize (pairScale s.mapScale s.scale s.prevScale).2 pp _; rw [this]; exact e4⟩
    · intro hc
      by_cases hn : here = []
      · exact q6 hn
      · obtain ⟨p, n, e, _⟩ := h.some hn; rw [e] at hc; cases hc
  · apply mkPair h.size2
    · intro hc
      by_cases hn : here = []
      · exact (hnone hn).2
      · obtain ⟨p, n, _, e, _⟩ := h.some hn; rw [e] at hc; cases hc
    · intro b hc
      by_cases hn : here = []
      · rw [(h.none hn).2.1] at hc; cases hc
      · obtain ⟨p, n, _, e, _, e3, _⟩ := h.some hn
        rw [e] at hc; cases hc
        exact hside b _ (fun hz => ((nonzero_nil_parts here).1 hz).2) okn e3
    · intro hf
      obtain ⟨e1, _, e2, _⟩ := hp.yes hf
      exact ⟨e2, by rw [e1]; rfl, q5 hf⟩
    · intro hf
      obtain ⟨pp, pn, ps, e1, e2, e3, e4, e5, _⟩ := hp.no hf
      exact ⟨pn, e2, by have := q8 ps e3; change PSide idx s.maxSize (pairScale s.mapScale s.scale s.prevScale).2 pn _; rw [this]; exact e5⟩
    · intro hc
      by_cases hn : here = []
      · exact q6 hn
      · obtain ⟨p, n, _, e, _⟩ := h.some hn; rw [e] at hc; cases hc

/-- The late values of a side fit together with index 0. -/
def LateFits (idx : Int → α → Int) (maxSize : Nat) (ms : Int) (first : Bool) (C P : List α) : Prop :=
  Late (first = true) C P → ∃ lo hi, lo ≤ 0 ∧ 0 ≤ hi ∧ hi - lo < (maxSize : Int) ∧ ∀ x ∈ C, lo ≤ idx ms x ∧ idx ms x ≤ hi

theorem late_fits_iff (idx : Int → α → Int) (maxSize : Nat) (ms : Int) (C : List α) :
    Fits maxSize Buckets.new (C.map (idx ms)) ↔
    ∃ lo hi, lo ≤ 0 ∧ 0 ≤ hi ∧ hi - lo < (maxSize : Int) ∧ ∀ x ∈ C, lo ≤ idx ms x ∧ idx ms x ≤ hi := by
  unfold Fits
  simp [Buckets.new]

/-- The state after a collection has reset the current values. -/
theorem cur_reset {idx : Int → α → Int} {s s' : Agg α} {here : List α} (h : Cur idx s here) (e1 : s'.inst = s.inst) (e2 : s'.maxSize = s.maxSize)
    (e3 : s'.mapScale = s.mapScale) (e4 : s'.pos = none) (e5 : s'.neg = none) (e6 : s'.scale = none) (e7 : s'.sum = 0) (e8 : s'.count = 0)
    (e9 : s'.zeroCount = 0) (e10 : s'.min = ⊤) (e11 : s'.max = ⊥) : Cur idx s' [] := by
  refine ⟨e1.trans h.inst, by rw [e2]; exact h.size2, by rw [e3]; exact h.low, by rw [e3]; exact h.high, fun _ => ⟨e4, e5, e6⟩, by simp, e7, e8,
    e9, ?_, ?_⟩
  · rw [e10]; simp [minOf]
  · rw [e11]; simp [maxOf]

/-- One cumulative collection: at some scale `ms`, either each late side fits, and then the point describes everything so far;
or it raises. -/
theorem collect_spec {idx : Int → α → Int} {V : α → Prop} (hco : Coherent idx V) {s : Agg α} {here old : List α} {first : Bool}
    (h : Cur idx s here) (hp : Prev idx s old first) (hV : ∀ v ∈ here, v ≠ 0 → V (mag v)) (hV' : ∀ v ∈ old, v ≠ 0 → V (mag v)) (now : Int) :
    ∃ ms, -10 ≤ ms ∧ (nonzero here ≠ [] → ms ≤ s.mapScale) ∧ (∀ x, s.prevScale = some x → ms ≤ x) ∧
      Cur idx (s.collect .cumulative now).2 [] ∧
      (s.collect .cumulative now).2.mapScale = s.mapScale ∧ (s.collect .cumulative now).2.maxSize = s.maxSize ∧
      (s.collect .cumulative now).2.start = s.start ∧
      ((LateFits idx s.maxSize ms first (positives here) (positives old) ∧ LateFits idx s.maxSize ms first (negatives here) (negatives old) ∧
        (∃ p, (s.collect .cumulative now).1 = .returned (some p) ∧ p.start = s.start ∧ p.time = now ∧
          Describes idx s.maxSize p ms (old ++ here)) ∧
        Prev idx (s.collect .cumulative now).2 (old ++ here) false) ∨
       (¬ (LateFits idx s.maxSize ms first (positives here) (positives old) ∧ LateFits idx s.maxSize ms first (negatives here) (negatives old)) ∧
        (s.collect .cumulative now).1 = .raised)) := by
  obtain ⟨q1, q2, q3, q4, q5, q6, q7, q8⟩ := scales_spec h hp
  obtain ⟨pairP, pairN⟩ := psides hco h hp hV
  obtain ⟨okp, okn⟩ := magnitudes_ok hV
  obtain ⟨okp', okn'⟩ := magnitudes_ok hV'
  have hcoll : s.collect .cumulative now = s.collectCumulative { s with pos := none, neg := none, sum := 0, min := ⊤, max := ⊥, count := 0, zeroCount := 0, scale := none } now := by
    unfold Agg.collect; rw [h.inst]
  rw [hcoll]
  unfold Agg.collectCumulative
  generalize hpp : pair s.pos s.prevPos = PP at pairP ⊢
  generalize hpn : pair s.neg s.prevNeg = PN at pairN ⊢
  generalize hsc : pairScale s.mapScale s.scale s.prevScale = SC at *
  obtain ⟨vp, pp⟩ := PP
  obtain ⟨vn, pn⟩ := PN
  obtain ⟨sc, ps⟩ := SC
  simp only at *
  have lowP := mergeScale_low h.size2 pairP q1 q3
  have lowN := mergeScale_low h.size2 pairN q1 q3
  have dP : (scaleChange s.maxSize (scaleFuel (lowHighBoth pp vp (ps - min ps sc).toNat (sc - min ps sc).toNat).1 (lowHighBoth pp vp (ps - min ps sc).toNat (sc - min ps sc).toNat).2)
      (lowHighBoth pp vp (ps - min ps sc).toNat (sc - min ps sc).toNat).1 (lowHighBoth pp vp (ps - min ps sc).toNat (sc - min ps sc).toNat).2) = mergeScale s.maxSize sc ps vp pp := rfl
  have dN : (scaleChange s.maxSize (scaleFuel (lowHighBoth pn vn (ps - min ps sc).toNat (sc - min ps sc).toNat).1 (lowHighBoth pn vn (ps - min ps sc).toNat (sc - min ps sc).toNat).2)
      (lowHighBoth pn vn (ps - min ps sc).toNat (sc - min ps sc).toNat).1 (lowHighBoth pn vn (ps - min ps sc).toNat (sc - min ps sc).toNat).2) = mergeScale s.maxSize sc ps vn pn := rfl
  rw [dP, dN]
  generalize hms : min (min ps sc - (mergeScale s.maxSize sc ps vp pp : Int)) (min ps sc - (mergeScale s.maxSize sc ps vn pn : Int)) = ms
  have ms1 : ms ≤ min ps sc - (mergeScale s.maxSize sc ps vp pp : Int) := by rw [← hms]; exact min_le_left _ _
  have ms2 : ms ≤ min ps sc - (mergeScale s.maxSize sc ps vn pn : Int) := by rw [← hms]; exact min_le_right _ _
  have ms3 : -10 ≤ ms := by rw [← hms]; exact le_min lowP lowN
  have ms4 : ms ≤ ps := by have := min_le_left ps sc; omega
  have ms5 : ms ≤ sc := by have := min_le_right ps sc; omega
  rw [if_neg (by omega)]
  obtain ⟨a1, a2, a3, a4, a5⟩ := pair_merge hco pairP okp okp' q2 q4 ms ms4 ms5 ms3 _ rfl
  obtain ⟨b1, b2, b3, b4, b5⟩ := pair_merge hco pairN okn okn' q2 q4 ms ms4 ms5 ms3 _ rfl
  have fP : (merge s.maxSize (sc - ms).toNat (if ps - ms = 0 then pp else pp.downscale (ps - ms).toNat) vp).2 = true ↔
      LateFits idx s.maxSize ms first (positives here) (positives old) := by
    rw [a4]
    by_cases hl : Late (first = true) (positives here) (positives old)
    · rw [a3 hl.2.1 hl.1, late_fits_iff]
      exact ⟨fun g _ => g, fun g => g hl⟩
    · exact ⟨fun _ g => absurd g hl, fun _ => pair_fits hco h.size2 pairP okp q1 q2 q3 ms ms1 ms3 a1 a2 hl⟩
  have fN : (merge s.maxSize (sc - ms).toNat (if ps - ms = 0 then pn else pn.downscale (ps - ms).toNat) vn).2 = true ↔
      LateFits idx s.maxSize ms first (negatives here) (negatives old) := by
    rw [b4]
    by_cases hl : Late (first = true) (negatives here) (negatives old)
    · rw [b3 hl.2.1 hl.1, late_fits_iff]
      exact ⟨fun g _ => g, fun g => g hl⟩
    · exact ⟨fun _ g => absurd g hl, fun _ => pair_fits hco h.size2 pairN okn q1 q2 q3 ms ms2 ms3 b1 b2 hl⟩
  refine ⟨ms, ms3, fun hn => by have := q7 hn; omega, fun x hx => by have := q8 x hx; omega, ?_⟩
  generalize hmp : merge s.maxSize (sc - ms).toNat (if ps - ms = 0 then pp else pp.downscale (ps - ms).toNat) vp = MP at *
  generalize hmn : merge s.maxSize (sc - ms).toNat (if ps - ms = 0 then pn else pn.downscale (ps - ms).toNat) vn = MN at *
  obtain ⟨bp, okbp⟩ := MP
  obtain ⟨bn, okbn⟩ := MN
  simp only at *
  cases okbp with
  | false =>
    rw [if_pos rfl]
    refine ⟨cur_reset h rfl rfl rfl rfl rfl rfl rfl rfl rfl rfl rfl, rfl, rfl, rfl, Or.inr ⟨fun g => ?_, rfl⟩⟩
    exact absurd (fP.2 g.1) (by simp)
  | true =>
    rw [if_neg (by simp)]
    cases okbn with
    | false =>
      rw [if_pos rfl]
      refine ⟨cur_reset h rfl rfl rfl rfl rfl rfl rfl rfl rfl rfl rfl, rfl, rfl, rfl, Or.inr ⟨fun g => ?_, rfl⟩⟩
      exact absurd (fN.2 g.2) (by simp)
    | true =>
      rw [if_neg (by simp)]
      refine ⟨cur_reset h rfl rfl rfl rfl rfl rfl rfl rfl rfl rfl rfl, rfl, rfl, rfl, Or.inl ⟨fP.1 rfl, fN.1 rfl, ?_, ?_⟩⟩
      · have hP := a5 rfl
        have hN := b5 rfl
        rw [← positives_append] at hP
        rw [← negatives_append] at hN
        have cp := Holds_counts hP.holds
        have cn := Holds_counts hN.holds
        have hcount : s.count + s.prevCount = (old ++ here).length := by rw [h.count, hp.count, List.length_append]; omega
        have hzero : s.zeroCount + s.prevZero = (old ++ here).count 0 := by rw [h.zero, hp.zero, List.count_append]; omega
        refine ⟨_, rfl, rfl, rfl, ?_⟩
        refine { scale_eq := rfl, scale_low := ms3, scale_high := by omega, positive := cp, negative := cn, positive_size := ?_, negative_size := ?_, zero_eq := hzero, count_eq := hcount, total := ?_, sum_eq := ?_, min_eq := ?_, max_eq := ?_ }
        · show bp.offsetCounts.length ≤ _; rw [Holds.offset_length]; exact hP.size
        · show bn.offsetCounts.length ≤ _; rw [Holds.offset_length]; exact hN.size
        · have e1 := cp.total; have e2 := cn.total; have e3 := length_parts (old ++ here)
          simp only at *
          omega
        · show s.sum + s.prevSum = _; rw [h.sum, hp.sum, List.sum_append, add_comm]
        · show IsMin (min s.min s.prevMin) _; rw [h.min, hp.min, minOf_append]; exact minOf_isMin _
        · show IsMax (max s.max s.prevMax) _; rw [h.max, hp.max, maxOf_append]; exact maxOf_isMax _
      · have hP := a5 rfl
        have hN := b5 rfl
        rw [← positives_append] at hP
        rw [← negatives_append] at hN
        refine ⟨by simp, fun _ => ⟨bp, bn, ms, rfl, rfl, rfl, hP, hN, ms3, by omega⟩, ?_, ?_, ?_, ?_, ?_⟩
        · show s.sum + s.prevSum = _; rw [h.sum, hp.sum, List.sum_append, add_comm]
        · show s.count + s.prevCount = _; rw [h.count, hp.count, List.length_append]; omega
        · show s.zeroCount + s.prevZero = _; rw [h.zero, hp.zero, List.count_append]; omega
        · show min s.min s.prevMin = _; rw [h.min, hp.min, minOf_append]
        · show max s.max s.prevMax = _; rw [h.max, hp.max, maxOf_append]

end Exp
end Metrics
end Otel
