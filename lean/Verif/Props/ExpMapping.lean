import Verif.Lemmas.ExpMapping
import Verif.Props.ExpHistFail
/-!
# C38, C64: the mappings from doubles to bucket indices
-/
namespace Otel
namespace Metrics
namespace Exp

/-- **C38** At every scale `-k` from −10 to 0, a normal double is in the bucket with index `i` = (base^i, base^(i+1)], base = 2^(2^k). -/
theorem C38_bounds (k bits : Nat) (h : PosDouble bits) (hn : (2 : ℚ) ^ (-1022 : ℤ) ≤ dval bits) :
    (2 : ℚ) ^ (expIndex k bits * 2 ^ k) < dval bits ∧ dval bits ≤ (2 : ℚ) ^ ((expIndex k bits + 1) * 2 ^ k) := by
  have hn' : bits / 2 ^ 52 ≠ 0 := fun hc => absurd ((subnormal_iff h).2 hc) (not_lt.2 hn)
  rw [expIndex_normal h hn']
  obtain ⟨b1, b2⟩ := cexp_bounds h hn'
  obtain ⟨c1, c2⟩ := mono_zpow_shr (e := cexp bits) k
  exact ⟨lt_of_le_of_lt c1 b1, le_trans b2 c2⟩

/-- **C38** No other index has these bounds: the bounds determine the index. -/
theorem C38_unique (k : Nat) (v : ℚ) (i j : Int) (hi : (2 : ℚ) ^ (i * 2 ^ k) < v ∧ v ≤ (2 : ℚ) ^ ((i + 1) * 2 ^ k))
    (hj : (2 : ℚ) ^ (j * 2 ^ k) < v ∧ v ≤ (2 : ℚ) ^ ((j + 1) * 2 ^ k)) : i = j := by
  have h1 := zpow2_lt.1 (lt_of_lt_of_le hi.1 hj.2)
  have h2 := zpow2_lt.1 (lt_of_lt_of_le hj.1 hi.2)
  have hp : (0 : Int) < 2 ^ k := by positivity
  have := lt_of_mul_lt_mul_right h1 hp.le
  have := lt_of_mul_lt_mul_right h2 hp.le
  omega

/-- **C38** A subnormal double goes to the bucket of the smallest normal one; it is not above that bucket. -/
theorem C38_subnormal (k bits : Nat) (hk : k ≤ 10) (_h : PosDouble bits) (hn : dval bits < (2 : ℚ) ^ (-1022 : ℤ)) :
    expIndex k bits = expIndex k (2 ^ 52) ∧ dval (2 ^ 52) = (2 : ℚ) ^ (-1022 : ℤ) ∧ dval bits ≤ (2 : ℚ) ^ ((expIndex k bits + 1) * 2 ^ k) := by
  have hp : PosDouble (2 ^ 52) := by unfold PosDouble; norm_num
  have h1 : expo (2 ^ 52) = -1022 := by rw [expo_eq hp]; norm_num
  have hm : mant (2 ^ 52) = 0 := by rw [mant_eq]; norm_num
  have h2 : dval (2 ^ 52) = (2 : ℚ) ^ (-1022 : ℤ) := by
    rw [(normal_bounds hp (by norm_num)).2.2.2 hm, h1]
  have hc : cexp (2 ^ 52) = -1023 := by unfold cexp; rw [h1, if_pos hm]; rfl
  have e : expIndex k bits = shr (-1023) k := by
    unfold expIndex; rw [if_pos hn, minIndex_eq k hk]
  refine ⟨by rw [e, expIndex_normal hp (by norm_num), hc], h2, ?_⟩
  rw [e]
  exact le_trans hn.le (mono_zpow_shr (e := -1023) k).2

/-- **C38** Lowering the scale by `j` (down to at least −10) shifts the index right by `j`. -/
theorem C38_shift (k j bits : Nat) (h : PosDouble bits) (hkj : k + j ≤ 10) : expIndex (k + j) bits = expIndex k bits / 2 ^ j := by
  have hsh : ∀ (x : Int), x / 2 ^ j = shr x j := by intro x; simp [shr]
  rw [hsh]
  by_cases hn : bits / 2 ^ 52 = 0
  · have hl := (subnormal_iff h).2 hn
    unfold expIndex
    rw [if_pos hl, if_pos hl, minIndex_eq _ hkj, minIndex_eq _ (by omega), shr_shr]
  · rw [expIndex_normal h hn, expIndex_normal h hn, shr_shr]

/-- **C38** The lower boundary of the bucket of any positive double can be asked for, and is base^index; for normal doubles it is below
the value. -/
theorem C38_lower_boundary (k bits : Nat) (hk : k ≤ 10) (h : PosDouble bits) :
    expLower k (expIndex k bits) = some ((2 : ℚ) ^ (expIndex k bits * 2 ^ k)) := by
  have hr : shr (-1023) k ≤ expIndex k bits ∧ expIndex k bits ≤ maxIndex k := by
    by_cases hn : bits / 2 ^ 52 = 0
    · have hl := (subnormal_iff h).2 hn
      unfold expIndex
      rw [if_pos hl, minIndex_eq k hk]
      exact ⟨le_rfl, shr_mono k (by norm_num)⟩
    · rw [expIndex_normal h hn]
      obtain ⟨h1, h2⟩ := cexp_range h hn
      exact ⟨shr_mono k h1, shr_mono k h2⟩
  unfold expLower
  rw [minIndex_eq k hk, if_neg (by omega), if_neg (by omega)]

example : PosDouble 0x4008000000000000 ∧ expIndex 0 0x4008000000000000 = 1 ∧ dval 0x4008000000000000 = 3 := by
  have h : PosDouble 0x4008000000000000 := by unfold PosDouble; norm_num
  have hd : dval 0x4008000000000000 = 3 := by
    unfold dval
    rw [if_neg (by norm_num)]
    norm_num
  refine ⟨h, ?_, hd⟩
  rw [expIndex_normal h (by norm_num)]
  unfold cexp
  rw [expo_eq h, mant_eq]
  norm_num
  decide

/-! ## C64 -/

/-- **C64** Among the scales of the logarithm mapping (1 and above), lowering the scale by `j` shifts the index right by `j`, however
inaccurate the computed logarithm is. -/
theorem C64_log_shift (R : Nat → ℚ) (s j bits : Nat) (h : j ≤ s) : logIndex R (s - j) bits = logIndex R s bits / 2 ^ j := by
  rw [← logIndex_shr R bits s j h]; simp [shr]

/-- **C64** Powers of two above the smallest normal are in the right bucket at every scale: 2^i < value^(2^s) ≤ 2^(i+1), with
equality above. -/
theorem C64_power_of_two (R : Nat → ℚ) (s bits : Nat) (h : PosDouble bits) (e : Int) (he : dval bits = (2 : ℚ) ^ e) (hn : -1022 < e) :
    (2 : ℚ) ^ (logIndex R s bits) < dval bits ^ (2 ^ s) ∧ dval bits ^ (2 ^ s) = (2 : ℚ) ^ (logIndex R s bits + 1) := by
  have hgt : (2 : ℚ) ^ (-1022 : ℤ) < dval bits := by rw [he, zpow2_lt]; exact hn
  have hn' : bits / 2 ^ 52 ≠ 0 := fun hc => absurd ((subnormal_iff h).2 hc) (not_lt.2 hgt.le)
  obtain ⟨b1, b2, b3⟩ := normal_bounds h hn'
  rw [he, zpow2_le] at b1
  rw [he, zpow2_lt] at b2
  have hee : expo bits = e := by omega
  have hm : mant bits = 0 := b3.1 (by rw [he, hee])
  have hl : logIndex R s bits = e * 2 ^ s - 1 := by
    unfold logIndex
    rw [if_neg (not_le.2 hgt), if_pos hm, hee]
  have hp : dval bits ^ (2 ^ s) = (2 : ℚ) ^ (e * 2 ^ s) := by
    rw [he, zpow_mul]
    norm_cast
  rw [hl, hp]
  refine ⟨?_, by ring_nf⟩
  rw [zpow2_lt]; omega

/-- The computed logarithm of every normal double that is no power of two lies between the integers around the true one (1024 counting
as 1023, which the code sees to). -/
def RoundsRight (R : Nat → ℚ) : Prop :=
  ∀ bits, PosDouble bits → (2 : ℚ) ^ (-1022 : ℤ) < dval bits → (∀ e : Int, dval bits ≠ (2 : ℚ) ^ e) →
    ∀ e : Int, (2 : ℚ) ^ e < dval bits → dval bits < (2 : ℚ) ^ (e + 1) → min ⌊R bits⌋ 1023 = e

theorem logIndex_zero (R : Nat → ℚ) (hR : RoundsRight R) {bits : Nat} (h : PosDouble bits) : logIndex R 0 bits = expIndex 0 bits := by
  by_cases hn : bits / 2 ^ 52 = 0
  · have hl := (subnormal_iff h).2 hn
    unfold logIndex expIndex
    rw [if_pos hl, if_pos hl.le]
    decide
  · rw [expIndex_normal h hn, shr_zero]
    obtain ⟨b1, b2, b3⟩ := normal_bounds h hn
    have hge : (2 : ℚ) ^ (-1022 : ℤ) ≤ dval bits := not_lt.1 (fun hc => hn ((subnormal_iff h).1 hc))
    unfold logIndex cexp
    by_cases hle : dval bits ≤ (2 : ℚ) ^ (-1022 : ℤ)
    · have heq : dval bits = (2 : ℚ) ^ (-1022 : ℤ) := le_antisymm hle hge
      rw [heq] at b1 b2 b3
      rw [zpow2_le] at b1
      rw [zpow2_lt] at b2
      have hee : expo bits = -1022 := by omega
      rw [hee] at b3
      rw [if_pos hle, if_pos (b3.1 rfl), hee]
      rfl
    · rw [if_neg hle]
      by_cases hm : mant bits = 0
      · rw [if_pos hm, if_pos hm]; ring
      · rw [if_neg hm, if_neg hm]
        have hlt : (2 : ℚ) ^ expo bits < dval bits := lt_of_le_of_ne b1 (fun hc => hm (b3.1 hc.symm))
        have := hR bits h (not_le.1 hle) (by
          intro e hc
          rw [hc, zpow2_lt] at hlt
          rw [hc, zpow2_lt] at b2
          omega) (expo bits) hlt b2
        simpa using this

/-- **C64 (partial)** If the computed logarithm always rounds to the right side of the integers, the two mappings together are
consistent: at every scale from −10 to 20, lowering the scale by `j` shifts the index right by `j`. *Missing*: the assumption fails
for doubles: `math.log` of a double just below a power of two times `1 / log(2)` often rounds up to the integer. -/
theorem C64_consistent_partial (R : Nat → ℚ) (hR : RoundsRight R) (bits : Nat) (h : PosDouble bits) (s : Int) (j : Nat) (_h1 : s ≤ 20)
    (h2 : -10 ≤ s - j) : mapIndex R (s - j) bits = mapIndex R s bits / 2 ^ j := by
  have hsh : ∀ (x : Int) (j : Nat), x / 2 ^ j = shr x j := by intro x j; simp [shr]
  unfold mapIndex
  by_cases hs : s ≤ 0
  · rw [if_pos hs, if_pos (by omega), show (-(s - j)).toNat = (-s).toNat + j by omega]
    exact C38_shift _ _ _ h (by omega)
  · rw [if_neg hs]
    by_cases hj : s - j ≤ 0
    · rw [if_pos hj, hsh, show j = s.toNat + (-(s - j)).toNat by omega, ← shr_shr, logIndex_shr R bits _ _ le_rfl, Nat.sub_self,
        logIndex_zero R hR h, ← hsh, ← C38_shift 0 _ _ h (by omega)]
      congr 1; omega
    · rw [if_neg hj, ← C64_log_shift R _ _ _ (by omega)]
      congr 1; omega

/-- **C64** The assumption is also necessary: wherever the rounded logarithm is not the exponent, scale 1 and scale 0 disagree. -/
theorem C64_inconsistent (R : Nat → ℚ) (bits : Nat) (h : PosDouble bits) (hn : (2 : ℚ) ^ (-1022 : ℤ) < dval bits) (e : Int)
    (he : (2 : ℚ) ^ e < dval bits) (he' : dval bits < (2 : ℚ) ^ (e + 1)) (hR : min ⌊R bits⌋ 1023 ≠ e) :
    mapIndex R 0 bits ≠ mapIndex R 1 bits / 2 := by
  have hn' : bits / 2 ^ 52 ≠ 0 := fun hc => absurd ((subnormal_iff h).2 hc) (not_lt.2 hn.le)
  obtain ⟨b1, b2, b3⟩ := normal_bounds h hn'
  have hee : expo bits = e := by
    have h1 := zpow2_lt.1 (lt_of_le_of_lt b1 he')
    have h2 := zpow2_lt.1 (lt_trans he b2)
    omega
  have hm : mant bits ≠ 0 := by
    intro hc
    have := b3.2 hc
    rw [this, hee] at he
    exact lt_irrefl _ he
  have h0 : mapIndex R 1 bits / 2 = logIndex R 0 bits := by
    have := C64_log_shift R 1 1 bits le_rfl
    simp at this
    unfold mapIndex
    rw [if_neg (by omega)]
    exact this.symm
  rw [h0]
  unfold mapIndex logIndex
  rw [if_pos le_rfl, if_neg (not_le.2 hn), if_neg hm]
  simp only [neg_zero, Int.toNat_zero, pow_zero, mul_one]
  rw [expIndex_normal h hn', shr_zero]
  unfold cexp
  rw [if_neg hm, hee, add_zero]
  intro hc
  apply hR
  rw [hc]
  norm_num

/-- A rounded logarithm that is right everywhere exists: the exponent. -/
example : ∃ R, RoundsRight R := by
  refine ⟨fun b => (expo b : ℚ), ?_⟩
  intro bits h hn _ e he he'
  have hn' : bits / 2 ^ 52 ≠ 0 := fun hc => absurd ((subnormal_iff h).2 hc) (not_lt.2 hn.le)
  obtain ⟨b1, b2, _⟩ := normal_bounds h hn'
  have h1 := zpow2_lt.1 (lt_of_le_of_lt b1 he')
  have h2 := zpow2_lt.1 (lt_trans he b2)
  have hee : expo bits = e := by omega
  have := h.2
  rw [Int.floor_intCast, hee, min_eq_left]
  rw [← hee, expo_eq h]; omega

/-! ## Histograms of doubles -/

/-- A positive finite double, as a number. -/
def IsDouble (v : ℚ) : Prop := ∃ bits, PosDouble bits ∧ dval bits = v

open Classical in
/-- The bits of a positive finite double. -/
noncomputable def bitsOf (v : ℚ) : Nat := if h : IsDouble v then h.choose else 0

theorem bitsOf_spec {v : ℚ} (h : IsDouble v) : PosDouble (bitsOf v) ∧ dval (bitsOf v) = v := by
  unfold bitsOf
  rw [dif_pos h]
  exact h.choose_spec

/-- The mapping of the code, on numbers. -/
noncomputable def doubleIndex (R : Nat → ℚ) (s : Int) (v : ℚ) : Int := mapIndex R s (bitsOf v)

theorem mapIndex_low (R : Nat → ℚ) {bits : Nat} (h : PosDouble bits) : mapIndex R (-10) bits = -1 ∨ mapIndex R (-10) bits = 0 := by
  unfold mapIndex
  rw [if_pos (by omega), show (-(-10 : Int)).toNat = 10 from rfl]
  by_cases hn : bits / 2 ^ 52 = 0
  · left
    unfold expIndex
    rw [if_pos ((subnormal_iff h).2 hn)]
    decide
  · rw [expIndex_normal h hn]
    obtain ⟨h1, h2⟩ := cexp_range h hn
    have a1 := shr_mono 10 h1
    have a2 := shr_mono 10 h2
    rw [show shr (-1023) 10 = -1 by decide] at a1
    rw [show shr 1023 10 = 0 by decide] at a2
    omega

theorem doubleIndex_coherent (R : Nat → ℚ) (hR : RoundsRight R) : Coherent (doubleIndex R) IsDouble := by
  constructor
  · intro v hv s c h1 h2
    have := C64_consistent_partial R hR (bitsOf v) (bitsOf_spec hv).1 s c h1 h2
    unfold doubleIndex
    rw [this]; simp [shr]
  · intro v hv
    exact mapIndex_low R (bitsOf_spec hv).1

theorem here_sub {α : Type} (l : List (Op α)) : ∀ (since : Int) (here all : List α) (i : Nat) (c : Cycle α) (v : α),
    (cyclesFrom since here all l)[i]? = some c → v ∈ c.here → v ∈ here ∨ v ∈ measurements l := by
  induction l with
  | nil => intro since here all i c v hc; simp [cyclesFrom] at hc
  | cons o l ih =>
    intro since here all i c v hc hv
    cases o with
    | meas w =>
      rw [cyclesFrom] at hc
      have := ih _ _ _ i c v hc hv
      simp [measurements] at this ⊢
      tauto
    | coll t =>
      rw [cyclesFrom] at hc
      cases i with
      | zero => simp at hc; subst hc; exact Or.inl hv
      | succ i =>
        simp only [List.getElem?_cons_succ] at hc
        have := ih _ _ _ i c v hc hv
        simp [measurements] at this ⊢
        tauto

/-- **C64 (partial)** What both mean for a histogram, under the assumption above: in every delta point of a stream of zeros and (positive or negative) normal doubles, at a scale
`sc ≤ 0`, the positive count of bucket `i` is the number of measurements of that cycle in `(2^(i·2^-sc), 2^((i+1)·2^-sc)]`. -/
theorem C64_histogram_partial (R : Nat → ℚ) (hR : RoundsRight R) (start maxSize maxScale : Int) (s : Agg ℚ)
    (hs : Agg.new .delta start maxSize maxScale = some s) (l : List (Op ℚ))
    (hl : ∀ v ∈ measurements l, v ≠ 0 → IsDouble (mag v) ∧ (2 : ℚ) ^ (-1022 : ℤ) ≤ mag v) :
    ∃ (s' : Agg ℚ) (os : List (Outcome (Point ℚ))), run (doubleIndex R) .delta s l = some (s', os) ∧
      ∀ (i : Nat) (c : Cycle ℚ), (cycles start l)[i]? = some c → c.here ≠ [] →
        ∃ (p : Point ℚ) (sc : Int), os[i]? = some (.returned (some p)) ∧ p.scale = some sc ∧
          (sc ≤ 0 → ∀ b : Int, p.positive.at b = c.here.countP (fun v => decide ((2 : ℚ) ^ (b * 2 ^ (-sc).toNat) < v ∧ v ≤ (2 : ℚ) ^ ((b + 1) * 2 ^ (-sc).toNat)))) := by
  obtain ⟨s', os, r1, r2⟩ := C36_delta (doubleIndex_coherent R hR) start maxSize maxScale s hs l (fun v hv h0 => (hl v hv h0).1)
  refine ⟨s', os, r1, ?_⟩
  intro i c hc hne
  obtain ⟨p, sc, g1, _, _, g4, _, _⟩ := (r2 i c hc).2 hne
  refine ⟨p, sc, g1, g4.scale_eq, ?_⟩
  intro hsc b
  rw [g4.positive.each b]
  unfold positives
  rw [List.countP_filter]
  apply List.countP_congr
  intro v hv
  have hvl : v ∈ measurements l := by
    have := here_sub l start [] [] i c v hc hv
    simpa using this
  simp only [Bool.and_eq_true, beq_iff_eq, decide_eq_true_eq]
  constructor
  · rintro ⟨h1, h2⟩
    obtain ⟨d1, d2⟩ := hl v hvl (ne_of_gt h2)
    have hm : mag v = v := by unfold mag; rw [if_pos h2]
    rw [hm] at d1 d2
    obtain ⟨e1, e2⟩ := bitsOf_spec d1
    have := C38_bounds (-sc).toNat (bitsOf v) e1 (by rw [e2]; exact d2)
    rw [e2] at this
    unfold doubleIndex mapIndex at h1
    rw [if_pos hsc] at h1
    rwa [h1] at this
  · intro h
    have h2 : 0 < v := lt_trans (zpow_pos (by norm_num) _) h.1
    obtain ⟨d1, d2⟩ := hl v hvl (ne_of_gt h2)
    have hm : mag v = v := by unfold mag; rw [if_pos h2]
    rw [hm] at d1 d2
    obtain ⟨e1, e2⟩ := bitsOf_spec d1
    have := C38_bounds (-sc).toNat (bitsOf v) e1 (by rw [e2]; exact d2)
    rw [e2] at this
    refine ⟨?_, h2⟩
    unfold doubleIndex mapIndex
    rw [if_pos hsc]
    exact C38_unique _ v _ _ this h

/-! ## What inconsistency does -/

/-- The mapping of the example `idxPow`, but values `2^k - 1` get at positive scales the index of `2^k` plus one, as if their logarithm
had been rounded up to `k`; at scales up to 0 they are in the bucket below. -/
def idxRound (s : Int) (v : Int) : Int :=
  if s ≤ 0 then idxPow s v
  else if 2 ^ Nat.clog 2 v.toNat = v + 1 then (Nat.clog 2 v.toNat : Int) * 2 ^ s.toNat else idxPow s v

/-- The positive buckets of the points of a history on a fresh stream, collected as deltas: offset and counts. -/
def positiveBuckets (idx : Int → Int → Int) (maxSize maxScale : Int) (l : List (Op Int)) : List (Option (Int × List Nat)) :=
  match Agg.new .delta 0 maxSize maxScale with
  | none => []
  | some s =>
    match run idx .delta s l with
    | none => []
    | some (_, os) => os.map (fun o => match o with | .returned (some p) => some (p.positive.offset, p.positive.counts) | _ => none)

/-- **C64** (refutation of consistency from scale 1 to 0: the effect on a histogram) With at most two buckets per sign, the measurements
2, 15, 7 end at scale −1, where 2 is in bucket 0 = (1, 4] and 15 and 7 are in bucket 1 = (4, 16]. If the logarithm of 15 was rounded up to
4, all three are reported in bucket 0: the array holds three indices in two places. -/
theorem C64_misplaced :
    positiveBuckets idxPow 2 1 [.meas 2, .meas 15, .meas 7, .coll 1] = [some (0, [1, 2])] ∧
    positiveBuckets idxRound 2 1 [.meas 2, .meas 15, .meas 7, .coll 1] = [some (0, [3])] := by
  decide

end Exp
end Metrics
end Otel
