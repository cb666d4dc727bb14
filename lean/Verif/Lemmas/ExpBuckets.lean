import Verif.Model.ExpHist
import Mathlib.Tactic.ByContra
import Mathlib.Tactic.Linarith
import Mathlib.Algebra.Order.Group.Int
/-!
# The bucket array of an exponential histogram
`Holds b M`: the array `b` represents the multiset `M` of bucket indices.
-/
namespace Otel
namespace Metrics
namespace Exp

/-! ## Shifts -/

theorem shr_mono (k : Nat) {x y : Int} (h : x ≤ y) : shr x k ≤ shr y k := by
  unfold shr
  exact Int.ediv_le_ediv (by positivity) h

theorem shr_zero (x : Int) : shr x 0 = x := by simp [shr]

theorem shr_shr (x : Int) (a b : Nat) : shr (shr x a) b = shr x (a + b) := by
  unfold shr
  rw [Int.ediv_ediv_of_nonneg (by positivity)]
  push_cast
  rw [pow_add]

theorem shr_zero_left (k : Nat) : shr 0 k = 0 := by simp [shr]

theorem shr_iff (x y : Int) (k : Nat) : shr x k = y ↔ y * 2 ^ k ≤ x ∧ x < (y + 1) * 2 ^ k := by
  have hp : (0 : Int) < ((2 ^ k : Nat) : Int) := by positivity
  unfold shr
  constructor
  · rintro rfl
    have h1 := Int.ediv_mul_le x (Int.ne_of_gt hp)
    have h2 := Int.lt_ediv_add_one_mul_self x hp
    push_cast at h1 h2 ⊢
    exact ⟨h1, h2⟩
  · rintro ⟨h1, h2⟩
    have a : y ≤ x / ((2 ^ k : Nat) : Int) := (Int.le_ediv_iff_mul_le hp).2 (by push_cast; exact h1)
    have b : x / ((2 ^ k : Nat) : Int) < y + 1 := (Int.ediv_lt_iff_lt_mul hp).2 (by push_cast; exact h2)
    omega

/-- A shifted distance is at most the distance. -/
theorem shr_sub_le (k : Nat) (s : Int) (j : Nat) : shr (s + j) k - shr s k ≤ j := by
  induction j with
  | zero => simp
  | succ j ih =>
    have hp : (0 : Int) < ((2 ^ k : Nat) : Int) := by positivity
    have : shr (s + (j + 1 : Nat)) k ≤ shr (s + j) k + 1 := by
      unfold shr
      have : (s + (j + 1 : Nat)) ≤ (s + j) + ((2 ^ k : Nat) : Int) := by
        rw [Nat.cast_add, Nat.cast_one]; omega
      calc (s + (j + 1 : Nat)) / ((2 ^ k : Nat) : Int) ≤ ((s + j) + ((2 ^ k : Nat) : Int)) / ((2 ^ k : Nat) : Int) :=
            Int.ediv_le_ediv hp this
        _ = _ := by rw [Int.add_ediv_of_dvd_right (dvd_refl _), Int.ediv_self (Int.ne_of_gt hp)]
    push_cast at *
    omega

namespace Buckets

/-- Position of bucket index `x` in the array. -/
def posOf (b : Buckets) (x : Int) : Nat :=
  (if x < b.base then x - b.base + b.counts.length else x - b.base).toNat

/-- The array represents the indices `M`. -/
structure Holds (b : Buckets) (M : List Int) : Prop where
  sb : b.start ≤ b.base
  bs : b.base ≤ b.stop
  len : b.stop - b.start < b.counts.length
  mem : ∀ x ∈ M, b.start ≤ x ∧ x ≤ b.stop
  val : ∀ x, b.start ≤ x → x < b.start + b.counts.length → b.counts.getD (b.posOf x) 0 = M.count x

theorem holds_new : Holds new [] := by
  constructor <;> simp [new]
  intro x h1 h2
  obtain rfl : x = 0 := by omega
  rfl

theorem Holds.count_out {b : Buckets} {M : List Int} (h : Holds b M) {x : Int} (hx : x < b.start ∨ b.stop < x) : M.count x = 0 := by
  rw [List.count_eq_zero]
  intro hm
  have := h.mem x hm
  omega

theorem Holds.perm {b : Buckets} {M N : List Int} (h : Holds b M) (e : ∀ x, N.count x = M.count x) : Holds b N := by
  refine ⟨h.sb, h.bs, h.len, ?_, ?_⟩
  · intro x hx
    apply h.mem
    rw [← List.count_pos_iff] at hx ⊢
    rw [← e]; exact hx
  · intro x h1 h2; rw [e]; exact h.val x h1 h2

theorem Holds.copyEmpty {b : Buckets} {M : List Int} (h : Holds b M) : Holds b.copyEmpty [] := by
  refine ⟨h.sb, h.bs, by simpa [Buckets.copyEmpty] using h.len, by simp, ?_⟩
  intro x _ _
  simp only [Buckets.copyEmpty, List.count_nil]
  rw [List.getD_eq_getElem?_getD, List.getElem?_replicate]
  split <;> rfl

theorem Holds.offset_length {b : Buckets} : b.offsetCounts.length = b.counts.length := by
  simp [offsetCounts]

theorem Holds.offset {b : Buckets} {M : List Int} (h : Holds b M) (j : Nat) (hj : j < b.counts.length) :
    b.offsetCounts.getD j 0 = M.count (b.start + j) := by
  have h1 := h.sb; have h2 := h.bs; have h3 := h.len
  rw [← h.val (b.start + j) (by omega) (by omega)]
  have hb : (b.bias : Int) = b.base - b.start := by simp [bias]; omega
  rw [List.getD_eq_getElem?_getD, List.getD_eq_getElem?_getD]
  congr 1
  unfold offsetCounts posOf
  rw [List.getElem?_append]
  by_cases hc : j < b.bias
  · rw [if_pos (by simp; omega), if_pos (by omega), List.getElem?_drop]
    congr 1; omega
  · rw [if_neg (by simp; omega), if_neg (by omega), List.getElem?_take, if_pos (by simp; omega)]
    congr 1; simp; omega

theorem Holds.offset_eq {b : Buckets} {M : List Int} (h : Holds b M) :
    b.offsetCounts = (List.range b.counts.length).map (fun (j : Nat) => M.count (b.start + j)) := by
  apply List.ext_getElem?
  intro j
  by_cases hj : j < b.counts.length
  · have h1 := h.offset j hj
    rw [List.getD_eq_getElem?_getD] at h1
    rw [List.getElem?_eq_getElem (by rw [Holds.offset_length]; exact hj)] at h1 ⊢
    simp [hj] at h1 ⊢
    exact h1
  · rw [List.getElem?_eq_none (by rw [Holds.offset_length]; omega), List.getElem?_eq_none (by simp; omega)]

/-! ### grow -/

theorem newSize_ge (needed maxSize : Nat) (h : needed ≤ maxSize) : needed ≤ Nat.min (2 ^ Nat.clog 2 needed) maxSize := by
  have := Nat.le_pow_clog (b := 2) (by omega) needed
  exact Nat.le_min.2 ⟨this, h⟩

theorem Holds.grow {b : Buckets} {M : List Int} (h : Holds b M) (needed maxSize : Nat) (hn : b.counts.length ≤ needed)
    (hm : needed ≤ maxSize) :
    Holds (b.grow needed maxSize) M ∧ needed ≤ (b.grow needed maxSize).counts.length ∧
    (b.grow needed maxSize).counts.length ≤ maxSize := by
  have h1 := h.sb; have h2 := h.bs; have h3 := h.len
  have hb : (b.bias : Int) = b.base - b.start := by simp [bias]; omega
  have hN := newSize_ge needed maxSize hm
  have hM : Nat.min (2 ^ Nat.clog 2 needed) maxSize ≤ maxSize := Nat.min_le_right _ _
  have key : (b.grow needed maxSize) = { b with counts := b.counts.take (b.counts.length - b.bias) ++
      (List.replicate (Nat.min (2 ^ Nat.clog 2 needed) maxSize - b.counts.length) 0 ++ b.counts.drop (b.counts.length - b.bias)) } := by
    unfold Buckets.grow
    simp only
    congr 1
    generalize Nat.min (2 ^ Nat.clog 2 needed) maxSize = N at *
    rw [List.take_replicate, List.drop_append, List.drop_replicate, List.length_replicate]
    congr 2
    · congr 1; omega
    · rw [show b.counts.length - b.bias - min (N - b.bias) N = 0 by omega]; rfl
  rw [key]
  generalize Nat.min (2 ^ Nat.clog 2 needed) maxSize = N at *
  have hl : (b.counts.take (b.counts.length - b.bias) ++
      (List.replicate (N - b.counts.length) 0 ++ b.counts.drop (b.counts.length - b.bias))).length = N := by
    simp; omega
  refine ⟨⟨h1, h2, ?_, h.mem, ?_⟩, ?_, ?_⟩
  · simp only [hl]; omega
  · intro x hx1 hx2
    simp only [hl, posOf] at hx2 ⊢
    change b.start ≤ x at hx1
    change x < b.start + N at hx2
    rw [List.getD_eq_getElem?_getD]
    by_cases hc : x < b.base
    · rw [if_pos hc, ← h.val x hx1 (by omega), List.getD_eq_getElem?_getD]
      congr 1
      rw [List.getElem?_append_right (by simp; omega), List.getElem?_append_right (by simp; omega), List.getElem?_drop]
      simp only [posOf, if_pos hc]
      congr 1
      simp; omega
    · rw [if_neg hc]
      by_cases hd : x < b.start + b.counts.length
      · rw [← h.val x hx1 hd, List.getD_eq_getElem?_getD]
        congr 1
        rw [List.getElem?_append_left (by simp; omega), List.getElem?_take, if_pos (by omega)]
        simp only [posOf, if_neg hc]
      · rw [h.count_out (Or.inr (by omega))]
        rw [List.getElem?_append_right (by simp; omega), List.getElem?_append_left (by simp; omega), List.getElem?_replicate]
        split <;> rfl
  · rw [hl]; exact hN
  · rw [hl]; exact hM

/-! ### extend and add -/

theorem Holds.setStart {b : Buckets} {M : List Int} (h : Holds b M) (i : Int) (hi : i ≤ b.start) (hs : b.stop - i < b.counts.length) :
    Holds { b with start := i } M := by
  have h1 := h.sb; have h2 := h.bs; have h3 := h.len
  refine ⟨by simp; omega, h2, hs, ?_, ?_⟩
  · intro x hx; have := h.mem x hx; simp; omega
  · intro x hx1 hx2
    simp only [posOf] at hx1 hx2 ⊢
    by_cases hc : x < b.start
    · rw [h.count_out (Or.inl hc), if_pos (by omega)]
      have := h.val (x + b.counts.length) (by omega) (by omega)
      rw [h.count_out (Or.inr (by omega))] at this
      refine Eq.trans ?_ this
      simp only [posOf]
      rw [if_neg (by omega)]
      congr 1; omega
    · exact h.val x (by omega) (by omega)

theorem Holds.setStop {b : Buckets} {M : List Int} (h : Holds b M) (i : Int) (hi : b.stop ≤ i) (hs : i - b.start < b.counts.length) :
    Holds { b with stop := i } M := by
  have h1 := h.sb; have h2 := h.bs; have h3 := h.len
  refine ⟨h1, by simp; omega, hs, ?_, ?_⟩
  · intro x hx; have := h.mem x hx; simp; omega
  · intro x hx1 hx2; exact h.val x hx1 hx2

/-- Extending keeps the indices; the new range is the hull. -/
theorem Holds.extend {b : Buckets} {M : List Int} (h : Holds b M) (i : Int) (maxSize : Nat) (hl : b.counts.length ≤ maxSize)
    (h1 : b.stop - i < maxSize) (h2 : i - b.start < maxSize) :
    Holds (b.extend i maxSize) M ∧ (b.extend i maxSize).counts.length ≤ maxSize ∧
    (b.extend i maxSize).start = min b.start i ∧ (b.extend i maxSize).stop = max b.stop i := by
  have hsb := h.sb; have hbs := h.bs; have hlen := h.len
  unfold Buckets.extend
  by_cases hc : i < b.start
  · rw [if_pos hc]
    simp only
    by_cases hg : b.stop - i ≥ b.counts.length
    · rw [if_pos hg]
      obtain ⟨g1, g2, g3⟩ := h.grow (b.stop - i + 1).toNat maxSize (by omega) (by omega)
      refine ⟨g1.setStart i (by show i ≤ b.start; omega) (by show b.stop - i < _; omega), g3, ?_, ?_⟩
      · simp; omega
      · show b.stop = _; omega
    · rw [if_neg hg]
      refine ⟨h.setStart i (by omega) (by omega), hl, ?_, ?_⟩
      · simp; omega
      · simp; omega
  · rw [if_neg hc]
    by_cases hd : i > b.stop
    · rw [if_pos hd]
      simp only
      by_cases hg : i - b.start ≥ b.counts.length
      · rw [if_pos hg]
        obtain ⟨g1, g2, g3⟩ := h.grow (i - b.start + 1).toNat maxSize (by omega) (by omega)
        refine ⟨g1.setStop i (by show b.stop ≤ i; omega) (by show i - b.start < _; omega), g3, ?_, ?_⟩
        · show b.start = _; omega
        · simp; omega
      · rw [if_neg hg]
        refine ⟨h.setStop i (by omega) (by omega), hl, ?_, ?_⟩
        · simp; omega
        · simp; omega
    · rw [if_neg hd]
      exact ⟨h, hl, by omega, by omega⟩

theorem posOf_inj {b : Buckets} {M : List Int} (h : Holds b M) {x y : Int} (hx : b.start ≤ x) (hx' : x < b.start + b.counts.length)
    (hy : b.start ≤ y) (hy' : y < b.start + b.counts.length) (e : b.posOf x = b.posOf y) : x = y := by
  have h1 := h.sb; have h2 := h.bs; have h3 := h.len
  unfold posOf at e
  split at e <;> split at e <;> omega

theorem posOf_lt {b : Buckets} {M : List Int} (h : Holds b M) {x : Int} (hx : b.start ≤ x) (hx' : x < b.start + b.counts.length) :
    b.posOf x < b.counts.length := by
  have h1 := h.sb; have h2 := h.bs; have h3 := h.len
  unfold posOf
  split <;> omega

/-- Adding at an index in range succeeds and adds the index. -/
theorem Holds.add {b : Buckets} {M : List Int} (h : Holds b M) (i : Int) (k : Nat) (h1 : b.start ≤ i) (h2 : i ≤ b.stop) :
    ∃ b', b.add i k = some b' ∧ Holds b' (List.replicate k i ++ M) ∧ b'.counts.length = b.counts.length ∧ b'.start = b.start ∧
      b'.stop = b.stop := by
  have hsb := h.sb; have hbs := h.bs; have hlen := h.len
  have hp : b.posOf i < b.counts.length := posOf_lt h h1 (by omega)
  have e : b.add i k = some { b with counts := b.counts.modify (b.posOf i) (· + k) } := by
    unfold Buckets.add incAt
    by_cases hc : i < b.base
    · have hneg : i - b.base < 0 := by omega
      simp only [if_pos hneg]
      rw [if_pos (by omega), if_pos (by omega)]
      congr 3
      unfold posOf; rw [if_pos hc]
    · have hneg : ¬ i - b.base < 0 := by omega
      simp only [if_neg hneg]
      rw [if_pos (by omega), if_pos (by omega)]
      congr 3
      unfold posOf; rw [if_neg hc]
  refine ⟨_, e, ⟨hsb, hbs, by simpa using hlen, ?_, ?_⟩, by simp, rfl, rfl⟩
  · intro x hx
    rw [List.mem_append] at hx
    rcases hx with hx | hx
    · rw [List.eq_of_mem_replicate hx]; exact ⟨h1, h2⟩
    · exact h.mem x hx
  · intro x hx1 hx2
    simp only [List.length_modify] at hx2
    have hpos : Buckets.posOf { b with counts := b.counts.modify (b.posOf i) (· + k) } x = b.posOf x := by simp [posOf]
    rw [hpos, List.getD_eq_getElem?_getD, List.getElem?_modify, List.count_append, List.count_replicate, ← h.val x hx1 hx2,
      List.getD_eq_getElem?_getD, List.getElem?_eq_getElem (posOf_lt h hx1 hx2)]
    by_cases hxi : i = x
    · subst hxi
      simp [Nat.add_comm]
    · have hne : ¬ b.posOf i = b.posOf x := fun e => hxi (posOf_inj h h1 (by omega) hx1 hx2 e)
      simp [hne, hxi]

end Buckets
end Exp
end Metrics
end Otel
