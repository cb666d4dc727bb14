import Verif.Model.TraceContext
import Verif.Lemmas.Str
import Mathlib.Tactic.Ring
/-! Hexadecimal formatting and parsing are inverse. -/
namespace Otel
open TraceContext

theorem hexDigit_spec : ∀ n, n < 16 → hexDigitVal (hexDigit n) = n ∧ isLowerHex (hexDigit n) = true := by
  decide

theorem foldl_hex (t : Str) (a : Nat) :
    t.foldl (fun acc c => acc * 16 + hexDigitVal c) a = a * 16 ^ t.length + hexVal t := by
  induction t generalizing a with
  | nil => simp [hexVal]
  | cons c t ih =>
    simp only [List.foldl_cons, List.length_cons, hexVal]
    rw [ih, ih (0 * 16 + hexDigitVal c)]; ring

theorem hexVal_append (s t : Str) : hexVal (s ++ t) = hexVal s * 16 ^ t.length + hexVal t := by
  unfold hexVal
  rw [List.foldl_append, foldl_hex]; rfl

theorem hexVal_zeros (n : Nat) : hexVal (List.replicate n '0') = 0 := by
  induction n with
  | zero => rfl
  | succ n ih =>
    rw [List.replicate_succ', hexVal_append, ih]; decide

theorem hexVal_singleton (c : Char) : hexVal [c] = hexDigitVal c := by simp [hexVal]

theorem hexDigitVal_lt (c : Char) : hexDigitVal c < 16 := by
  unfold hexDigitVal isDig
  split
  · rename_i h; rw [inRange_iff] at h; omega
  · split
    · rename_i h; rw [inRange_iff] at h; omega
    · split
      · rename_i h; rw [inRange_iff] at h; omega
      · omega

theorem hexVal_lt (s : Str) : hexVal s < 16 ^ s.length := by
  induction s with
  | nil => simp [hexVal]
  | cons c s ih =>
    have : hexVal (c :: s) = hexDigitVal c * 16 ^ s.length + hexVal s := by
      rw [show c :: s = [c] ++ s from rfl, hexVal_append, hexVal_singleton]
    rw [this, List.length_cons, Nat.pow_succ]
    have h1 := hexDigitVal_lt c
    have h2 : hexDigitVal c * 16 ^ s.length ≤ 15 * 16 ^ s.length := Nat.mul_le_mul_right _ (by omega)
    omega

theorem hexVal_toHexAux (fuel n : Nat) (h : n < 16 ^ (fuel + 1)) :
    hexVal (toHexAux fuel n) = n ∧ (∀ c ∈ toHexAux fuel n, isLowerHex c = true) := by
  induction fuel generalizing n with
  | zero =>
    simp at h
    have := hexDigit_spec n h
    simp [toHexAux, hexVal_singleton, Nat.mod_eq_of_lt h, this]
  | succ fuel ih =>
    simp only [toHexAux]
    split
    · rename_i h2; have := hexDigit_spec n h2; simp [hexVal_singleton, this]
    · have h3 : n / 16 < 16 ^ (fuel + 1) := by
        rw [Nat.div_lt_iff_lt_mul (by decide)]; rw [Nat.pow_succ] at h; exact h
      have h4 := hexDigit_spec (n % 16) (Nat.mod_lt _ (by decide))
      obtain ⟨i1, i2⟩ := ih _ h3
      constructor
      · rw [hexVal_append, i1, hexVal_singleton, h4.1]; simp; omega
      · intro c hc
        rcases List.mem_append.mp hc with hc | hc
        · exact i2 c hc
        · simp at hc; rw [hc]; exact h4.2

theorem length_toHexAux (fuel n w : Nat) (hw : 0 < w) (h : n < 16 ^ w) : (toHexAux fuel n).length ≤ w := by
  induction fuel generalizing n w with
  | zero => simp [toHexAux]; omega
  | succ fuel ih =>
    simp only [toHexAux]
    split
    · simp; omega
    · rename_i h2
      cases w with
      | zero => omega
      | succ w =>
        cases w with
        | zero => simp at h; omega
        | succ w =>
          have : n / 16 < 16 ^ (w + 1) := by
            rw [Nat.div_lt_iff_lt_mul (by decide)]; rw [Nat.pow_succ] at h; exact h
          have := ih (n / 16) (w + 1) (by omega) this
          simp; omega

theorem toHex_spec (n : Nat) : hexVal (toHex n) = n ∧ (∀ c ∈ toHex n, isLowerHex c = true) := by
  apply hexVal_toHexAux
  have h1 : n < 2 ^ (n.log2 + 1) := Nat.lt_log2_self
  have h2 : 2 ^ (n.log2 + 1) ≤ 16 ^ (n.log2 + 1) := Nat.pow_le_pow_left (by decide) _
  have h3 : 16 ^ (n.log2 + 1) ≤ 16 ^ (n.log2 + 1 + 1) := Nat.pow_le_pow_right (by decide) (by omega)
  omega

theorem hexFmt_spec (w n : Nat) (hw : 0 < w) (h : n < 16 ^ w) :
    hexVal (hexFmt w (n : Int)) = n ∧ (hexFmt w (n : Int)).length = w ∧
    (∀ c ∈ hexFmt w (n : Int), isLowerHex c = true) := by
  have e : hexFmt w (n : Int) = zeroPad w (toHex n) := rfl
  have hl : (toHex n).length ≤ w := length_toHexAux _ _ _ hw h
  obtain ⟨h1, h2⟩ := toHex_spec n
  rw [e]; unfold zeroPad
  refine ⟨?_, ?_, ?_⟩
  · rw [hexVal_append, hexVal_zeros, h1]; simp
  · simp; omega
  · intro c hc
    rcases List.mem_append.mp hc with hc | hc
    · rw [(List.mem_replicate.mp hc).2]; decide
    · exact h2 c hc

theorem hexFmt_inj (w n m : Nat) (hw : 0 < w) (hn : n < 16 ^ w) (hm : m < 16 ^ w)
    (h : hexFmt w (n : Int) = hexFmt w (m : Int)) : n = m := by
  have h1 := (hexFmt_spec w n hw hn).1
  rw [h, (hexFmt_spec w m hw hm).1] at h1; exact h1.symm

theorem takeHex_append (s t : Str) (h : ∀ c ∈ s, isLowerHex c = true) :
    takeHex s.length (s ++ t) = some (s, t) := by
  induction s with
  | nil => cases t <;> rfl
  | cons c s ih =>
    simp only [List.length_cons, List.cons_append, takeHex, h c (by simp), if_true,
      ih (fun c hc => h c (by simp [hc]))]
    rfl

theorem takeHex_some (n : Nat) (s u v : Str) (h : takeHex n s = some (u, v)) :
    s = u ++ v ∧ u.length = n ∧ ∀ c ∈ u, isLowerHex c = true := by
  induction n generalizing s u with
  | zero => simp [takeHex] at h; obtain ⟨rfl, rfl⟩ := h; simp
  | succ n ih =>
    cases s with
    | nil => simp [takeHex] at h
    | cons c s =>
      simp only [takeHex] at h
      split at h
      · rename_i hc
        cases hq : takeHex n s with
        | none => simp [hq] at h
        | some q =>
          obtain ⟨u', v'⟩ := q
          simp only [hq, Option.map_some, Option.some.injEq, Prod.mk.injEq] at h
          obtain ⟨h1, h2⟩ := h
          subst h1 h2
          obtain ⟨i1, i2, i3⟩ := ih s u' hq
          refine ⟨by simp [← i1], by simp [i2], ?_⟩
          intro d hd
          rcases List.mem_cons.mp hd with rfl | hd
          · exact hc
          · exact i3 d hd
      · simp at h

/-- A string of lower-case hex digits with value zero consists of zeros only. -/
theorem hexVal_eq_zero (s : Str) (h : ∀ c ∈ s, isLowerHex c = true) :
    hexVal s = 0 ↔ s = List.replicate s.length '0' := by
  induction s with
  | nil => simp [hexVal]
  | cons c s ih =>
    have e : hexVal (c :: s) = hexDigitVal c * 16 ^ s.length + hexVal s := by
      rw [show c :: s = [c] ++ s from rfl, hexVal_append, hexVal_singleton]
    have ih' := ih (fun c hc => h c (by simp [hc]))
    have hc := h c (by simp)
    have hz : hexDigitVal c = 0 ↔ c = '0' := by
      unfold isLowerHex isDig at hc
      unfold hexDigitVal isDig
      rw [char_eq_iff]
      show _ ↔ _ = 48
      simp only [Bool.or_eq_true, inRange_iff] at hc
      split
      · rename_i h2; rw [inRange_iff] at h2; omega
      · rename_i h2; rw [inRange_iff] at h2
        split
        · rename_i h3; rw [inRange_iff] at h3; omega
        · rename_i h3; rw [inRange_iff] at h3; omega
    rw [e, List.length_cons, List.replicate_succ, List.cons.injEq, ← ih', ← hz]
    constructor
    · intro h0
      have h1 : hexVal s = 0 := by omega
      have h2 : hexDigitVal c * 16 ^ s.length = 0 := by omega
      rcases Nat.mul_eq_zero.mp h2 with h2 | h2
      · exact ⟨h2, h1⟩
      · exact absurd h2 (Nat.pos_iff_ne_zero.mp (Nat.pow_pos (by decide)))
    · rintro ⟨h1, h2⟩; simp [h1, h2]

end Otel
