import Verif.Lemmas.Jaeger
import Mathlib.Tactic.SplitIfs
/-!
# C87: formatting of ids
-/
namespace Otel
open TraceContext

/-- `text` is `n` in base 16: a minus sign if `n` is negative, lower-case digits that are worth `|n|`, padded with zeros to the width `w`
(which the sign counts for) and to no more than is needed. -/
structure HexOf (w : Nat) (n : Int) (text : Str) : Prop where
  shape : ∃ digits : Str, text = (if n < 0 then ['-'] else []) ++ digits ∧ digits ≠ [] ∧ (∀ c ∈ digits, isLowerHex c = true) ∧
    hexVal digits = n.natAbs
  wide : w ≤ text.length
  short : ∀ k, w ≤ k → n.natAbs < 16 ^ (if n < 0 then k - 1 else k) → text.length ≤ k

theorem zeroPad_spec (w n : Nat) (hw : 0 < w) : (∀ c ∈ zeroPad w (toHex n), isLowerHex c = true) ∧ hexVal (zeroPad w (toHex n)) = n ∧
    zeroPad w (toHex n) ≠ [] ∧ w ≤ (zeroPad w (toHex n)).length ∧ ∀ k, w ≤ k → n < 16 ^ k → (zeroPad w (toHex n)).length ≤ k := by
  refine ⟨zeroPad_lower w n, ?_, hexFmt_ne_nil w n, ?_, ?_⟩
  · exact hexVal_hexFmt w n
  · simp only [zeroPad, List.length_append, List.length_replicate]; omega
  · intro k hk hn
    have : (toHex n).length ≤ k := length_toHexAux _ _ _ (by omega) hn
    simp only [zeroPad, List.length_append, List.length_replicate]; omega

theorem hexFmt_hexOf (w : Nat) (hw : 1 < w) (n : Int) : HexOf w n (hexFmt w n) := by
  cases n with
  | ofNat n =>
    obtain ⟨h1, h2, h3, h4, h5⟩ := zeroPad_spec w n (by omega)
    have hn : ¬ (Int.ofNat n < 0) := by simp
    refine ⟨⟨_, by rw [if_neg hn]; rfl, h3, h1, by rw [h2]; rfl⟩, h4, ?_⟩
    intro k hk hl
    rw [if_neg hn] at hl
    exact h5 k hk hl
  | negSucc n =>
    obtain ⟨h1, h2, h3, h4, h5⟩ := zeroPad_spec (w - 1) (n + 1) (by omega)
    have hn : Int.negSucc n < 0 := Int.negSucc_lt_zero n
    refine ⟨⟨_, by rw [if_pos hn]; rfl, h3, h1, by rw [h2]; rfl⟩, ?_, ?_⟩
    · simp only [hexFmt, List.length_cons]; omega
    · intro k hk hl
      rw [if_pos hn] at hl
      have := h5 (k - 1) (by omega) hl
      simp only [hexFmt, List.length_cons]; omega

/-- **C87** For every integer, `format_trace_id` gives its base-16 text padded to 32 characters and `format_span_id` to 16. -/
theorem C87_format (n : Int) : HexOf 32 n (formatTraceId n) ∧ HexOf 16 n (formatSpanId n) :=
  ⟨hexFmt_hexOf 32 (by decide) n, hexFmt_hexOf 16 (by decide) n⟩

/-- **C87** An id in the valid range gets exactly the full width, without a sign. -/
theorem C87_width (w : Nat) (n : Int) (text : Str) (h : HexOf w n text) (h0 : 0 ≤ n) (h1 : n < 16 ^ w) :
    text.length = w ∧ ∀ c ∈ text, isLowerHex c = true := by
  have hn : ¬ n < 0 := by omega
  refine ⟨?_, ?_⟩
  · have := h.wide
    have := h.short w (Nat.le_refl _) (by
      rw [if_neg hn]
      obtain ⟨m, rfl⟩ := Int.eq_ofNat_of_zero_le h0
      simp only [Int.natAbs_natCast]
      exact_mod_cast h1)
    omega
  · obtain ⟨d, e, _, hd, _⟩ := h.shape
    rw [if_neg hn] at e
    rw [e]; exact hd

/-- **C87** Different ids have different texts. -/
theorem C87_injective (w w' : Nat) (n m : Int) (text : Str) (hn : HexOf w n text) (hm : HexOf w' m text) : n = m := by
  obtain ⟨d, e, dn, hd, hv⟩ := hn.shape
  obtain ⟨d', e', dn', hd', hv'⟩ := hm.shape
  have no : ∀ d : Str, (∀ c ∈ d, isLowerHex c = true) → ∀ t : Str, d ≠ '-' :: t := by
    rintro d hd t rfl
    exact absurd (hd '-' (by simp)) (by decide)
  rw [e] at e'
  split_ifs at e' with h1 h2 h2
  · simp only [List.cons_append, List.nil_append, List.cons.injEq, true_and] at e'
    rw [e', hv'] at hv; omega
  · exact absurd e'.symm (no d' hd' d)
  · exact absurd e' (no d hd d')
  · simp only [List.nil_append] at e'
    rw [e', hv'] at hv; omega

/-- **C87** `format_trace_id` and `format_span_id` never give the same text to two ids. -/
theorem C87_ids_injective (n m : Int) : (formatTraceId n = formatTraceId m → n = m) ∧ (formatSpanId n = formatSpanId m → n = m) :=
  ⟨fun h => C87_injective _ _ _ _ _ (C87_format n).1 (h ▸ (C87_format m).1),
    fun h => C87_injective _ _ _ _ _ (C87_format n).2 (h ▸ (C87_format m).2)⟩

example : formatSpanId (-0x1f) = "-00000000000001f".toList ∧ formatSpanId 0x123456789abcdef01 = "123456789abcdef01".toList ∧
    formatSpanId 0 = "0000000000000000".toList := by decide

end Otel
