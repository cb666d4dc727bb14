import Verif.Lemmas.B3Jaeger
/-! Helper lemmas for the Jaeger propagator. -/
namespace Otel
open TraceContext

theorem lowerHex_ne (c d : Char) (h : isLowerHex c = true) (hd : isLowerHex d = false) : c ≠ d := by
  rintro rfl; rw [h] at hd; cases hd

theorem intDigits_hex (U : DigitTable) (s : Str) (h : ∀ c ∈ s, isLowerHex c = true) (pd : Bool) (a : Nat)
    (hne : pd = true ∨ s ≠ []) :
    intDigits U pd a s = some (s.foldl (fun acc c => acc * 16 + hexDigitVal c) a) := by
  induction s generalizing pd a with
  | nil =>
    rcases hne with h | h
    · simp [intDigits, h]
    · exact absurd rfl h
  | cons c cs ih =>
    have hc := h c (by simp)
    simp only [intDigits, hexDigit?_lower U c hc, if_neg (lowerHex_ne c '_' hc (by decide)), List.foldl_cons]
    exact ih (fun c hc => h c (List.mem_cons_of_mem _ hc)) true _ (Or.inl rfl)

theorem intBody_hex (U : DigitTable) (s : Str) (h : ∀ c ∈ s, isLowerHex c = true) (hne : s ≠ []) :
    intBody U s = some (hexVal s) := by
  have key : intDigits U false 0 s = some (hexVal s) := intDigits_hex U s h false 0 (Or.inr hne)
  unfold intBody
  split
  · exact absurd (h 'x' (by simp)) (by decide)
  · exact absurd (h 'X' (by simp)) (by decide)
  · exact absurd (h 'x' (by simp)) (by decide)
  · exact absurd (h 'X' (by simp)) (by decide)
  · exact key

theorem lowerHex_not_space (c : Char) (h : isLowerHex c = true) : isPySpace c = false := by
  simp only [isLowerHex, isDig, Bool.or_eq_true, inRange_iff] at h
  rw [Bool.eq_false_iff]
  intro hc
  simp only [isPySpace, Bool.or_eq_true, inRange_iff, beq_iff_eq] at hc
  omega

theorem pyStrip_hex (s : Str) (h : ∀ c ∈ s, isLowerHex c = true) : pyStrip s = s :=
  stripBy_eq_self _ _ (fun c hc => lowerHex_not_space c (h c (List.mem_of_mem_head? hc)))
    (fun c hc => lowerHex_not_space c (h c (List.mem_of_mem_getLast? hc)))

theorem pyInt16_hex (U : DigitTable) (s : Str) (h : ∀ c ∈ s, isLowerHex c = true) (hne : s ≠ []) :
    pyInt16 U s = some (hexVal s : Int) := by
  unfold pyInt16
  rw [pyStrip_hex s h]
  split
  · exact absurd (h '-' (by simp)) (by decide)
  · exact absurd (h '+' (by simp)) (by decide)
  · rw [intBody_hex U s h hne]; rfl

theorem toHex_lower (n : Nat) : ∀ c ∈ toHex n, isLowerHex c = true := (toHex_spec n).2

theorem zeroPad_lower (w n : Nat) : ∀ c ∈ zeroPad w (toHex n), isLowerHex c = true := by
  intro c hc
  simp only [zeroPad, List.mem_append, List.mem_replicate] at hc
  rcases hc with ⟨_, rfl⟩ | hc
  · decide
  · exact toHex_lower n c hc

theorem hexFmt_chars (w : Nat) (n : Int) : ∀ c ∈ hexFmt w n, isLowerHex c = true ∨ c = '-' := by
  intro c hc
  cases n with
  | ofNat n => exact Or.inl (zeroPad_lower w n c hc)
  | negSucc n =>
    simp only [hexFmt, List.mem_cons] at hc
    rcases hc with h | h
    · exact Or.inr h
    · exact Or.inl (zeroPad_lower _ _ c h)

theorem hexFmt_no_colon (w : Nat) (n : Int) : ':' ∉ hexFmt w n := by
  intro h
  rcases hexFmt_chars w n _ h with h | h
  · exact absurd h (by decide)
  · exact absurd h (by decide)

theorem toHexAux_ne_nil (f n : Nat) : toHexAux f n ≠ [] := by
  cases f with
  | zero => simp [toHexAux]
  | succ f => unfold toHexAux; split <;> simp

theorem hexFmt_ne_nil (w n : Nat) : hexFmt w (Int.ofNat n) ≠ [] := by
  simp only [hexFmt, zeroPad, ne_eq, List.append_eq_nil_iff, not_and]
  intro _; exact toHexAux_ne_nil _ _

/-- A zero-padded hexadecimal number of any size reads back. -/
theorem hexVal_hexFmt (w n : Nat) : hexVal (hexFmt w (Int.ofNat n)) = n := by
  simp only [hexFmt, zeroPad, hexVal_append, hexVal_zeros, (toHex_spec n).1]; simp

theorem pyInt16_hexFmt (U : DigitTable) (w n : Nat) : pyInt16 U (hexFmt w (Int.ofNat n)) = some (n : Int) := by
  rw [pyInt16_hex U (hexFmt w (Int.ofNat n)) (zeroPad_lower w n) (hexFmt_ne_nil w n), hexVal_hexFmt]

namespace Jaeger

theorem removeGo_skip (pat : Str) (a b : Str) : removeGo pat a.length (a ++ b) = removeGo pat 0 b := by
  induction a with
  | nil => rfl
  | cons c cs ih => simp [removeGo, ih]

theorem removeGo_none (pat s : Str) (h : ¬ pat <:+: s) : removeGo pat 0 s = s := by
  induction s with
  | nil => rfl
  | cons c cs ih =>
    have h1 : pat.isPrefixOf (c :: cs) = false := by
      rw [Bool.eq_false_iff]; intro hp
      exact h (List.isPrefixOf_iff_prefix.mp hp).isInfix
    simp only [removeGo, h1]
    rw [ih (fun hi => h (hi.trans (List.suffix_cons c cs).isInfix))]
    rfl

theorem removeGo_prefix (s : Str) (h : ¬ prefixText <:+: s) : removeGo prefixText 0 (prefixText ++ s) = s := by
  have e : prefixText = 'u' :: "berctx-".toList := by decide
  have hp : prefixText.isPrefixOf ('u' :: ("berctx-".toList ++ s)) = true := by
    rw [List.isPrefixOf_iff_prefix]; exact ⟨s, by rw [e]; rfl⟩
  have : prefixText ++ s = 'u' :: ("berctx-".toList ++ s) := by rw [e]; rfl
  rw [this, removeGo, if_pos hp, show prefixText.length - 1 = ("berctx-".toList).length from by decide, removeGo_skip]
  exact removeGo_none _ _ h

/-- The carrier after injecting into an empty one. -/
theorem inject_puts (base : Carrier) (d : Dict Str Str) (hn : d.keys.Nodup)
    (hb : ∀ kv ∈ d, prefixText ++ kv.1 ∉ base.keys) :
    d.foldl (fun (c : Carrier) kv => c.put (prefixText ++ kv.1) (Url.quote kv.2)) base =
      base ++ d.map (fun kv => (prefixText ++ kv.1, [Url.quote kv.2])) := by
  induction d generalizing base with
  | nil => simp
  | cons kv d ih =>
    simp only [List.foldl_cons, List.map_cons, Carrier.put]
    rw [Dict.set_of_not_mem _ _ _ (hb kv (by simp))]
    simp only [Dict.keys_cons, List.nodup_cons] at hn
    have := ih (base ++ [(prefixText ++ kv.1, [Url.quote kv.2])]) hn.2 (by
      intro kv' hkv' hm
      simp only [Dict.keys_append, Dict.keys_cons, Dict.keys_nil, List.mem_append, List.mem_singleton] at hm
      rcases hm with hm | hm
      · exact hb kv' (by simp [hkv']) hm
      · have : kv'.1 = kv.1 := List.append_cancel_left hm
        exact hn.1 (this ▸ List.mem_map_of_mem hkv'))
    simp only [Carrier.put] at this
    rw [this]; simp

theorem get?_append_left (a b : Carrier) (k : Str) (h : k ∉ a.keys) : Dict.get? (a ++ b) k = Dict.get? b k := by
  induction a with
  | nil => rfl
  | cons p a ih =>
    simp only [Dict.keys_cons, List.mem_cons, not_or] at h
    show (if p.1 = k then _ else _) = _
    rw [if_neg (fun e => h.1 e.symm)]
    exact ih h.2

theorem get?_map (d : Dict Str Str) (hn : d.keys.Nodup) (kv : Str × Str) (h : kv ∈ d) :
    Dict.get? (d.map (fun kv => (prefixText ++ kv.1, [Url.quote kv.2]))) (prefixText ++ kv.1) = some [Url.quote kv.2] := by
  apply Dict.get?_of_mem
  · have : (Dict.keys (d.map (fun kv => (prefixText ++ kv.1, [Url.quote kv.2])))) = d.keys.map (prefixText ++ ·) := by
      simp [Dict.keys, Function.comp_def]
    rw [this]
    exact List.Pairwise.map (R := (· ≠ ·)) (S := (· ≠ ·)) _ (fun a b hab he => hab (List.append_cancel_left he)) hn
  · exact List.mem_map.mpr ⟨kv, h, rfl⟩

/-- Setting the (decoded) baggage headers one after another. -/
theorem extract_fold (carrier : Carrier) (ctx : Ctx) (d : List (Str × Str))
    (hg : ∀ kv ∈ d, carrier.get (prefixText ++ kv.1) = some [Url.quote kv.2])
    (hi : ∀ kv ∈ d, ¬ prefixText <:+: kv.1) (hs : ∀ kv ∈ d, pyStrip kv.2 = kv.2) :
    (d.map (fun kv => prefixText ++ kv.1)).foldl (fun (acc : Option Ctx) k =>
      match acc with
      | none => none
      | some c =>
        match B3.first (carrier.get k) with
        | none => none
        | some v => some (Baggage.set c (removeGo prefixText 0 k) (pyStrip (Url.unquote v)))) (some ctx) =
      some (d.foldl (fun c kv => Baggage.set c kv.1 kv.2) ctx) := by
  induction d generalizing ctx with
  | nil => rfl
  | cons kv d ih =>
    simp only [List.map_cons, List.foldl_cons, hg kv (by simp), B3.first]
    rw [Url.unquote_quote, hs kv (by simp), removeGo_prefix _ (hi kv (by simp))]
    exact ih _ (fun kv h => hg kv (List.mem_cons_of_mem _ h)) (fun kv h => hi kv (List.mem_cons_of_mem _ h))
      (fun kv h => hs kv (List.mem_cons_of_mem _ h))

theorem parse_format (U : DigitTable) (sc : SpanContext) (parent : Int) (ht : 0 ≤ sc.traceId) (hs : 0 ≤ sc.spanId) :
    parseHeader U (formatHeader sc parent) = (sc.traceId, sc.spanId, (outFlags sc : Int)) := by
  obtain ⟨t, ht⟩ := Int.eq_ofNat_of_zero_le ht
  obtain ⟨s, hs⟩ := Int.eq_ofNat_of_zero_le hs
  have e : splitC ':' (formatHeader sc parent) =
      [formatTraceId sc.traceId, formatSpanId sc.spanId, formatSpanId parent, hexFmt 2 (Int.ofNat (outFlags sc))] := by
    have := splitC_joinS ':' [formatTraceId sc.traceId, formatSpanId sc.spanId, formatSpanId parent, hexFmt 2 (Int.ofNat (outFlags sc))]
      (by intro p hp; simp only [List.mem_cons, List.not_mem_nil, or_false] at hp
          rcases hp with rfl | rfl | rfl | rfl <;> exact hexFmt_no_colon _ _) (by simp)
    simpa [joinS, formatHeader] using this
  have e1 : pyInt16 U (formatTraceId sc.traceId) = some sc.traceId := by
    rw [ht]; exact pyInt16_hexFmt U 32 t
  have e2 : pyInt16 U (formatSpanId sc.spanId) = some sc.spanId := by
    rw [hs]; exact pyInt16_hexFmt U 16 s
  simp only [parseHeader, e, pyInt16_hexFmt, e1, e2, Option.getD_some]

theorem outFlags_mod (sc : SpanContext) : ((outFlags sc : Int) % 2).toNat = sc.flags % 2 := by
  have h : outFlags sc % 2 = sc.flags % 2 := by
    unfold outFlags
    split
    · have : (sc.flags ||| 2) % 2 = sc.flags % 2 := by
        have h1 := Nat.or_mod_two_pow (a := sc.flags) (b := 2) (n := 1)
        simpa using h1
      exact this
    · rfl
  omega

end Jaeger
end Otel
