import Verif.Model.Zipkin
import Verif.Lemmas.Hex
import Verif.Model.TraceContext
import Verif.Lemmas.Dict
import Verif.Lemmas.Str
import Verif.Props.Otlp
import Mathlib.Tactic.NormNum
/-!
# C80: the Zipkin exporters
-/
namespace Otel
namespace Zipkin
open TraceContext (isLowerHex)

/-! ## Specification: a reader for JSON arrays of strings (RFC 8259) -/

/-- The four hexadecimal digits after `\u`. -/
def readHex4 : Str → Option (Nat × Str)
  | a :: b :: c :: d :: r => if [a, b, c, d].all isLowerHex then some (hexVal [a, b, c, d], r) else none
  | _ => none

/-- The escapes of one character. -/
def simpleEscape (e : Char) : Option Nat :=
  if e = '"' then some 34
  else if e = '\\' then some 92
  else if e = '/' then some 47
  else if e = 'n' then some 10
  else if e = 'r' then some 13
  else if e = 't' then some 9
  else if e = 'f' then some 12
  else if e = 'b' then some 8
  else none

/-- The UTF-16 unit (or the code point) that begins with `c`, and what follows. -/
def readOne (c : Char) (r : Str) : Option (Nat × Str) :=
  if c = '\\' then
    match r with
    | [] => none
    | e :: r' => if e = 'u' then readHex4 r' else (simpleEscape e).map fun n => (n, r')
  else if c.toNat < 32 then none
  else some (c.toNat, r)

/-- The units up to the closing quote, and what follows it. -/
def readChars : Nat → Str → Option (List Nat × Str)
  | 0, _ => none
  | _ + 1, [] => none
  | f + 1, c :: r =>
    if c = '"' then some ([], r)
    else match readOne c r with
      | none => none
      | some (n, r') => (readChars f r').map fun p => (n :: p.1, p.2)

/-- Surrogate pairs are joined. -/
def joinUnits : List Nat → Str
  | [] => []
  | [n] => [Char.ofNat n]
  | h :: l :: r =>
    if 0xd800 ≤ h ∧ h < 0xdc00 ∧ 0xdc00 ≤ l ∧ l < 0xe000 then Char.ofNat (0x10000 + (h - 0xd800) * 0x400 + (l - 0xdc00)) :: joinUnits r
    else Char.ofNat h :: joinUnits (l :: r)

/-- A string or `null`, and what follows. -/
def readElem : Str → Option (Option Str × Str)
  | '"' :: r => (readChars (r.length + 1) r).map fun p => (some (joinUnits p.1), p.2)
  | 'n' :: 'u' :: 'l' :: 'l' :: r => some (none, r)
  | _ => none

/-- Elements separated by commas, up to the closing bracket at the end. -/
def readElems : Nat → Str → Option (List (Option Str))
  | 0, _ => none
  | f + 1, s =>
    match readElem s with
    | some (e, [']']) => some [e]
    | some (e, ',' :: r) => (readElems f r).map (e :: ·)
    | _ => none

/-- A JSON array of strings and `null`s. -/
def readArray (s : Str) : Option (List (Option Str)) :=
  if s = ['[', ']'] then some []
  else match s with
    | '[' :: r => readElems r.length r
    | _ => none

/-! ## `json.dumps` can be read back -/

/-- The UTF-16 units of a character. -/
def units (c : Char) : List Nat :=
  if c.toNat < 0x10000 then [c.toNat] else [0xd800 + (c.toNat - 0x10000) / 0x400 % 0x400, 0xdc00 + (c.toNat - 0x10000) % 0x400]

theorem readOne_u4 (n : Nat) (h : n < 0x10000) (t : Str) : readOne '\\' ('u' :: hexFmt 4 (Int.ofNat n) ++ t) = some (n, t) := by
  obtain ⟨h1, h2, h3⟩ := hexFmt_spec 4 n (by decide) (by omega)
  rw [show ((n : Nat) : Int) = Int.ofNat n from rfl] at h1 h2 h3
  generalize hexFmt 4 (Int.ofNat n) = x at h1 h2 h3
  match x, h2 with
  | [a, b, c, d], _ =>
    simp only [readOne, if_true, List.cons_append, List.nil_append, readHex4]
    rw [if_pos]
    · rw [h1]
    · simp only [List.all_eq_true]; exact h3

theorem char_valid (c : Char) : c.toNat < 0xd800 ∨ (0xdfff < c.toNat ∧ c.toNat < 0x110000) := c.valid

theorem readChars_esc (c : Char) (f : Nat) (t : Str) (p : List Nat × Str) (h : readChars f t = some p) :
    readChars (f + (units c).length) (escChar c ++ t) = some (units c ++ p.1, p.2) := by
  have one : ∀ (x : Char) (y t : Str) (n f : Nat), x ≠ '"' → readOne x (y ++ t) = some (n, t) → ∀ p, readChars f t = some p →
      readChars (f + 1) (x :: y ++ t) = some (n :: p.1, p.2) := by
    intro x y t n f hx hr p hp
    simp only [List.cons_append, readChars, if_neg hx, hr, hp, Option.map_some]
  have hlt : c.toNat < 0x10000 → units c = [c.toNat] := by intro h; unfold units; rw [if_pos h]
  have small : ∀ (x : Char) (y : Str), c.toNat < 0x10000 → escChar c = x :: y → x ≠ '"' → readOne x (y ++ t) = some (c.toNat, t) →
      readChars (f + (units c).length) (escChar c ++ t) = some (units c ++ p.1, p.2) := by
    intro x y hc he hx hr
    rw [he, hlt hc]
    exact one x y t c.toNat f hx hr p h
  by_cases e1 : c = '"'
  · subst e1; exact small '\\' ['"'] (by decide) (by decide) (by decide) (by simp [readOne, simpleEscape])
  by_cases e2 : c = '\\'
  · subst e2; exact small '\\' ['\\'] (by decide) (by decide) (by decide) (by simp [readOne, simpleEscape])
  by_cases e3 : c = '\n'
  · subst e3; exact small '\\' ['n'] (by decide) (by decide) (by decide) (by simp [readOne, simpleEscape])
  by_cases e4 : c = '\r'
  · subst e4; exact small '\\' ['r'] (by decide) (by decide) (by decide) (by simp [readOne, simpleEscape])
  by_cases e5 : c = '\t'
  · subst e5; exact small '\\' ['t'] (by decide) (by decide) (by decide) (by simp [readOne, simpleEscape])
  by_cases e6 : c.toNat = 12
  · have he : escChar c = ['\\', 'f'] := by unfold escChar; simp [e1, e2, e3, e4, e5, e6]
    exact small '\\' ['f'] (by omega) he (by decide) (by rw [e6]; simp [readOne, simpleEscape])
  by_cases e7 : c.toNat = 8
  · have he : escChar c = ['\\', 'b'] := by unfold escChar; simp [e1, e2, e3, e4, e5, e7]
    exact small '\\' ['b'] (by omega) he (by decide) (by rw [e7]; simp [readOne, simpleEscape])
  by_cases e8 : 32 ≤ c.toNat ∧ c.toNat ≤ 126
  · have he : escChar c = [c] := by unfold escChar; simp only [e1, e2, e3, e4, e5, e6, e7, e8, if_false, and_self, if_true]
    exact small c [] (by omega) he e1 (by simp [readOne, e2]; omega)
  by_cases e9 : c.toNat < 0x10000
  · have he : escChar c = u4 c.toNat := by unfold escChar; simp only [e1, e2, e3, e4, e5, e6, e7, e8, e9, if_false, if_true]
    exact small '\\' ('u' :: hexFmt 4 (Int.ofNat c.toNat)) e9 he (by decide) (readOne_u4 _ e9 t)
  · have he : escChar c = u4 (0xd800 + (c.toNat - 0x10000) / 0x400 % 0x400) ++ u4 (0xdc00 + (c.toNat - 0x10000) % 0x400) := by
      unfold escChar; simp only [e1, e2, e3, e4, e5, e6, e7, e8, e9, if_false]
    have hu : units c = [0xd800 + (c.toNat - 0x10000) / 0x400 % 0x400, 0xdc00 + (c.toNat - 0x10000) % 0x400] := by
      unfold units; rw [if_neg e9]
    rw [he, hu]
    have hA : 0xd800 + (c.toNat - 0x10000) / 0x400 % 0x400 < 0x10000 := by omega
    have hB : 0xdc00 + (c.toNat - 0x10000) % 0x400 < 0x10000 := by omega
    generalize 0xd800 + (c.toNat - 0x10000) / 0x400 % 0x400 = A at hA
    generalize 0xdc00 + (c.toNat - 0x10000) % 0x400 = B at hB
    have s1 := one '\\' ('u' :: hexFmt 4 (Int.ofNat B)) t B f (by decide) (readOne_u4 B hB t) p h
    have s2 := one '\\' ('u' :: hexFmt 4 (Int.ofNat A)) (u4 B ++ t) A (f + 1) (by decide) (readOne_u4 A hA _) _ s1
    rw [List.append_assoc]
    exact s2

theorem readChars_quote (s t : Str) (f : Nat) (h : (s.flatMap units).length < f) :
    readChars f (s.flatMap escChar ++ '"' :: t) = some (s.flatMap units, t) := by
  have base : ∀ k, readChars (1 + k) ('"' :: t) = some ([], t) := by intro k; rw [Nat.add_comm]; simp [readChars]
  have : ∀ k, readChars (1 + k + (s.flatMap units).length) (s.flatMap escChar ++ '"' :: t) = some (s.flatMap units, t) := by
    intro k
    induction s with
    | nil => exact base k
    | cons c s ih =>
      have := readChars_esc c _ _ _ (ih (by simp only [List.flatMap_cons, List.length_append] at h; omega))
      simp only [List.flatMap_cons, List.length_append, List.append_assoc]
      rw [show 1 + k + ((units c).length + (s.flatMap units).length) = 1 + k + (s.flatMap units).length + (units c).length by omega]
      exact this
  obtain ⟨k, rfl⟩ : ∃ k, f = 1 + k + (s.flatMap units).length := ⟨f - 1 - (s.flatMap units).length, by omega⟩
  exact this k

theorem joinUnits_units (c : Char) (r : List Nat) : joinUnits (units c ++ r) = c :: joinUnits r := by
  unfold units
  by_cases h : c.toNat < 0x10000
  · rw [if_pos h]
    cases r with
    | nil => simp [joinUnits]
    | cons l r =>
      simp only [List.cons_append, List.nil_append, joinUnits]
      rw [if_neg]
      · simp
      · have := char_valid c; omega
  · rw [if_neg h]
    have := char_valid c
    obtain ⟨A, hA⟩ : ∃ A, A = 0xd800 + (c.toNat - 0x10000) / 0x400 % 0x400 := ⟨_, rfl⟩
    obtain ⟨B, hB⟩ : ∃ B, B = 0xdc00 + (c.toNat - 0x10000) % 0x400 := ⟨_, rfl⟩
    rw [← hA, ← hB]
    simp only [List.cons_append, List.nil_append, joinUnits]
    rw [if_pos (by omega)]
    have e : 0x10000 + (A - 0xd800) * 0x400 + (B - 0xdc00) = c.toNat := by omega
    rw [e]
    simp

theorem joinUnits_flatMap (s : Str) : joinUnits (s.flatMap units) = s := by
  induction s with
  | nil => rfl
  | cons c s ih => rw [List.flatMap_cons, joinUnits_units, ih]

theorem esc_ne_nil (c : Char) : escChar c ≠ [] := by
  unfold escChar u4
  repeat' split
  all_goals exact List.cons_ne_nil _ _

theorem esc_astral (c : Char) (h : ¬c.toNat < 0x10000) :
    escChar c = u4 (0xd800 + (c.toNat - 0x10000) / 0x400 % 0x400) ++ u4 (0xdc00 + (c.toNat - 0x10000) % 0x400) := by
  have ne : ∀ d : Char, d.toNat < 0x10000 → c ≠ d := by rintro d hd rfl; exact h hd
  have e1 := ne '"' (by decide)
  have e2 := ne '\\' (by decide)
  have e3 := ne '\n' (by decide)
  have e4 := ne '\r' (by decide)
  have e5 := ne '\t' (by decide)
  have e6 : ¬c.toNat = 12 := by omega
  have e7 : ¬c.toNat = 8 := by omega
  have e8 : ¬(32 ≤ c.toNat ∧ c.toNat ≤ 126) := by omega
  unfold escChar
  simp only [e1, e2, e3, e4, e5, e6, e7, e8, h, if_false]

theorem two_le (A B : Nat) : 2 ≤ (u4 A ++ u4 B).length := by
  simp only [u4, List.length_append, List.length_cons]
  omega

theorem units_length (c : Char) : (units c).length = if c.toNat < 0x10000 then 1 else 2 := by
  unfold units
  split <;> rfl

theorem units_le_esc (c : Char) : (units c).length ≤ (escChar c).length := by
  rw [units_length]
  split
  · exact List.length_pos_of_ne_nil (esc_ne_nil c)
  · rename_i h
    have := esc_astral c h
    rw [this]
    exact two_le _ _

theorem readElem_dump (e : Option Str) (t : Str) : readElem (dumpElem e ++ t) = some (e, t) := by
  cases e with
  | none => rfl
  | some s =>
    unfold dumpElem quote
    simp only [List.cons_append, List.append_assoc, List.nil_append, readElem]
    rw [readChars_quote]
    · simp [joinUnits_flatMap]
    · have : (s.flatMap units).length ≤ (s.flatMap escChar).length := by
        induction s with
        | nil => simp
        | cons c s ih => simp only [List.flatMap_cons, List.length_append]; have := units_le_esc c; omega
      simp only [List.length_append, List.length_cons]
      omega

theorem dumpElem_ne_nil (e : Option Str) : dumpElem e ≠ [] := by cases e <;> simp [dumpElem, quote]

theorem readElems_dumps (l : List (Option Str)) (hne : l ≠ []) (f : Nat) (hf : l.length ≤ f) :
    readElems f (joinS [','] (l.map dumpElem) ++ [']']) = some l := by
  induction l generalizing f with
  | nil => exact absurd rfl hne
  | cons e l ih =>
    obtain ⟨f, rfl⟩ : ∃ g, f = g + 1 := ⟨f - 1, by simp at hf; omega⟩
    cases l with
    | nil => simp only [List.map_cons, List.map_nil, joinS, readElems, readElem_dump]
    | cons e' l =>
      have := ih (by simp) f (by simpa using hf)
      simp only [List.map_cons, joinS, readElems, List.append_assoc, readElem_dump, List.cons_append, List.nil_append] at this ⊢
      rw [this]; rfl

theorem length_join (l : List (Option Str)) : l.length ≤ (joinS [','] (l.map dumpElem) ++ [']']).length := by
  induction l with
  | nil => simp
  | cons e l ih =>
    have he : 1 ≤ (dumpElem e).length := List.length_pos_of_ne_nil (dumpElem_ne_nil e)
    cases l with
    | nil => simp [joinS]
    | cons e' l =>
      simp only [List.map_cons, joinS, List.length_append, List.length_cons, List.length_nil] at ih ⊢
      omega

/-- **C80** The text of a sequence is JSON that denotes the sequence, whatever characters its strings have. -/
theorem C80_json (l : List (Option Str)) : readArray (dumps l) = some l := by
  unfold dumps readArray
  cases l with
  | nil => rfl
  | cons e l =>
    rw [if_neg]
    · simp only
      exact readElems_dumps _ (by simp) _ (length_join _)
    · intro h
      have h2 := length_join (e :: l)
      simp only [List.cons.injEq, true_and] at h
      have h3 : joinS [','] ((e :: l).map dumpElem) ++ [']'] = [] ++ [']'] := h
      rw [List.append_left_inj] at h3
      cases l with
      | nil => exact dumpElem_ne_nil e (by simpa [joinS] using h3)
      | cons e' l => simp [joinS] at h3

/-! ## Sequences within the limit -/

/-- The texts of the elements that can be exported. -/
def texts : List Elem → List (Option Str)
  | [] => []
  | .scalar s :: l => some s.text :: texts l
  | .none :: l => none :: texts l
  | .other :: l => texts l

/-- A character that JSON does not escape. -/
def Plain (c : Char) : Prop := 32 ≤ c.toNat ∧ c.toNat ≤ 126 ∧ c ≠ '"' ∧ c ≠ '\\'

/-- The length counted by the encoder. -/
def rawLen : List (Option Str) → Nat
  | [] => 2
  | [e] => 2 + elemLength e
  | e :: e' :: l => elemLength e + 1 + rawLen (e' :: l)

theorem rawLen_snoc (l : List (Option Str)) (e : Option Str) : rawLen (l ++ [e]) = rawLen l + elemLength e + (if l.isEmpty then 0 else 1) := by
  induction l with
  | nil => rfl
  | cons a l ih =>
    cases l with
    | nil => simp [rawLen]; omega
    | cons b l =>
      simp only [List.cons_append, rawLen, List.isEmpty_cons, Bool.false_eq_true, if_false] at ih ⊢
      omega

theorem rawLen_prefix (p q : List (Option Str)) (h : p <+: q) : rawLen p ≤ rawLen q := by
  obtain ⟨r, rfl⟩ := h
  induction r generalizing p with
  | nil => simp
  | cons e r ih =>
    have h1 := ih (p ++ [e])
    have h2 := rawLen_snoc p e
    rw [List.append_assoc] at h1
    exact Nat.le_trans (by omega) h1

theorem seqLoop_unlimited (m : Option Int) (hm : limit m = none) (acc : List (Option Str)) (len : Nat) (l : List Elem) :
    seqLoop m acc len l = acc ++ texts l := by
  induction l generalizing acc with
  | nil => simp [seqLoop, texts]
  | cons e l ih => cases e <;> simp [seqLoop, texts, hm, ih]

/-- The loop takes elements as long as the length counted stays within the limit. -/
theorem seqLoop_limited (m : Option Int) (n : Nat) (hm : limit m = some n) (acc : List (Option Str)) (l : List Elem) (hacc : acc ≠ [] → rawLen acc ≤ n) :
    ∃ p, seqLoop m acc (rawLen acc) l = acc ++ p ∧ p <+: texts l ∧ (acc ++ p ≠ [] → rawLen (acc ++ p) ≤ n) ∧
      (p = texts l ∨ ∃ e, p ++ [e] <+: texts l ∧ n < rawLen (acc ++ p ++ [e])) := by
  have stop : ∀ (e : Option Str) (l' : List (Option Str)), n < rawLen (acc ++ [e]) → ∃ p, acc = acc ++ p ∧ p <+: e :: l' ∧
      (acc ++ p ≠ [] → rawLen (acc ++ p) ≤ n) ∧ (p = e :: l' ∨ ∃ x, p ++ [x] <+: e :: l' ∧ n < rawLen (acc ++ p ++ [x])) := by
    intro e l' h
    exact ⟨[], by simp, by simp, by simpa using hacc, .inr ⟨e, by simp, by simpa using h⟩⟩
  have go : ∀ (e : Option Str) (l' : List (Option Str)) (r : List (Option Str)),
      (∃ p, r = acc ++ [e] ++ p ∧ p <+: l' ∧ (acc ++ [e] ++ p ≠ [] → rawLen (acc ++ [e] ++ p) ≤ n) ∧
        (p = l' ∨ ∃ x, p ++ [x] <+: l' ∧ n < rawLen (acc ++ [e] ++ p ++ [x]))) →
      ∃ p, r = acc ++ p ∧ p <+: e :: l' ∧ (acc ++ p ≠ [] → rawLen (acc ++ p) ≤ n) ∧
        (p = e :: l' ∨ ∃ x, p ++ [x] <+: e :: l' ∧ n < rawLen (acc ++ p ++ [x])) := by
    rintro e l' r ⟨p, h1, h2, h3, h4⟩
    refine ⟨e :: p, by simpa using h1, by simpa using h2, by simpa using h3, ?_⟩
    rcases h4 with h4 | ⟨x, h4, h5⟩
    · exact .inl (by rw [h4])
    · exact .inr ⟨x, by simpa using h4, by simpa using h5⟩
  induction l generalizing acc with
  | nil => exact ⟨[], by simp [seqLoop], by simp, by simpa using hacc, .inl rfl⟩
  | cons e l ih =>
    cases e with
    | other => exact ih acc hacc stop go
    | none =>
      simp only [seqLoop, hm, texts, ← rawLen_snoc]
      by_cases h : rawLen (acc ++ [none]) > n
      · rw [if_pos h]; exact stop none _ h
      · rw [if_neg h]
        refine go none _ _ (ih (acc ++ [none]) (fun _ => by omega) ?_ ?_)
        · intro e l' h'
          exact ⟨[], by simp, by simp, fun _ => by simp; omega, .inr ⟨e, by simp, by simpa using h'⟩⟩
        · rintro e l' r ⟨p, h1, h2, h3, h4⟩
          refine ⟨e :: p, by simpa using h1, by simpa using h2, by simpa using h3, ?_⟩
          rcases h4 with h4 | ⟨x, h4, h5⟩
          · exact .inl (by rw [h4])
          · exact .inr ⟨x, by simpa using h4, by simpa using h5⟩
    | scalar s =>
      simp only [seqLoop, hm, texts, ← rawLen_snoc]
      by_cases h : rawLen (acc ++ [some s.text]) > n
      · rw [if_pos h]; exact stop (some s.text) _ h
      · rw [if_neg h]
        refine go (some s.text) _ _ (ih (acc ++ [some s.text]) (fun _ => by omega) ?_ ?_)
        · intro e l' h'
          exact ⟨[], by simp, by simp, fun _ => by simp; omega, .inr ⟨e, by simp, by simpa using h'⟩⟩
        · rintro e l' r ⟨p, h1, h2, h3, h4⟩
          refine ⟨e :: p, by simpa using h1, by simpa using h2, by simpa using h3, ?_⟩
          rcases h4 with h4 | ⟨x, h4, h5⟩
          · exact .inl (by rw [h4])
          · exact .inr ⟨x, by simpa using h4, by simpa using h5⟩

theorem esc_plain (c : Char) (h : Plain c) : escChar c = [c] := by
  obtain ⟨h1, h2, h3, h4⟩ := h
  have ne : ∀ d : Char, d.toNat < 32 → c ≠ d := by rintro d hd rfl; omega
  have e3 := ne '\n' (by decide)
  have e4 := ne '\r' (by decide)
  have e5 := ne '\t' (by decide)
  have e6 : ¬c.toNat = 12 := by omega
  have e7 : ¬c.toNat = 8 := by omega
  unfold escChar
  simp only [h3, h4, e3, e4, e5, e6, e7, h1, h2, if_false, and_self, if_true]

theorem dump_length_ge (e : Option Str) : elemLength e ≤ (dumpElem e).length := by
  cases e with
  | none => decide
  | some s =>
    have : s.length ≤ (s.flatMap escChar).length := by
      induction s with
      | nil => simp
      | cons c s ih =>
        have := List.length_pos_of_ne_nil (esc_ne_nil c)
        simp only [List.flatMap_cons, List.length_append, List.length_cons]; omega
    simp only [elemLength, dumpElem, quote, List.length_cons, List.length_append, List.length_nil]
    omega

theorem dump_length_plain (e : Option Str) (h : ∀ s, e = some s → ∀ c ∈ s, Plain c) : (dumpElem e).length = elemLength e := by
  cases e with
  | none => decide
  | some s =>
    have : s.flatMap escChar = s := by
      have h' := h s rfl
      clear h
      induction s with
      | nil => simp
      | cons c s ih =>
        rw [List.flatMap_cons, esc_plain c (h' c (by simp)), ih (fun c hc => h' c (by simp [hc]))]; rfl
    simp only [elemLength, dumpElem, quote, this, List.length_cons, List.length_append, List.length_nil]

theorem dumps_length_plain (l : List (Option Str)) (h : ∀ s, some s ∈ l → ∀ c ∈ s, Plain c) : (dumps l).length = rawLen l := by
  have hj : ∀ l : List (Option Str), (∀ s, some s ∈ l → ∀ c ∈ s, Plain c) → (joinS [','] (l.map dumpElem)).length + 2 = rawLen l := by
    intro l h
    induction l with
    | nil => rfl
    | cons e l ih =>
      have he := dump_length_plain e (fun s hs => h s (by simp [hs]))
      have hl := ih (fun s hs => h s (by simp [hs]))
      cases l with
      | nil => simp only [List.map_cons, List.map_nil, joinS, rawLen, he]; omega
      | cons e' l => simp only [List.map_cons, joinS, rawLen, List.length_append, List.length_cons, List.length_nil, he] at hl ⊢; omega
  have := hj l h
  unfold dumps
  simp only [List.length_cons, List.length_append, List.length_nil]
  omega

theorem tagValue_seq (m : Option Int) (h : m ≠ some 1) (l : List Elem) : tagValue m (.seq l) = some (cut m (dumps (seqLoop m [] 2 l))) := by
  have : sequenceText m l = some (dumps (seqLoop m [] 2 l)) := by unfold sequenceText; rw [if_neg h]
  unfold tagValue
  simp only [this, dumps]

/-- **C80** A sequence of plain texts (printable ASCII without quotation mark and backslash) is exported as the JSON array of its longest
prefix that fits the limit. -/
theorem C80_sequence (m : Int) (hm : 2 ≤ m) (l : List Elem) (hl : ∀ s, some s ∈ texts l → ∀ c ∈ s, Plain c) :
    ∃ v p, tagValue (some m) (.seq l) = some v ∧ readArray v = some p ∧ p <+: texts l ∧ (v.length : Int) ≤ m ∧
      ∀ q, q <+: texts l → ((dumps q).length : Int) ≤ m → q <+: p := by
  have hlim : limit (some m) = some m.toNat := by simp only [limit]; rw [if_pos (by omega)]
  obtain ⟨p, h1, h2, h3, h4⟩ := seqLoop_limited (some m) m.toNat hlim [] l (by simp)
  simp only [List.nil_append] at h1 h3 h4
  have hp : ∀ s, some s ∈ p → ∀ c ∈ s, Plain c := fun s hs => hl s (h2.subset hs)
  have hlen : (dumps p).length ≤ m.toNat := by
    rw [dumps_length_plain p hp]
    by_cases hp0 : p = []
    · subst hp0; simp [rawLen]; omega
    · exact h3 hp0
  refine ⟨dumps p, p, ?_, C80_json p, h2, by omega, ?_⟩
  · rw [tagValue_seq _ (by intro h; cases h; omega), show (2 : Nat) = rawLen [] from rfl, h1]
    unfold cut
    rw [hlim]
    simp only
    rw [List.take_of_length_le hlen]
  · intro q hq hqm
    rcases h4 with h4 | ⟨e, h4, h5⟩
    · rw [h4]; exact hq
    · rcases List.prefix_or_prefix_of_prefix hq h4 with h | h
      · rcases Nat.lt_or_ge q.length (p.length + 1) with hlt | hge
        · exact List.prefix_of_prefix_length_le hq h2 (by omega)
        · exfalso
          have := rawLen_prefix _ _ (List.prefix_of_prefix_length_le h4 hq (by simpa using hge))
          have hql := dumps_length_plain q (fun s hs => hl s (hq.subset hs))
          omega
      · exfalso
        have := rawLen_prefix _ _ h
        have hql := dumps_length_plain q (fun s hs => hl s (hq.subset hs))
        omega

/-- **C80** Without limit (none, zero or negative) the whole sequence is exported and can be read back, whatever characters it has. -/
theorem C80_sequence_unlimited (m : Option Int) (hm : ∀ n, m = some n → n ≤ 0) (l : List Elem) :
    ∃ v, tagValue m (.seq l) = some v ∧ readArray v = some (texts l) := by
  have hlim : limit m = none := by
    unfold limit
    cases m with
    | none => rfl
    | some n => have := hm n rfl; simp only; rw [if_neg (by omega)]
  refine ⟨dumps (texts l), ?_, C80_json _⟩
  rw [tagValue_seq _ (by intro h; have := hm 1 h; omega), seqLoop_unlimited m hlim]
  unfold cut
  rw [hlim]
  rfl

/-- **C80** No tag value is longer than a positive limit. -/
theorem C80_tag_length (m : Int) (hm : 0 < m) (v : Value) (t : Str) (h : tagValue (some m) v = some t) : (t.length : Int) ≤ m := by
  have hcut : ∀ s, ((cut (some m) s).length : Int) ≤ m := by
    intro s
    unfold cut limit
    simp only [if_pos hm]
    have := List.length_take_le m.toNat s
    omega
  unfold tagValue at h
  split at h
  · cases h; exact hcut _
  · split at h
    · cases h; exact hcut _
    · cases h
  · cases h

/-- **C80** A scalar is exported as its text, cut to a positive limit. -/
theorem C80_scalar (m : Option Int) (s : Scalar) :
    tagValue m (.scalar s) = some (match m with
      | some n => if 0 < n then s.text.take n.toNat else s.text
      | none => s.text) := by
  unfold tagValue cut limit
  cases m with
  | none => rfl
  | some n => by_cases h : 0 < n <;> simp [h]

/-- **C80** Without a limit the tag of a boolean is `true` or `false`, of a string the string itself and of a number its Python text. -/
theorem C80_scalar_text : tagValue none (.scalar (.bool true)) = some "true".toList ∧ tagValue none (.scalar (.bool false)) = some "false".toList ∧
    (∀ s, tagValue none (.scalar (.str s)) = some s) ∧ ∀ t, tagValue none (.scalar (.num t)) = some t := ⟨rfl, rfl, fun _ => rfl, fun _ => rfl⟩

/-- **C80** refuted for other characters: the documentation says the limit is honoured at the boundary of elements; with a quotation mark in it,
a sequence is cut in the middle and the tag is not JSON. -/
theorem C80_sequence_cut : tagValue (some 5) (.seq [.scalar (.str ['"'])]) = some ['[', '"', '\\', '"', '"'] ∧
    readArray ['[', '"', '\\', '"', '"'] = none := by decide

/-! ## Tags of a span -/

theorem get?_tagsFromDict (m : Option Int) (attrs : Dict Str Value) (hn : (Dict.keys attrs).Nodup) (k : Str) :
    Dict.get? (tagsFromDict m attrs) k = (Dict.get? attrs k).bind (tagValue m) := by
  unfold tagsFromDict
  have gen : ∀ (attrs : Dict Str Value) (acc : Dict Str Str), (Dict.keys attrs).Nodup → (∀ k ∈ Dict.keys attrs, Dict.get? acc k = none) →
      Dict.get? (attrs.foldl (fun tags kv =>
        match tagValue m kv.2 with
        | some v => Dict.set tags kv.1 v
        | none => tags) acc) k = if k ∈ Dict.keys attrs then (Dict.get? attrs k).bind (tagValue m) else Dict.get? acc k := by
    intro attrs
    induction attrs with
    | nil => intro acc _ _; simp [Dict.keys]
    | cons kv attrs ih =>
      intro acc hn hacc
      obtain ⟨k', v⟩ := kv
      simp only [Dict.keys, List.map_cons, List.nodup_cons] at hn
      rw [List.foldl_cons, ih _ hn.2]
      · by_cases hk : k = k'
        · subst hk
          rw [if_neg (show k ∉ Dict.keys attrs from hn.1), if_pos (by simp [Dict.keys])]
          simp only [Dict.get?, if_true, Option.bind_some]
          cases hv : tagValue m v with
          | none => simpa using hacc k (by simp [Dict.keys])
          | some t => simp [Dict.get?_set]
        · have hk' : k' ≠ k := fun h => hk h.symm
          have h1 : (k ∈ Dict.keys ((k', v) :: attrs)) ↔ k ∈ Dict.keys attrs := by simp [Dict.keys, hk]
          simp only [h1, Dict.get?, if_neg hk']
          by_cases hm : k ∈ Dict.keys attrs
          · rw [if_pos hm, if_pos hm]
          · rw [if_neg hm, if_neg hm]
            cases tagValue m v with
            | none => rfl
            | some t => simp [Dict.get?_set, hk, hk']
      · intro x hx
        have hxk : k' ≠ x := by rintro rfl; exact hn.1 hx
        have := hacc x (by simp only [Dict.keys, List.map_cons, List.mem_cons]; exact .inr hx)
        cases tagValue m v with
        | none => exact this
        | some t => simp only; rw [Dict.get?_set_ne _ _ hxk]; exact this
  refine (gen attrs [] hn (by intros; rfl)).trans ?_
  by_cases h : k ∈ Dict.keys attrs
  · rw [if_pos h]
  · rw [if_neg h, (Dict.get?_eq_none_iff attrs k).2 h]; rfl

theorem nodup_tagsFromDict (m : Option Int) (attrs : Dict Str Value) : (Dict.keys (tagsFromDict m attrs)).Nodup := by
  unfold tagsFromDict
  have gen : ∀ (attrs : Dict Str Value) (acc : Dict Str Str), (Dict.keys acc).Nodup → (Dict.keys (attrs.foldl (fun tags kv =>
        match tagValue m kv.2 with
        | some v => Dict.set tags kv.1 v
        | none => tags) acc)).Nodup := by
    intro attrs
    induction attrs with
    | nil => intro acc h; exact h
    | cons kv attrs ih =>
      intro acc h
      rw [List.foldl_cons]
      apply ih
      cases tagValue m kv.2 with
      | none => exact h
      | some t => exact Dict.nodup_set _ _ _ h
  exact gen attrs [] (by simp [Dict.keys])

/-- The count of what was dropped, if anything was. -/
def countOf (key : String) (n : Nat) (k : Str) : Option Str := if k = key.toList ∧ n ≠ 0 then some (decimal n) else none

/-- What the tag `k` of a span is: the SDK's own tags come first, then the resource's attributes, then the span's. -/
def expectedTag (m : Option Int) (s : ZSpan) (k : Str) : Option Str :=
  (countOf "otel.dropped_links_count" s.droppedLinks k).or <|
  (countOf "otel.dropped_events_count" s.droppedEvents k).or <|
  (countOf "otel.dropped_attributes_count" s.droppedAttributes k).or <|
  (if k = "error".toList ∧ s.status.code = .error then some (s.status.desc.getD []) else none).or <|
  (if k = "otel.status_code".toList then (match s.status.code with
    | .unset => none
    | .ok => some "OK".toList
    | .error => some "ERROR".toList) else none).or <|
  (s.scope.bind fun sc => if k = "otel.scope.name".toList ∨ k = "otel.library.name".toList then some sc.1
    else if k = "otel.scope.version".toList ∨ k = "otel.library.version".toList then some sc.2 else none).or <|
  ((Dict.get? s.resource k).bind (tagValue m)).or ((Dict.get? s.attrs k).bind (tagValue m))

theorem get?_countTag (tags : Dict Str Str) (key : String) (n : Nat) (k : Str) :
    Dict.get? (countTag tags key n) k = (countOf key n k).or (Dict.get? tags k) := by
  unfold countTag countOf
  by_cases hn : n = 0
  · simp [hn]
  · rw [if_neg hn, Dict.get?_set]
    by_cases hk : key.toList = k
    · rw [if_pos hk, if_pos ⟨hk.symm, hn⟩]; rfl
    · rw [if_neg hk, if_neg (fun h => hk h.1.symm)]; rfl

/-- **C80** Every tag of a span is the expected one, and no other tag is present. -/
theorem C80_tags (m : Option Int) (s : ZSpan) (ha : (Dict.keys s.attrs).Nodup) (hr : (Dict.keys s.resource).Nodup) (k : Str) :
    Dict.get? (spanTags m s) k = expectedTag m s k := by
  unfold spanTags expectedTag
  simp only [get?_countTag]
  congr 3
  have hst : ∀ tags, Dict.get? (statusTags tags s.status) k =
      (if k = "error".toList ∧ s.status.code = .error then some (s.status.desc.getD []) else none).or
      ((if k = "otel.status_code".toList then (match s.status.code with
        | .unset => none
        | .ok => some "OK".toList
        | .error => some "ERROR".toList) else none).or (Dict.get? tags k)) := by
    intro tags
    unfold statusTags
    generalize "otel.status_code".toList = key
    generalize "error".toList = key'
    generalize "OK".toList = ok
    generalize "ERROR".toList = err
    cases s.status.code with
    | unset => simp
    | ok =>
      simp only [reduceCtorEq, and_false, if_false, Option.none_or, Dict.get?_set]
      by_cases h : key = k
      · rw [if_pos h, if_pos h.symm]; rfl
      · rw [if_neg h, if_neg (fun h' => h h'.symm)]; rfl
    | error =>
      simp only [and_true, Dict.get?_set]
      by_cases h : key' = k
      · rw [if_pos h, if_pos h.symm]; rfl
      · have hk' : k ≠ key' := fun h' => h h'.symm
        rw [if_neg h, if_neg hk']
        by_cases h : key = k
        · rw [if_pos h, if_pos h.symm]; rfl
        · rw [if_neg h, if_neg (fun h' => h h'.symm)]; rfl
  have hsc : ∀ tags, Dict.get? (scopeTags tags s.scope) k =
      (s.scope.bind fun sc => if k = "otel.scope.name".toList ∨ k = "otel.library.name".toList then some sc.1
        else if k = "otel.scope.version".toList ∨ k = "otel.library.version".toList then some sc.2 else none).or (Dict.get? tags k) := by
    intro tags
    cases s.scope with
    | none => rfl
    | some sc =>
      obtain ⟨a, b⟩ := sc
      have d : ("otel.library.name".toList : Str) ≠ "otel.library.version".toList ∧ ("otel.library.name".toList : Str) ≠ "otel.scope.version".toList ∧
        ("otel.scope.name".toList : Str) ≠ "otel.scope.version".toList ∧ ("otel.scope.name".toList : Str) ≠ "otel.library.version".toList := by decide
      simp only [scopeTags, Dict.update, List.foldl_cons, List.foldl_nil, Dict.get?_set, Option.bind_some]
      generalize "otel.library.name".toList = x1 at d ⊢
      generalize "otel.library.version".toList = x2 at d ⊢
      generalize "otel.scope.name".toList = x3 at d ⊢
      generalize "otel.scope.version".toList = x4 at d ⊢
      obtain ⟨d1, d2, d3, d4⟩ := d
      by_cases h4 : x4 = k
      · subst h4; simp [d2.symm, d3.symm]
      by_cases h3 : x3 = k
      · subst h3; simp [d3.symm]
      by_cases h2 : x2 = k
      · subst h2; simp [d1.symm, d4, d4.symm, h3, h4]
      by_cases h1 : x1 = k
      · subst h1; simp [h4, h3, h2]
      · have e1 : k ≠ x1 := fun h => h1 h.symm
        have e2 : k ≠ x2 := fun h => h2 h.symm
        have e3 : k ≠ x3 := fun h => h3 h.symm
        have e4 : k ≠ x4 := fun h => h4 h.symm
        simp [h1, h2, h3, h4, e1, e2, e3, e4]
  rw [hst, hsc]
  rw [Dict.get?_update _ _ _ (nodup_tagsFromDict m s.resource), get?_tagsFromDict m _ hr, get?_tagsFromDict m _ ha]

/-! ## Times -/

/-- **C80** Times are rounded to the nearest microsecond, the order is kept, and the end of the span (time stamp plus duration) is off by at most a
microsecond. -/
theorem C80_times (a b : Int) : (-500 ≤ 1000 * usec a - a ∧ 1000 * usec a - a ≤ 500) ∧ (a ≤ b → usec a ≤ usec b) ∧
    (-1000 ≤ 1000 * (usec a + usec (b - a)) - b ∧ 1000 * (usec a + usec (b - a)) - b ≤ 1000) := by
  unfold usec; omega

/-! ## Spans -/

/-- The fields common to all formats are those of the span. -/
structure Faithful {ι : Type} (m : Option Int) (s : ZSpan) (e : Encoded ι) (idOf : ι → Int) : Prop where
  traceId : idOf e.traceId = s.ctx.traceId
  spanId : idOf e.id = s.ctx.spanId
  parent : e.parentId.map idOf = s.parent.map (·.spanId)
  name : e.name = s.name
  start : e.timestamp = usec s.start
  duration : e.duration = usec (s.finish - s.start)
  events : e.annotations.length = s.events.length ∧ ∀ i (h : i < s.events.length) a, e.annotations[i]? = some a →
    a.time = usec s.events[i].time ∧ a.name = s.events[i].name ∧
    ∀ k, Dict.get? a.attrs k = (Dict.get? s.events[i].attrs k).map fun v => match v with
      | .scalar (.str t) => .scalar (.str (match m with
        | some n => if 0 < n then t.take n.toNat else t
        | none => t))
      | v => v
  debug : e.debug = true ↔ s.ctx.flags % 2 = 1

/-- Valid ids. -/
def Ids (s : ZSpan) : Prop :=
  (0 ≤ s.ctx.traceId ∧ s.ctx.traceId < 2 ^ 128) ∧ (0 ≤ s.ctx.spanId ∧ s.ctx.spanId < 2 ^ 64) ∧ ∀ p, s.parent = some p → 0 ≤ p.spanId ∧ p.spanId < 2 ^ 64

theorem cut_eq (m : Option Int) (t : Str) : cut m t = match m with
    | some n => if 0 < n then t.take n.toNat else t
    | none => t := by
  unfold cut limit
  cases m with
  | none => rfl
  | some n => by_cases h : 0 < n <;> simp [h]

theorem annotations_spec (m : Option Int) (events : List Event) : (annotations m events).length = events.length ∧
    ∀ i (h : i < events.length) a, (annotations m events)[i]? = some a → a.time = usec events[i].time ∧ a.name = events[i].name ∧
    ∀ k, Dict.get? a.attrs k = (Dict.get? events[i].attrs k).map fun v => match v with
      | .scalar (.str t) => .scalar (.str (match m with
        | some n => if 0 < n then t.take n.toNat else t
        | none => t))
      | v => v := by
  refine ⟨by simp [annotations], ?_⟩
  intro i h a ha
  unfold annotations at ha
  rw [List.getElem?_map, List.getElem?_eq_getElem h] at ha
  cases ha
  refine ⟨rfl, rfl, ?_⟩
  intro k
  simp only
  induction events[i].attrs with
  | nil => rfl
  | cons kv l ih =>
    simp only [List.map_cons, Dict.get?]
    split
    · simp only [Option.map_some, Option.some.injEq]
      unfold eventValue
      split <;> simp_all [cut_eq]
    · exact ih

theorem hexFmt_id (w : Nat) (hw : 0 < w) (n : Int) (h0 : 0 ≤ n) (h : n < 16 ^ w) :
    (hexVal (hexFmt w n) : Int) = n ∧ (hexFmt w n).length = w ∧ ∀ c ∈ hexFmt w n, isLowerHex c = true := by
  obtain ⟨k, rfl⟩ := Int.eq_ofNat_of_zero_le h0
  obtain ⟨h1, h2, h3⟩ := hexFmt_spec w k hw (by exact_mod_cast h)
  exact ⟨by rw [h1], h2, h3⟩

/-- **C80** JSON v2: every field is that of the span; ids are 32 and 16 lower-case hexadecimal digits; the kind is told apart, with `INTERNAL` as
absent. -/
theorem C80_v2 (m : Option Int) (s : ZSpan) (h : Ids s) :
    Faithful m s (encodeV2 m s) (fun t => (hexVal t : Int)) ∧ (encodeV2 m s).traceId.length = 32 ∧ (encodeV2 m s).id.length = 16 ∧
    (encodeV2 m s).tags = spanTags m s ∧ ((encodeV2 m s).kind = none ↔ s.kind = .internal) ∧ (∀ k, (encodeV2 m s).kind = some k → k = s.kind) := by
  obtain ⟨⟨h1, h2⟩, ⟨h3, h4⟩, h5⟩ := h
  obtain ⟨t1, t2, _⟩ := hexFmt_id 32 (by decide) s.ctx.traceId h1 (by norm_num; omega)
  obtain ⟨i1, i2, _⟩ := hexFmt_id 16 (by decide) s.ctx.spanId h3 (by norm_num; omega)
  refine ⟨⟨t1, i1, ?_, rfl, rfl, rfl, annotations_spec m s.events, ?_⟩, t2, i2, rfl, ?_, ?_⟩
  · show (s.parent.map fun p => formatSpanId p.spanId).map _ = _
    cases hp : s.parent with
    | none => rfl
    | some p =>
      obtain ⟨a, b⟩ := h5 p hp
      simp only [Option.map_some, Option.some.injEq]
      exact (hexFmt_id 16 (by decide) p.spanId a (by norm_num; omega)).1
  · simp [encodeV2, SpanContext.sampled]
  · simp only [encodeV2]; cases s.kind <;> simp [v2Kind]
  · simp only [encodeV2]; intro k hk; cases hs : s.kind <;> rw [hs] at hk <;> simp [v2Kind] at hk <;> exact hk.symm

/-- **C80** JSON v1, with a limit set: the same, and the tags, each cut to the limit, as binary annotations in order. -/
theorem C80_v1 (m : Int) (s : ZSpan) (h : Ids s) : ∃ e, encodeV1 (some m) s = some e ∧
    Faithful (some m) s e (fun t => (hexVal t : Int)) ∧ e.tags.map Prod.fst = (spanTags (some m) s).map Prod.fst ∧
    ∀ k, Dict.get? e.tags k = (Dict.get? (spanTags (some m) s) k).map fun v => if 0 < m then v.take m.toNat else v := by
  refine ⟨_, rfl, ?_, ?_, ?_⟩
  · obtain ⟨⟨f1, f2, f3, f4, f5, f6, f7, f8⟩, _⟩ := C80_v2 (some m) s h
    exact ⟨f1, f2, f3, f4, f5, f6, f7, f8⟩
  · simp
  · intro k
    simp only
    induction spanTags (some m) s with
    | nil => rfl
    | cons kv l ih =>
      simp only [List.map_cons, Dict.get?]
      split
      · simp [cut_eq]
      · exact ih

/-- **C80** Protobuf: a span is encoded exactly if its ids are in range and its times are not negative, and then every field is that of the span. -/
theorem C80_proto (m : Option Int) (s : ZSpan) :
    ((encodeProto m s).isSome ↔ Ids s ∧ 0 ≤ usec s.start ∧ 0 ≤ usec (s.finish - s.start)) ∧
    ∀ e, encodeProto m s = some e → Faithful m s e (fun t => (Otlp.fromBytes t : Int)) ∧ e.traceId.length = 16 ∧ e.id.length = 8 ∧
      e.tags = spanTags m s ∧ (e.kind = none ↔ s.kind = .internal) ∧ (∀ k, e.kind = some k → k = s.kind) := by
  have hpar : (protoParent s.parent).isSome ↔ ∀ p, s.parent = some p → 0 ≤ p.spanId ∧ p.spanId < 2 ^ 64 := by
    cases s.parent with
    | none => simp [protoParent]
    | some p => simp only [protoParent, Option.isSome_map, (Otlp.C45_span_id _).1]; simp
  unfold Ids
  rw [← (Otlp.C45_trace_id s.ctx.traceId).1, ← (Otlp.C45_span_id s.ctx.spanId).1, ← hpar]
  unfold encodeProto
  cases ht : Otlp.encodeTraceId s.ctx.traceId with
  | none => simp
  | some t =>
    cases hi : Otlp.encodeSpanId s.ctx.spanId with
    | none => simp
    | some i =>
      cases hp : protoParent s.parent with
      | none => simp
      | some p =>
        simp only [Option.isSome_some, true_and]
        by_cases hc : 0 ≤ usec s.start ∧ 0 ≤ usec (s.finish - s.start)
        · rw [if_pos hc]
          refine ⟨by simp [hc], ?_⟩
          intro e he
          cases he
          have a := (Otlp.C45_trace_id s.ctx.traceId).2 t ht
          have b := (Otlp.C45_span_id s.ctx.spanId).2 i hi
          refine ⟨⟨a.2.2, b.2.2, ?_, rfl, rfl, rfl, annotations_spec m s.events, by simp [SpanContext.sampled]⟩, a.1, b.1, rfl, ?_, ?_⟩
          · simp only
            cases hq : s.parent with
            | none => rw [hq] at hp; cases hp; rfl
            | some q =>
              rw [hq] at hp
              simp only [protoParent, Option.map_eq_some_iff] at hp
              obtain ⟨x, hx, rfl⟩ := hp
              simp only [Option.map_some, Option.some.injEq]
              exact ((Otlp.C45_span_id q.spanId).2 x hx).2.2
          · simp only; cases s.kind <;> simp [v2Kind]
          · simp only; intro k hk; cases hs : s.kind <;> rw [hs] at hk <;> simp [v2Kind] at hk <;> exact hk.symm
        · rw [if_neg hc]; simp [hc]

/-! ## The exporter -/

/-- **C80** A batch is posted once, with all its spans in order, and the result says whether the server accepted it; after `shutdown` nothing is
posted and the result is failure. -/
theorem C80_export {ι : Type} (enc : ZSpan → Option (Encoded ι)) (x : Exporter) (spans : List ZSpan) (status : Nat) :
    (x.closed = true → (exportBatch enc x spans status).2 = some (false, [])) ∧
    (x.closed = false → (∀ s ∈ spans, (enc s).isSome = true) → ∃ post, (exportBatch enc x spans status).2 = some (decide (status = 200 ∨ status = 202), [post]) ∧
      post.spans.map some = spans.map enc) ∧
    (x.closed = false → (∃ s ∈ spans, enc s = none) → (exportBatch enc x spans status).2 = none) ∧
    (exportBatch enc x spans status).1.closed = x.closed ∧ (shutdown x).closed = true := by
  have hmap : ∀ l : List ZSpan, (∀ s ∈ l, (enc s).isSome = true) → ∃ r, l.mapM enc = some r ∧ r.map some = l.map enc := by
    intro l
    induction l with
    | nil => intro _; exact ⟨[], rfl, rfl⟩
    | cons s l ih =>
      intro h
      obtain ⟨r, h1, h2⟩ := ih (fun y hy => h y (by simp [hy]))
      obtain ⟨e, he⟩ := Option.isSome_iff_exists.1 (h s (by simp))
      exact ⟨e :: r, by simp [List.mapM_cons, he, h1], by simp [he, h2]⟩
  have hnone : ∀ l : List ZSpan, (∃ s ∈ l, enc s = none) → l.mapM enc = none := by
    intro l
    induction l with
    | nil => simp
    | cons s l ih =>
      rintro ⟨y, hy, hn⟩
      rw [List.mapM_cons]
      rcases List.mem_cons.1 hy with rfl | hy
      · simp [hn]
      · rw [ih ⟨y, hy, hn⟩]; cases enc s <;> rfl
  refine ⟨?_, ?_, ?_, ?_, rfl⟩
  · intro h; simp [exportBatch, h]
  · intro h ha
    obtain ⟨r, h1, h2⟩ := hmap spans ha
    unfold exportBatch
    rw [if_neg (by simp [h])]
    simp only [h1]
    generalize (match spans with
      | [] => x.service
      | s :: _ =>
        match Dict.get? s.resource "service.name".toList with
        | some (.scalar (.str (c :: n))) => c :: n
        | _ => x.service) = sv
    have hb : (status == 200 || status == 202) = decide (status = 200 ∨ status = 202) := by rw [Bool.eq_iff_iff]; simp
    exact ⟨⟨_, r⟩, by rw [hb], h2⟩
  · intro h hn
    unfold exportBatch
    rw [if_neg (by simp [h])]
    simp only [hnone spans hn]
  · unfold exportBatch
    by_cases h : x.closed = true
    · rw [if_pos h]
    · rw [if_neg h]
      simp only
      cases spans.mapM enc <;> rfl

/-- **C80** A batch is posted for the service named by the resource of its first span. -/
theorem C80_service {ι : Type} (enc : ZSpan → Option (Encoded ι)) (x : Exporter) (s : ZSpan) (rest : List ZSpan) (status : Nat) (n : Str) (hn : n ≠ [])
    (h : Dict.get? s.resource "service.name".toList = some (.scalar (.str n))) (ok : Bool) (posts : List (Post ι))
    (he : (exportBatch enc x (s :: rest) status).2 = some (ok, posts)) : ∀ p ∈ posts, p.service = n := by
  obtain ⟨c, t, rfl⟩ : ∃ c t, n = c :: t := by cases n with
    | nil => exact absurd rfl hn
    | cons c t => exact ⟨c, t, rfl⟩
  unfold exportBatch at he
  by_cases hc : x.closed = true
  · rw [if_pos hc] at he; cases he; simp
  · rw [if_neg hc] at he
    simp only [h] at he
    cases hm : (s :: rest).mapM enc with
    | none => rw [hm] at he; cases he
    | some l => rw [hm] at he; cases he; simp

/-! ## Findings -/

/-- **C80** refuted: with the exporter's default settings (no maximal length) the v1 format raises for every span of a tracer. -/
theorem C80_v1_default_raises (s : ZSpan) (sc : Str × Str) (h : s.scope = some sc) : encodeV1 none s = none := by
  have hne : spanTags none s ≠ [] := by
    intro h0
    have : ∀ (tags : Dict Str Str) (key : String) (n : Nat), tags ≠ [] → countTag tags key n ≠ [] := by
      intro tags key n ht
      unfold countTag
      split
      · exact ht
      · cases tags with
        | nil => exact absurd rfl ht
        | cons p t => obtain ⟨a, b⟩ := p; unfold Dict.set; split <;> simp
    have hset : ∀ (tags : Dict Str Str) (k v : Str), Dict.set tags k v ≠ [] := by
      intro tags k v
      cases tags with
      | nil => simp [Dict.set]
      | cons p t => obtain ⟨a, b⟩ := p; unfold Dict.set; split <;> simp
    have hscope : ∀ tags, scopeTags tags s.scope ≠ [] := by
      intro tags
      rw [h]
      obtain ⟨a, b⟩ := sc
      simp only [scopeTags, Dict.update, List.foldl_cons, List.foldl_nil]
      exact hset _ _ _
    have hstat : ∀ tags, tags ≠ [] → statusTags tags s.status ≠ [] := by
      intro tags ht
      unfold statusTags
      split
      · exact ht
      · exact hset _ _ _
      · exact hset _ _ _
    exact this _ _ _ (this _ _ _ (this _ _ _ (hstat _ (hscope _)))) h0
  unfold encodeV1 binaryAnnotations
  simp only
  rw [if_neg (by simpa using hne)]
  rfl

/-- A span for the counterexamples. -/
def sample (attrs resource : Dict Str Value) (status : Status) : ZSpan :=
  ⟨"op".toList, ⟨1, 2, false, 1, []⟩, none, .client, 1000000, 3000000, attrs, resource, some ("lib".toList, "1".toList), status, [], 0, 0, 0⟩

/-- **C80** refuted: an attribute of the span is lost if the resource has one of the same name. -/
theorem C80_attribute_hidden :
    Dict.get? (spanTags none (sample [("host".toList, .scalar (.str "db".toList))] [("host".toList, .scalar (.str "web".toList))] ⟨.unset, none⟩)) "host".toList =
      some "web".toList := by decide

/-- **C80** refuted: in v2 the limit is not applied to the description of the status. -/
theorem C80_description_not_cut :
    Dict.get? (spanTags (some 4) (sample [] [] ⟨.error, some "connection lost".toList⟩)) "error".toList = some "connection lost".toList := by decide

/-- **C80** refuted: the spans of a batch are all reported for the service of the first one, and a batch without service name for the service of an
earlier batch. -/
theorem C80_wrong_service :
    let a := sample [] [("service.name".toList, .scalar (.str "a".toList))] ⟨.unset, none⟩
    let b := sample [] [("service.name".toList, .scalar (.str "b".toList))] ⟨.unset, none⟩
    let c := sample [] [] ⟨.unset, none⟩
    let r := exportBatch (fun s => some (encodeV2 none s)) ⟨false, "me".toList⟩ [a, b] 202
    r.2.map (fun p => p.2.map (·.service)) = some ["a".toList] ∧
    (exportBatch (fun s => some (encodeV2 none s)) r.1 [c] 202).2.map (fun p => p.2.map (·.service)) = some ["a".toList] := by decide

/-- The hypotheses are met. -/
example : Ids (sample [] [] ⟨.unset, none⟩) ∧ (encodeProto none (sample [] [] ⟨.unset, none⟩)).isSome = true := by
  refine ⟨⟨by decide, by decide, ?_⟩, by decide⟩
  intro p h; cases h

/-- A sequence of which only a prefix fits. -/
example : tagValue (some 9) (.seq [.scalar (.num ['1']), .none, .scalar (.str ['a'])]) = some "[\"1\"]".toList ∧
    tagValue (some 10) (.seq [.scalar (.num ['1']), .none, .scalar (.str ['a'])]) = some "[\"1\",null]".toList := by decide

end Zipkin
end Otel
