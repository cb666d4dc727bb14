import Verif.Model.Json
import Verif.Props.Zipkin
/-!
# C89: what `json.dumps` writes, `json.loads` reads
-/
namespace Otel
namespace Json
open TraceContext (isLowerHex)
open Zipkin (u4 escChar units char_valid units_le_esc)

/-! ## Strings -/

theorem hex_of_lower (c : Char) (h : isLowerHex c = true) : Url.isHexDigit c = true := by
  simp only [isLowerHex, Url.isHexDigit, Bool.or_eq_true] at h ⊢
  rcases h with h | h
  · exact .inl (.inl h)
  · exact .inr h

theorem readOne_u4 (n : Nat) (h : n < 0x10000) (t : Str) : readOne '\\' ('u' :: hexFmt 4 (Int.ofNat n) ++ t) = some (n, t) := by
  obtain ⟨h1, h2, h3⟩ := hexFmt_spec 4 n (by decide) (by omega)
  rw [show ((n : Nat) : Int) = Int.ofNat n from rfl] at h1 h2 h3
  generalize hexFmt 4 (Int.ofNat n) = x at h1 h2 h3
  match x, h2 with
  | [a, b, c, d], _ =>
    simp only [readOne, if_true, List.cons_append, List.nil_append, readHex4]
    rw [if_pos]
    · rw [h1]
    · simp only [List.all_eq_true]; exact fun c hc => hex_of_lower c (h3 c hc)

theorem readChars_esc (c : Char) (f : Nat) (t : Str) (p : List Nat × Str) (h : readChars f t = some p) :
    readChars (f + (units c).length) (escChar c ++ t) = some (units c ++ p.1, p.2) := by
  have one : ∀ (x : Char) (y t : Str) (n f : Nat), x ≠ '"' → readOne x (y ++ t) = some (n, t) → ∀ p, readChars f t = some p →
      readChars (f + 1) (x :: y ++ t) = some (n :: p.1, p.2) := by
    intro x y t n f hx hr p hp
    simp only [List.cons_append, readChars, if_neg hx, hr, hp, Option.map_some]
  have hlt : c.toNat < 0x10000 → units c = [c.toNat] := by intro h; unfold units; rw [if_pos h]
  have small : ∀ (x : Char) (y : Str), c.toNat < 0x10000 → escChar c = x :: y → x ≠ '"' → readOne x (y ++ t) = some (c.toNat, t) →
      readChars (f + (units c).length) (escChar c ++ t) = some (units c ++ p.1, p.2) := by
    intro x y hc he hx hr
    rw [he, hlt hc]
    exact one x y t c.toNat f hx hr p h
  by_cases e1 : c = '"'
  · subst e1; exact small '\\' ['"'] (by decide) (by decide) (by decide) (by simp [readOne, simpleEscape])
  by_cases e2 : c = '\\'
  · subst e2; exact small '\\' ['\\'] (by decide) (by decide) (by decide) (by simp [readOne, simpleEscape])
  by_cases e3 : c = '\n'
  · subst e3; exact small '\\' ['n'] (by decide) (by decide) (by decide) (by simp [readOne, simpleEscape])
  by_cases e4 : c = '\r'
  · subst e4; exact small '\\' ['r'] (by decide) (by decide) (by decide) (by simp [readOne, simpleEscape])
  by_cases e5 : c = '\t'
  · subst e5; exact small '\\' ['t'] (by decide) (by decide) (by decide) (by simp [readOne, simpleEscape])
  by_cases e6 : c.toNat = 12
  · have he : escChar c = ['\\', 'f'] := by unfold escChar; simp [e1, e2, e3, e4, e5, e6]
    exact small '\\' ['f'] (by omega) he (by decide) (by rw [e6]; simp [readOne, simpleEscape])
  by_cases e7 : c.toNat = 8
  · have he : escChar c = ['\\', 'b'] := by unfold escChar; simp [e1, e2, e3, e4, e5, e7]
    exact small '\\' ['b'] (by omega) he (by decide) (by rw [e7]; simp [readOne, simpleEscape])
  by_cases e8 : 32 ≤ c.toNat ∧ c.toNat ≤ 126
  · have he : escChar c = [c] := by unfold escChar; simp only [e1, e2, e3, e4, e5, e6, e7, e8, if_false, and_self, if_true]
    exact small c [] (by omega) he e1 (by simp [readOne, e2]; omega)
  by_cases e9 : c.toNat < 0x10000
  · have he : escChar c = u4 c.toNat := by unfold escChar; simp only [e1, e2, e3, e4, e5, e6, e7, e8, e9, if_false, if_true]
    exact small '\\' ('u' :: hexFmt 4 (Int.ofNat c.toNat)) e9 he (by decide) (readOne_u4 _ e9 t)
  · have he : escChar c = u4 (0xd800 + (c.toNat - 0x10000) / 0x400 % 0x400) ++ u4 (0xdc00 + (c.toNat - 0x10000) % 0x400) := by
      unfold escChar; simp only [e1, e2, e3, e4, e5, e6, e7, e8, e9, if_false]
    have hu : units c = [0xd800 + (c.toNat - 0x10000) / 0x400 % 0x400, 0xdc00 + (c.toNat - 0x10000) % 0x400] := by
      unfold units; rw [if_neg e9]
    rw [he, hu]
    have hA : 0xd800 + (c.toNat - 0x10000) / 0x400 % 0x400 < 0x10000 := by omega
    have hB : 0xdc00 + (c.toNat - 0x10000) % 0x400 < 0x10000 := by omega
    generalize 0xd800 + (c.toNat - 0x10000) / 0x400 % 0x400 = A at hA
    generalize 0xdc00 + (c.toNat - 0x10000) % 0x400 = B at hB
    have s1 := one '\\' ('u' :: hexFmt 4 (Int.ofNat B)) t B f (by decide) (readOne_u4 B hB t) p h
    have s2 := one '\\' ('u' :: hexFmt 4 (Int.ofNat A)) (u4 B ++ t) A (f + 1) (by decide) (readOne_u4 A hA _) _ s1
    rw [List.append_assoc]
    exact s2

theorem readChars_quote (s t : Str) (f : Nat) (h : (s.flatMap units).length < f) :
    readChars f (s.flatMap escChar ++ '"' :: t) = some (s.flatMap units, t) := by
  have base : ∀ k, readChars (1 + k) ('"' :: t) = some ([], t) := by intro k; rw [Nat.add_comm]; simp [readChars]
  have : ∀ k, readChars (1 + k + (s.flatMap units).length) (s.flatMap escChar ++ '"' :: t) = some (s.flatMap units, t) := by
    intro k
    induction s with
    | nil => exact base k
    | cons c s ih =>
      have := readChars_esc c _ _ _ (ih (by simp only [List.flatMap_cons, List.length_append] at h; omega))
      simp only [List.flatMap_cons, List.length_append, List.append_assoc]
      rw [show 1 + k + ((units c).length + (s.flatMap units).length) = 1 + k + (s.flatMap units).length + (units c).length by omega]
      exact this
  obtain ⟨k, rfl⟩ : ∃ k, f = 1 + k + (s.flatMap units).length := ⟨f - 1 - (s.flatMap units).length, by omega⟩
  exact this k

theorem joinUnits_units (c : Char) (r : List Nat) : joinUnits (units c ++ r) = c :: joinUnits r := by
  unfold units
  by_cases h : c.toNat < 0x10000
  · rw [if_pos h]
    cases r with
    | nil => simp [joinUnits]
    | cons l r =>
      simp only [List.cons_append, List.nil_append, joinUnits]
      rw [if_neg]
      · simp
      · have := char_valid c; omega
  · rw [if_neg h]
    have := char_valid c
    obtain ⟨A, hA⟩ : ∃ A, A = 0xd800 + (c.toNat - 0x10000) / 0x400 % 0x400 := ⟨_, rfl⟩
    obtain ⟨B, hB⟩ : ∃ B, B = 0xdc00 + (c.toNat - 0x10000) % 0x400 := ⟨_, rfl⟩
    rw [← hA, ← hB]
    simp only [List.cons_append, List.nil_append, joinUnits]
    rw [if_pos (by omega)]
    have e : 0x10000 + (A - 0xd800) * 0x400 + (B - 0xdc00) = c.toNat := by omega
    rw [e]
    simp

theorem joinUnits_flatMap (s : Str) : joinUnits (s.flatMap units) = s := by
  induction s with
  | nil => rfl
  | cons c s ih => rw [List.flatMap_cons, joinUnits_units, ih]


theorem readString_quote (s t : Str) : readString (s.flatMap escChar ++ '"' :: t) = some (s, t) := by
  unfold readString
  rw [readChars_quote]
  · simp [joinUnits_flatMap]
  · have : (s.flatMap units).length ≤ (s.flatMap escChar).length := by
      induction s with
      | nil => simp
      | cons c s ih => simp only [List.flatMap_cons, List.length_append]; have := units_le_esc c; omega
    simp only [List.length_append, List.length_cons]
    omega

/-! ## Numbers -/

theorem digit_spec : ∀ n, n < 10 → (digit n).toNat - 48 = n ∧ isDig (digit n) = true ∧ (digit n = '0' ↔ n = 0) := by decide

theorem decVal_append (s : Str) (c : Char) : decVal (s ++ [c]) = decVal s * 10 + (c.toNat - 48) := by
  simp [decVal, List.foldl_append]

theorem toDecAux_spec (fuel n : Nat) (h : n ≤ fuel) : decVal (toDecAux fuel n) = n ∧ (∀ c ∈ toDecAux fuel n, isDig c = true) ∧
    toDecAux fuel n ≠ [] ∧ (0 < n → (toDecAux fuel n).head? ≠ some '0') ∧ (n = 0 → toDecAux fuel n = ['0']) := by
  induction fuel generalizing n with
  | zero =>
    obtain rfl : n = 0 := by omega
    decide
  | succ fuel ih =>
    unfold toDecAux
    split
    · rename_i hn
      obtain ⟨h1, h2, h3⟩ := digit_spec n hn
      refine ⟨by simp [decVal, h1], by simpa using h2, by simp, ?_, ?_⟩
      · intro h0
        simp only [List.head?_cons, ne_eq, Option.some.injEq, h3]
        omega
      · intro h0; rw [h3.2 h0]
    · rename_i hn
      obtain ⟨i1, i2, i3, i4, _⟩ := ih (n / 10) (by omega)
      obtain ⟨h1, h2, _⟩ := digit_spec (n % 10) (by omega)
      refine ⟨?_, ?_, by simp, ?_, by omega⟩
      · rw [decVal_append, i1, h1]; omega
      · intro c hc
        rcases List.mem_append.1 hc with hc | hc
        · exact i2 c hc
        · rw [List.mem_singleton] at hc; rw [hc]; exact h2
      · intro _
        have := i4 (by omega)
        cases ht : toDecAux fuel (n / 10) with
        | nil => exact absurd ht i3
        | cons c l => rw [ht] at this; simpa using this

theorem isIntPart_dec (n : Nat) : isIntPart (toDecAux n n) = true := by
  obtain ⟨_, h2, h3, h4, h5⟩ := toDecAux_spec n n (Nat.le_refl _)
  unfold isIntPart
  rw [Bool.and_eq_true]
  refine ⟨by simpa using h2, ?_⟩
  by_cases h : n = 0
  · rw [h5 h]; rfl
  · have := h4 (by omega)
    cases ht : toDecAux n n with
    | nil => exact absurd ht h3
    | cons c l =>
      rw [ht] at this
      simp at this ⊢
      exact .inr this

theorem readInt_decimal (i : Int) : readInt (decimal i) = some i := by
  cases i with
  | ofNat n =>
    obtain ⟨h1, h2, h3, _⟩ := toDecAux_spec n n (Nat.le_refl _)
    have hi := isIntPart_dec n
    rw [show decimal (Int.ofNat n) = toDecAux n n from rfl]
    cases ht : toDecAux n n with
    | nil => exact absurd ht h3
    | cons c l =>
      rw [ht] at h1 h2 hi
      have hc : c ≠ '-' := by
        rintro rfl
        exact absurd (h2 '-' (by simp)) (by decide)
      unfold readInt
      split
      · rename_i e; injection e with e _; exact absurd e hc
      · rw [if_pos hi, h1]; rfl
  | negSucc n =>
    unfold decimal
    simp only [readInt]
    rw [if_pos (isIntPart_dec (n + 1)), (toDecAux_spec (n + 1) (n + 1) (Nat.le_refl _)).1]
    rfl

theorem decimal_head (i : Int) : ∃ c r, decimal i = c :: r ∧ (isDig c = true ∨ c ∈ "-NI".toList) := by
  cases i with
  | ofNat n =>
    obtain ⟨_, h2, h3, _⟩ := toDecAux_spec n n (Nat.le_refl _)
    rw [show decimal (Int.ofNat n) = toDecAux n n from rfl]
    cases ht : toDecAux n n with
    | nil => exact absurd ht h3
    | cons c l => exact ⟨c, l, rfl, .inl (h2 c (by rw [ht]; simp))⟩
  | negSucc n => exact ⟨'-', _, rfl, .inr (by decide)⟩

theorem decimal_chars (i : Int) : ∀ c ∈ decimal i, numChar c = true := by
  have h : ∀ n, ∀ c ∈ toDecAux n n, numChar c = true := by
    intro n c hc
    have := (toDecAux_spec n n (Nat.le_refl _)).2.1 c hc
    simp [numChar, this]
  cases i with
  | ofNat n => exact h n
  | negSucc n =>
    intro c hc
    rcases List.mem_cons.1 hc with rfl | hc
    · decide
    · exact h _ c hc

/-- What follows a number does not continue it. -/
def Ends (t : Str) : Prop := ∀ c, t.head? = some c → numChar c = false

theorem takeWhile_run (p : Char → Bool) (s t : Str) (hs : ∀ c ∈ s, p c = true) (ht : ∀ c, t.head? = some c → p c = false) :
    (s ++ t).takeWhile p = s ∧ (s ++ t).dropWhile p = t := by
  induction s with
  | nil =>
    cases t with
    | nil => exact ⟨rfl, rfl⟩
    | cons c t => simp [List.takeWhile, List.dropWhile, ht c rfl]
  | cons c s ih =>
    have := ih (fun x hx => hs x (by simp [hx]))
    simp [List.takeWhile, List.dropWhile, hs c (by simp), this.1, this.2]

theorem readNumber_int (F : Floats) (i : Int) (t : Str) (ht : Ends t) : readNumber F (decimal i ++ t) = some (.int i, t) := by
  obtain ⟨h1, h2⟩ := takeWhile_run numChar (decimal i) t (decimal_chars i) ht
  simp only [readNumber, h1, h2, readInt_decimal]

theorem readNumber_float (F : Floats) (n : Nat) (t : Str) (ht : Ends t) : readNumber F (F.repr n ++ t) = some (.float n, t) := by
  obtain ⟨h1, h2⟩ := takeWhile_run numChar (F.repr n) t (F.chars n) ht
  simp only [readNumber, h1, h2, F.not_int, F.parse_repr, Option.map_some]

/-! ## Documents -/

mutual
/-- The fuel a document needs. -/
def need : J → Nat
  | .arr l => 1 + needItems l
  | .obj l => 1 + needPairs l
  | _ => 1
def needItems : List J → Nat
  | [] => 0
  | x :: l => 1 + max (need x) (needItems l)
def needPairs : List (Str × J) → Nat
  | [] => 0
  | (_, x) :: l => 1 + max (need x) (needPairs l)
end

/-- Only blanks. -/
def Blank (w : Str) : Prop := ∀ c ∈ w, isBlank c = true

theorem skip_blank (w t : Str) (hw : Blank w) (ht : ∀ c, t.head? = some c → isBlank c = false) : skip (w ++ t) = t :=
  (takeWhile_run isBlank w t hw ht).2

theorem blank_newline (indent : Option Nat) (lvl : Nat) : Blank (newline indent lvl) := by
  cases indent with
  | none => intro c hc; simp [newline] at hc
  | some k =>
    intro c hc
    rcases List.mem_cons.1 hc with rfl | hc
    · decide
    · rw [(List.mem_replicate.1 hc).2]; decide

/-- A separator is a comma and blanks. -/
theorem sep_eq (indent : Option Nat) (lvl : Nat) : ∃ w, sep indent lvl = ',' :: w ∧ Blank w := by
  cases indent with
  | none => exact ⟨[' '], rfl, by intro c hc; simp at hc; subst hc; decide⟩
  | some k => exact ⟨_, rfl, blank_newline (some k) lvl⟩

theorem ends_newline (indent : Option Nat) (lvl : Nat) (c : Char) (t : Str) (hc : numChar c = false) :
    Ends (newline indent lvl ++ c :: t) := by
  cases indent with
  | none => intro d hd; simp [newline] at hd; subst hd; exact hc
  | some k => intro d hd; simp [newline] at hd; subst hd; decide

theorem ends_items (F : Floats) (indent : Option Nat) (lvl : Nat) (l : List J) (t : Str) (ht : Ends t) :
    Ends (writeItems F indent lvl l ++ t) := by
  cases l with
  | nil => exact ht
  | cons x l =>
    obtain ⟨w, e, _⟩ := sep_eq indent lvl
    intro d hd
    simp only [writeItems, e, List.cons_append, List.head?_cons, Option.some.injEq] at hd
    subst hd; decide

theorem ends_pairs (F : Floats) (indent : Option Nat) (lvl : Nat) (l : List (Str × J)) (t : Str) (ht : Ends t) :
    Ends (writePairs F indent lvl l ++ t) := by
  cases l with
  | nil => exact ht
  | cons x l =>
    obtain ⟨w, e, _⟩ := sep_eq indent lvl
    intro d hd
    simp only [writePairs, e, List.cons_append, List.head?_cons, Option.some.injEq] at hd
    subst hd; decide

theorem number_branch (F : Floats) (f : Nat) (w s t : Str) (j : J) (hw : Blank w)
    (hs : ∃ c r, s = c :: r ∧ (isDig c = true ∨ c ∈ "-NI".toList)) (h : readNumber F (s ++ t) = some (j, t)) :
    readValue F (f + 1) (w ++ s ++ t) = some (j, t) := by
  obtain ⟨c, r, rfl, hc⟩ := hs
  have hn : ∀ d : Char, isDig d = false → d ∉ "-NI".toList → c ≠ d := by
    rintro d h1 h2 rfl
    rcases hc with hc | hc
    · rw [hc] at h1; simp at h1
    · exact h2 hc
  have hb : isBlank c = false := by
    simp only [isBlank, Bool.or_eq_false_iff, beq_eq_false_iff_ne]
    exact ⟨⟨⟨hn _ (by decide) (by decide), hn _ (by decide) (by decide)⟩, hn _ (by decide) (by decide)⟩, hn _ (by decide) (by decide)⟩
  have p : ∀ (d : Char) (l x : Str), c ≠ d → (d :: l).isPrefixOf (c :: x) = false := by
    intro d l x h
    simp [List.isPrefixOf, Ne.symm h]
  rw [readValue, List.append_assoc, List.cons_append, skip_blank w _ hw (by intro d hd; simp at hd; subst hd; exact hb)]
  simp only
  rw [if_neg (hn _ (by decide) (by decide)), if_neg (hn _ (by decide) (by decide)), if_neg (hn _ (by decide) (by decide)),
    if_neg (by rw [show "null".toList = 'n' :: "ull".toList from rfl, p _ _ _ (hn _ (by decide) (by decide))]; simp),
    if_neg (by rw [show "true".toList = 't' :: "rue".toList from rfl, p _ _ _ (hn _ (by decide) (by decide))]; simp),
    if_neg (by rw [show "false".toList = 'f' :: "alse".toList from rfl, p _ _ _ (hn _ (by decide) (by decide))]; simp)]
  exact h

theorem write_head (F : Floats) (indent : Option Nat) (lvl : Nat) (j : J) : ∃ c r, write F indent lvl j = c :: r ∧ isBlank c = false ∧ c ≠ ']' ∧ c ≠ '}' := by
  have num : ∀ s : Str, (∃ c r, s = c :: r ∧ (isDig c = true ∨ c ∈ "-NI".toList)) → ∃ c r, s = c :: r ∧ isBlank c = false ∧ c ≠ ']' ∧ c ≠ '}' := by
    rintro s ⟨c, r, rfl, hc⟩
    have hn : ∀ d : Char, isDig d = false → d ∉ "-NI".toList → c ≠ d := by
      rintro d h1 h2 rfl
      rcases hc with hc | hc
      · rw [hc] at h1; simp at h1
      · exact h2 hc
    refine ⟨c, r, rfl, ?_, hn _ (by decide) (by decide), hn _ (by decide) (by decide)⟩
    simp only [isBlank, Bool.or_eq_false_iff, beq_eq_false_iff_ne]
    exact ⟨⟨⟨hn _ (by decide) (by decide), hn _ (by decide) (by decide)⟩, hn _ (by decide) (by decide)⟩, hn _ (by decide) (by decide)⟩
  have con : ∀ (c : Char) (r s : Str), s = c :: r → isBlank c = false ∧ c ≠ ']' ∧ c ≠ '}' → ∃ c r, s = c :: r ∧ isBlank c = false ∧ c ≠ ']' ∧ c ≠ '}' :=
    fun c r s h1 h2 => ⟨c, r, h1, h2⟩
  cases j with
  | null => exact con 'n' "ull".toList _ (by simp [write]) (by decide)
  | bool b =>
    cases b
    · exact con 'f' "alse".toList _ (by simp [write]) (by decide)
    · exact con 't' "rue".toList _ (by simp [write]) (by decide)
  | int i => rw [write]; exact num _ (decimal_head i)
  | float f => rw [write]; exact num _ (F.head f)
  | str s => exact con '"' _ _ (by rw [write]; rfl) (by decide)
  | arr l =>
    cases l with
    | nil => exact con '[' [']'] _ (by simp [write]) (by decide)
    | cons x l => exact con '[' _ _ (by rw [write]; simp only [List.cons_append]; rfl) (by decide)
  | obj l =>
    cases l with
    | nil => exact con '{' ['}'] _ (by simp [write]) (by decide)
    | cons x l => obtain ⟨k, x⟩ := x; exact con '{' _ _ (by rw [write]; simp only [List.cons_append]; rfl) (by decide)


theorem literal_branch (F : Floats) (f : Nat) (w t : Str) (hw : Blank w) :
    readValue F (f + 1) (w ++ "null".toList ++ t) = some (.null, t) ∧ readValue F (f + 1) (w ++ "true".toList ++ t) = some (.bool true, t) ∧
    readValue F (f + 1) (w ++ "false".toList ++ t) = some (.bool false, t) := by
  have e1 : "null".toList = ['n', 'u', 'l', 'l'] := rfl
  have e2 : "true".toList = ['t', 'r', 'u', 'e'] := rfl
  have e3 : "false".toList = ['f', 'a', 'l', 's', 'e'] := rfl
  have k : ∀ (c : Char) (r : Str), isBlank c = false → skip (w ++ (c :: r)) = c :: r :=
    fun c r hc => skip_blank w _ hw (by intro d hd; simp at hd; subst hd; exact hc)
  refine ⟨?_, ?_, ?_⟩ <;>
  · rw [readValue, List.append_assoc]
    simp only [e1, e2, e3, List.cons_append, List.nil_append]
    rw [k _ _ (by decide)]
    simp

theorem head_not (t : Str) (c : Char) (r : Str) (h : t = c :: r) (hb : isBlank c = false) : ∀ d, t.head? = some d → isBlank d = false := by
  intro d hd; rw [h] at hd; simp at hd; subst hd; exact hb

theorem skip_close (indent : Option Nat) (lvl : Nat) (c : Char) (t : Str) (hc : isBlank c = false) :
    skip (newline indent lvl ++ c :: t) = c :: t := skip_blank _ _ (blank_newline indent lvl) (head_not _ c t rfl hc)

theorem skip_cons (c : Char) (t : Str) (hc : isBlank c = false) : skip (c :: t) = c :: t := by
  simpa using skip_blank [] (c :: t) (by intro d hd; simp at hd) (head_not _ c t rfl hc)

mutual
theorem readValue_write (F : Floats) (indent : Option Nat) (j : J) (lvl f : Nat) (w t : Str) (hw : Blank w) (ht : Ends t)
    (hf : need j ≤ f) : readValue F f (w ++ write F indent lvl j ++ t) = some (j, t) := by
  obtain ⟨f, rfl⟩ : ∃ g, f = g + 1 := ⟨f - 1, by cases j <;> simp [need] at hf <;> omega⟩
  match j with
  | .null => rw [write]; exact (literal_branch F f w t hw).1
  | .bool true => rw [write]; exact (literal_branch F f w t hw).2.1
  | .bool false => rw [write]; exact (literal_branch F f w t hw).2.2
  | .int i =>
    rw [write]
    exact number_branch F f w _ t _ hw (decimal_head i) (readNumber_int F i t ht)
  | .float n =>
    rw [write]
    exact number_branch F f w _ t _ hw (F.head n) (readNumber_float F n t ht)
  | .str s =>
    rw [write, readValue, List.append_assoc, Zipkin.quote, List.cons_append, skip_blank w _ hw (head_not _ _ _ rfl (by decide)), List.append_assoc,
      List.singleton_append]
    simp only [if_true, readString_quote, Option.map_some]
  | .arr [] =>
    rw [write, readValue, List.append_assoc, show "[]".toList = ['[', ']'] from rfl, List.cons_append,
      skip_blank w _ hw (head_not _ _ _ rfl (by decide))]
    simp only [List.cons_append, List.nil_append, skip_cons ']' t (by decide)]
    simp
  | .obj [] =>
    rw [write, readValue, List.append_assoc, show "{}".toList = ['{', '}'] from rfl, List.cons_append,
      skip_blank w _ hw (head_not _ _ _ rfl (by decide))]
    simp only [List.cons_append, List.nil_append, skip_cons '}' t (by decide)]
    simp
  | .arr (x :: l) =>
    have ih := readItems_write F indent l x (lvl + 1) lvl f (newline indent (lvl + 1)) t (blank_newline _ _)
      (by simp only [need, needItems] at hf; omega)
    obtain ⟨c, r, e, hb, hc, _⟩ := write_head F indent (lvl + 1) x
    rw [write, readValue, List.append_assoc]
    simp only [List.cons_append, List.append_assoc, List.nil_append] at ih ⊢
    rw [skip_blank w _ hw (head_not _ _ _ rfl (by decide))]
    have hs : ∀ y, skip (newline indent (lvl + 1) ++ (write F indent (lvl + 1) x ++ y)) = c :: (r ++ y) := by
      intro y
      rw [skip_blank _ _ (blank_newline _ _) (head_not _ c (r ++ y) (by rw [e]; rfl) hb), e]; rfl
    simp only [hs]
    split
    · rename_i h; exact absurd h (by decide)
    · rw [if_pos trivial]
      split
      · rename_i h; injection h with h _; exact absurd h hc
      · rw [ih]; rfl
  | .obj ((k, x) :: l) =>
    have ih := readPairs_write F indent l k x (lvl + 1) lvl f (newline indent (lvl + 1)) t (blank_newline _ _)
      (by simp only [need, needPairs] at hf; omega)
    rw [write, readValue, List.append_assoc]
    simp only [List.cons_append, List.append_assoc, List.nil_append] at ih ⊢
    rw [skip_blank w _ hw (head_not _ _ _ rfl (by decide))]
    have hs : ∀ y, skip (newline indent (lvl + 1) ++ (Zipkin.quote k ++ y)) = '"' :: (k.flatMap escChar ++ ['"'] ++ y) := by
      intro y
      rw [skip_blank _ _ (blank_newline _ _) (head_not _ '"' _ (by unfold Zipkin.quote; rfl) (by decide))]
      rfl
    simp only [hs]
    split
    · rename_i h; exact absurd h (by decide)
    · rw [if_neg (by decide), if_pos trivial]
      rw [ih]; rfl
termination_by f
theorem readItems_write (F : Floats) (indent : Option Nat) (l : List J) (x : J) (lvl lvl' f : Nat) (w t : Str) (hw : Blank w)
    (hf : 1 + max (need x) (needItems l) ≤ f) :
    readItems F f (w ++ write F indent lvl x ++ writeItems F indent lvl l ++ newline indent lvl' ++ ']' :: t) = some (x :: l, t) := by
  obtain ⟨f, rfl⟩ : ∃ g, f = g + 1 := ⟨f - 1, by omega⟩
  have e1 := ends_items F indent lvl l _ (ends_newline indent lvl' ']' t (by decide))
  have ih := readValue_write F indent x lvl f w _ hw e1 (by omega)
  rw [readItems]
  simp only [List.append_assoc] at ih ⊢
  rw [ih]
  match l with
  | [] =>
    simp only [writeItems, List.nil_append, skip_close indent lvl' ']' t (by decide)]
  | y :: l =>
    obtain ⟨v, e, hv⟩ := sep_eq indent lvl
    have ih2 := readItems_write F indent l y lvl lvl' f v t hv (by simp only [needItems] at hf; omega)
    simp only [writeItems, e, List.cons_append, List.append_assoc] at ih2 ⊢
    rw [skip_cons _ _ (by decide)]
    simp only
    rw [ih2]; rfl
termination_by f
theorem readPairs_write (F : Floats) (indent : Option Nat) (l : List (Str × J)) (k : Str) (x : J) (lvl lvl' f : Nat) (w t : Str) (hw : Blank w)
    (hf : 1 + max (need x) (needPairs l) ≤ f) :
    readPairs F f (w ++ (Zipkin.quote k ++ ": ".toList ++ write F indent lvl x ++ writePairs F indent lvl l) ++ newline indent lvl' ++ '}' :: t) =
      some ((k, x) :: l, t) := by
  obtain ⟨f, rfl⟩ : ∃ g, f = g + 1 := ⟨f - 1, by omega⟩
  have e1 := ends_pairs F indent lvl l _ (ends_newline indent lvl' '}' t (by decide))
  have ih := readValue_write F indent x lvl f [' '] _ (by intro c hc; simp at hc; subst hc; decide) e1 (by omega)
  rw [readPairs]
  have hq : ∀ y, Zipkin.quote k ++ y = '"' :: (k.flatMap escChar ++ '"' :: y) := by intro y; simp [Zipkin.quote]
  simp only [List.append_assoc, hq, show ": ".toList = [':', ' '] from rfl, List.cons_append, List.nil_append] at ih ⊢
  rw [skip_blank w _ hw (head_not _ _ _ rfl (by decide))]
  simp only [readString_quote]
  rw [skip_cons _ _ (by decide)]
  simp only [ih]
  match l with
  | [] =>
    simp only [writePairs, List.nil_append, skip_close indent lvl' '}' t (by decide)]
  | (k', y) :: l =>
    obtain ⟨v, e, hv⟩ := sep_eq indent lvl
    have ih2 := readPairs_write F indent l k' y lvl lvl' f v t hv (by simp only [needPairs] at hf; omega)
    have hq' : ∀ y, Zipkin.quote k' ++ y = '"' :: (k'.flatMap escChar ++ '"' :: y) := by intro y; simp [Zipkin.quote]
    simp only [writePairs, e, List.cons_append, List.append_assoc, show ": ".toList = [':', ' '] from rfl, List.nil_append] at ih2 ⊢
    rw [skip_cons _ _ (by decide)]
    simp only
    rw [ih2]; rfl
termination_by f
end

mutual
theorem need_le (F : Floats) (indent : Option Nat) (j : J) (lvl : Nat) : need j ≤ (write F indent lvl j).length := by
  have pos : ∀ j, 1 ≤ (write F indent lvl j).length := by
    intro j
    obtain ⟨c, r, e, _⟩ := write_head F indent lvl j
    rw [e]; simp
  match j with
  | .null => exact pos .null
  | .bool b => exact pos (.bool b)
  | .int i => exact pos (.int i)
  | .float n => exact pos (.float n)
  | .str s => exact pos (.str s)
  | .arr [] => exact pos (.arr [])
  | .obj [] => exact pos (.obj [])
  | .arr (x :: l) =>
    have h1 := need_le F indent x (lvl + 1)
    have h2 := needItems_le F indent l (lvl + 1)
    simp only [need, needItems, write, List.length_append, List.length_cons, List.length_nil, List.cons_append]
    omega
  | .obj ((k, x) :: l) =>
    have h1 := need_le F indent x (lvl + 1)
    have h2 := needPairs_le F indent l (lvl + 1)
    simp only [need, needPairs, write, List.length_append, List.length_cons, List.length_nil, List.cons_append]
    omega
theorem needItems_le (F : Floats) (indent : Option Nat) (l : List J) (lvl : Nat) : needItems l ≤ (writeItems F indent lvl l).length := by
  match l with
  | [] => simp [needItems]
  | x :: l =>
    have h1 := need_le F indent x lvl
    have h2 := needItems_le F indent l lvl
    obtain ⟨v, e, _⟩ := sep_eq indent lvl
    simp only [needItems, writeItems, e, List.length_append, List.length_cons]
    omega
theorem needPairs_le (F : Floats) (indent : Option Nat) (l : List (Str × J)) (lvl : Nat) :
    needPairs l ≤ (writePairs F indent lvl l).length := by
  match l with
  | [] => simp [needPairs]
  | (k, x) :: l =>
    have h1 := need_le F indent x lvl
    have h2 := needPairs_le F indent l lvl
    obtain ⟨v, e, _⟩ := sep_eq indent lvl
    simp only [needPairs, writePairs, e, List.length_append, List.length_cons]
    omega
end

/-- Reading what was written gives the document back, whatever the indentation. -/
theorem loads_dumps (F : Floats) (indent : Option Nat) (j : J) : loads F (dumps F indent j) = some j := by
  have h := readValue_write F indent j 0 ((dumps F indent j).length + 1) [] [] (by intro c hc; simp at hc) (by intro c hc; simp at hc)
    (by have := need_le F indent j 0; unfold dumps; omega)
  simp only [List.nil_append, List.append_nil] at h
  unfold loads
  rw [show write F indent 0 j = dumps F indent j from rfl] at h
  rw [h]
  simp [skip]

end Json
end Otel
