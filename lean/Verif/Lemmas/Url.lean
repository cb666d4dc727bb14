import Verif.Model.Url
import Verif.Lemmas.Hex
import Mathlib.Tactic.SplitIfs
/-! Percent-encoding and UTF-8 round trips. -/
namespace Otel
namespace Url

theorem char_valid (c : Char) : c.toNat < 0xD800 ∨ (0xDFFF < c.toNat ∧ c.toNat < 0x110000) := c.valid

theorem ofNat_toNat (c : Char) (n : Nat) (h : n = c.toNat) : Char.ofNat n = c := by
  subst h; exact Char.ofNat_toNat c

theorem decodeGo_skip (k : Nat) (a b : List Nat) (h : a.length = k) : decodeGo k (a ++ b) = decodeGo 0 b := by
  induction a generalizing k with
  | nil => simp at h; subst h; rfl
  | cons x a ih =>
    cases k with
    | zero => simp at h
    | succ k => simp at h; simp only [List.cons_append, decodeGo]; exact ih k h

theorem decode_encodeChar (c : Char) (bs : List Nat) :
    decodeGo 0 (encodeChar c ++ bs) = c :: decodeGo 0 bs := by
  have hv := char_valid c
  unfold encodeChar
  simp only []
  generalize hn : c.toNat = n at hv
  split
  · simp only [List.singleton_append, decodeGo]
    have hd : decodeStep n bs = (c, 0) := by
      unfold decodeStep
      rw [if_pos (by assumption), ofNat_toNat c n hn.symm]
    rw [hd]
  · split
    · simp only [List.cons_append, List.nil_append, decodeGo]
      have hd : decodeStep (0xC0 + n / 64) ((0x80 + n % 64) :: bs) = (c, 1) := by
        unfold decodeStep
        rw [if_neg (by omega), if_pos (by omega)]
        have h1 : isCont (0x80 + n % 64) = true := by simp [isCont]; omega
        simp only [h1, if_true]
        rw [ofNat_toNat c _ (by omega)]
      rw [hd]; simp only [decodeGo]
    · split
      · simp only [List.cons_append, List.nil_append, decodeGo]
        have hd : decodeStep (0xE0 + n / 4096) ((0x80 + n / 64 % 64) :: (0x80 + n % 64) :: bs) = (c, 2) := by
          unfold decodeStep
          rw [if_neg (by omega), if_neg (by omega), if_pos (by omega)]
          have h1 : ok3 (0xE0 + n / 4096) (0x80 + n / 64 % 64) = true := by
            simp only [ok3, isCont, Bool.and_eq_true, Bool.or_eq_true, decide_eq_true_eq]; omega
          have h2 : isCont (0x80 + n % 64) = true := by simp [isCont]; omega
          simp only [h1, h2, if_true]
          rw [ofNat_toNat c _ (by omega)]
        rw [hd]; simp only [decodeGo]
      · simp only [List.cons_append, List.nil_append, decodeGo]
        have hd : decodeStep (0xF0 + n / 262144)
            ((0x80 + n / 4096 % 64) :: (0x80 + n / 64 % 64) :: (0x80 + n % 64) :: bs) = (c, 3) := by
          unfold decodeStep
          rw [if_neg (by omega), if_neg (by omega), if_neg (by omega), if_pos (by omega)]
          have h1 : ok4 (0xF0 + n / 262144) (0x80 + n / 4096 % 64) = true := by
            simp only [ok4, isCont, Bool.and_eq_true, Bool.or_eq_true, decide_eq_true_eq]; omega
          have h2 : isCont (0x80 + n / 64 % 64) = true := by simp [isCont]; omega
          have h3 : isCont (0x80 + n % 64) = true := by simp [isCont]; omega
          simp only [h1, h2, h3, if_true]
          rw [ofNat_toNat c _ (by omega)]
        rw [hd]; simp only [decodeGo]

theorem decode_encode (s : Str) : decodeUtf8 (encodeUtf8 s) = s := by
  unfold decodeUtf8 encodeUtf8
  induction s with
  | nil => rfl
  | cons c s ih => rw [List.flatMap_cons, decode_encodeChar, ih]

theorem encodeChar_lt (c : Char) : ∀ b ∈ encodeChar c, b < 256 := by
  have hv := char_valid c
  unfold encodeChar
  simp only []
  generalize c.toNat = n at hv
  intro b hb
  split at hb
  · simp at hb; omega
  · split at hb
    · simp at hb; omega
    · split at hb
      · simp at hb; omega
      · simp at hb; omega

theorem encodeChar_ascii (c : Char) (h : c.toNat < 128) : encodeChar c = [c.toNat] := by
  simp [encodeChar, h]

theorem hexUpper_spec : ∀ n, n < 16 → isHexDigit (hexUpper n) = true ∧ hexDigitVal (hexUpper n) = n := by decide

theorem unquoteBytes_pct (b : Nat) (h : b < 256) (r : Str) : unquoteBytes (pctByte b ++ r) = b :: unquoteBytes r := by
  have h1 := hexUpper_spec (b / 16) (by omega)
  have h2 := hexUpper_spec (b % 16) (by omega)
  simp only [pctByte, List.cons_append, List.nil_append, unquoteBytes, h1.1, h2.1, Bool.and_self, if_true, h1.2, h2.2]
  congr 1; omega

theorem unquoteBytes_pcts (bs : List Nat) (h : ∀ b ∈ bs, b < 256) (r : Str) :
    unquoteBytes (bs.flatMap pctByte ++ r) = bs ++ unquoteBytes r := by
  induction bs with
  | nil => rfl
  | cons b bs ih =>
    rw [List.flatMap_cons, List.append_assoc, unquoteBytes_pct b (h b (by simp)), ih (fun b hb => h b (by simp [hb]))]
    rfl

theorem unquoteBytes_cons (c : Char) (hc : c ≠ '%') (r : Str) : unquoteBytes (c :: r) = c.toNat :: unquoteBytes r := by
  exact unquoteBytes.eq_3 c r (by intro a b r' h _; exact absurd h hc)

theorem pctByte_ascii (b : Nat) (hb : b < 256) : ∀ c ∈ pctByte b, c.toNat < 128 ∧ c ≠ '+' := by
  have h : ∀ n, n < 16 → (hexUpper n).toNat < 128 ∧ hexUpper n ≠ '+' := by decide
  intro c hc
  simp only [pctByte, List.mem_cons, List.not_mem_nil, or_false] at hc
  rcases hc with rfl | rfl | rfl
  · decide
  · exact h _ (by omega)
  · exact h _ (by omega)

theorem alwaysSafe_spec (c : Char) (h : alwaysSafe c = true) : c.toNat < 128 ∧ c ≠ '%' ∧ c ≠ '+' ∧ c ≠ ' ' := by
  simp only [alwaysSafe, isUpper, isLower, isDig, Bool.or_eq_true, inRange_iff, beq_iff_eq, char_eq_iff] at h
  simp only [ne_eq, char_eq_iff]
  have e1 : ('_' : Char).toNat = 95 := rfl
  have e2 : ('.' : Char).toNat = 46 := rfl
  have e3 : ('-' : Char).toNat = 45 := rfl
  have e4 : ('~' : Char).toNat = 126 := rfl
  have e5 : ('%' : Char).toNat = 37 := rfl
  have e6 : ('+' : Char).toNat = 43 := rfl
  have e7 : (' ' : Char).toNat = 32 := rfl
  omega

theorem quoteChar_ascii (safe : Char → Bool) (hs : ∀ c, safe c = true → c.toNat < 128 ∧ c ≠ '%' ∧ c ≠ '+') (c : Char) :
    ∀ x ∈ quoteChar safe c, x.toNat < 128 ∧ x ≠ '+' := by
  intro x hx
  unfold quoteChar at hx
  split at hx
  · rename_i h
    simp at hx; subst hx
    rcases Bool.or_eq_true _ _ |>.mp h with h | h
    · have := alwaysSafe_spec x h; exact ⟨this.1, this.2.2.1⟩
    · have := hs x h; exact ⟨this.1, this.2.2⟩
  · obtain ⟨b, hb, hx⟩ := List.mem_flatMap.mp hx
    exact pctByte_ascii b (encodeChar_lt c b hb) x hx

theorem unquoteBytes_quoteChar (safe : Char → Bool) (hs : ∀ c, safe c = true → c.toNat < 128 ∧ c ≠ '%' ∧ c ≠ '+')
    (c : Char) (r : Str) : unquoteBytes (quoteChar safe c ++ r) = encodeChar c ++ unquoteBytes r := by
  unfold quoteChar
  split
  · rename_i h
    have h2 : c.toNat < 128 ∧ c ≠ '%' := by
      rcases Bool.or_eq_true _ _ |>.mp h with h | h
      · have := alwaysSafe_spec c h; exact ⟨this.1, this.2.1⟩
      · have := hs c h; exact ⟨this.1, this.2.1⟩
    rw [List.singleton_append, unquoteBytes_cons c h2.2, encodeChar_ascii c h2.1]; rfl
  · exact unquoteBytes_pcts _ (encodeChar_lt c) r

theorem unquoteGo_ascii (acc s : Str) (h : ∀ c ∈ s, c.toNat < 128) :
    unquoteGo acc s = decodeUtf8 (unquoteBytes (acc.reverse ++ s)) := by
  induction s generalizing acc with
  | nil => simp [unquoteGo]
  | cons c s ih =>
    simp only [unquoteGo, h c (by simp), if_true]
    rw [ih (c :: acc) (fun c hc => h c (by simp [hc]))]; simp

theorem unquote_quote (s : Str) : unquote (quote s) = s := by
  have hs : ∀ c : Char, (c == '/') = true → c.toNat < 128 ∧ c ≠ '%' ∧ c ≠ '+' := by
    intro c hc; simp at hc; subst hc; decide
  unfold unquote
  rw [unquoteGo_ascii]
  · have : unquoteBytes (quote s) = encodeUtf8 s := by
      unfold quote encodeUtf8
      induction s with
      | nil => rfl
      | cons c s ih => rw [List.flatMap_cons, unquoteBytes_quoteChar _ hs, ih, List.flatMap_cons]
    simp [this, decode_encode]
  · intro c hc
    obtain ⟨d, _, hd⟩ := List.mem_flatMap.mp hc
    exact (quoteChar_ascii _ hs d c hd).1

theorem unquotePlus_quotePlus (s : Str) : unquotePlus (quotePlus s) = s := by
  have hs : ∀ c : Char, (fun _ : Char => false) c = true → c.toNat < 128 ∧ c ≠ '%' ∧ c ≠ '+' := by
    intro c hc; cases hc
  unfold unquotePlus
  have e : (quotePlus s).map (fun c => if c = '+' then ' ' else c) =
      s.flatMap fun c => if c = ' ' then [' '] else quoteChar (fun _ => false) c := by
    unfold quotePlus
    induction s with
    | nil => rfl
    | cons c s ih =>
      rw [List.flatMap_cons, List.map_append, ih, List.flatMap_cons]
      congr 1
      split
      · rfl
      · rw [List.map_congr_left (g := id)]
        · simp
        · intro x hx; simp [(quoteChar_ascii _ hs c x hx).2]
  rw [e]
  unfold unquote
  rw [unquoteGo_ascii]
  · have : ∀ s : Str, unquoteBytes (s.flatMap fun c => if c = ' ' then [' '] else quoteChar (fun _ => false) c) = encodeUtf8 s := by
      intro s
      unfold encodeUtf8
      induction s with
      | nil => rfl
      | cons c s ih =>
        rw [List.flatMap_cons, List.flatMap_cons]
        split
        · rename_i h; subst h
          rw [List.singleton_append, unquoteBytes_cons _ (by decide), ih]; rfl
        · rw [unquoteBytes_quoteChar _ hs, ih]
    rw [List.reverse_nil, List.nil_append, this, decode_encode]
  · intro c hc
    obtain ⟨d, _, hd⟩ := List.mem_flatMap.mp hc
    split at hd
    · simp at hd; subst hd; decide
    · exact (quoteChar_ascii _ hs d c hd).1

/-- Characters produced by `quote_plus`. -/
theorem quotePlus_chars (s : Str) (c : Char) (hc : c ∈ quotePlus s) :
    alwaysSafe c = true ∨ c = '%' ∨ c = '+' := by
  obtain ⟨d, _, hd⟩ := List.mem_flatMap.mp hc
  split at hd
  · simp at hd; exact Or.inr (Or.inr hd)
  · unfold quoteChar at hd
    split at hd
    · rename_i h; simp at hd; subst hd; simp at h; exact Or.inl h
    · obtain ⟨b, hb, hx⟩ := List.mem_flatMap.mp hd
      have h : ∀ n, n < 16 → alwaysSafe (hexUpper n) = true := by decide
      have := encodeChar_lt d b hb
      simp only [pctByte, List.mem_cons, List.not_mem_nil, or_false] at hx
      rcases hx with rfl | rfl | rfl
      · exact Or.inr (Or.inl rfl)
      · exact Or.inl (h _ (by omega))
      · exact Or.inl (h _ (by omega))

theorem quotePlus_eq_nil (s : Str) : quotePlus s = [] ↔ s = [] := by
  constructor
  · intro h
    cases s with
    | nil => rfl
    | cons c s =>
      exfalso
      unfold quotePlus at h
      rw [List.flatMap_cons] at h
      have h := (List.append_eq_nil_iff.mp h).1
      split at h
      · cases h
      · unfold quoteChar at h
        split at h
        · cases h
        · unfold encodeChar at h; simp only [] at h
          split at h
          · simp [pctByte] at h
          · split at h
            · simp [pctByte] at h
            · split at h <;> simp [pctByte] at h
  · rintro rfl; rfl

/-- The bytes begin the UTF-8 encoding of some character. -/
def Begins (l : List Nat) : Prop := ∃ c t, encodeChar c = l ++ t

theorem begins_ofNat (n : Nat) (h : n < 0xD800 ∨ (0xDFFF < n ∧ n < 0x110000)) (l t : List Nat)
    (e : (if n < 0x80 then [n]
  else if n < 0x800 then [0xC0 + n / 64, 0x80 + n % 64]
  else if n < 0x10000 then [0xE0 + n / 4096, 0x80 + n / 64 % 64, 0x80 + n % 64]
  else [0xF0 + n / 262144, 0x80 + n / 4096 % 64, 0x80 + n / 64 % 64, 0x80 + n % 64]) = l ++ t) : ∃ c, encodeChar c = l ++ t := by
  refine ⟨Char.ofNatAux n h, ?_⟩
  have : (Char.ofNatAux n h).toNat = n := by
    simp [Char.ofNatAux, Char.toNat, UInt32.toNat]
  unfold encodeChar
  simp only [this]
  exact e

theorem begins2 (b0 b1 : Nat) (h0 : 0xC2 ≤ b0 ∧ b0 < 0xE0) (h1 : isCont b1 = true) : ∃ c, encodeChar c = [b0, b1] ++ [] := by
  simp only [isCont, Bool.and_eq_true, decide_eq_true_eq] at h1
  apply begins_ofNat ((b0 - 0xC0) * 64 + (b1 - 0x80)) (by omega)
  rw [if_neg (by omega), if_pos (by omega)]
  simp only [List.append_nil, List.cons.injEq, and_true]
  omega

theorem begins3 (b0 b1 b2 : Nat) (h0 : 0xE0 ≤ b0 ∧ b0 < 0xF0) (h1 : ok3 b0 b1 = true) (h2 : isCont b2 = true) :
    ∃ c, encodeChar c = [b0, b1, b2] ++ [] := by
  simp only [ok3, isCont, Bool.and_eq_true, Bool.or_eq_true, decide_eq_true_eq] at h1 h2
  apply begins_ofNat ((b0 - 0xE0) * 4096 + (b1 - 0x80) * 64 + (b2 - 0x80)) (by omega)
  rw [if_neg (by omega), if_neg (by omega), if_pos (by omega)]
  simp only [List.append_nil, List.cons.injEq, and_true]
  omega

theorem begins4 (b0 b1 b2 b3 : Nat) (h0 : 0xF0 ≤ b0 ∧ b0 < 0xF5) (h1 : ok4 b0 b1 = true) (h2 : isCont b2 = true) (h3 : isCont b3 = true) :
    ∃ c, encodeChar c = [b0, b1, b2, b3] ++ [] := by
  simp only [ok4, isCont, Bool.and_eq_true, Bool.or_eq_true, decide_eq_true_eq] at h1 h2 h3
  apply begins_ofNat ((b0 - 0xF0) * 262144 + (b1 - 0x80) * 4096 + (b2 - 0x80) * 64 + (b3 - 0x80)) (by omega)
  rw [if_neg (by omega), if_neg (by omega), if_neg (by omega)]
  simp only [List.append_nil, List.cons.injEq, and_true]
  omega

theorem begins_inv (b0 b1 : Nat) (l : List Nat) (h : Begins (b0 :: b1 :: l)) :
    ((0xC2 ≤ b0 ∧ b0 < 0xE0) ∧ isCont b1 = true ∧ l = []) ∨
    ((0xE0 ≤ b0 ∧ b0 < 0xF0) ∧ ok3 b0 b1 = true ∧ (l = [] ∨ ∃ b2, l = [b2] ∧ isCont b2 = true)) ∨
    ((0xF0 ≤ b0 ∧ b0 < 0xF5) ∧ ok4 b0 b1 = true ∧ (l = [] ∨ ∃ b2, isCont b2 = true ∧ (l = [b2] ∨ ∃ b3, l = [b2, b3] ∧ isCont b3 = true))) := by
  obtain ⟨c, t, h⟩ := h
  have hv := char_valid c
  unfold encodeChar at h
  simp only at h
  generalize c.toNat = n at hv h
  split_ifs at h
  · simp at h
  · left
    simp only [List.cons_append, List.cons.injEq, List.nil_eq, List.append_eq_nil_iff] at h
    obtain ⟨h0, h1, h2, -⟩ := h
    refine ⟨by omega, ?_, h2⟩
    simp only [isCont, Bool.and_eq_true, decide_eq_true_eq]; omega
  · right; left
    simp only [List.cons_append, List.cons.injEq] at h
    obtain ⟨h0, h1, h2⟩ := h
    refine ⟨by omega, ?_, ?_⟩
    · simp only [ok3, isCont, Bool.and_eq_true, Bool.or_eq_true, decide_eq_true_eq]; omega
    · cases l with
      | nil => exact .inl rfl
      | cons b2 l =>
        simp only [List.cons_append, List.cons.injEq, List.nil_eq, List.append_eq_nil_iff] at h2
        refine .inr ⟨b2, by rw [h2.2.1], ?_⟩
        simp only [isCont, Bool.and_eq_true, decide_eq_true_eq]; omega
  · right; right
    simp only [List.cons_append, List.cons.injEq] at h
    obtain ⟨h0, h1, h2⟩ := h
    refine ⟨by omega, ?_, ?_⟩
    · simp only [ok4, isCont, Bool.and_eq_true, Bool.or_eq_true, decide_eq_true_eq]; omega
    · cases l with
      | nil => exact .inl rfl
      | cons b2 l =>
        simp only [List.cons_append, List.cons.injEq] at h2
        refine .inr ⟨b2, ?_, ?_⟩
        · simp only [isCont, Bool.and_eq_true, decide_eq_true_eq]; omega
        · cases l with
          | nil => exact .inl rfl
          | cons b3 l =>
            simp only [List.cons_append, List.cons.injEq, List.nil_eq, List.append_eq_nil_iff] at h2
            refine .inr ⟨b3, by rw [h2.2.2.1], ?_⟩
            simp only [isCont, Bool.and_eq_true, decide_eq_true_eq]; omega

theorem decodeGo_drop (k : Nat) (l : List Nat) : decodeGo k l = decodeGo 0 (l.drop k) := by
  induction l generalizing k with
  | nil => cases k <;> rfl
  | cons b l ih =>
    cases k with
    | zero => rfl
    | succ k => rw [decodeGo, ih, List.drop_succ_cons]

/-- Ill-formed input: a single replacement character stands for the longest run of bytes that begins a character, or for one byte. -/
theorem decode_illformed (b0 : Nat) (rest : List Nat) (h : ∀ c t, b0 :: rest ≠ encodeChar c ++ t) :
    ∃ n, decodeUtf8 (b0 :: rest) = repl :: decodeUtf8 (rest.drop n) ∧ n ≤ rest.length ∧ (n = 0 ∨ Begins (b0 :: rest.take n)) ∧
      ∀ m, n < m → m ≤ rest.length → ¬ Begins (b0 :: rest.take m) := by
  have hd : decodeUtf8 (b0 :: rest) = (decodeStep b0 rest).1 :: decodeUtf8 (rest.drop (decodeStep b0 rest).2) := by
    unfold decodeUtf8
    rw [decodeGo, decodeGo_drop]
  refine ⟨(decodeStep b0 rest).2, ?_⟩
  rw [hd]
  suffices hP : ∀ P : Char × Nat → Prop, (∀ n, n ≤ rest.length → (n = 0 ∨ Begins (b0 :: rest.take n)) →
      (∀ m, n < m → m ≤ rest.length → Begins (b0 :: rest.take m) → False) → P (repl, n)) → P (decodeStep b0 rest) by
    exact hP (fun x => x.1 :: decodeUtf8 (rest.drop x.2) = repl :: decodeUtf8 (rest.drop x.2) ∧ x.2 ≤ rest.length ∧
      (x.2 = 0 ∨ Begins (b0 :: rest.take x.2)) ∧ ∀ m, x.2 < m → m ≤ rest.length → ¬ Begins (b0 :: rest.take m))
      (fun n h1 h2 h3 => ⟨rfl, h1, h2, h3⟩)
  clear hd
  intro P key
  unfold decodeStep
  have tk : ∀ (a : Nat) (l : List Nat) (m : Nat), 0 < m → (a :: l).take m = a :: l.take (m - 1) := by
    intro a l m hm
    cases m with
    | zero => omega
    | succ m => rfl
  by_cases h0 : b0 < 0x80
  · exfalso
    refine absurd rfl (h (Char.ofNatAux b0 (by omega)) rest ∘ fun (h : b0 = b0) => ?_)
    have : (Char.ofNatAux b0 (by omega)).toNat = b0 := by simp [Char.ofNatAux, Char.toNat, UInt32.toNat]
    unfold encodeChar
    simp only [this, h0, if_true]
    rfl
  · rw [if_neg h0]
    have kc : isCont 0x80 = true := by decide
    split_ifs with hA hB hC
    · cases rest with
      | nil => exact key 0 (by simp) (.inl rfl) (by intro m h1 h2; simp at h2; omega)
      | cons b1 r =>
        simp only
        split_ifs with h1
        · exfalso
          obtain ⟨c, hc⟩ := begins2 b0 b1 hA h1
          exact h c r (by rw [hc]; rfl)
        · refine key 0 (by simp) (.inl rfl) ?_
          intro m hm hl hb
          rw [tk _ _ _ hm] at hb
          rcases begins_inv _ _ _ hb with ⟨_, h2, _⟩ | ⟨h2, _⟩ | ⟨h2, _⟩
          · exact h1 h2
          · omega
          · omega
    · rcases rest with _ | ⟨b1, _ | ⟨b2, r⟩⟩
      · exact key 0 (by simp) (.inl rfl) (by intro m h1 h2; simp at h2; omega)
      · simp only
        split_ifs with h1
        · refine key 1 (by simp) (.inr ?_) (by intro m h1 h2; simp at h2; omega)
          obtain ⟨c, hc⟩ := begins3 b0 b1 0x80 hB h1 kc
          exact ⟨c, [0x80], hc⟩
        · refine key 0 (by simp) (.inl rfl) ?_
          intro m hm hl hb
          rw [tk _ _ _ hm] at hb
          rcases begins_inv _ _ _ hb with ⟨h2, _⟩ | ⟨_, h2, _⟩ | ⟨h2, _⟩
          · omega
          · exact h1 h2
          · omega
      · simp only
        split_ifs with h1 h2
        · exfalso
          obtain ⟨c, hc⟩ := begins3 b0 b1 b2 hB h1 h2
          exact h c r (by rw [hc]; rfl)
        · refine key 1 (by simp) (.inr ?_) ?_
          · obtain ⟨c, hc⟩ := begins3 b0 b1 0x80 hB h1 kc
            exact ⟨c, [0x80], hc⟩
          · intro m hm hl hb
            rw [tk _ _ _ (by omega), tk _ _ _ (by omega)] at hb
            rcases begins_inv _ _ _ hb with ⟨h3, _⟩ | ⟨_, _, h3 | ⟨b, h3, h4⟩⟩ | ⟨h3, _⟩
            · omega
            · simp at h3
            · simp only [List.cons.injEq] at h3
              exact h2 (h3.1 ▸ h4)
            · omega
        · refine key 0 (by simp) (.inl rfl) ?_
          intro m hm hl hb
          rw [tk _ _ _ hm] at hb
          rcases begins_inv _ _ _ hb with ⟨h2, _⟩ | ⟨_, h2, _⟩ | ⟨h2, _⟩
          · omega
          · exact h1 h2
          · omega
    · rcases rest with _ | ⟨b1, r⟩
      · exact key 0 (by simp) (.inl rfl) (by intro m h1 h2; simp at h2; omega)
      · by_cases h1 : ok4 b0 b1 = true
        · have p1 : Begins (b0 :: (b1 :: r).take 1) := by
            obtain ⟨c, hc⟩ := begins4 b0 b1 0x80 0x80 hC h1 kc kc
            exact ⟨c, [0x80, 0x80], hc⟩
          rcases r with _ | ⟨b2, r⟩
          · simp only [h1, if_true]
            exact key 1 (by simp) (.inr p1) (by intro m h1 h2; simp at h2; omega)
          · by_cases h2 : isCont b2 = true
            · have p2 : Begins (b0 :: (b1 :: b2 :: r).take 2) := by
                obtain ⟨c, hc⟩ := begins4 b0 b1 b2 0x80 hC h1 h2 kc
                exact ⟨c, [0x80], hc⟩
              rcases r with _ | ⟨b3, r⟩
              · simp only [h1, h2, if_true]
                exact key 2 (by simp) (.inr p2) (by intro m h1 h2; simp at h2; omega)
              · simp only [h1, h2, if_true]
                split_ifs with h3
                · exfalso
                  obtain ⟨c, hc⟩ := begins4 b0 b1 b2 b3 hC h1 h2 h3
                  exact h c r (by rw [hc]; rfl)
                · refine key 2 (by simp) (.inr p2) ?_
                  intro m hm hl hb
                  rw [tk _ _ _ (by omega), tk _ _ _ (by omega), tk _ _ _ (by omega)] at hb
                  rcases begins_inv _ _ _ hb with ⟨h3, _⟩ | ⟨h3, _⟩ | ⟨_, _, h4 | ⟨b, _, h4 | ⟨b', h4, h5⟩⟩⟩
                  · omega
                  · omega
                  · simp at h4
                  · simp at h4
                  · simp only [List.cons.injEq] at h4
                    exact h3 (h4.2.1 ▸ h5)
            · have hgoal := key 1 (by simp) (.inr p1) (by
                intro m hm hl hb
                rw [tk _ _ _ (by omega), tk _ _ _ (by omega)] at hb
                rcases begins_inv _ _ _ hb with ⟨h3, _⟩ | ⟨h3, _⟩ | ⟨_, _, h4 | ⟨b, h5, h4 | ⟨b', h4, _⟩⟩⟩
                · omega
                · omega
                · simp at h4
                · simp only [List.cons.injEq] at h4
                  exact h2 (h4.1 ▸ h5)
                · simp only [List.cons.injEq] at h4
                  exact h2 (h4.1 ▸ h5))
              rcases r with _ | ⟨b3, r⟩ <;> simp only [h1, h2, if_true] <;> exact hgoal
        · have hgoal := key 0 (by simp) (.inl rfl) (by
            intro m hm hl hb
            rw [tk _ _ _ hm] at hb
            rcases begins_inv _ _ _ hb with ⟨h2, _⟩ | ⟨h2, _⟩ | ⟨_, h2, _⟩
            · omega
            · omega
            · exact h1 h2)
          rcases r with _ | ⟨b2, _ | ⟨b3, r⟩⟩ <;> simp only [h1] <;> exact hgoal
    · refine key 0 (by simp) (.inl rfl) ?_
      intro m hm hl hb
      rcases rest with _ | ⟨b1, r⟩
      · simp at hl; omega
      · rw [tk _ _ _ hm] at hb
        rcases begins_inv _ _ _ hb with ⟨h2, _⟩ | ⟨h2, _⟩ | ⟨h2, _⟩ <;> omega

end Url
end Otel
