import Verif.Model.Baggage
import Verif.Spec.Baggage
import Verif.Lemmas.Url
import Verif.Lemmas.TraceState
namespace Otel
namespace Baggage
open Spec

theorem star_cls_lang (p : Char → Bool) (s : Str) : (Re.star (.cls p)).Lang s ↔ ∀ c ∈ s, p c = true := by
  simp only [Re.Lang]
  constructor
  · rintro ⟨ws, rfl, h⟩ c hc
    obtain ⟨w, hw, hcw⟩ := List.mem_flatten.mp hc
    obtain ⟨d, rfl, hd⟩ := h w hw
    simp at hcw; rw [hcw]; exact hd
  · intro h
    refine ⟨s.map fun c => [c], ?_, ?_⟩
    · induction s with
      | nil => rfl
      | cons c s ih => simp [← ih (fun c hc => h c (by simp [hc]))]
    · intro w hw
      obtain ⟨c, hc, rfl⟩ := List.mem_map.mp hw
      exact ⟨c, rfl, h c hc⟩

theorem not_mem_toList (c : Char) (l : List Char) : c ∉ l ↔ ∀ d ∈ l, c.toNat ≠ d.toNat := by
  constructor
  · intro h d hd he; exact h ((char_eq_iff c d).mpr he ▸ hd)
  · intro h hc; exact h c hc rfl

theorem keyCh_iff (c : Char) : keyCh c = true ↔ TokenChar c := by
  unfold TokenChar
  rw [not_mem_toList]
  have e : ("\"(),/:;<=>?@[\\]{}".toList : List Char) = ['"','(',')',',','/',':',';','<','=','>','?','@','[','\\',']','{','}'] := by decide
  rw [e]
  simp only [keyCh, Bool.or_eq_true, inRange_iff, beq_iff_eq, char_le_iff, List.forall_mem_cons, List.not_mem_nil, ne_eq]
  simp only [show ('!':Char).toNat = 33 from rfl, show ('~':Char).toNat = 126 from rfl, show ('"':Char).toNat = 34 from rfl,
    show ('(':Char).toNat = 40 from rfl, show (')':Char).toNat = 41 from rfl, show (',':Char).toNat = 44 from rfl,
    show ('/':Char).toNat = 47 from rfl, show (':':Char).toNat = 58 from rfl, show (';':Char).toNat = 59 from rfl,
    show ('<':Char).toNat = 60 from rfl, show ('=':Char).toNat = 61 from rfl, show ('>':Char).toNat = 62 from rfl,
    show ('?':Char).toNat = 63 from rfl, show ('@':Char).toNat = 64 from rfl, show ('[':Char).toNat = 91 from rfl,
    show ('\\':Char).toNat = 92 from rfl, show (']':Char).toNat = 93 from rfl, show ('{':Char).toNat = 123 from rfl,
    show ('}':Char).toNat = 125 from rfl]
  simp only [false_implies, implies_true, and_true]
  omega

theorem valCh_iff (c : Char) : valCh c = true ↔ BagValueChar c := by
  unfold BagValueChar
  rw [not_mem_toList]
  have e : ("\",;\\".toList : List Char) = ['"',',',';','\\'] := by decide
  rw [e]
  simp only [valCh, Bool.or_eq_true, inRange_iff, beq_iff_eq, char_le_iff, List.forall_mem_cons, List.not_mem_nil, ne_eq]
  simp only [show ('!':Char).toNat = 33 from rfl, show ('~':Char).toNat = 126 from rfl, show ('"':Char).toNat = 34 from rfl,
    show (',':Char).toNat = 44 from rfl, show (';':Char).toNat = 59 from rfl, show ('\\':Char).toNat = 92 from rfl]
  simp only [false_implies, implies_true, and_true]
  omega

theorem ows_lang (s : Str) : ows.Lang s ↔ Ows s := by
  rw [ows, star_cls_lang]
  simp only [isBlank, Bool.or_eq_true, beq_iff_eq, Ows]

theorem keyFormat_lang (s : Str) : keyFormat.Lang s ↔ Token' s := by
  unfold keyFormat Token'
  rw [Re.Lang]
  constructor
  · rintro ⟨u, v, rfl, ⟨c, rfl, hc⟩, hv⟩
    rw [star_cls_lang] at hv
    refine ⟨by simp, ?_⟩
    intro x hx
    rw [← keyCh_iff]
    rcases List.mem_append.mp hx with hx | hx
    · simp at hx; rw [hx]; exact hc
    · exact hv x hx
  · rintro ⟨hne, h⟩
    cases s with
    | nil => exact absurd rfl hne
    | cons c s =>
      refine ⟨[c], s, rfl, ⟨c, rfl, (keyCh_iff c).mpr (h c (by simp))⟩, (star_cls_lang _ _).mpr ?_⟩
      intro x hx; exact (keyCh_iff x).mpr (h x (by simp [hx]))

theorem valueFormat_lang (s : Str) : valueFormat.Lang s ↔ ∀ c ∈ s, BagValueChar c := by
  rw [valueFormat, star_cls_lang]; simp only [valCh_iff]

theorem propertyFormat_lang (p : Str) : propertyFormat.Lang p ↔ BagProperty p := by
  unfold propertyFormat keyValueFormat BagProperty
  simp only [Re.Lang, ows_lang, keyFormat_lang, valueFormat_lang, Re.lang_chr]
  constructor
  · rintro (⟨b1, _, rfl, h1, k, _, rfl, hk, b2, _, rfl, h2, _, _, rfl, rfl, b3, _, rfl, h3, v, b4, rfl, hv, h4⟩ |
      ⟨b1, _, rfl, h1, k, b2, rfl, hk, h2⟩)
    · exact ⟨b1, k, b2, h1, hk, h2, Or.inr ⟨b3, v, b4, h3, hv, h4, by simp⟩⟩
    · exact ⟨b1, k, b2, h1, hk, h2, Or.inl rfl⟩
  · rintro ⟨b1, k, b2, h1, hk, h2, rfl | ⟨b3, v, b4, h3, hv, h4, rfl⟩⟩
    · exact Or.inr ⟨b1, _, rfl, h1, k, b2, rfl, hk, h2⟩
    · exact Or.inl ⟨b1, _, rfl, h1, k, _, rfl, hk, b2, _, rfl, h2, ['='], _, rfl, rfl, b3, _, rfl, h3, v, b4, rfl, hv, h4⟩

theorem not_mem_of_ows (b : Str) (h : Ows b) : ';' ∉ b := by
  intro hm; rcases h _ hm with h | h <;> exact absurd h (by decide)
theorem not_mem_of_token (b : Str) (h : Token' b) : ';' ∉ b ∧ '=' ∉ b := by
  constructor <;> (intro hm; have := h.2 _ hm; rw [← keyCh_iff] at this; exact absurd this (by decide))
theorem not_mem_of_val (b : Str) (h : ∀ c ∈ b, BagValueChar c) : ';' ∉ b := by
  intro hm; have := h _ hm; rw [← valCh_iff] at this; exact absurd this (by decide)

theorem property_no_semi (p : Str) (h : BagProperty p) : ';' ∉ p := by
  obtain ⟨b1, k, b2, h1, hk, h2, rfl | ⟨b3, v, b4, h3, hv, h4, rfl⟩⟩ := h
  · simp only [List.mem_append, not_or]
    exact ⟨not_mem_of_ows _ h1, (not_mem_of_token _ hk).1, not_mem_of_ows _ h2⟩
  · simp only [List.mem_append, List.mem_cons, not_or]
    exact ⟨not_mem_of_ows _ h1, (not_mem_of_token _ hk).1, not_mem_of_ows _ h2, by decide, not_mem_of_ows _ h3,
      not_mem_of_val _ hv, not_mem_of_ows _ h4⟩

theorem validValue_iff (s : Str) : validValue s = true ↔ BagValue s := by
  unfold validValue BagValue
  constructor
  · intro h
    cases hs : splitC ';' s with
    | nil => rw [hs] at h; cases h
    | cons v ps =>
      simp only [hs, Bool.and_eq_true, List.all_eq_true, Re.fullmatch_iff, valueFormat_lang, propertyFormat_lang] at h
      refine ⟨v, ps, ?_, h.1, h.2⟩
      rw [← hs, joinS_splitC]
  · rintro ⟨v, ps, rfl, hv, hps⟩
    rw [splitC_joinS ';' (v :: ps)]
    · simp only [Bool.and_eq_true, List.all_eq_true, Re.fullmatch_iff, valueFormat_lang, propertyFormat_lang]
      exact ⟨hv, hps⟩
    · intro p hp
      rcases List.mem_cons.mp hp with rfl | hp
      · exact not_mem_of_val _ hv
      · exact property_no_semi _ (hps p hp)
    · simp

theorem validPair_iff (k v : Str) : validPair k v = true ↔ Token' k ∧ BagValue v := by
  simp only [validPair, Bool.and_eq_true, validKey, Re.fullmatch_iff, keyFormat_lang, validValue_iff]

/-- `name` and `value` of a member are determined by its text. -/
theorem member_iff (e n v : Str) : BagMember e n v ↔
    e.length ≤ maxPair ∧ cutC '=' e = (n, some v) ∧ validPair n v = true := by
  rw [validPair_iff]
  unfold BagMember maxPair
  constructor
  · rintro ⟨h1, rfl, h2, h3⟩
    exact ⟨h1, cutC_append _ _ _ (not_mem_of_token n h2).2, h2, h3⟩
  · rintro ⟨h1, h2, h3, h4⟩
    exact ⟨h1, (cutC_some _ _ _ _ h2).1, h3, h4⟩

/-- Decoding of a member's name and value. -/
def decodePair (nv : Str × Str) : Str × Str := (pyStrip (Url.unquotePlus nv.1), pyStrip (Url.unquotePlus nv.2))

theorem extractLoop_selected (left : Nat) (hl : 0 < left) (ctx : Ctx) (es : List Str) :
    ∃ kvs, Selected es kvs ∧
      extractLoop left ctx es = (kvs.take left).foldl (fun c nv => set c (decodePair nv).1 (decodePair nv).2) ctx := by
  induction es generalizing left ctx with
  | nil => exact ⟨[], .nil, by simp [extractLoop]⟩
  | cons e es ih =>
    have skip : (∀ n v, ¬ BagMember e n v) → extractLoop left ctx (e :: es) = extractLoop left ctx es →
        ∃ kvs, Selected (e :: es) kvs ∧
        extractLoop left ctx (e :: es) = (kvs.take left).foldl (fun c nv => set c (decodePair nv).1 (decodePair nv).2) ctx := by
      intro h he
      obtain ⟨kvs, hs, hk⟩ := ih left hl ctx
      exact ⟨kvs, .skip _ _ _ h hs, by rw [he, hk]⟩
    by_cases h1 : e.length > maxPair
    · apply skip
      · intro n v hm; rw [member_iff] at hm; omega
      · simp [extractLoop, h1]
    by_cases h2 : e.isEmpty = true
    · apply skip
      · intro n v hm
        have : e = [] := by simpa using h2
        rw [this] at hm; have := hm.2.1; simp at this
      · simp [extractLoop, h1, h2]
    cases hc : cutC '=' e with
    | mk name vo =>
      cases vo with
      | none =>
        apply skip
        · intro n v hm; rw [member_iff, hc] at hm; simp at hm
        · simp only [extractLoop, h1, h2, hc]; simp
      | some value =>
        by_cases h3 : validPair name value = true
        · have hm : BagMember e name value := (member_iff _ _ _).mpr ⟨by omega, hc, h3⟩
          by_cases h4 : left - 1 = 0
          · obtain ⟨kvs, hs, _⟩ := ih 1 (by omega) ctx
            refine ⟨(name, value) :: kvs, .take _ _ _ _ _ hm hs, ?_⟩
            have : left = 1 := by omega
            subst this
            simp only [extractLoop, h1, h2, hc, h3]; simp [decodePair]
          · obtain ⟨kvs, hs, hk⟩ := ih (left - 1) (by omega)
              (set ctx (pyStrip (Url.unquotePlus name)) (pyStrip (Url.unquotePlus value)))
            refine ⟨(name, value) :: kvs, .take _ _ _ _ _ hm hs, ?_⟩
            have e1 : left = (left - 1) + 1 := by omega
            simp only [extractLoop, h1, h2, hc, h3]
            simp only [Bool.not_true, Bool.false_eq_true, if_false, h4]
            rw [hk]
            conv => rhs; rw [e1]
            simp [decodePair]
        · apply skip
          · intro n v hm; rw [member_iff, hc] at hm
            simp only [Prod.mk.injEq, Option.some.injEq] at hm
            obtain ⟨_, ⟨rfl, rfl⟩, h⟩ := hm; exact h3 h
          · simp only [extractLoop, h1, h2, hc, h3]; simp

theorem selected_unique (es : List Str) (r1 r2 : List (Str × Str)) (h1 : Selected es r1) (h2 : Selected es r2) :
    r1 = r2 := by
  induction h1 generalizing r2 with
  | nil => cases h2; rfl
  | skip e es r hn _ ih =>
    cases h2 with
    | skip _ _ _ _ h2 => exact ih _ h2
    | take _ _ _ n v hm _ => exact absurd hm (hn n v)
  | take e es r n v hm _ ih =>
    cases h2 with
    | skip _ _ _ hn _ => exact absurd hm (hn n v)
    | take _ _ _ n' v' hm' h2 =>
      rw [member_iff] at hm hm'
      have := hm.2.1.symm.trans hm'.2.1
      simp only [Prod.mk.injEq, Option.some.injEq] at this
      rw [this.1, this.2, ih _ h2]

theorem getAll_set (ctx : Ctx) (k v : Str) : getAll (set ctx k v) = Dict.set (getAll ctx) k v := by
  simp [getAll, set, Ctx.setValue, Ctx.getValue]
theorem getAll_remove (ctx : Ctx) (k : Str) : getAll (remove ctx k) = Dict.erase (getAll ctx) k := by
  simp [getAll, remove, Ctx.setValue, Ctx.getValue]
theorem getAll_clear (ctx : Ctx) : getAll (clear ctx) = [] := by
  simp [getAll, clear, Ctx.setValue, Ctx.getValue]

theorem getAll_foldl (ctx : Ctx) (kvs : List (Str × Str)) (f : Str × Str → Str × Str) :
    getAll (kvs.foldl (fun c nv => set c (f nv).1 (f nv).2) ctx) =
      kvs.foldl (fun d nv => Dict.set d (f nv).1 (f nv).2) (getAll ctx) := by
  induction kvs generalizing ctx with
  | nil => rfl
  | cons a kvs ih => simp only [List.foldl_cons]; rw [ih, getAll_set]

theorem safe_chars (c : Char) (h : Url.alwaysSafe c = true ∨ c = '%' ∨ c = '+') :
    TokenChar c ∧ BagValueChar c ∧ c ≠ ',' ∧ c ≠ '=' ∧ c ≠ ';' ∧ isBlank c = false := by
  rw [← keyCh_iff, ← valCh_iff]
  have key : keyCh c = true ∧ valCh c = true := by
    simp only [Url.alwaysSafe, isUpper, isLower, isDig, Bool.or_eq_true, inRange_iff, beq_iff_eq, char_eq_iff] at h
    simp only [keyCh, valCh, Bool.or_eq_true, inRange_iff, beq_iff_eq]
    have e1 : ('_' : Char).toNat = 95 := rfl
    have e2 : ('.' : Char).toNat = 46 := rfl
    have e3 : ('-' : Char).toNat = 45 := rfl
    have e4 : ('~' : Char).toNat = 126 := rfl
    have e5 : ('%' : Char).toNat = 37 := rfl
    have e6 : ('+' : Char).toNat = 43 := rfl
    constructor <;> omega
  refine ⟨key.1, key.2, ?_, ?_, ?_, ?_⟩
  · rintro rfl; exact absurd key.1 (by decide)
  · rintro rfl; exact absurd key.1 (by decide)
  · rintro rfl; exact absurd key.1 (by decide)
  · simp only [isBlank, Bool.or_eq_false_iff, beq_eq_false_iff_ne]
    constructor <;> (rintro rfl; exact absurd key.1 (by decide))

/-- The text of one injected entry. -/
def entryText (kv : Str × Str) : Str := Url.quotePlus kv.1 ++ ['='] ++ Url.quotePlus kv.2

theorem entryText_member (kv : Str × Str) (hk : kv.1 ≠ []) (hl : (entryText kv).length ≤ 4096) :
    BagMember (entryText kv) (Url.quotePlus kv.1) (Url.quotePlus kv.2) := by
  refine ⟨hl, by simp [entryText], ⟨?_, ?_⟩, Url.quotePlus kv.2, [], rfl, ?_, by simp⟩
  · intro h; exact hk ((Url.quotePlus_eq_nil _).mp h)
  · intro c hc; exact (safe_chars c (Url.quotePlus_chars _ c hc)).1
  · intro c hc; exact (safe_chars c (Url.quotePlus_chars _ c hc)).2.1

theorem entryText_ends (kv : Str × Str) : ',' ∉ entryText kv ∧
    (∀ c, (entryText kv).head? = some c → isBlank c = false) ∧
    (∀ c, (entryText kv).getLast? = some c → isBlank c = false) := by
  have key : ∀ c ∈ entryText kv, c ≠ ',' ∧ isBlank c = false := by
    intro c hc
    simp only [entryText, List.mem_append, List.mem_singleton] at hc
    rcases hc with (hc | hc) | hc
    · have := safe_chars c (Url.quotePlus_chars _ c hc); exact ⟨this.2.2.1, this.2.2.2.2.2⟩
    · subst hc; decide
    · have := safe_chars c (Url.quotePlus_chars _ c hc); exact ⟨this.2.2.1, this.2.2.2.2.2⟩
  exact ⟨fun hm => (key _ hm).1 rfl, fun c hc => (key c (List.mem_of_head? hc)).2, fun c hc => (key c (List.mem_of_getLast? hc)).2⟩

theorem selected_entries (d : List (Str × Str)) (hk : ∀ kv ∈ d, kv.1 ≠ [])
    (hl : ∀ kv ∈ d, (entryText kv).length ≤ 4096) :
    Selected (d.map entryText) (d.map fun kv => (Url.quotePlus kv.1, Url.quotePlus kv.2)) := by
  induction d with
  | nil => exact .nil
  | cons kv d ih =>
    exact .take _ _ _ _ _ (entryText_member kv (hk kv (by simp)) (hl kv (by simp)))
      (ih (fun kv h => hk kv (by simp [h])) (fun kv h => hl kv (by simp [h])))

theorem foldl_set_fresh (d e : Dict Str Str) (hn : (Dict.keys (d ++ e)).Nodup) :
    e.foldl (fun d kv => Dict.set d kv.1 kv.2) d = d ++ e := by
  induction e generalizing d with
  | nil => simp
  | cons kv e ih =>
    obtain ⟨k, v⟩ := kv
    have h2 : k ∉ d.keys := by
      intro hm
      rw [Dict.keys_append, List.nodup_append] at hn
      exact hn.2.2 k hm k (by simp) rfl
    simp only [List.foldl_cons]
    rw [Dict.set_of_not_mem _ _ _ h2, ih _ (by simpa using hn)]; simp

end Baggage
end Otel
