import Verif.Lemmas.Baggage
import Verif.Props.TraceState
/-!
# C07–C09, C56: baggage and header lists
-/
namespace Otel
namespace Baggage
open Spec

/-- Operations on the baggage of a context. -/
inductive Op where
  | set (k v : Str)
  | remove (k : Str)
  | clear

/-- One API call; each returns a new context. -/
def apply (ctx : Ctx) : Op → Ctx
  | .set k v => set ctx k v
  | .remove k => remove ctx k
  | .clear => clear ctx

/-- Specification: a baggage is a partial function from names to values. -/
def specStep (f : Str → Option Str) : Op → (Str → Option Str)
  | .set k v => fun x => if x = k then some v else f x
  | .remove k => fun x => if x = k then none else f x
  | .clear => fun _ => none

theorem nodup_run (ctx : Ctx) (h : (getAll ctx).keys.Nodup) (ops : List Op) :
    (getAll (ops.foldl apply ctx)).keys.Nodup := by
  induction ops generalizing ctx with
  | nil => exact h
  | cons op ops ih =>
    apply ih
    cases op with
    | set k v => simp only [apply, getAll_set]; exact Dict.nodup_set _ _ _ h
    | remove k => simp only [apply, getAll_remove]; exact Dict.nodup_erase _ _ h
    | clear => simp only [apply, getAll_clear]; exact List.nodup_nil

/-- **C07.** After any sequence of operations, `get_baggage` answers as the partial function obtained
by performing the same updates, starting from what the initial context answered. -/
theorem C07_baggage_is_a_map (ctx : Ctx) (h : (getAll ctx).keys.Nodup) (ops : List Op) (k : Str) :
    get (ops.foldl apply ctx) k = (ops.foldl specStep (get ctx)) k := by
  induction ops generalizing ctx with
  | nil => rfl
  | cons op ops ih =>
    have h' : (getAll (apply ctx op)).keys.Nodup := nodup_run ctx h [op]
    simp only [List.foldl_cons]
    rw [ih _ h']
    have : get (apply ctx op) = specStep (get ctx) op := by
      funext x
      cases op with
      | set k v => simp only [get, apply, getAll_set, Dict.get?_set, specStep, eq_comm]
      | remove k => simp only [get, apply, getAll_remove, Dict.get?_erase _ _ _ h, specStep, eq_comm]
      | clear => simp only [get, apply, getAll_clear, specStep, Dict.get?_nil]
    rw [this]

/-- **C07 (get_all).** `get_all` lists exactly the pairs `get_baggage` answers, each name once. -/
theorem C07_get_all (ctx : Ctx) (h : (getAll ctx).keys.Nodup) (ops : List Op) :
    ((getAll (ops.foldl apply ctx)).map Prod.fst).Nodup ∧
    ∀ k v, (k, v) ∈ getAll (ops.foldl apply ctx) ↔ get (ops.foldl apply ctx) k = some v :=
  have hn := nodup_run ctx h ops
  ⟨hn, fun k v => ⟨fun hm => Dict.get?_of_mem _ hn k v hm, fun hg => Dict.mem_of_get? _ k v hg⟩⟩

/-- **C07 (isolation).** Baggage operations touch nothing else in the context. -/
theorem C07_other_values_untouched (ctx : Ctx) (ops : List Op) (k : CtxKey) (hk : k ≠ .baggage) :
    (ops.foldl apply ctx).getValue k = ctx.getValue k := by
  induction ops generalizing ctx with
  | nil => rfl
  | cons op ops ih =>
    simp only [List.foldl_cons]; rw [ih]
    cases op <;> exact Dict.get?_set_ne _ _ (Ne.symm hk)

example : get ([Op.set "a".toList "1".toList, .set "b".toList "2".toList, .remove "a".toList,
    .set "b".toList "3".toList].foldl apply []) "b".toList = some "3".toList ∧ (getAll ([] : Ctx)).keys.Nodup := by
  decide

/-- What the header text must satisfy to be within the W3C limits. -/
def WithinLimits (d : Dict Str Str) : Prop :=
  (format d).length ≤ 8192 ∧ d.length ≤ 180 ∧
  ∀ kv ∈ d, (Url.quotePlus kv.1 ++ ['='] ++ Url.quotePlus kv.2).length ≤ 4096

/-- The full C08 claim for one baggage: extraction of the injected header gives it back. -/
def RoundTrips (d : Dict Str Str) : Prop :=
  ∀ ctx : Ctx, getAll ctx = d → getAll (extract (inject [] ctx) []) = d

/-- **C08, partial.** Round trip for baggage with non-empty names and no name or value beginning or
ending in white space. Missing: names/values padded with white space and the empty name, for which
the claim is false (`C08_whitespace_violation`, `C08_empty_name_violation`). -/
theorem C08_baggage_roundtrip_partial (d : Dict Str Str) (hn : (d.map Prod.fst).Nodup) (hl : WithinLimits d)
    (hk : ∀ kv ∈ d, kv.1 ≠ []) (hs : ∀ kv ∈ d, pyStrip kv.1 = kv.1 ∧ pyStrip kv.2 = kv.2) : RoundTrips d := by
  intro ctx hctx
  cases hd : d with
  | nil => simp only [inject, hctx, hd]; rfl
  | cons p ps =>
    rw [← hd]
    have hne : d.isEmpty = false := by rw [hd]; rfl
    have hget : Carrier.get (inject [] ctx) headerName = some [format d] := by
      simp only [inject, hctx, hne]
      simp [Carrier.put, Carrier.get]
    have hfne : (format d).isEmpty = false := by
      rw [hd]
      cases ps with
      | nil => simp [format, joinS]
      | cons q qs => simp [format, joinS]
    have hsplit : TraceState.delimSplit (format d) = d.map entryText := by
      apply TraceState.delimSplit_join
      · intro t ht
        obtain ⟨kv, hkv, rfl⟩ := List.mem_map.mp ht
        exact entryText_ends kv
      · rw [hd]; simp
    simp only [extract, hget, hfne, hsplit]
    rw [if_neg (by simp), if_neg (by simp only [maxHeader]; have := hl.1; omega)]
    obtain ⟨kvs, hsel, he⟩ := extractLoop_selected maxPairs (by decide) [] (d.map entryText)
    have := selected_unique _ _ _ hsel (selected_entries d hk hl.2.2)
    rw [he, this, List.take_of_length_le (by simp only [List.length_map, maxPairs]; exact hl.2.1), List.foldl_map,
      ]
    rw [getAll_foldl [] d (fun kv => decodePair (Url.quotePlus kv.1, Url.quotePlus kv.2))]
    have e : ∀ kv ∈ d, decodePair (Url.quotePlus kv.1, Url.quotePlus kv.2) = kv := by
      intro kv hkv
      simp only [decodePair, Url.unquotePlus_quotePlus, (hs kv hkv).1, (hs kv hkv).2]
    have e2 : ∀ (l : Dict Str Str) (acc : Dict Str Str), (∀ kv ∈ l, decodePair (Url.quotePlus kv.1, Url.quotePlus kv.2) = kv) →
        l.foldl (fun d kv => Dict.set d (decodePair (Url.quotePlus kv.1, Url.quotePlus kv.2)).1
          (decodePair (Url.quotePlus kv.1, Url.quotePlus kv.2)).2) acc = l.foldl (fun d kv => Dict.set d kv.1 kv.2) acc := by
      intro l
      induction l with
      | nil => intro acc _; rfl
      | cons a l ih =>
        intro acc h
        simp only [List.foldl_cons]
        rw [h a (by simp), ih _ (fun kv hkv => h kv (by simp [hkv]))]
    rw [e2 d _ e]
    have := foldl_set_fresh [] d (by simpa [Dict.keys] using hn)
    simpa [getAll, Ctx.getValue] using this

/-- Non-vacuity: a baggage with reserved and non-ASCII characters satisfies the hypotheses. -/
example : WithinLimits [("k é,=".toList, "v;%+ü".toList), ("b".toList, [])] ∧
    (∀ kv ∈ ([("k é,=".toList, "v;%+ü".toList), ("b".toList, [])] : Dict Str Str), kv.1 ≠ [] ∧ pyStrip kv.1 = kv.1 ∧ pyStrip kv.2 = kv.2) := by
  unfold WithinLimits; decide

/-- **C08 is violated by the code** for a value with surrounding white space: it comes back stripped. -/
theorem C08_whitespace_violation : ¬ RoundTrips [("k".toList, " v".toList)] := by
  intro h
  have := h [(.baggage, .baggage [("k".toList, " v".toList)])] (by decide)
  revert this; decide

/-- **C08 is violated by the code** for the empty name, which is dropped. -/
theorem C08_empty_name_violation : ¬ RoundTrips [([], "v".toList), ("k".toList, "w".toList)] := by
  intro h
  have := h [(.baggage, .baggage [([], "v".toList), ("k".toList, "w".toList)])] (by decide)
  revert this; decide

/-- **C09.** For a header within the length limit the result is the given context with the first 180
well-formed members set, in order, and nothing else: malformed or over-long members are skipped
without affecting the others. -/
theorem C09_extract_exact (carrier : Carrier) (ctx : Ctx) (header : Str) (more : List Str)
    (hc : carrier.get headerName = some (header :: more)) (hl : header.length ≤ 8192) :
    ∃ kvs, Selected (TraceState.delimSplit header) kvs ∧
      extract carrier ctx = (kvs.take 180).foldl
        (fun c nv => set c (pyStrip (Url.unquotePlus nv.1)) (pyStrip (Url.unquotePlus nv.2))) ctx := by
  simp only [extract, hc]
  by_cases he : header.isEmpty = true
  · have : header = [] := by simpa using he
    subst this
    exact ⟨[], .skip _ _ _ (by intro n v h; have := h.2.1; simp at this) .nil, by simp⟩
  · rw [if_neg he, if_neg (by simp only [maxHeader]; omega)]
    exact extractLoop_selected maxPairs (by decide) ctx _

/-- **C09 (over-long header or none).** -/
theorem C09_extract_ignored (carrier : Carrier) (ctx : Ctx)
    (h : carrier.get headerName = none ∨ carrier.get headerName = some [] ∨
      ∃ header more, carrier.get headerName = some (header :: more) ∧ 8192 < header.length) :
    extract carrier ctx = ctx := by
  rcases h with h | h | ⟨header, more, h, hl⟩
  · simp [extract, h]
  · simp [extract, h]
  · simp only [extract, h]
    split; · rfl
    rw [if_pos (by simpa [maxHeader] using hl)]

/-- **C09 (bounded).** At most 180 entries are added. -/
theorem C09_extract_bounded (carrier : Carrier) (ctx : Ctx) :
    (getAll (extract carrier ctx)).length ≤ (getAll ctx).length + 180 := by
  have key : ∀ (kvs : List (Str × Str)) (c : Ctx),
      (getAll (kvs.foldl (fun c nv => set c (decodePair nv).1 (decodePair nv).2) c)).length ≤
        (getAll c).length + kvs.length := by
    intro kvs
    induction kvs with
    | nil => intro c; simp
    | cons a kvs ih =>
      intro c
      simp only [List.foldl_cons, List.length_cons]
      have h1 := ih (set c (decodePair a).1 (decodePair a).2)
      have h2 : (getAll (set c (decodePair a).1 (decodePair a).2)).length ≤ (getAll c).length + 1 := by
        rw [getAll_set, Dict.length_set]; split <;> omega
      omega
  cases hc : carrier.get headerName with
  | none => rw [C09_extract_ignored carrier ctx (Or.inl hc)]; omega
  | some hs =>
    cases hs with
    | nil => rw [C09_extract_ignored carrier ctx (Or.inr (Or.inl hc))]; omega
    | cons header more =>
      by_cases hl : header.length ≤ 8192
      · obtain ⟨kvs, _, he⟩ := C09_extract_exact carrier ctx header more hc hl
        rw [he]
        have h1 := key (kvs.take 180) ctx
        have h2 : (kvs.take 180).length ≤ 180 := List.length_take_le ..
        have h3 : ∀ c (l : List (Str × Str)), l.foldl (fun c nv => set c (pyStrip (Url.unquotePlus nv.1)) (pyStrip (Url.unquotePlus nv.2))) c
          = l.foldl (fun c nv => set c (decodePair nv).1 (decodePair nv).2) c := fun _ _ => rfl
        rw [h3]; omega
      · rw [C09_extract_ignored carrier ctx (Or.inr (Or.inr ⟨header, more, hc, by omega⟩))]; omega

/-- **C09 (additive).** An entry of the given context whose name does not occur among the decoded
names of the well-formed members is kept. -/
theorem C09_extract_keeps (carrier : Carrier) (ctx : Ctx) (header : Str) (more : List Str)
    (hc : carrier.get headerName = some (header :: more)) (k : Str)
    (hk : ∀ e ∈ TraceState.delimSplit header, ∀ n v, BagMember e n v → pyStrip (Url.unquotePlus n) ≠ k) :
    get (extract carrier ctx) k = get ctx k := by
  by_cases hl : header.length ≤ 8192
  · obtain ⟨kvs, hs, he⟩ := C09_extract_exact carrier ctx header more hc hl
    rw [he]
    have hno : ∀ nv ∈ kvs, pyStrip (Url.unquotePlus nv.1) ≠ k := by
      clear he
      generalize TraceState.delimSplit header = es at hs hk
      induction hs with
      | nil => simp
      | skip e es r _ _ ih => exact ih (fun e he => hk e (by simp [he]))
      | take e es r n v hm _ ih =>
        intro nv hnv
        rcases List.mem_cons.mp hnv with rfl | hnv
        · exact hk e (by simp) _ _ hm
        · exact ih (fun e he => hk e (by simp [he])) nv hnv
    have hno' : ∀ nv ∈ kvs.take 180, pyStrip (Url.unquotePlus nv.1) ≠ k := fun nv h => hno nv (List.mem_of_mem_take h)
    generalize kvs.take 180 = l at hno'
    clear he
    induction l generalizing ctx with
    | nil => rfl
    | cons a l ih =>
      simp only [List.foldl_cons]
      rw [ih _ (fun nv h => hno' nv (by simp [h]))]
      simp only [get, getAll_set]
      exact Dict.get?_set_ne _ _ (hno' a (by simp))
  · rw [C09_extract_ignored carrier ctx (Or.inr (Or.inr ⟨header, more, hc, by omega⟩))]

example : getAll (extract [(headerName, ["a=1;p=2 , bad, =x,b=%41".toList])] []) =
    [("a".toList, "1;p=2".toList), ("b".toList, "A".toList)] := by decide

/-- **C09** (percent-decoding) Bytes that begin a character decode to it; otherwise one replacement character stands for the longest run of
bytes, at least one, that begins a character, so no later character is swallowed. -/
theorem C09_replacement (bs : List Nat) (hne : bs ≠ []) :
    (∃ c t, bs = Url.encodeChar c ++ t ∧ Url.decodeUtf8 bs = c :: Url.decodeUtf8 t) ∨
    ((∀ c t, bs ≠ Url.encodeChar c ++ t) ∧ ∃ n, 0 < n ∧ n ≤ bs.length ∧ Url.decodeUtf8 bs = '\uFFFD' :: Url.decodeUtf8 (bs.drop n) ∧
      (n = 1 ∨ ∃ c t, Url.encodeChar c = bs.take n ++ t) ∧ ∀ m, n < m → m ≤ bs.length → ∀ c t, Url.encodeChar c ≠ bs.take m ++ t) := by
  by_cases h : ∃ c t, bs = Url.encodeChar c ++ t
  · obtain ⟨c, t, rfl⟩ := h
    exact .inl ⟨c, t, rfl, Url.decode_encodeChar c t⟩
  · right
    have h' : ∀ c t, bs ≠ Url.encodeChar c ++ t := fun c t e => h ⟨c, t, e⟩
    refine ⟨h', ?_⟩
    cases bs with
    | nil => exact absurd rfl hne
    | cons b bs =>
      obtain ⟨n, e, hn, hp, hm⟩ := Url.decode_illformed b bs h'
      refine ⟨n + 1, by omega, by simpa using hn, e, ?_, ?_⟩
      · rcases hp with hp | hp
        · exact .inl (by omega)
        · exact .inr hp
      · intro m h1 h2 c t hc
        cases m with
        | zero => omega
        | succ m => exact hm m (by omega) (by simpa using h2) ⟨c, t, hc⟩

example : Url.decodeUtf8 [0xE2, 0x82, 0x41, 0xFF, 0xC3, 0xA9] = ['\uFFFD', 'A', '\uFFFD', 'é'] := by decide

end Baggage

namespace EnvHeaders
open Baggage Spec

/-! ### The members of an environment variable -/

/-- `text` is `name=value` with optional white space around both: `left` and `right` are what stands around the sign, the value's characters satisfy `val`. -/
def MemberShape (val : Char → Prop) (text left right : Str) : Prop :=
  ∃ b1 n b2 b3 w b4, Ows b1 ∧ Token' n ∧ Ows b2 ∧ Ows b3 ∧ (∀ c ∈ w, val c) ∧ Ows b4 ∧ left = b1 ++ (n ++ b2) ∧ right = b3 ++ (w ++ b4) ∧
    text = left ++ '=' :: right

/-- The header that a part between commas stands for: a well-formed one is percent-decoded; if `liberal`, one that is well-formed but for spaces in the
value is taken as it is. -/
def EnvMember (liberal : Bool) (part k v : Str) : Prop :=
  (∃ l r, MemberShape BagValueChar (pyStrip part) l r ∧ k = lowerAscii (pyStrip (Url.unquote l)) ∧ v = pyStrip (Url.unquote r)) ∨
  (liberal = true ∧ (¬ ∃ l r, MemberShape BagValueChar (pyStrip part) l r) ∧
    ∃ l r, MemberShape (fun c => BagValueChar c ∨ c = ' ') (pyStrip part) l r ∧ k = lowerAscii (pyStrip l) ∧ v = pyStrip r)

theorem shape_cut (val : Char → Prop) (t l r : Str) (h : MemberShape val t l r) : cutC '=' t = (l, some r) := by
  obtain ⟨b1, n, b2, b3, w, b4, h1, hk, h2, _, _, _, rfl, rfl, rfl⟩ := h
  refine cutC_append '=' _ _ ?_
  simp only [List.mem_append, not_or]
  refine ⟨?_, (not_mem_of_token n hk).2, ?_⟩ <;> intro hmem
  · rcases h1 _ hmem with h | h <;> exact absurd h (by decide)
  · rcases h2 _ hmem with h | h <;> exact absurd h (by decide)

theorem strict_iff (t : Str) : keyValueFormat.fullmatch t = true ↔ ∃ l r, MemberShape BagValueChar t l r := by
  rw [Re.fullmatch_iff]
  unfold keyValueFormat
  simp only [Re.Lang, ows_lang, keyFormat_lang, valueFormat_lang, Re.lang_chr]
  constructor
  · rintro ⟨b1, _, e1, h1, n, _, rfl, hk, b2, _, rfl, h2, _, _, rfl, rfl, b3, _, rfl, h3, w, b4, rfl, hv, h4⟩
    exact ⟨_, _, b1, n, b2, b3, w, b4, h1, hk, h2, h3, hv, h4, rfl, rfl, by rw [e1]; simp⟩
  · rintro ⟨l, r, b1, n, b2, b3, w, b4, h1, hk, h2, h3, hv, h4, rfl, rfl, rfl⟩
    exact ⟨b1, _, by simp, h1, n, _, rfl, hk, b2, _, rfl, h2, ['='], _, rfl, rfl, b3, _, rfl, h3, w, b4, rfl, hv, h4⟩

theorem libVal_iff (c : Char) : libValCh c = true ↔ BagValueChar c ∨ c = ' ' := by
  unfold libValCh
  rw [Bool.or_eq_true, valCh_iff, or_comm, beq_iff_eq, char_eq_iff]
  rfl

theorem liberal_iff (t : Str) : liberalFormat.fullmatch t = true ↔ ∃ l r, MemberShape (fun c => BagValueChar c ∨ c = ' ') t l r := by
  rw [Re.fullmatch_iff]
  unfold liberalFormat
  have hstar : ∀ w, (∃ l, w = List.flatten l ∧ ∀ x ∈ l, (Re.cls libValCh).Lang x) ↔ ∀ c ∈ w, BagValueChar c ∨ c = ' ' := by
    intro w
    have h : (Re.star (.cls libValCh)).Lang w ↔ _ := star_cls_lang libValCh w
    simp only [libVal_iff] at h
    exact h
  simp only [Re.Lang, ows_lang, keyFormat_lang, Re.lang_chr] at hstar ⊢
  simp only [hstar]
  constructor
  · rintro ⟨b1, _, e1, h1, n, _, rfl, hk, b2, _, rfl, h2, _, _, rfl, rfl, b3, _, rfl, h3, w, b4, rfl, hv, h4⟩
    exact ⟨_, _, b1, n, b2, b3, w, b4, h1, hk, h2, h3, hv, h4, rfl, rfl, by rw [e1]; simp⟩
  · rintro ⟨l, r, b1, n, b2, b3, w, b4, h1, hk, h2, h3, hv, h4, rfl, rfl, rfl⟩
    exact ⟨b1, _, by simp, h1, n, _, rfl, hk, b2, _, rfl, h2, ['='], _, rfl, rfl, b3, _, rfl, h3, w, b4, rfl, hv, h4⟩

theorem shape_ne_nil (val : Char → Prop) (l r : Str) : ¬ MemberShape val [] l r := by
  rintro ⟨_, _, _, _, _, _, _, _, _, _, _, _, _, _, e⟩
  simp at e

theorem parseMember_iff (liberal : Bool) (m k v : Str) : parseMember liberal m = some (k, v) ↔ EnvMember liberal m k v := by
  unfold parseMember EnvMember
  by_cases he : m = []
  · subst he
    have : pyStrip ([] : Str) = [] := rfl
    simp [this, shape_ne_nil]
  · rw [if_neg (by simpa using he)]
    simp only
    by_cases hs : keyValueFormat.fullmatch (pyStrip m) = true
    · rw [if_pos hs]
      rw [strict_iff] at hs
      obtain ⟨l, r, hlr⟩ := hs
      rw [shape_cut _ _ _ _ hlr]
      simp only [Option.some.injEq, Prod.mk.injEq]
      constructor
      · rintro ⟨rfl, rfl⟩; exact .inl ⟨l, r, hlr, rfl, rfl⟩
      · rintro (⟨l', r', h', rfl, rfl⟩ | ⟨_, hn, _⟩)
        · have := shape_cut _ _ _ _ h'
          rw [shape_cut _ _ _ _ hlr] at this
          injection this with e1 e2
          injection e2 with e2
          subst e1 e2
          exact ⟨rfl, rfl⟩
        · exact absurd ⟨l, r, hlr⟩ hn
    · rw [if_neg hs]
      rw [strict_iff] at hs
      cases liberal with
      | false =>
        simp only [Bool.not_false, if_true, Bool.false_eq_true, false_and, or_false]
        constructor
        · intro h; simp at h
        · rintro ⟨l, r, h, _⟩; exact absurd ⟨l, r, h⟩ hs
      | true =>
        simp only [Bool.not_true, Bool.false_eq_true, if_false]
        by_cases hl : liberalFormat.fullmatch (pyStrip m) = true
        · rw [if_pos hl]
          rw [liberal_iff] at hl
          obtain ⟨l, r, hlr⟩ := hl
          rw [shape_cut _ _ _ _ hlr]
          simp only [Option.some.injEq, Prod.mk.injEq]
          constructor
          · rintro ⟨rfl, rfl⟩; exact .inr ⟨trivial, hs, l, r, hlr, rfl, rfl⟩
          · rintro (⟨l', r', h', _⟩ | ⟨_, _, l', r', h', rfl, rfl⟩)
            · exact absurd ⟨l', r', h'⟩ hs
            · have := shape_cut _ _ _ _ h'
              rw [shape_cut _ _ _ _ hlr] at this
              injection this with e1 e2
              injection e2 with e2
              subst e1 e2
              exact ⟨rfl, rfl⟩
        · rw [if_neg hl]
          rw [liberal_iff] at hl
          constructor
          · intro h; simp at h
          · rintro (⟨l', r', h', _⟩ | ⟨_, _, l', r', h', _⟩)
            · exact absurd ⟨l', r', h'⟩ hs
            · exact absurd ⟨l', r', h'⟩ hl

theorem strip_blanks (b1 p b2 : Str) (h1 : ∀ c ∈ b1, isBlank c = true) (h2 : ∀ c ∈ b2, isBlank c = true) : pyStrip (b1 ++ p ++ b2) = pyStrip p := by
  have hsp : ∀ c, isBlank c = true → isPySpace c = true := by
    intro c hc
    simp only [isBlank, Bool.or_eq_true, beq_iff_eq] at hc
    rcases hc with rfl | rfl <;> decide
  have hl : ∀ (b s : Str), (∀ c ∈ b, isBlank c = true) → lstripBy isPySpace (b ++ s) = lstripBy isPySpace s := by
    intro b s hb
    induction b with
    | nil => rfl
    | cons c b ih =>
      have := ih (fun x hx => hb x (by simp [hx]))
      simp only [lstripBy, List.cons_append, List.dropWhile_cons, hsp c (hb c (by simp)), if_true] at this ⊢
      exact this
  have hr : ∀ (s b : Str), (∀ c ∈ b, isBlank c = true) → rstripBy isPySpace (s ++ b) = rstripBy isPySpace s := by
    intro s b hb
    have := hl b.reverse s.reverse (by intro c hc; exact hb c (by simpa using hc))
    simp only [lstripBy] at this
    simp only [rstripBy, List.reverse_append, this]
  unfold pyStrip stripBy
  rw [List.append_assoc, hl b1 _ h1]
  by_cases hp : lstripBy isPySpace p = []
  · have hall : ∀ c ∈ p, isPySpace c = true := by
      have := List.takeWhile_append_dropWhile (p := isPySpace) (l := p)
      rw [show p.dropWhile isPySpace = [] from hp, List.append_nil] at this
      intro c hc
      rw [← this] at hc
      exact mem_takeWhile_imp _ _ _ hc
    have : lstripBy isPySpace (p ++ b2) = [] := by
      apply dropWhile_eq_nil
      intro c hc
      exact (List.mem_append.1 hc).elim (hall c) (fun h => hsp c (h2 c h))
    rw [this, hp]
  · have : lstripBy isPySpace (p ++ b2) = lstripBy isPySpace p ++ b2 := by
      unfold lstripBy at hp ⊢
      rw [List.dropWhile_append, if_neg (by simpa using hp)]
    rw [this, hr _ _ h2]

/-- **C56** The headers read from an environment variable are exactly those of its comma-separated parts that are well-formed (in the liberal or the strict
reading); of several parts with one name the last counts. -/
theorem C56_parse_env_headers (s : Str) (liberal : Bool) (k v : Str) :
    Dict.get? (parse s liberal) k = some v ↔
      ∃ pre part post, splitC ',' s = pre ++ part :: post ∧ EnvMember liberal part k v ∧ ∀ p ∈ post, ∀ v', ¬ EnvMember liberal p k v' := by
  have key : ∀ (ms : List Str) (d : Dict Str Str), Dict.get? (ms.foldl (fun d m => match parseMember liberal m with
        | none => d
        | some kv => Dict.set d kv.1 kv.2) d) k = some v ↔
      (∃ pre m post, ms = pre ++ m :: post ∧ EnvMember liberal m k v ∧ ∀ p ∈ post, ∀ v', ¬ EnvMember liberal p k v') ∨
      (Dict.get? d k = some v ∧ ∀ p ∈ ms, ∀ v', ¬ EnvMember liberal p k v') := by
    intro ms
    induction ms with
    | nil => intro d; simp
    | cons m ms ih =>
      intro d
      rw [List.foldl_cons, ih]
      have split : (∃ pre x post, m :: ms = pre ++ x :: post ∧ EnvMember liberal x k v ∧ ∀ p ∈ post, ∀ v', ¬ EnvMember liberal p k v') ↔
          (EnvMember liberal m k v ∧ ∀ p ∈ ms, ∀ v', ¬ EnvMember liberal p k v') ∨
          (∃ pre x post, ms = pre ++ x :: post ∧ EnvMember liberal x k v ∧ ∀ p ∈ post, ∀ v', ¬ EnvMember liberal p k v') := by
        constructor
        · rintro ⟨pre, x, post, e, h⟩
          cases pre with
          | nil => injection e with e1 e2; subst e1 e2; exact .inl h
          | cons y pre => injection e with e1 e2; exact .inr ⟨pre, x, post, e2, h⟩
        · rintro (h | ⟨pre, x, post, rfl, h⟩)
          · exact ⟨[], m, ms, rfl, h⟩
          · exact ⟨m :: pre, x, post, rfl, h⟩
      rw [split]
      cases hm : parseMember liberal m with
      | none =>
        have hno : ∀ k v, ¬ EnvMember liberal m k v := by intro k v h; rw [← parseMember_iff, hm] at h; simp at h
        constructor
        · rintro (h | ⟨h1, h2⟩)
          · exact .inl (.inr h)
          · refine .inr ⟨h1, fun p hp v' => ?_⟩
            rcases List.mem_cons.1 hp with rfl | hp
            · exact hno _ _
            · exact h2 p hp v'
        · rintro ((⟨h, _⟩ | h) | ⟨h1, h2⟩)
          · exact absurd h (hno _ _)
          · exact .inl h
          · exact .inr ⟨h1, fun p hp => h2 p (by simp [hp])⟩
      | some kv =>
        obtain ⟨a, b⟩ := kv
        have hab : EnvMember liberal m a b := (parseMember_iff _ _ _ _).1 hm
        have huniq : ∀ a' b', EnvMember liberal m a' b' → a' = a ∧ b' = b := by
          intro a' b' h
          rw [← parseMember_iff, hm] at h
          injection h with h
          injection h with h1 h2
          exact ⟨h1.symm, h2.symm⟩
        simp only [Dict.get?_set]
        constructor
        · rintro (h | ⟨h1, h2⟩)
          · exact .inl (.inr h)
          · split at h1
            · rename_i e
              injection h1 with h1
              subst e h1
              exact .inl (.inl ⟨hab, h2⟩)
            · rename_i e
              refine .inr ⟨h1, fun p hp v' h => ?_⟩
              rcases List.mem_cons.1 hp with rfl | hp
              · exact e (huniq _ _ h).1.symm
              · exact h2 p hp v' h
        · rintro ((⟨h, h2⟩ | h) | ⟨h1, h2⟩)
          · obtain ⟨rfl, rfl⟩ := huniq _ _ h
            exact .inr ⟨by simp, h2⟩
          · exact .inl h
          · refine .inr ⟨?_, fun p hp => h2 p (by simp [hp])⟩
            rw [if_neg]
            · exact h1
            · rintro rfl; exact h2 m (by simp) b hab
  have hparts := TraceState.delimSplit_parts s
  have same : ∀ part piece, (∃ b1 b2 : Str, (∀ c ∈ b1, isBlank c = true) ∧ (∀ c ∈ b2, isBlank c = true) ∧ part = b1 ++ piece ++ b2) →
      ∀ k v, (EnvMember liberal part k v ↔ EnvMember liberal piece k v) := by
    rintro part piece ⟨b1, b2, h1, h2, rfl⟩ k v
    unfold EnvMember
    rw [strip_blanks b1 piece b2 h1 h2]
  unfold parse
  refine (key (TraceState.delimSplit s) []).trans ?_
  have hnil : (Dict.get? ([] : Dict Str Str) k = some v ∧ ∀ p ∈ TraceState.delimSplit s, ∀ v', ¬ EnvMember liberal p k v') ↔ False := by simp
  rw [hnil, or_false]
  generalize TraceState.delimSplit s = pieces at hparts
  generalize splitC ',' s = parts at hparts
  have last : ∀ {parts pieces : List Str}, List.Forall₂ (fun part piece => ∃ b1 b2 : Str, (∀ c ∈ b1, isBlank c = true) ∧ (∀ c ∈ b2, isBlank c = true) ∧
      part = b1 ++ piece ++ b2) parts pieces → ((∀ p ∈ pieces, ∀ v', ¬ EnvMember liberal p k v') ↔ (∀ p ∈ parts, ∀ v', ¬ EnvMember liberal p k v')) := by
    intro parts pieces h
    induction h with
    | nil => simp
    | cons hp _ ih => simp only [List.forall_mem_cons, ih, same _ _ hp]
  clear key hnil
  induction hparts with
  | nil => simp
  | @cons part piece parts pieces hp ht ih =>
    have dec : ∀ (x : Str) (l : List Str), (∃ pre m post, x :: l = pre ++ m :: post ∧ EnvMember liberal m k v ∧ ∀ p ∈ post, ∀ v', ¬ EnvMember liberal p k v') ↔
        (EnvMember liberal x k v ∧ ∀ p ∈ l, ∀ v', ¬ EnvMember liberal p k v') ∨
        (∃ pre m post, l = pre ++ m :: post ∧ EnvMember liberal m k v ∧ ∀ p ∈ post, ∀ v', ¬ EnvMember liberal p k v') := by
      intro x l
      constructor
      · rintro ⟨pre, y, post, e, h⟩
        cases pre with
        | nil => injection e with e1 e2; subst e1 e2; exact .inl h
        | cons z pre => injection e with e1 e2; exact .inr ⟨pre, y, post, e2, h⟩
      · rintro (h | ⟨pre, y, post, rfl, h⟩)
        · exact ⟨[], x, l, rfl, h⟩
        · exact ⟨x :: pre, y, post, rfl, h⟩
    exact (dec _ _).trans ((or_congr (and_congr (same _ _ hp k v).symm (last ht)) ih).trans (dec _ _).symm)

/-- Non-vacuity: a member of the liberal grammar only. -/
example : EnvMember true " K = v w".toList "k".toList "v w".toList ∧ ¬ EnvMember false " K = v w".toList "k".toList "v w".toList := by
  simp only [← parseMember_iff]; decide

example : parse "Api-Key=a%20b, bad ,x= y=z".toList false = [("api-key".toList, "a b".toList), ("x".toList, "y=z".toList)] := by
  decide
example : parse "h=a b;c, k=v w".toList true = [("k".toList, "v w".toList)] := by decide

end EnvHeaders
end Otel
