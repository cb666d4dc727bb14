import Verif.Lemmas.TraceState
import Mathlib.Data.List.Forall2
/-!
# C01–C03: `TraceState`
-/
namespace Otel
namespace TraceState
open Spec

/-- Where a `TraceState` can come from: the constructor or `from_header`. -/
inductive Origin where
  | ctor (entries : List (Str × Str))
  | header (headers : List Str)

/-- The initial object. -/
def Origin.start : Origin → TS
  | .ctor es => mk es
  | .header hs => fromHeader hs

/-- `ts` is obtained from some origin by some sequence of edits. -/
def Reachable (ts : TS) : Prop := ∃ (o : Origin) (ops : List Op), ts = ops.foldl apply o.start

/-- **C01.** Every reachable `TraceState` has at most 32 entries, no key twice and only keys and values
of the W3C grammar. -/
theorem C01_tracestate_wellformed (o : Origin) (ops : List Op) :
    TSWellFormed (ops.foldl apply o.start) := by
  have h0 : TSWellFormed o.start := by
    cases o with
    | ctor es => exact mk_wf es
    | header hs =>
      simp only [Origin.start, fromHeader]
      split
      · exact ⟨by simp, by simp, by simp⟩
      · exact mk_wf _
  generalize o.start = ts at h0
  induction ops generalizing ts with
  | nil => exact h0
  | cons op ops ih =>
    apply ih
    cases op with
    | add k v =>
      simp only [apply, add]
      split; · exact h0
      split; · exact h0
      split; · exact h0
      exact mk_wf _
    | update k v =>
      simp only [apply, update]
      split; · exact h0
      exact mk_wf _
    | delete k =>
      simp only [apply, delete]
      split; · exact h0
      exact mk_wf _

/-- Non-vacuity: a history with accepted and refused edits. -/
example : ([Op.add "vendor".toList "1".toList, .add "t@v".toList "x y".toList, .update "vendor".toList "2".toList,
    .add "Bad".toList "1".toList, .delete "t@v".toList].foldl apply
      (Origin.ctor [("a".toList, "b".toList), ("a".toList, "c".toList)]).start)
    = [("vendor".toList, "2".toList), ("a".toList, "b".toList)] := by decide

/-- **C02.** `from_header([ts.to_header()])` has the same entries in the same order, for every
reachable `ts`. -/
theorem C02_tracestate_header_roundtrip (ts : TS) (h : Reachable ts) : fromHeader [toHeader ts] = ts := by
  obtain ⟨o, ops, rfl⟩ := h
  exact roundtrip _ (C01_tracestate_wellformed o ops)

example : Reachable [("a".toList, " b".toList), ("t@v".toList, "!".toList)] :=
  ⟨.ctor [("a".toList, " b".toList), ("t@v".toList, "!".toList)], [], by decide⟩

/-- What `from_header` accepts from a header it did not produce: blanks around the commas and after
the values are ignored (test of the model on a literal). -/
example : fromHeader ["a=1 \t, b=2,,c= 3 ".toList, "d=4".toList] =
    [("a".toList, "1".toList), ("b".toList, "2".toList), ("c".toList, " 3".toList), ("d".toList, "4".toList)] := by
  decide

/-- What may stand between two commas of a header: blanks, or an entry with blanks around it. -/
def PartOf (part : Str) (entry : Option (Str × Str)) : Prop :=
  match entry with
  | none => ∀ c ∈ part, isBlank c = true
  | some kv => TSKey kv.1 ∧ TSValue kv.2 ∧ ∃ b1 b2, (∀ c ∈ b1, isBlank c = true) ∧ (∀ c ∈ b2, isBlank c = true) ∧ part = b1 ++ (kv.1 ++ ['='] ++ kv.2) ++ b2

theorem lstrip_blank (b s : Str) (hb : ∀ c ∈ b, isBlank c = true) : lstripBy isBlank (b ++ s) = lstripBy isBlank s := by
  induction b with
  | nil => rfl
  | cons c b ih =>
    have := ih (fun x hx => hb x (by simp [hx]))
    simp only [lstripBy, List.cons_append, List.dropWhile_cons, hb c (by simp), if_true] at this ⊢
    exact this

/-- What `from_header` sees of a part: nothing of a blank one, the entry and perhaps blanks after it otherwise. -/
def Seen (entry : Option (Str × Str)) (piece : Str) : Prop :=
  match entry with
  | none => piece = []
  | some kv => ∃ t, (∀ c ∈ t, isBlank c = true) ∧ piece = member kv ++ t

theorem seen_strips (part : Str) (e : Option (Str × Str)) (h : PartOf part e) : Seen e (lstripBy isBlank part) ∧ Seen e (stripBy isBlank part) ∧
    ((∀ c, part.head? = some c → isBlank c = false) → Seen e part ∧ Seen e (rstripBy isBlank part)) := by
  cases e with
  | none =>
    have h1 : lstripBy isBlank part = [] := dropWhile_eq_nil _ _ h
    refine ⟨h1, by simp [Seen, stripBy, h1, rstripBy], ?_⟩
    intro h2
    cases part with
    | nil => exact ⟨rfl, rfl⟩
    | cons c part => have := h c (by simp); rw [h2 c rfl] at this; simp at this
  | some kv =>
    obtain ⟨hk, hv, b1, b2, h1, h2, rfl⟩ := h
    have hm := member_ends kv hk hv
    have e1 : lstripBy isBlank (b1 ++ member kv ++ b2) = member kv ++ b2 := by
      rw [List.append_assoc, lstrip_blank b1 _ h1, lstripBy_eq_self]
      intro c hc
      cases hx : member kv with
      | nil => exact absurd hx hm.2.1
      | cons d r => rw [hx] at hc; exact hm.2.2.1 c (by rw [hx]; simpa using hc)
    have e2 : rstripBy isBlank (member kv ++ b2) = member kv := rstripBy_append _ _ _ h2 hm.2.2.2
    refine ⟨⟨b2, h2, e1⟩, ⟨[], by simp, by rw [stripBy]; erw [e1]; rw [e2, List.append_nil]⟩, ?_⟩
    intro h3
    cases b1 with
    | nil => exact ⟨⟨b2, h2, rfl⟩, ⟨[], by simp, by rw [List.append_nil]; exact e2⟩⟩
    | cons c b1 => have := h3 c rfl; rw [h1 c (by simp)] at this; simp at this

theorem seen_trimRest (parts : List (Str × Option (Str × Str))) (h : ∀ p ∈ parts, PartOf p.1 p.2) :
    List.Forall₂ (fun p piece => Seen p.2 piece) parts (trimRest (parts.map Prod.fst)) := by
  induction parts with
  | nil => exact .nil
  | cons p parts ih =>
    have hp := seen_strips p.1 p.2 (h p (by simp))
    cases parts with
    | nil => exact .cons hp.1 .nil
    | cons q parts => exact .cons hp.2.1 (ih (fun x hx => h x (by simp [hx])))

theorem part_no_comma (part : Str) (e : Option (Str × Str)) (h : PartOf part e) : ',' ∉ part := by
  have hb : ∀ b : Str, (∀ c ∈ b, isBlank c = true) → ',' ∉ b := fun b hb hm => absurd (hb ',' hm) (by decide)
  cases e with
  | none => exact hb _ h
  | some kv =>
    obtain ⟨hk, hv, b1, b2, h1, h2, rfl⟩ := h
    have := (member_ends kv hk hv).1
    simp only [List.mem_append, not_or]
    simp only [member, List.mem_append, not_or] at this
    exact ⟨⟨hb _ h1, this⟩, hb _ h2⟩

theorem seen_split (parts : List (Str × Option (Str × Str))) (hne : parts ≠ []) (h : ∀ p ∈ parts, PartOf p.1 p.2)
    (hb : ∀ c, (joinS [','] (parts.map Prod.fst)).head? = some c → isBlank c = false) :
    List.Forall₂ (fun p piece => Seen p.2 piece) parts (delimSplit (joinS [','] (parts.map Prod.fst))) := by
  unfold delimSplit
  rw [splitC_joinS ',' _ (by intro x hx; obtain ⟨p, hp, rfl⟩ := List.mem_map.1 hx; exact part_no_comma _ _ (h p hp)) (by simpa using hne)]
  cases parts with
  | nil => exact absurd rfl hne
  | cons p parts =>
    have hp := (seen_strips p.1 p.2 (h p (by simp))).2.2
    cases parts with
    | nil => exact .cons (hp hb).1 .nil
    | cons q parts =>
      refine .cons (hp ?_).2 (seen_trimRest (q :: parts) (fun x hx => h x (by simp [hx])))
      intro c hc
      refine hb c ?_
      simp only [List.map_cons, joinS]
      cases hx : p.1 with
      | nil => rw [hx] at hc; simp at hc
      | cons d r => rw [hx] at hc; simpa using hc

theorem membersLoop_seen (parts : List (Str × Option (Str × Str))) (pieces : List Str) (hs : List.Forall₂ (fun p piece => Seen p.2 piece) parts pieces)
    (d : TS) (hw : ∀ kv ∈ parts.filterMap Prod.snd, TSKey kv.1 ∧ TSValue kv.2) (hn : (Dict.keys (d ++ parts.filterMap Prod.snd)).Nodup) :
    membersLoop d pieces = some (d ++ parts.filterMap Prod.snd) := by
  induction hs generalizing d with
  | nil => simp [membersLoop]
  | @cons p piece parts pieces h _ ih =>
    obtain ⟨part, e⟩ := p
    cases e with
    | none =>
      simp only [Seen] at h
      subst h
      simp only [membersLoop, List.isEmpty_nil, if_true]
      exact ih d hw hn
    | some kv =>
      obtain ⟨t, ht, rfl⟩ := h
      obtain ⟨k, v⟩ := kv
      rw [show ((part, some (k, v)) :: parts).filterMap Prod.snd = (k, v) :: parts.filterMap Prod.snd from rfl] at hw hn ⊢
      have hkv := hw (k, v) (by simp)
      have h2 : k ∉ d.keys := by
        intro hm
        rw [Dict.keys_append, List.nodup_append] at hn
        exact hn.2.2 k hm k (by simp) rfl
      have hne : (member (k, v) ++ t).isEmpty = false := by simp [member]
      rw [membersLoop, if_neg (by simp [hne])]
      rw [show member (k, v) ++ t = k ++ ['='] ++ v ++ t from rfl, memberMatch_eq k v t hkv.1 hkv.2 ht]
      simp only [(Dict.has_false_iff d k).mpr h2, Dict.set_of_not_mem _ _ _ h2, Bool.false_eq_true, if_false]
      rw [ih (d ++ [(k, v)]) (fun kv h => hw kv (by simp [h])) (by simpa using hn)]
      simp

/-- **C02 (foreign headers).** `from_header` reads every list of headers of the grammar: entries separated by commas, with blanks around the commas and
empty parts anywhere, and any division into headers, give the entries in order. A header must not begin with a blank. -/
theorem C02_foreign_header (headers : List (List (Str × Option (Str × Str)))) (hne : ∀ parts ∈ headers, parts ≠ [])
    (hp : ∀ parts ∈ headers, ∀ p ∈ parts, PartOf p.1 p.2)
    (hb : ∀ parts ∈ headers, ∀ c, (joinS [','] (parts.map Prod.fst)).head? = some c → isBlank c = false)
    (hw : TSWellFormed (headers.flatMap fun parts => parts.filterMap Prod.snd)) :
    fromHeader (headers.map fun parts => joinS [','] (parts.map Prod.fst)) = headers.flatMap fun parts => parts.filterMap Prod.snd := by
  have key : ∀ (headers : List (List (Str × Option (Str × Str)))) (d : TS), (∀ parts ∈ headers, parts ≠ []) →
      (∀ parts ∈ headers, ∀ p ∈ parts, PartOf p.1 p.2) →
      (∀ parts ∈ headers, ∀ c, (joinS [','] (parts.map Prod.fst)).head? = some c → isBlank c = false) →
      (∀ kv ∈ (headers.flatMap fun parts => parts.filterMap Prod.snd), TSKey kv.1 ∧ TSValue kv.2) →
      (Dict.keys (d ++ headers.flatMap fun parts => parts.filterMap Prod.snd)).Nodup →
      headersLoop d (headers.map fun parts => joinS [','] (parts.map Prod.fst)) = some (d ++ headers.flatMap fun parts => parts.filterMap Prod.snd) := by
    intro headers
    induction headers with
    | nil => intro d _ _ _ _ _; simp [headersLoop]
    | cons parts hs ih =>
      intro d h1 h2 h3 h4 h5
      simp only [List.flatMap_cons] at h4 h5 ⊢
      rw [← List.append_assoc] at h5 ⊢
      have h6 : (Dict.keys (d ++ parts.filterMap Prod.snd)).Nodup := by
        rw [Dict.keys_append, List.nodup_append] at h5
        exact h5.1
      have := membersLoop_seen parts _ (seen_split parts (h1 _ (by simp)) (h2 _ (by simp)) (h3 _ (by simp))) d
        (fun kv h => h4 kv (by simp only [List.mem_append]; exact .inl h)) h6
      simp only [List.map_cons, headersLoop, this]
      exact ih _ (fun x hx => h1 x (by simp [hx])) (fun x hx => h2 x (by simp [hx])) (fun x hx => h3 x (by simp [hx]))
        (fun kv h => h4 kv (by simp only [List.mem_append]; exact .inr h)) h5
  unfold fromHeader
  rw [key headers [] hne hp hb hw.2.2 (by rw [List.nil_append]; exact hw.2.1)]
  simp only [List.nil_append]
  exact mk_self _ hw

/-- Non-vacuity of `C02_foreign_header`. -/
example : PartOf " a=1 \t".toList (some ("a".toList, "1".toList)) ∧ PartOf "  ".toList none :=
  ⟨⟨by rw [← key_iff]; decide, by rw [← value_iff]; decide, [' '], [' ', '\t'], by decide, by decide, by decide⟩, by unfold PartOf; decide⟩

theorem membersLoop_sound (ms : List Str) (d d' : TS) (h : membersLoop d ms = some d') :
    ∀ m ∈ ms, m = [] ∨ ∃ k v t, TSKey k ∧ TSValue v ∧ (∀ c ∈ t, isBlank c = true) ∧ m = k ++ ['='] ++ v ++ t := by
  induction ms generalizing d with
  | nil => simp
  | cons m ms ih =>
    intro x hx
    rw [membersLoop] at h
    split at h
    · rename_i hm
      rcases List.mem_cons.1 hx with rfl | hx
      · left; simpa using hm
      · exact ih d h x hx
    · split at h
      · simp at h
      · rename_i k v hm
        split at h
        · simp at h
        · rcases List.mem_cons.1 hx with rfl | hx
          · right
            unfold memberMatch at hm
            split at hm
            · simp at hm
            · rename_i k' rest hc
              simp only at hm
              split at hm
              · rename_i hkv
                rw [Bool.and_eq_true, key_iff, value_iff] at hkv
                obtain ⟨e, _⟩ := cutC_some '=' x k' rest hc
                obtain ⟨t, ht, hb⟩ := rstripBy_spec isBlank rest
                refine ⟨k', _, t, hkv.1, hkv.2, hb, ?_⟩
                rw [e]
                conv => lhs; rw [ht]
                simp
              · simp at hm
          · exact ih _ h x hx

theorem trimRest_parts (ps : List Str) : List.Forall₂ (fun part piece => ∃ b1 b2 : Str, (∀ c ∈ b1, isBlank c = true) ∧ (∀ c ∈ b2, isBlank c = true) ∧
    part = b1 ++ piece ++ b2) ps (trimRest ps) := by
  have hl : ∀ s : Str, ∃ b : Str, (∀ c ∈ b, isBlank c = true) ∧ s = b ++ lstripBy isBlank s := fun s =>
    ⟨s.takeWhile isBlank, fun c hc => mem_takeWhile_imp _ _ _ hc, (List.takeWhile_append_dropWhile).symm⟩
  induction ps with
  | nil => exact .nil
  | cons p ps ih =>
    obtain ⟨b, hb, e⟩ := hl p
    cases ps with
    | nil => exact .cons ⟨b, [], hb, by simp, by rw [List.append_nil]; exact e⟩ .nil
    | cons q ps =>
      obtain ⟨t, ht, hb2⟩ := rstripBy_spec isBlank (lstripBy isBlank p)
      refine .cons ⟨b, t, hb, hb2, ?_⟩ ih
      rw [stripBy, List.append_assoc, ← ht]
      exact e

theorem delimSplit_parts (h : Str) : List.Forall₂ (fun part piece => ∃ b1 b2 : Str, (∀ c ∈ b1, isBlank c = true) ∧ (∀ c ∈ b2, isBlank c = true) ∧
    part = b1 ++ piece ++ b2) (splitC ',' h) (delimSplit h) := by
  unfold delimSplit
  split
  · rename_i e; rw [e]; exact .nil
  · rename_i p e; rw [e]; exact .cons ⟨[], [], by simp, by simp, by simp⟩ .nil
  · rename_i p q r e
    rw [e]
    obtain ⟨t, ht, hb⟩ := rstripBy_spec isBlank p
    exact .cons ⟨[], t, by simp, hb, by rw [List.nil_append]; exact ht⟩ (trimRest_parts _)

/-- **C02 (all or nothing).** If `from_header` keeps anything, every part between commas of every header is blank or a well-formed entry: one malformed
member anywhere empties the trace state. -/
theorem C02_malformed_rejected (headers : List Str) (hne : fromHeader headers ≠ []) :
    ∀ h ∈ headers, ∀ part ∈ splitC ',' h, ∃ entry, PartOf part entry := by
  have key : ∀ (headers : List Str) (d d' : TS), headersLoop d headers = some d' → ∀ h ∈ headers, ∃ e e', membersLoop e (delimSplit h) = some e' := by
    intro headers
    induction headers with
    | nil => simp
    | cons x hs ih =>
      intro d d' h y hy
      rw [headersLoop] at h
      split at h
      · simp at h
      · rename_i e he
        rcases List.mem_cons.1 hy with rfl | hy
        · exact ⟨d, e, he⟩
        · exact ih _ _ h y hy
  intro h hh part hpart
  unfold fromHeader at hne
  split at hne
  · exact absurd rfl hne
  · rename_i d hd
    obtain ⟨e, e', he⟩ := key headers [] d hd h hh
    have hs := membersLoop_sound _ _ _ he
    have hf := delimSplit_parts h
    clear he hd hne
    revert hs
    generalize delimSplit h = pieces at hf
    generalize splitC ',' h = parts at hf hpart
    intro hs
    induction hf with
    | nil => simp at hpart
    | @cons p piece ps pieces hp _ ih =>
      rcases List.mem_cons.1 hpart with rfl | hpart
      · obtain ⟨b1, b2, h1, h2, rfl⟩ := hp
        rcases hs piece (by simp) with rfl | ⟨k, v, t, hk, hv, ht, rfl⟩
        · refine ⟨none, ?_⟩
          intro c hc
          simp only [List.append_nil, List.mem_append] at hc
          exact hc.elim (h1 c) (h2 c)
        · refine ⟨some (k, v), hk, hv, b1, t ++ b2, h1, ?_, by simp⟩
          intro c hc
          exact (List.mem_append.1 hc).elim (ht c) (h2 c)
      · exact ih hpart (fun m hm => hs m (by simp [hm]))

/-- Test: a malformed member in another header empties the state. -/
example : fromHeader ["a=1".toList, "b=2,Bad=3".toList] = [] := by decide

/-- **C02 (rejection).** A header list with the same key in two members yields the empty state. -/
theorem C02_duplicate_key_rejected (k v w : Str) (hk : TSKey k) (hv : TSValue v) (hw : TSValue w) :
    fromHeader [k ++ ['='] ++ v, k ++ ['='] ++ w] = [] := by
  have e : ∀ u, TSValue u → delimSplit (k ++ ['='] ++ u) = [k ++ ['='] ++ u] := by
    intro u hu
    have := member_ends (k, u) hk hu
    exact delimSplit_join [member (k, u)] (by simp; exact ⟨this.1, this.2.2⟩) (by simp)
  have m : ∀ u, TSValue u → memberMatch (k ++ ['='] ++ u) = some (k, u) := by
    intro u hu; have := memberMatch_eq k u [] hk hu (by simp); simpa using this
  have ne : ∀ u : Str, (k ++ ['='] ++ u).isEmpty = false := by intro u; simp
  simp only [fromHeader, headersLoop, e v hv, e w hw, membersLoop, ne, m v hv, m w hw]
  simp [Dict.has, Dict.get?, Dict.set]

example : TSKey "k".toList ∧ TSValue "v".toList := by
  rw [← key_iff, ← value_iff]; decide

/-- **C03 (add, accepted).** Adding a new valid pair below the capacity puts it first and keeps every
other entry, in order. -/
theorem C03_add_new (ts : TS) (h : Reachable ts) (k v : Str) (hk : TSKey k) (hv : TSValue v)
    (hlen : ts.length < 32) (hnew : k ∉ ts.map Prod.fst) : add ts k v = (k, v) :: ts := by
  obtain ⟨o, ops, rfl⟩ := h
  have hw := C01_tracestate_wellformed o ops
  generalize ops.foldl apply o.start = ts at *
  have h1 : validPair k v = true := (validPair_iff k v).mpr ⟨hk, hv⟩
  have h2 : Dict.has ts k = false := (Dict.has_false_iff ts k).mpr hnew
  simp only [add, h1, maxKeys, h2]
  rw [if_neg (by simp), if_neg (by omega), if_neg (by simp)]
  apply mk_self
  refine ⟨by simp; omega, by simp only [List.map_cons, List.nodup_cons]; exact ⟨hnew, hw.2.1⟩, ?_⟩
  intro kv hkv
  rcases List.mem_cons.mp hkv with rfl | hkv
  · exact ⟨hk, hv⟩
  · exact hw.2.2 kv hkv

/-- **C03 (add, refused).** An invalid pair, an existing key or a full list leaves it unchanged. -/
theorem C03_add_refused (ts : TS) (k v : Str)
    (h : ¬ (TSKey k ∧ TSValue v) ∨ 32 ≤ ts.length ∨ k ∈ ts.map Prod.fst) : add ts k v = ts := by
  unfold add
  split; · rfl
  rename_i h1
  split; · rfl
  rename_i h2
  split; · rfl
  rename_i h3
  exfalso
  rcases h with h | h | h
  · apply h; rw [← validPair_iff]; simpa using h1
  · exact h2 h
  · exact h3 ((Dict.has_iff ts k).mpr h)

/-- The full C03 claim for `update` on one state: the pair becomes the first entry and every other
entry is kept, in order. -/
def UpdateKeeps (ts : TS) (k v : Str) : Prop :=
  update ts k v = (k, v) :: ts.filter (fun kv => kv.1 ≠ k)

/-- **C03 (update), partial.** Missing: the case of a new key when the list already has 32 entries,
where the claim is false (`C03_update_loses_everything`). -/
theorem C03_update_partial (ts : TS) (h : Reachable ts) (k v : Str) (hk : TSKey k) (hv : TSValue v)
    (hc : ts.length < 32 ∨ k ∈ ts.map Prod.fst) : UpdateKeeps ts k v := by
  obtain ⟨o, ops, rfl⟩ := h
  have hw := C01_tracestate_wellformed o ops
  generalize ops.foldl apply o.start = ts at *
  have h1 : validPair k v = true := (validPair_iff k v).mpr ⟨hk, hv⟩
  unfold UpdateKeeps
  simp only [update, h1]
  rw [if_neg (by simp), Dict.erase_eq_filter _ _ hw.2.1]
  apply mk_self
  have hlen : (ts.filter (fun kv => kv.1 ≠ k)).length < 32 := by
    rcases hc with hc | hc
    · exact Nat.lt_of_le_of_lt (List.length_filter_le ..) hc
    · have := Dict.length_erase_lt ts k hc
      rw [Dict.erase_eq_filter _ _ hw.2.1] at this
      have := hw.1; omega
  refine ⟨by simp only [List.length_cons]; omega, ?_, ?_⟩
  · simp only [List.map_cons, List.nodup_cons]
    constructor
    · intro hm
      obtain ⟨p, hp, hpk⟩ := List.mem_map.mp hm
      have := (List.mem_filter.mp hp).2
      simp [hpk] at this
    · exact List.Sublist.nodup (List.Sublist.map _ List.filter_sublist) hw.2.1
  · intro kv hkv
    rcases List.mem_cons.mp hkv with rfl | hkv
    · exact ⟨hk, hv⟩
    · exact hw.2.2 kv (List.mem_filter.mp hkv).1

/-- **C03 (update) is violated by the code**: updating a full (32-entry) `TraceState` with a valid pair
whose key is new discards every entry, including the new one. -/
theorem C03_update_loses_everything (ts : TS) (k v : Str) (hk : TSKey k) (hv : TSValue v)
    (hlen : ts.length = 32) (hnew : k ∉ ts.map Prod.fst) : update ts k v = [] := by
  have h1 : validPair k v = true := (validPair_iff k v).mpr ⟨hk, hv⟩
  simp only [update, h1]
  rw [if_neg (by simp), Dict.erase_of_not_mem _ _ hnew]
  unfold mk
  rw [if_pos (by simp only [maxKeys, List.length_cons]; omega)]

/-- Keys `k0`…`k31` style witness: 32 entries with one-letter/digit-suffixed keys. -/
def full32 : TS :=
  (List.range 32).map fun i => (['k', Char.ofNat (97 + i % 16), Char.ofNat (97 + i / 16)], ['1'])

/-- The violation is reachable. -/
theorem C03_update_violated : ∃ ts k v, Reachable ts ∧ TSKey k ∧ TSValue v ∧ ¬ UpdateKeeps ts k v := by
  refine ⟨full32, ['z'], ['1'], ⟨.ctor full32, [], ?_⟩, ?_, ?_, ?_⟩
  · have : TSWellFormed full32 := by
      refine ⟨by decide, by decide, ?_⟩
      have : ∀ kv ∈ full32, validPair kv.1 kv.2 = true := by decide
      intro kv hkv; exact (validPair_iff _ _).mp (this kv hkv)
    exact (mk_self _ this).symm
  · rw [← key_iff]; decide
  · rw [← value_iff]; decide
  · unfold UpdateKeeps
    rw [C03_update_loses_everything full32 ['z'] ['1'] (by rw [← key_iff]; decide) (by rw [← value_iff]; decide)
      (by decide) (by decide)]
    simp

/-- **C03 (update, refused).** An invalid pair changes nothing. -/
theorem C03_update_invalid (ts : TS) (k v : Str) (h : ¬ (TSKey k ∧ TSValue v)) : update ts k v = ts := by
  unfold update
  split; · rfl
  rename_i h1
  exact absurd ((validPair_iff k v).mp (by simpa using h1)) h

/-- **C03 (delete).** `delete` removes exactly the entry of that key. -/
theorem C03_delete (ts : TS) (h : Reachable ts) (k : Str) :
    delete ts k = ts.filter (fun kv => kv.1 ≠ k) := by
  obtain ⟨o, ops, rfl⟩ := h
  have hw := C01_tracestate_wellformed o ops
  generalize ops.foldl apply o.start = ts at *
  have herase : Dict.erase ts k = ts.filter (fun kv => kv.1 ≠ k) := Dict.erase_eq_filter _ _ hw.2.1
  rw [← herase]
  unfold delete
  split
  · rename_i hh
    rw [Dict.erase_of_not_mem]
    exact (Dict.has_false_iff ts k).mp (by simpa using hh)
  · apply mk_self
    have hs := Dict.erase_sublist ts k
    exact ⟨Nat.le_trans hs.length_le hw.1, Dict.nodup_erase _ _ hw.2.1, fun kv hkv => hw.2.2 kv (hs.subset hkv)⟩

example : delete [("a".toList, "1".toList), ("b".toList, "2".toList)] "a".toList = [("b".toList, "2".toList)] := by
  decide

end TraceState
end Otel
