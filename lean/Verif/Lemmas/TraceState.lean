import Verif.Model.TraceState
import Verif.Spec.TraceState
import Verif.Lemmas.Re
import Verif.Lemmas.Dict
import Verif.Lemmas.Str
namespace Otel
namespace TraceState
open Spec

theorem isLower_iff (c : Char) : isLower c = true ↔ 'a' ≤ c ∧ c ≤ 'z' := by
  simp only [isLower, inRange_iff, char_le_iff]; rfl
theorem isDig_iff (c : Char) : isDig c = true ↔ '0' ≤ c ∧ c ≤ '9' := by
  simp only [isDig, inRange_iff, char_le_iff]; rfl

theorem keyChar_iff (c : Char) : keyChar c = true ↔ TSKeyChar c := by
  simp only [keyChar, TSKeyChar, Bool.or_eq_true, beq_iff_eq, isLower_iff, isDig_iff, List.mem_cons,
    List.not_mem_nil, or_false]
  constructor
  · rintro (((((h | h) | h) | h) | h) | h) <;> simp [h]
  · rintro (h | h | h | h | h | h) <;> simp [h]

theorem lcOrDig_iff (c : Char) : lcOrDig c = true ↔ ('a' ≤ c ∧ c ≤ 'z') ∨ ('0' ≤ c ∧ c ≤ '9') := by
  simp only [lcOrDig, Bool.or_eq_true, isLower_iff, isDig_iff]

theorem key_iff (k : Str) : keyRe.fullmatch k = true ↔ TSKey k := by
  rw [Re.fullmatch_iff]
  unfold keyRe TSKey
  simp only [Re.Lang, Re.lang_chr]
  apply or_congr
  · unfold TSSimpleKey
    constructor
    · rintro ⟨u, v, rfl, ⟨c, rfl, hc⟩, h1, _, h2⟩
      exact ⟨c, v, rfl, (isLower_iff c).mp hc, fun x hx => (keyChar_iff x).mp (h1 x hx), h2⟩
    · rintro ⟨c, cs, rfl, hc, h1, h2⟩
      exact ⟨[c], cs, rfl, ⟨c, rfl, (isLower_iff c).mpr hc⟩, fun x hx => (keyChar_iff x).mpr (h1 x hx),
        Nat.zero_le _, h2⟩
  · unfold TSTenantKey
    constructor
    · rintro ⟨u, v, rfl, ⟨c, rfl, hc⟩, u2, v2, rfl, ⟨h1, _, h2⟩, u3, v3, rfl, rfl, u4, v4, rfl, ⟨d, rfl, hd⟩, h3, _, h4⟩
      exact ⟨c, u2, d, v4, by simp, (lcOrDig_iff c).mp hc, fun x hx => (keyChar_iff x).mp (h1 x hx), h2,
        (isLower_iff d).mp hd, fun x hx => (keyChar_iff x).mp (h3 x hx), h4⟩
    · rintro ⟨c, cs, d, ds, rfl, hc, h1, h2, hd, h3, h4⟩
      exact ⟨[c], cs ++ '@' :: d :: ds, by simp, ⟨c, rfl, (lcOrDig_iff c).mpr hc⟩, cs, '@' :: d :: ds, rfl,
        ⟨fun x hx => (keyChar_iff x).mpr (h1 x hx), Nat.zero_le _, h2⟩, ['@'], d :: ds, rfl, rfl, [d], ds, rfl,
        ⟨d, rfl, (isLower_iff d).mpr hd⟩, fun x hx => (keyChar_iff x).mpr (h3 x hx), Nat.zero_le _, h4⟩

theorem valChar_iff (c : Char) : valChar c = true ↔ ' ' ≤ c ∧ c ≤ '~' ∧ c ≠ ',' ∧ c ≠ '=' := by
  simp only [valChar, Bool.or_eq_true, inRange_iff, char_le_iff, ne_eq, char_eq_iff]
  show _ ↔ (32 ≤ _ ∧ _ ≤ 126 ∧ ¬ _ = 44 ∧ ¬ _ = 61)
  omega

theorem nblkChar_iff (c : Char) : nblkChar c = true ↔ valChar c = true ∧ c ≠ ' ' := by
  simp only [valChar, nblkChar, Bool.or_eq_true, inRange_iff, ne_eq, char_eq_iff]
  show _ ↔ (_ ∧ ¬ _ = 32)
  omega

theorem value_iff (v : Str) : valueRe.fullmatch v = true ↔ TSValue v := by
  rw [Re.fullmatch_iff]
  unfold valueRe TSValue
  simp only [Re.Lang]
  constructor
  · rintro ⟨u, w, rfl, ⟨h1, _, h2⟩, c, rfl, hc⟩
    rw [nblkChar_iff] at hc
    refine ⟨by simp; omega, ?_, c, by simp, hc.2⟩
    intro x hx
    rcases List.mem_append.mp hx with hx | hx
    · exact (valChar_iff x).mp (h1 x hx)
    · simp at hx; subst hx; exact (valChar_iff x).mp hc.1
  · rintro ⟨h1, h2, c, h3, h4⟩
    obtain ⟨u, rfl⟩ := List.getLast?_eq_some_iff.mp h3
    refine ⟨u, [c], rfl, ⟨?_, Nat.zero_le _, by simp at h1; omega⟩, c, rfl, ?_⟩
    · intro x hx; exact (valChar_iff x).mpr (h2 x (by simp [hx]))
    · rw [nblkChar_iff, valChar_iff]; exact ⟨h2 c (by simp), h4⟩

theorem validPair_iff (k v : Str) : validPair k v = true ↔ TSKey k ∧ TSValue v := by
  simp only [validPair, Bool.and_eq_true, key_iff, value_iff]

theorem mkLoop_inv (d : TS) (es : List (Str × Str)) (hn : d.keys.Nodup)
    (hv : ∀ kv ∈ d, TSKey kv.1 ∧ TSValue kv.2) :
    (mkLoop d es).keys.Nodup ∧ (∀ kv ∈ mkLoop d es, TSKey kv.1 ∧ TSValue kv.2) ∧
    (mkLoop d es).length ≤ d.length + es.length := by
  induction es generalizing d with
  | nil => exact ⟨hn, hv, by simp [mkLoop]⟩
  | cons e es ih =>
    obtain ⟨k, v⟩ := e
    simp only [mkLoop]
    split
    · rename_i hkv
      split
      · obtain ⟨a, b, c⟩ := ih d hn hv; exact ⟨a, b, by simp; omega⟩
      · rename_i hh
        have hk : k ∉ d.keys := (Dict.has_false_iff d k).mp (by simpa using hh)
        rw [Dict.set_of_not_mem _ _ _ hk]
        have := ih (d ++ [(k, v)]) (by
            have := Dict.nodup_set d k v hn; rwa [Dict.set_of_not_mem _ _ _ hk] at this) (by
            intro kv hkv2
            rcases List.mem_append.mp hkv2 with h | h
            · exact hv kv h
            · simp at h; subst h; exact (validPair_iff k v).mp hkv)
        obtain ⟨a, b, c⟩ := this
        exact ⟨a, b, by simp at c ⊢; omega⟩
    · obtain ⟨a, b, c⟩ := ih d hn hv; exact ⟨a, b, by simp; omega⟩

theorem mk_wf (es : List (Str × Str)) : TSWellFormed (mk es) := by
  unfold mk
  split
  · exact ⟨by simp, by simp, by simp⟩
  · rename_i h
    obtain ⟨a, b, c⟩ := mkLoop_inv [] es (by simp) (by simp)
    simp only [maxKeys] at h
    exact ⟨by simp at c; omega, a, b⟩

theorem mkLoop_self (d es : TS) (hn : (Dict.keys (d ++ es)).Nodup)
    (hv : ∀ kv ∈ es, TSKey kv.1 ∧ TSValue kv.2) : mkLoop d es = d ++ es := by
  induction es generalizing d with
  | nil => simp [mkLoop]
  | cons e es ih =>
    obtain ⟨k, v⟩ := e
    have h1 : validPair k v = true := (validPair_iff k v).mpr (hv (k, v) (by simp))
    have h2 : k ∉ d.keys := by
      intro hm
      rw [Dict.keys_append, List.nodup_append] at hn
      exact hn.2.2 k hm k (by simp) rfl
    simp only [mkLoop, h1, if_true, (Dict.has_false_iff d k).mpr h2, Dict.set_of_not_mem _ _ _ h2]
    simp only [Bool.false_eq_true, if_false]
    rw [ih (d ++ [(k, v)]) (by simpa using hn) (fun kv h => hv kv (by simp [h]))]
    simp

theorem mk_self (es : TS) (h : TSWellFormed es) : mk es = es := by
  unfold mk maxKeys
  have := h.1
  rw [if_neg (by omega), mkLoop_self [] es (by simpa [Dict.keys] using h.2.1) h.2.2]; simp


/-! ### header round trip -/

theorem key_no_eq (k : Str) (h : TSKey k) : '=' ∉ k ∧ ',' ∉ k ∧ k ≠ [] ∧ (∀ c, k.head? = some c → isBlank c = false) := by
  have kc : ∀ x, TSKeyChar x → x ≠ '=' ∧ x ≠ ',' := by
    intro x hx
    rw [← keyChar_iff] at hx
    constructor <;> (rintro rfl; revert hx; decide)
  have lc : ∀ x : Char, ('a' ≤ x ∧ x ≤ 'z') ∨ ('0' ≤ x ∧ x ≤ '9') → x ≠ '=' ∧ x ≠ ',' ∧ isBlank x = false := by
    intro x hx
    rw [← lcOrDig_iff] at hx
    refine ⟨?_, ?_, ?_⟩
    · rintro rfl; revert hx; decide
    · rintro rfl; revert hx; decide
    · simp only [isBlank, Bool.or_eq_false_iff, beq_eq_false_iff_ne]
      constructor <;> (rintro rfl; revert hx; decide)
  rcases h with ⟨c, cs, rfl, hc, h1, _⟩ | ⟨c, cs, d, ds, rfl, hc, h1, _, hd, h3, _⟩
  · obtain ⟨a1, a2, a3⟩ := lc c (Or.inl hc)
    refine ⟨?_, ?_, by simp, by simpa using a3⟩
    · simp only [List.mem_cons, not_or]; exact ⟨Ne.symm a1, fun hm => (kc _ (h1 _ hm)).1 rfl⟩
    · simp only [List.mem_cons, not_or]; exact ⟨Ne.symm a2, fun hm => (kc _ (h1 _ hm)).2 rfl⟩
  · obtain ⟨a1, a2, a3⟩ := lc c hc
    obtain ⟨b1, b2, b3⟩ := lc d (Or.inl hd)
    refine ⟨?_, ?_, by simp, by simpa using a3⟩
    · simp only [List.cons_append, List.mem_cons, List.mem_append, not_or]
      exact ⟨Ne.symm a1, fun hm => (kc _ (h1 _ hm)).1 rfl, by decide, Ne.symm b1, fun hm => (kc _ (h3 _ hm)).1 rfl⟩
    · simp only [List.cons_append, List.mem_cons, List.mem_append, not_or]
      exact ⟨Ne.symm a2, fun hm => (kc _ (h1 _ hm)).2 rfl, by decide, Ne.symm b2, fun hm => (kc _ (h3 _ hm)).2 rfl⟩

theorem value_last (v : Str) (h : TSValue v) : v ≠ [] ∧ ',' ∉ v ∧ ∀ c, v.getLast? = some c → isBlank c = false := by
  obtain ⟨_, h2, c, h3, h4⟩ := h
  refine ⟨by rintro rfl; simp at h3, fun hm => (h2 _ hm).2.2.1 rfl, ?_⟩
  intro d hd
  rw [h3] at hd; injection hd with hd; subst hd
  have hm : c ∈ v := List.mem_of_getLast? h3
  have := h2 c hm
  simp only [isBlank, Bool.or_eq_false_iff, beq_eq_false_iff_ne]
  refine ⟨h4, ?_⟩
  rintro rfl
  exact absurd this.1 (by decide)

theorem memberMatch_eq (k v t : Str) (hk : TSKey k) (hv : TSValue v) (ht : ∀ c ∈ t, isBlank c = true) :
    memberMatch (k ++ ['='] ++ v ++ t) = some (k, v) := by
  have h1 := key_no_eq k hk
  have h2 := value_last v hv
  unfold memberMatch
  rw [show k ++ ['='] ++ v ++ t = k ++ '=' :: (v ++ t) by simp, cutC_append _ _ _ h1.1]
  simp only [rstripBy_append isBlank v t ht h2.2.2]
  simp [(key_iff k).mpr hk, (value_iff v).mpr hv]

/-- A member of the header text. -/
def member (kv : Str × Str) : Str := kv.1 ++ ['='] ++ kv.2

theorem member_ends (kv : Str × Str) (hk : TSKey kv.1) (hv : TSValue kv.2) :
    ',' ∉ member kv ∧ member kv ≠ [] ∧ (∀ c, (member kv).head? = some c → isBlank c = false) ∧
    (∀ c, (member kv).getLast? = some c → isBlank c = false) := by
  obtain ⟨k, v⟩ := kv
  obtain ⟨h1, h2, h3, h4⟩ := key_no_eq k hk
  obtain ⟨g1, g2, g3⟩ := value_last v hv
  refine ⟨?_, ?_, ?_, ?_⟩
  · simp only [member, List.mem_append, not_or]; exact ⟨⟨h2, by decide⟩, g2⟩
  · simp [member]
  · cases k with
    | nil => exact absurd rfl h3
    | cons c k => simpa [member] using h4
  · intro c hc
    rw [member, List.getLast?_append] at hc
    cases hl : v.getLast? with
    | none => rw [List.getLast?_eq_none_iff] at hl; exact absurd hl g1
    | some d => simp only [hl, Option.some_or, Option.some.injEq] at hc; rw [← hc]; exact g3 d hl

theorem trimRest_self (ps : List Str) (h : ∀ p ∈ ps, (∀ c, p.head? = some c → isBlank c = false) ∧
    (∀ c, p.getLast? = some c → isBlank c = false)) : trimRest ps = ps := by
  induction ps with
  | nil => rfl
  | cons p ps ih =>
    have hp := h p (by simp)
    cases ps with
    | nil => simp [trimRest, lstripBy_eq_self _ _ hp.1]
    | cons q ps =>
      rw [trimRest, stripBy_eq_self _ _ hp.1 hp.2, ih (fun p hp => h p (by simp [hp]))]

theorem delimSplit_join (ps : List Str) (h : ∀ p ∈ ps, ',' ∉ p ∧ (∀ c, p.head? = some c → isBlank c = false) ∧
    (∀ c, p.getLast? = some c → isBlank c = false)) (hne : ps ≠ []) : delimSplit (joinS [','] ps) = ps := by
  unfold delimSplit
  rw [splitC_joinS ',' ps (fun p hp => (h p hp).1) hne]
  cases ps with
  | nil => rfl
  | cons p ps =>
    cases ps with
    | nil => rfl
    | cons q ps =>
      simp only
      rw [rstripBy_eq_self _ _ (h p (by simp)).2.2,
        trimRest_self _ (fun p hp => (h p (by simp [hp])).2)]

theorem membersLoop_join (d es : TS) (hn : (Dict.keys (d ++ es)).Nodup)
    (hv : ∀ kv ∈ es, TSKey kv.1 ∧ TSValue kv.2) : membersLoop d (es.map member) = some (d ++ es) := by
  induction es generalizing d with
  | nil => simp [membersLoop]
  | cons e es ih =>
    obtain ⟨k, v⟩ := e
    have hkv := hv (k, v) (by simp)
    have h2 : k ∉ d.keys := by
      intro hm
      rw [Dict.keys_append, List.nodup_append] at hn
      exact hn.2.2 k hm k (by simp) rfl
    have hm := memberMatch_eq k v [] hkv.1 hkv.2 (by simp)
    rw [List.append_nil] at hm
    have hne : (member (k, v)).isEmpty = false := by simp [member]
    simp only [List.map_cons, membersLoop, hne]
    simp only [member, hm, (Dict.has_false_iff d k).mpr h2, Dict.set_of_not_mem _ _ _ h2]
    simp only [Bool.false_eq_true, if_false]
    have := ih (d ++ [(k, v)]) (by simpa using hn) (fun kv h => hv kv (by simp [h]))
    simp only [List.append_assoc, List.singleton_append] at this
    exact this

theorem roundtrip (ts : TS) (h : TSWellFormed ts) : fromHeader [toHeader ts] = ts := by
  unfold fromHeader headersLoop
  cases hts : ts with
  | nil => decide
  | cons e es =>
    rw [← hts]
    have hd : delimSplit (toHeader ts) = ts.map member := by
      apply delimSplit_join
      · intro p hp
        obtain ⟨kv, hkv, rfl⟩ := List.mem_map.mp hp
        have := member_ends kv (h.2.2 kv hkv).1 (h.2.2 kv hkv).2
        exact ⟨this.1, this.2.2⟩
      · simp [hts]
    rw [hd, membersLoop_join [] ts (by simpa [Dict.keys] using h.2.1) h.2.2]
    simp only [headersLoop, List.nil_append]
    exact mk_self ts h

end TraceState
end Otel
