import Verif.Model.Meter
import Verif.Lemmas.Str
import Verif.Lemmas.Dict
import Mathlib.Tactic.ByContra
import Mathlib.Data.List.Basic
import Mathlib.Data.List.Induction
import Mathlib.Data.List.Nodup
/-!
# C59: instrument identity
-/
namespace Otel
namespace Meter

/-- The inductive invariant of every schedule. -/
structure Inv (s : St) : Prop where
  /-- ids with a call past registration are registered -/
  ids_nodup : s.ids.Nodup
  objs_nodup : s.objs.Nodup
  objs_sub : ∀ id ∈ s.objs, id ∈ s.ids
  store_objs : ∀ (id : Str) (n : Nat), Dict.get? s.store id = some n → s.objs[n]? = some id
  ret_objs : ∀ t ∈ s.calls, ∀ n : Nat, (t.pc = .ret n ∨ t.pc = .constructed n) → s.objs[n]? = some t.id
  reg_mem : ∀ t ∈ s.calls, t.pc ≠ .start → t.id ∈ s.ids
  creator : ∀ (i : Nat) (t : Call), s.calls[i]? = some t → t.pc = .registered false →
    t.id ∉ s.objs ∧ ∀ (j : Nat) (t' : Call), s.calls[j]? = some t' → t'.pc = .registered false → t'.id = t.id → i = j

theorem mem_set_iff {l : List Call} {i : Nat} {a t : Call} (h : t ∈ l.set i a) : t = a ∨ t ∈ l := by
  rcases List.mem_or_eq_of_mem_set h with h | h
  · exact Or.inr h
  · exact Or.inl h

theorem get_set {l : List Call} {i j : Nat} {a t : Call} (h : (l.set i a)[j]? = some t) : (i = j ∧ t = a) ∨ (i ≠ j ∧ l[j]? = some t) := by
  rw [List.getElem?_set] at h
  by_cases hij : i = j
  · rw [if_pos hij] at h
    split at h
    · exact Or.inl ⟨hij, (Option.some.inj h).symm⟩
    · cases h
  · rw [if_neg hij] at h
    exact Or.inr ⟨hij, h⟩

theorem inv_init : Inv init := by
  constructor <;> simp [init, Dict.get?]

theorem inv_step (s : St) (a : Act) (h : Inv s) : Inv (step s a) := by
  cases a with
  | call id v =>
    simp only [step]
    refine ⟨h.ids_nodup, h.objs_nodup, h.objs_sub, h.store_objs, ?_, ?_, ?_⟩
    · intro t ht n hn
      rcases List.mem_append.1 ht with ht | ht
      · exact h.ret_objs t ht n hn
      · simp at ht; subst ht; simp at hn
    · intro t ht hn
      rcases List.mem_append.1 ht with ht | ht
      · exact h.reg_mem t ht hn
      · simp at ht; subst ht; simp at hn
    · intro i t hi hp
      have hold : ∀ (j : Nat) (t' : Call), (s.calls ++ [⟨id, v, .start⟩])[j]? = some t' → t'.pc = .registered false → s.calls[j]? = some t' := by
        intro j t' hj hp'
        rw [List.getElem?_append] at hj
        split at hj
        · exact hj
        · rcases hk : j - s.calls.length with _ | k
          · rw [hk] at hj; simp at hj; subst hj; simp at hp'
          · rw [hk] at hj; simp at hj
      obtain ⟨c1, c2⟩ := h.creator i t (hold i t hi hp) hp
      exact ⟨c1, fun j t' hj hp' => c2 j t' (hold j t' hj hp') hp'⟩
  | next i =>
    simp only [step]
    cases hc : s.calls[i]? with
    | none => exact h
    | some t =>
      have htm : t ∈ s.calls := List.mem_of_getElem? hc
      simp only
      cases hp : t.pc with
      | start =>
        simp only
        by_cases hm : t.id ∈ s.ids
        · rw [if_pos hm]
          refine ⟨h.ids_nodup, h.objs_nodup, h.objs_sub, h.store_objs, ?_, ?_, ?_⟩
          · intro u hu n hn
            rcases mem_set_iff hu with rfl | hu
            · simp at hn
            · exact h.ret_objs u hu n hn
          · intro u hu hn
            rcases mem_set_iff hu with rfl | hu
            · exact hm
            · exact h.reg_mem u hu hn
          · intro j u hj hpu
            rcases get_set hj with ⟨_, rfl⟩ | ⟨hij, hj⟩
            · simp at hpu
            · obtain ⟨c1, c2⟩ := h.creator j u hj hpu
              refine ⟨c1, fun k u' hk hpk he => ?_⟩
              rcases get_set hk with ⟨_, rfl⟩ | ⟨_, hk⟩
              · simp at hpk
              · exact c2 k u' hk hpk he
        · rw [if_neg hm]
          refine ⟨?_, h.objs_nodup, ?_, h.store_objs, ?_, ?_, ?_⟩
          · show (s.ids ++ [t.id]).Nodup
            rw [List.nodup_append]
            exact ⟨h.ids_nodup, by simp, by intro a ha b hb; simp at hb; subst hb; intro hab; subst hab; exact hm ha⟩
          · intro id hid
            exact List.mem_append.2 (Or.inl (h.objs_sub id hid))
          · intro u hu n hn
            rcases mem_set_iff hu with rfl | hu
            · simp at hn
            · exact h.ret_objs u hu n hn
          · intro u hu hn
            rcases mem_set_iff hu with rfl | hu
            · exact List.mem_append.2 (Or.inr (by simp))
            · exact List.mem_append.2 (Or.inl (h.reg_mem u hu hn))
          · have hnone : ∀ (k : Nat) (u' : Call), s.calls[k]? = some u' → u'.pc = .registered false → u'.id ≠ t.id := by
              intro k u' hk hpk he
              exact hm (he ▸ h.reg_mem u' (List.mem_of_getElem? hk) (by rw [hpk]; simp))
            intro j u hj hpu
            rcases get_set hj with ⟨rfl, rfl⟩ | ⟨hij, hj⟩
            · refine ⟨fun ho => hm (h.objs_sub _ ho), fun k u' hk hpk he => ?_⟩
              rcases get_set hk with ⟨hk, _⟩ | ⟨_, hk⟩
              · exact hk
              · exact absurd he (hnone k u' hk hpk)
            · obtain ⟨c1, c2⟩ := h.creator j u hj hpu
              refine ⟨c1, fun k u' hk hpk he => ?_⟩
              rcases get_set hk with ⟨rfl, rfl⟩ | ⟨_, hk⟩
              · exact absurd he.symm (hnone j u hj hpu)
              · exact c2 k u' hk hpk he
      | registered al =>
        cases al with
        | true =>
          simp only
          cases hg : Dict.get? s.store t.id with
          | some n =>
            refine ⟨h.ids_nodup, h.objs_nodup, h.objs_sub, h.store_objs, ?_, ?_, ?_⟩
            · intro u hu m hn
              rcases mem_set_iff hu with rfl | hu
              · simp at hn; subst hn; exact h.store_objs _ _ hg
              · exact h.ret_objs u hu m hn
            · intro u hu hn
              rcases mem_set_iff hu with rfl | hu
              · exact h.reg_mem t htm (by rw [hp]; simp)
              · exact h.reg_mem u hu hn
            · intro j u hj hpu
              rcases get_set hj with ⟨_, rfl⟩ | ⟨hij, hj⟩
              · simp at hpu
              · obtain ⟨c1, c2⟩ := h.creator j u hj hpu
                refine ⟨c1, fun k u' hk hpk he => ?_⟩
                rcases get_set hk with ⟨_, rfl⟩ | ⟨_, hk⟩
                · simp at hpk
                · exact c2 k u' hk hpk he
          | none =>
            refine ⟨h.ids_nodup, h.objs_nodup, h.objs_sub, h.store_objs, ?_, ?_, ?_⟩
            · intro u hu m hn
              rcases mem_set_iff hu with rfl | hu
              · simp at hn
              · exact h.ret_objs u hu m hn
            · intro u hu hn
              rcases mem_set_iff hu with rfl | hu
              · exact h.reg_mem t htm (by rw [hp]; simp)
              · exact h.reg_mem u hu hn
            · intro j u hj hpu
              rcases get_set hj with ⟨_, rfl⟩ | ⟨hij, hj⟩
              · simp at hpu
              · obtain ⟨c1, c2⟩ := h.creator j u hj hpu
                refine ⟨c1, fun k u' hk hpk he => ?_⟩
                rcases get_set hk with ⟨_, rfl⟩ | ⟨_, hk⟩
                · simp at hpk
                · exact c2 k u' hk hpk he
        | false =>
          simp only
          obtain ⟨hno, huniq⟩ := h.creator i t hc hp
          by_cases hv : t.valid = true
          · rw [if_pos hv]
            have hext : ∀ (n : Nat) (id : Str), s.objs[n]? = some id → (s.objs ++ [t.id])[n]? = some id := by
              intro n id hn
              rw [List.getElem?_append_left (List.getElem?_eq_some_iff.1 hn).1]; exact hn
            refine ⟨h.ids_nodup, ?_, ?_, ?_, ?_, ?_, ?_⟩
            · show (s.objs ++ [t.id]).Nodup
              rw [List.nodup_append]
              exact ⟨h.objs_nodup, by simp, by intro a ha b hb; simp at hb; subst hb; intro hab; subst hab; exact hno ha⟩
            · intro id hid
              rcases List.mem_append.1 hid with hid | hid
              · exact h.objs_sub id hid
              · simp at hid; subst hid; exact h.reg_mem t htm (by rw [hp]; simp)
            · intro id n hn
              exact hext n id (h.store_objs id n hn)
            · intro u hu n hn
              rcases mem_set_iff hu with rfl | hu
              · simp at hn; subst hn; show (s.objs ++ [t.id])[s.objs.length]? = some t.id; simp
              · exact hext _ _ (h.ret_objs u hu n hn)
            · intro u hu hn
              rcases mem_set_iff hu with rfl | hu
              · exact h.reg_mem t htm (by rw [hp]; simp)
              · exact h.reg_mem u hu hn
            · intro j u hj hpu
              rcases get_set hj with ⟨_, rfl⟩ | ⟨hij, hj⟩
              · simp at hpu
              · obtain ⟨c1, c2⟩ := h.creator j u hj hpu
                refine ⟨?_, fun k u' hk hpk he => ?_⟩
                · intro hm
                  rcases List.mem_append.1 hm with hm | hm
                  · exact c1 hm
                  · simp at hm
                    exact hij (huniq j u hj hpu hm)
                · rcases get_set hk with ⟨_, rfl⟩ | ⟨_, hk⟩
                  · simp at hpk
                  · exact c2 k u' hk hpk he
          · rw [if_neg hv]
            refine ⟨h.ids_nodup, h.objs_nodup, h.objs_sub, h.store_objs, ?_, ?_, ?_⟩
            · intro u hu m hn
              rcases mem_set_iff hu with rfl | hu
              · simp at hn
              · exact h.ret_objs u hu m hn
            · intro u hu hn
              rcases mem_set_iff hu with rfl | hu
              · exact h.reg_mem t htm (by rw [hp]; simp)
              · exact h.reg_mem u hu hn
            · intro j u hj hpu
              rcases get_set hj with ⟨_, rfl⟩ | ⟨hij, hj⟩
              · simp at hpu
              · obtain ⟨c1, c2⟩ := h.creator j u hj hpu
                refine ⟨c1, fun k u' hk hpk he => ?_⟩
                rcases get_set hk with ⟨_, rfl⟩ | ⟨_, hk⟩
                · simp at hpk
                · exact c2 k u' hk hpk he
      | constructed n =>
        have hon := h.ret_objs t htm n (Or.inr hp)
        refine ⟨h.ids_nodup, h.objs_nodup, h.objs_sub, ?_, ?_, ?_, ?_⟩
        · intro id m hg
          change Dict.get? (Dict.set s.store t.id n) id = some m at hg
          rw [Dict.get?_set] at hg
          split at hg
          · rename_i he
            cases hg
            rw [← he] at *
            exact hon
          · exact h.store_objs id m hg
        · intro u hu m hn
          rcases mem_set_iff hu with rfl | hu
          · simp at hn; subst hn; exact hon
          · exact h.ret_objs u hu m hn
        · intro u hu hn
          rcases mem_set_iff hu with rfl | hu
          · exact h.reg_mem t htm (by rw [hp]; simp)
          · exact h.reg_mem u hu hn
        · intro j u hj hpu
          rcases get_set hj with ⟨_, rfl⟩ | ⟨hij, hj⟩
          · simp at hpu
          · obtain ⟨c1, c2⟩ := h.creator j u hj hpu
            refine ⟨c1, fun k u' hk hpk he => ?_⟩
            rcases get_set hk with ⟨_, rfl⟩ | ⟨_, hk⟩
            · simp at hpk
            · exact c2 k u' hk hpk he
      | ret n => exact h
      | keyError => exact h
      | invalid => exact h

theorem inv_run (acts : List Act) : Inv (run acts) := by
  have : ∀ (acts : List Act) s, Inv s → Inv (acts.foldl step s) := by
    intro acts
    induction acts with
    | nil => intro s h; exact h
    | cons a l ih => intro s h; exact ih _ (inv_step s a h)
  exact this acts init inv_init

/-- **C59** Under every interleaving of any number of `create_*` calls, two calls that return an instrument return the same
one exactly when they have the same identity (name, kind, unit, description as the SDK joins them). -/
theorem C59_same_iff (acts : List Act) (t t' : Call) (n n' : Nat) (ht : t ∈ (run acts).calls) (ht' : t' ∈ (run acts).calls)
    (h : t.pc = .ret n) (h' : t'.pc = .ret n') : n = n' ↔ t.id = t'.id := by
  have hi := inv_run acts
  have h1 := hi.ret_objs t ht n (Or.inl h)
  have h2 := hi.ret_objs t' ht' n' (Or.inl h')
  constructor
  · rintro rfl
    rw [h1] at h2; exact Option.some.inj h2
  · intro he
    rw [← he] at h2
    obtain ⟨l1, e1⟩ := List.getElem?_eq_some_iff.1 h1
    obtain ⟨l2, e2⟩ := List.getElem?_eq_some_iff.1 h2
    exact (List.Nodup.getElem_inj_iff hi.objs_nodup).1 (e1.trans e2.symm)

/-- **C59** At most one instrument object is ever created per identity. -/
theorem C59_one_object (acts : List Act) : (run acts).objs.Nodup := (inv_run acts).objs_nodup

/-! ## One call at a time -/

/-- Calls one after the other. -/
def seqRun (l : List (Str × Bool)) : St := l.foldl (fun s c => soloCall s c.1 c.2) init

theorem soloCall_eq (s : St) (id : Str) (v : Bool) :
    soloCall s id v =
      if id ∈ s.ids then
        { s with calls := s.calls ++ [⟨id, v, match Dict.get? s.store id with | some n => .ret n | none => .keyError⟩] }
      else if v then
        { calls := s.calls ++ [⟨id, v, .ret s.objs.length⟩], ids := s.ids ++ [id], store := Dict.set s.store id s.objs.length,
          objs := s.objs ++ [id] }
      else { s with calls := s.calls ++ [⟨id, v, .invalid⟩], ids := s.ids ++ [id] } := by
  by_cases hm : id ∈ s.ids
  · rw [if_pos hm]
    cases hg : Dict.get? s.store id <;> simp [soloCall, step, goto, hm, hg]
  · rw [if_neg hm]
    cases v <;> simp [soloCall, step, goto, hm]

/-- **C59** Calls made one after the other with valid names and units all return an instrument. -/
theorem C59_sequential (l : List (Str × Bool)) (hv : ∀ c ∈ l, c.2 = true) (t : Call) (ht : t ∈ (seqRun l).calls) :
    ∃ n, t.pc = .ret n := by
  have key : ∀ (l : List (Str × Bool)), (∀ c ∈ l, c.2 = true) →
      (∀ t ∈ (seqRun l).calls, ∃ n, t.pc = .ret n) ∧ (∀ id ∈ (seqRun l).ids, ∃ n, Dict.get? (seqRun l).store id = some n) := by
    intro l
    induction l using List.reverseRecOn with
    | nil => intro _; simp [seqRun, init]
    | append_singleton l c ih =>
      intro hv
      obtain ⟨i1, i2⟩ := ih (fun c hc => hv c (by simp [hc]))
      have hc := hv c (by simp)
      have e : seqRun (l ++ [c]) = soloCall (seqRun l) c.1 c.2 := by simp [seqRun, List.foldl_append]
      rw [e, soloCall_eq, hc]
      by_cases hm : c.1 ∈ (seqRun l).ids
      · rw [if_pos hm]
        obtain ⟨n, hn⟩ := i2 _ hm
        refine ⟨?_, i2⟩
        intro t ht
        rcases List.mem_append.1 ht with ht | ht
        · exact i1 t ht
        · simp [hn] at ht; subst ht; exact ⟨n, rfl⟩
      · rw [if_neg hm, if_pos rfl]
        refine ⟨?_, ?_⟩
        · intro t ht
          rcases List.mem_append.1 ht with ht | ht
          · exact i1 t ht
          · simp at ht; subst ht; exact ⟨_, rfl⟩
        · intro id hid
          simp only [Dict.get?_set]
          split
          · exact ⟨_, rfl⟩
          · rename_i hne
            rcases List.mem_append.1 hid with hid | hid
            · exact i2 id hid
            · simp at hid; exact absurd hid.symm hne
  exact (key l hv).1 t ht

/-- The full claim — every call with a valid name returns an instrument — fails under concurrency: a second call between
the first call's registration and its storing raises `KeyError`. -/
theorem C59_race_witness :
    (run [.call "c".toList true, .next 0, .call "c".toList true, .next 1, .next 1]).calls.map (·.pc) = [.registered false, .keyError] := by
  decide

/-- A name that was refused once makes every later call with the same identity raise `KeyError`, even a valid one (`" c"` and
`"c"` have the same identity). -/
theorem C59_refused_then_keyError (l : List (Str × Bool)) (id : Str) (hid : id ∉ (seqRun l).ids) (hs : Dict.get? (seqRun l).store id = none) (v : Bool) :
    ((seqRun (l ++ [(id, false), (id, v)])).calls.getLast?).map (·.pc) = some .keyError := by
  have e : seqRun (l ++ [(id, false), (id, v)]) = soloCall (soloCall (seqRun l) id false) id v := by
    simp [seqRun, List.foldl_append]
  rw [e, soloCall_eq (seqRun l), if_neg hid, if_neg (by simp), soloCall_eq, if_pos (by simp)]
  simp [hs]

/-! ## The identity string -/

theorem toNat_ofNat (n : Nat) (h : n < 0xd800) : (Char.ofNat n).toNat = n := by
  have hv : n.isValidChar := Or.inl h
  simp [Char.ofNat, hv, Char.toNat, Char.ofNatAux]

theorem isNameChar_lower (c : Char) (h : isNameChar c = true) : lowerC c ≠ ',' := by
  intro hc
  unfold lowerC at hc
  split at hc
  · rename_i hu
    have := (inRange_iff _ _ _).1 hu
    have h2 : (Char.ofNat (c.toNat + 32)).toNat = c.toNat + 32 := by
      exact toNat_ofNat _ (by omega)
    have h3 := congrArg Char.toNat hc
    rw [h2] at h3
    have : ','.toNat = 44 := rfl
    omega
  · subst hc
    revert h; decide

theorem validName_strip (s : Str) (h : validName s = true) : pyStrip s = s := by
  have hch : ∀ c, isNameChar c = true → isPySpace c = false := by
    intro c hc
    by_contra hs
    simp only [Bool.not_eq_false] at hs
    simp only [isNameChar, isLetter, Bool.or_eq_true, beq_iff_eq] at hc
    simp only [isPySpace, Bool.or_eq_true, beq_iff_eq, inRange_iff, isLower, isUpper, isDig] at hs hc
    have t1 : '-'.toNat = 45 := rfl
    have t2 : '_'.toNat = 95 := rfl
    have t3 : '.'.toNat = 46 := rfl
    have t4 : '/'.toNat = 47 := rfl
    rcases hc with ((((rfl | rfl) | rfl) | rfl) | hc) | hc <;> first | (revert hs; decide) | omega
  cases s with
  | nil => simp [validName] at h
  | cons c s =>
    simp only [validName, Bool.and_eq_true, List.all_eq_true] at h
    have hall : ∀ d ∈ c :: s, isNameChar d = true := by
      intro d hd
      rcases List.mem_cons.1 hd with rfl | hd
      · simp [isNameChar, h.1.1]
      · exact h.1.2 d hd
    exact stripBy_eq_self _ _ (fun d hd => hch d (hall d (List.mem_of_mem_head? hd)))
      (fun d hd => hch d (hall d (List.mem_of_getLast? hd)))

theorem validName_no_comma (s : Str) (h : validName s = true) : ',' ∉ lower s := by
  cases s with
  | nil => simp [validName] at h
  | cons c s =>
    simp only [validName, Bool.and_eq_true, List.all_eq_true] at h
    intro hm
    simp only [lower, List.mem_map] at hm
    obtain ⟨d, hd, he⟩ := hm
    rcases List.mem_cons.1 hd with rfl | hd
    · exact isNameChar_lower d (by simp [isNameChar, h.1.1]) he
    · exact isNameChar_lower d (h.1.2 d hd) he

theorem append_comma_inj (a b x y : Str) (ha : ',' ∉ a) (hb : ',' ∉ b) (h : a ++ ',' :: x = b ++ ',' :: y) : a = b ∧ x = y := by
  have h1 := cutC_append ',' a x ha
  have h2 := cutC_append ',' b y hb
  rw [h, h2] at h1
  simp at h1
  exact ⟨h1.1.symm, h1.2.symm⟩

/-- **C59** For valid names (any letter case), kinds and units without commas, the identity is exactly the lower-cased name,
the kind, the unit and the description. -/
theorem C59_identity_injective (n n' k k' u u' d d' : Str) (hn : validName n = true) (hn' : validName n' = true)
    (hk : ',' ∉ k) (hk' : ',' ∉ k') (hu : ',' ∉ u) (hu' : ',' ∉ u') :
    instrumentId n k u d = instrumentId n' k' u' d' ↔ lower n = lower n' ∧ k = k' ∧ u = u' ∧ d = d' := by
  constructor
  · intro h
    simp only [instrumentId, validName_strip n hn, validName_strip n' hn', joinS, List.singleton_append, List.append_assoc] at h
    obtain ⟨h1, h⟩ := append_comma_inj _ _ _ _ (validName_no_comma n hn) (validName_no_comma n' hn') h
    obtain ⟨h2, h⟩ := append_comma_inj _ _ _ _ hk hk' h
    obtain ⟨h3, h⟩ := append_comma_inj _ _ _ _ hu hu' h
    exact ⟨h1, h2, h3, h⟩
  · rintro ⟨h1, rfl, rfl, rfl⟩
    simp only [instrumentId, validName_strip n hn, validName_strip n' hn', h1]

/-- A comma in a unit (which the unit grammar allows) lets two different instruments share an identity. -/
theorem C59_identity_collision_witness :
    validUnit "a,b".toList = true ∧
    instrumentId "m".toList "_Counter".toList "a,b".toList "c".toList = instrumentId "m".toList "_Counter".toList "a".toList "b,c".toList := by
  decide

/-- An ASCII letter. -/
def AsciiLetter (c : Char) : Prop := (97 ≤ c.toNat ∧ c.toNat ≤ 122) ∨ (65 ≤ c.toNat ∧ c.toNat ≤ 90)

/-- The names of the specification: 1 to 255 characters, a letter followed by letters, digits, `_`, `.`, `-` and `/`. -/
def NameGrammar (n : Str) : Prop :=
  ∃ c r, n = c :: r ∧ AsciiLetter c ∧ n.length ≤ 255 ∧ ∀ x ∈ r, AsciiLetter x ∨ (48 ≤ x.toNat ∧ x.toNat ≤ 57) ∨ x = '-' ∨ x = '_' ∨ x = '.' ∨ x = '/'

/-- The units of the specification: at most 63 ASCII characters. -/
def UnitGrammar (u : Str) : Prop := u.length ≤ 63 ∧ ∀ x ∈ u, x.toNat ≤ 127

theorem isLetter_iff (c : Char) : isLetter c = true ↔ AsciiLetter c := by
  simp only [isLetter, isLower, isUpper, Bool.or_eq_true, inRange_iff, AsciiLetter]

theorem validName_iff (n : Str) : validName n = true ↔ NameGrammar n := by
  have hc : ∀ c, isNameChar c = true ↔ AsciiLetter c ∨ (48 ≤ c.toNat ∧ c.toNat ≤ 57) ∨ c = '-' ∨ c = '_' ∨ c = '.' ∨ c = '/' := by
    intro c
    simp only [isNameChar, Bool.or_eq_true, beq_iff_eq, isLetter_iff, isDig, inRange_iff]
    constructor
    · rintro (((((h | h) | h) | h) | h) | h) <;> simp [h]
    · rintro (h | h | h | h | h | h) <;> simp [h]
  cases n with
  | nil => simp [validName, NameGrammar]
  | cons c r =>
    simp only [validName, Bool.and_eq_true, List.all_eq_true, decide_eq_true_eq, hc, isLetter_iff, NameGrammar]
    constructor
    · rintro ⟨⟨h1, h2⟩, h3⟩; exact ⟨c, r, rfl, h1, by simp; omega, h2⟩
    · rintro ⟨_, _, e, h1, h3, h2⟩
      injection e with e1 e2
      subst e1 e2
      exact ⟨⟨h1, h2⟩, by simp at h3; omega⟩

theorem validUnit_iff (u : Str) : validUnit u = true ↔ UnitGrammar u := by
  simp only [validUnit, Bool.and_eq_true, List.all_eq_true, decide_eq_true_eq, UnitGrammar]
  constructor
  · rintro ⟨h1, h2⟩; exact ⟨h2, fun x hx => by have := h1 x hx; omega⟩
  · rintro ⟨h1, h2⟩; exact ⟨fun x hx => by have := h2 x hx; omega, h1⟩

/-- **C59** A creation call for an instrument that no earlier call named returns a new instrument, which later calls get back,
exactly if its name and unit follow the specification's grammar; otherwise it raises and leaves no instrument behind. -/
theorem C59_names_and_units (s : St) (n k u d : Str) (h : instrumentId n k u d ∉ s.ids) :
    (NameGrammar n ∧ UnitGrammar u → ((create s n k u d).calls.getLast?).map (·.pc) = some (.ret s.objs.length) ∧
      (create s n k u d).objs = s.objs ++ [instrumentId n k u d] ∧ Dict.get? (create s n k u d).store (instrumentId n k u d) = some s.objs.length) ∧
    (¬ (NameGrammar n ∧ UnitGrammar u) → ((create s n k u d).calls.getLast?).map (·.pc) = some .invalid ∧
      (create s n k u d).objs = s.objs ∧ (create s n k u d).store = s.store) := by
  unfold create
  have hi : (validName n && validUnit u) = true ↔ NameGrammar n ∧ UnitGrammar u := by
    rw [Bool.and_eq_true, validName_iff, validUnit_iff]
  rw [soloCall_eq, if_neg h, ← hi]
  cases validName n && validUnit u <;> simp [Dict.get?_set]

/-- Non-vacuity: the longest name allowed, and one more character. -/
example : NameGrammar (List.replicate 255 'a') ∧ ¬ NameGrammar (List.replicate 256 'a') := by
  rw [← validName_iff, ← validName_iff]
  set_option maxRecDepth 4000 in
  decide

example : validName "http.server/duration_ms".toList = true ∧ validName "1abc".toList = false ∧ validName " c".toList = false := by decide

end Meter
end Otel
