import Verif.Spec.Observables
import Verif.Lemmas.Dict
import Mathlib.Data.List.Induction
import Mathlib.Data.List.Nodup
/-!
# C128: which callbacks are run
-/
namespace Otel
namespace Observables
open Spec
open scoped List
variable {K C : Type} [DecidableEq K]

/-- What holds of a call at each place. -/
def PcOk (s : St K C) (j : Nat) (c : Call K C) : Prop :=
  match c.pc with
  | .start => True
  | .registered true => True
  | .registered false => c.key ∈ s.ids ∧ ∀ o ∈ s.objs, o.key ≠ c.key
  | .constructed n => s.objs[n]? = some ⟨c.key, j, c.cbs⟩ ∧ n ∉ s.regs
  | .enrolled n => s.objs[n]? = some ⟨c.key, j, c.cbs⟩ ∧ n ∈ s.regs
  | .ret n => ∃ o, s.objs[n]? = some o ∧ o.key = c.key ∧ n ∈ s.regs
  | .keyError => True
  | .invalid => True

/-- The invariant. -/
structure Inv (s : St K C) : Prop where
  pcs : ∀ (j : Nat) (c : Call K C), s.calls[j]? = some c → PcOk s j c
  makers : ∀ (j j' : Nat) (c c' : Call K C), s.calls[j]? = some c → s.calls[j']? = some c' → c.pc = .registered false → c'.pc = .registered false → c.key = c'.key → j = j'
  objs : ∀ (n : Nat) (o : Obj K C), s.objs[n]? = some o → o.key ∈ s.ids ∧ ∃ c, s.calls[o.maker]? = some c ∧ c.key = o.key ∧ c.cbs = o.cbs ∧ c.valid = true
  keys : ∀ (n n' : Nat) (o o' : Obj K C), s.objs[n]? = some o → s.objs[n']? = some o' → o.key = o'.key → n = n'
  nodup : s.regs.Nodup
  regs : ∀ n ∈ s.regs, n < s.objs.length
  store : ∀ (k : K) (n : Nat), Dict.get? s.store k = some n → ∃ o, s.objs[n]? = some o ∧ o.key = k ∧ n ∈ s.regs

theorem get_set {X : Type} {l : List X} {i j : Nat} {a t : X} (h : (l.set i a)[j]? = some t) : (i = j ∧ t = a) ∨ (i ≠ j ∧ l[j]? = some t) := by
  rw [List.getElem?_set] at h
  by_cases hij : i = j
  · rw [if_pos hij] at h
    split at h
    · exact .inl ⟨hij, (Option.some.inj h).symm⟩
    · cases h
  · rw [if_neg hij] at h
    exact .inr ⟨hij, h⟩

/-- Something stays at its place when the list is extended. -/
theorem get_append {X : Type} {l m : List X} {n : Nat} {o : X} (h : l[n]? = some o) : (l ++ m)[n]? = some o := by
  have : n < l.length := by
    by_contra hc
    rw [List.getElem?_eq_none (by omega)] at h; cases h
  rw [List.getElem?_append_left this]; exact h

theorem get_lt {X : Type} {l : List X} {n : Nat} {o : X} (h : l[n]? = some o) : n < l.length := by
  by_contra hc
  rw [List.getElem?_eq_none (by omega)] at h; cases h

/-- The call that made an object keeps its arguments when a call goes on. -/
theorem kept {l : List (Call K C)} {i m : Nat} {t : Call K C} (pc : PC) (ht : l[i]? = some t) {o : Obj K C}
    (h : ∃ c, l[m]? = some c ∧ c.key = o.key ∧ c.cbs = o.cbs ∧ c.valid = true) :
    ∃ c, (l.set i { t with pc := pc })[m]? = some c ∧ c.key = o.key ∧ c.cbs = o.cbs ∧ c.valid = true := by
  obtain ⟨c, h1, h2⟩ := h
  by_cases him : i = m
  · subst him
    rw [ht] at h1; cases h1
    exact ⟨{ t with pc := pc }, List.getElem?_set_self (get_lt ht), h2⟩
  · exact ⟨c, by rw [List.getElem?_set_ne him]; exact h1, h2⟩

/-- A call goes on and nothing else changes. -/
theorem inv_goto {s : St K C} (h : Inv s) {i : Nat} {t : Call K C} (ht : s.calls[i]? = some t) (pc : PC) (hpc : PcOk s i { t with pc := pc })
    (hm : pc ≠ .registered false) : Inv (goto s i t pc) := by
  refine ⟨?_, ?_, ?_, h.keys, h.nodup, h.regs, h.store⟩
  · intro j c hj
    rcases get_set hj with ⟨rfl, rfl⟩ | ⟨_, hj⟩
    · exact hpc
    · exact h.pcs j c hj
  · intro j j' c c' hj hj' hc hc' hk
    rcases get_set hj with ⟨rfl, rfl⟩ | ⟨_, hj⟩
    · exact absurd hc hm
    · rcases get_set hj' with ⟨rfl, rfl⟩ | ⟨_, hj'⟩
      · exact absurd hc' hm
      · exact h.makers j j' c c' hj hj' hc hc' hk
  · intro n o ho
    exact ⟨(h.objs n o ho).1, kept pc ht (h.objs n o ho).2⟩

theorem inv_advance {s : St K C} (h : Inv s) {i : Nat} {t : Call K C} (ht : s.calls[i]? = some t) : Inv (advance s i t) := by
  have hp := h.pcs i t ht
  obtain ⟨k, v, cbs, pc⟩ := t
  unfold advance
  cases pc with
  | start =>
    simp only
    by_cases hk : k ∈ s.ids
    · rw [if_pos hk]
      exact inv_goto h ht _ trivial (by simp)
    · rw [if_neg hk]
      refine ⟨?_, ?_, ?_, h.keys, h.nodup, h.regs, h.store⟩
      · intro j c hj
        rcases get_set hj with ⟨rfl, rfl⟩ | ⟨_, hj⟩
        · refine ⟨by simp [goto], ?_⟩
          intro o ho hok
          obtain ⟨n, hn⟩ := List.getElem?_of_mem ho
          have := (h.objs n o hn).1
          rw [hok] at this
          exact hk this
        · have := h.pcs j c hj
          unfold PcOk at this ⊢
          split <;> rename_i hc <;> rw [hc] at this
          all_goals first | exact this | skip
          exact ⟨List.mem_append_left _ this.1, this.2⟩
      · intro j j' c c' hj hj' hc hc' hkk
        have aux : ∀ (j : Nat) (c : Call K C), s.calls[j]? = some c → c.pc = .registered false → c.key ≠ k := by
          intro j c hj hc hck
          have := h.pcs j c hj
          unfold PcOk at this
          rw [hc] at this
          rw [hck] at this
          exact hk this.1
        rcases get_set hj with ⟨rfl, rfl⟩ | ⟨_, hj⟩
        · rcases get_set hj' with ⟨rfl, rfl⟩ | ⟨_, hj'⟩
          · rfl
          · exact absurd hkk.symm (aux j' c' hj' hc')
        · rcases get_set hj' with ⟨rfl, rfl⟩ | ⟨_, hj'⟩
          · exact absurd hkk (aux j c hj hc)
          · exact h.makers j j' c c' hj hj' hc hc' hkk
      · intro n o ho
        exact ⟨List.mem_append_left _ (h.objs n o ho).1, kept _ ht (h.objs n o ho).2⟩
  | registered b =>
    cases b with
    | true =>
      simp only
      cases hs : Dict.get? s.store k with
      | none => exact inv_goto h ht _ trivial (by simp)
      | some n => exact inv_goto h ht _ (h.store k n hs) (by simp)
    | false =>
      simp only
      by_cases hv : v = true
      · rw [if_pos hv]
        obtain ⟨hk, hno⟩ := hp
        have hlast : (s.objs ++ [⟨k, i, cbs⟩])[s.objs.length]? = some (⟨k, i, cbs⟩ : Obj K C) := by simp
        have hcase : ∀ (n : Nat) (o : Obj K C), (s.objs ++ [⟨k, i, cbs⟩])[n]? = some o → s.objs[n]? = some o ∨ (n = s.objs.length ∧ o = ⟨k, i, cbs⟩) := by
          intro n o hn
          by_cases hl : n < s.objs.length
          · rw [List.getElem?_append_left hl] at hn; exact .inl hn
          · have := get_lt hn
            simp only [List.length_append, List.length_singleton] at this
            have he : n = s.objs.length := by omega
            subst he
            rw [hlast] at hn
            exact .inr ⟨rfl, (Option.some.inj hn).symm⟩
        refine ⟨?_, ?_, ?_, ?_, h.nodup, ?_, ?_⟩
        · intro j c hj
          rcases get_set hj with ⟨rfl, rfl⟩ | ⟨hij, hj⟩
          · refine ⟨hlast, ?_⟩
            intro hr
            exact absurd (h.regs _ hr) (by omega)
          · have := h.pcs j c hj
            have hmk := h.makers i j ⟨k, v, cbs, .registered false⟩ c ht hj rfl
            unfold PcOk at this ⊢
            split <;> rename_i hc <;> rw [hc] at this
            all_goals first | exact this | skip
            · refine ⟨this.1, ?_⟩
              intro o ho
              rcases List.mem_append.1 ho with ho | ho
              · exact this.2 o ho
              · rw [List.mem_singleton] at ho
                subst ho
                intro hkk
                exact hij (hmk hc hkk)
            · exact ⟨get_append this.1, this.2⟩
            · exact ⟨get_append this.1, this.2⟩
            · obtain ⟨o, h1, h2⟩ := this
              exact ⟨o, get_append h1, h2⟩
        · intro j j' c c' hj hj' hc hc' hkk
          rcases get_set hj with ⟨rfl, rfl⟩ | ⟨_, hj⟩
          · cases hc
          · rcases get_set hj' with ⟨rfl, rfl⟩ | ⟨_, hj'⟩
            · cases hc'
            · exact h.makers j j' c c' hj hj' hc hc' hkk
        · intro n o ho
          rcases hcase n o ho with ho | ⟨_, rfl⟩
          · exact ⟨(h.objs n o ho).1, kept _ ht (h.objs n o ho).2⟩
          · exact ⟨hk, kept _ ht ⟨_, ht, rfl, rfl, hv⟩⟩
        · intro n n' o o' ho ho' hkk
          rcases hcase n o ho with ho | ⟨rfl, rfl⟩
          · rcases hcase n' o' ho' with ho' | ⟨rfl, rfl⟩
            · exact h.keys n n' o o' ho ho' hkk
            · exact absurd hkk (hno o (List.mem_of_getElem? ho))
          · rcases hcase n' o' ho' with ho' | ⟨rfl, rfl⟩
            · exact absurd hkk.symm (hno o' (List.mem_of_getElem? ho'))
            · rfl
        · intro n hn
          have := h.regs n hn
          show n < (s.objs ++ [_]).length
          simp only [List.length_append, List.length_singleton]; omega
        · intro k' n hn
          obtain ⟨o, h1, h2⟩ := h.store k' n hn
          exact ⟨o, get_append h1, h2⟩
      · rw [if_neg hv]
        exact inv_goto h ht _ trivial (by simp)
  | constructed n =>
    simp only
    obtain ⟨h1, h2⟩ := hp
    refine ⟨?_, ?_, ?_, h.keys, ?_, ?_, ?_⟩
    · intro j c hj
      rcases get_set hj with ⟨rfl, rfl⟩ | ⟨hij, hj⟩
      · exact ⟨h1, by simp [goto]⟩
      · have := h.pcs j c hj
        unfold PcOk at this ⊢
        split <;> rename_i hc <;> rw [hc] at this
        all_goals first | exact this | skip
        · rename_i m
          refine ⟨this.1, ?_⟩
          intro hm
          rcases List.mem_append.1 hm with hm | hm
          · exact this.2 hm
          · rw [List.mem_singleton] at hm
            subst hm
            have := this.1.symm.trans h1
            simp only [Option.some.injEq, Obj.mk.injEq] at this
            exact hij this.2.1.symm
        · exact ⟨this.1, List.mem_append_left _ this.2⟩
        · obtain ⟨o, h3, h4, h5⟩ := this
          exact ⟨o, h3, h4, List.mem_append_left _ h5⟩
    · intro j j' c c' hj hj' hc hc' hkk
      rcases get_set hj with ⟨rfl, rfl⟩ | ⟨_, hj⟩
      · cases hc
      · rcases get_set hj' with ⟨rfl, rfl⟩ | ⟨_, hj'⟩
        · cases hc'
        · exact h.makers j j' c c' hj hj' hc hc' hkk
    · intro m o ho
      exact ⟨(h.objs m o ho).1, kept _ ht (h.objs m o ho).2⟩
    · exact List.nodup_append.2 ⟨h.nodup, by simp, by intro a ha b hb hab; rw [List.mem_singleton] at hb; subst hb; subst hab; exact h2 ha⟩
    · intro m hm
      rcases List.mem_append.1 hm with hm | hm
      · exact h.regs m hm
      · rw [List.mem_singleton] at hm; subst hm; exact get_lt h1
    · intro k' m hm
      obtain ⟨o, h3, h4, h5⟩ := h.store k' m hm
      exact ⟨o, h3, h4, List.mem_append_left _ h5⟩
  | enrolled n =>
    simp only
    obtain ⟨h1, h2⟩ := hp
    have hg := inv_goto h ht (.ret n) ⟨_, h1, rfl, h2⟩ (by simp)
    refine ⟨hg.pcs, hg.makers, hg.objs, hg.keys, hg.nodup, hg.regs, ?_⟩
    intro k' m hm
    show ∃ o, s.objs[m]? = some o ∧ o.key = k' ∧ m ∈ s.regs
    have hm : Dict.get? (Dict.set s.store k n) k' = some m := hm
    by_cases hkk : k = k'
    · subst hkk
      rw [Dict.get?_set_self, Option.some.injEq] at hm
      subst hm
      exact ⟨_, h1, rfl, h2⟩
    · rw [Dict.get?_set_ne _ _ hkk] at hm
      exact h.store k' m hm
  | ret n => exact h
  | keyError => exact h
  | invalid => exact h

theorem inv_step {s : St K C} (h : Inv s) (a : Act K C) : Inv (step s a) := by
  cases a with
  | call k v cbs =>
    have hcase : ∀ (j : Nat) (c : Call K C), (s.calls ++ [⟨k, v, cbs, .start⟩])[j]? = some c → s.calls[j]? = some c ∨ c.pc = .start := by
      intro j c hj
      by_cases hl : j < s.calls.length
      · rw [List.getElem?_append_left hl] at hj; exact .inl hj
      · have := get_lt hj
        simp only [List.length_append, List.length_singleton] at this
        have he : j = s.calls.length := by omega
        subst he
        simp at hj
        exact .inr (by rw [← hj])
    refine ⟨?_, ?_, ?_, h.keys, h.nodup, h.regs, h.store⟩
    · intro j c hj
      rcases hcase j c hj with hj | hc
      · exact h.pcs j c hj
      · unfold PcOk; rw [hc]; trivial
    · intro j j' c c' hj hj' hc hc' hkk
      rcases hcase j c hj with hj | h1
      · rcases hcase j' c' hj' with hj' | h2
        · exact h.makers j j' c c' hj hj' hc hc' hkk
        · rw [h2] at hc'; cases hc'
      · rw [h1] at hc; cases hc
    · intro n o ho
      obtain ⟨h1, c, h2, h3⟩ := h.objs n o ho
      exact ⟨h1, c, get_append h2, h3⟩
  | next i =>
    simp only [step]
    cases ht : s.calls[i]? with
    | none => exact h
    | some t => exact inv_advance h ht
  | collect => exact ⟨h.pcs, h.makers, h.objs, h.keys, h.nodup, h.regs, h.store⟩

theorem run_snoc (acts : List (Act K C)) (a : Act K C) : run (acts ++ [a]) = step (run acts) a := by simp [run, List.foldl_append]

theorem inv_run (acts : List (Act K C)) : Inv (run acts) := by
  induction acts using List.reverseRecOn with
  | nil => exact ⟨by simp [run, init], by simp [run, init], by simp [run, init], by simp [run, init], by simp [run, init], by simp [run, init], by simp [run, init, Dict.get?]⟩
  | append_singleton acts a ih => rw [run_snoc]; exact inv_step ih a

/-- What a collection would run only grows, at its end; and only collections are logged. -/
theorem step_entry {s : St K C} (h : Inv s) (a : Act K C) : entry s <+: entry (step s a) ∧ ((step s a).log = s.log ∨ (step s a).log = s.log ++ [entry s]) := by
  cases a with
  | call k v cbs => exact ⟨List.prefix_refl _, .inl rfl⟩
  | collect => exact ⟨List.prefix_refl _, .inr rfl⟩
  | next i =>
    simp only [step]
    cases ht : s.calls[i]? with
    | none => exact ⟨List.prefix_refl _, .inl rfl⟩
    | some t =>
      obtain ⟨k, v, cbs, pc⟩ := t
      simp only
      unfold advance
      cases pc with
      | start => simp only; split <;> exact ⟨List.prefix_refl _, .inl rfl⟩
      | registered b =>
        cases b with
        | true => simp only; split <;> exact ⟨List.prefix_refl _, .inl rfl⟩
        | false =>
          simp only
          split
          · refine ⟨?_, .inl rfl⟩
            have : entry (goto { s with objs := s.objs ++ [⟨k, i, cbs⟩] } i ⟨k, v, cbs, .registered false⟩ (.constructed s.objs.length)) = entry s := by
              unfold entry
              show s.regs.filterMap (fun n => (s.objs ++ [⟨k, i, cbs⟩])[n]?.map (fun o => (o.maker, o.cbs))) = _
              apply List.filterMap_congr
              intro n hn
              rw [List.getElem?_append_left (h.regs n hn)]
            rw [this]; exact List.prefix_refl _
          · exact ⟨List.prefix_refl _, .inl rfl⟩
      | constructed n =>
        refine ⟨?_, .inl rfl⟩
        show s.regs.filterMap _ <+: (s.regs ++ [n]).filterMap _
        rw [List.filterMap_append]
        exact List.prefix_append _ _
      | enrolled n => exact ⟨List.prefix_refl _, .inl rfl⟩
      | ret n => exact ⟨List.prefix_refl _, .inl rfl⟩
      | keyError => exact ⟨List.prefix_refl _, .inl rfl⟩
      | invalid => exact ⟨List.prefix_refl _, .inl rfl⟩

theorem later_spec (acts acts' : List (Act K C)) : ∃ L, (run (acts ++ acts')).log = (run acts).log ++ L ∧ (∀ e ∈ L, entry (run acts) <+: e) ∧
    (∀ e ∈ L, e <+: entry (run (acts ++ acts'))) ∧ entry (run acts) <+: entry (run (acts ++ acts')) ∧ L.Pairwise (· <+: ·) := by
  induction acts' using List.reverseRecOn with
  | nil => exact ⟨[], by simp, by simp, by simp, by simp, by simp⟩
  | append_singleton acts' a ih =>
    obtain ⟨L, h1, h2, h3, h4, h5⟩ := ih
    rw [← List.append_assoc, run_snoc]
    obtain ⟨h6, h7⟩ := step_entry (inv_run (acts ++ acts')) a
    rcases h7 with h7 | h7
    · exact ⟨L, by rw [h7, h1], h2, fun e he => (h3 e he).trans h6, h4.trans h6, h5⟩
    · refine ⟨L ++ [entry (run (acts ++ acts'))], by rw [h7, h1, List.append_assoc], ?_, ?_, h4.trans h6, ?_⟩
      · intro e he
        rcases List.mem_append.1 he with he | he
        · exact h2 e he
        · rw [List.mem_singleton] at he; subst he; exact h4
      · intro e he
        rcases List.mem_append.1 he with he | he
        · exact (h3 e he).trans h6
        · rw [List.mem_singleton] at he; subst he; exact h6
      · refine List.pairwise_append.2 ⟨h5, by simp, ?_⟩
        intro a ha b hb
        rw [List.mem_singleton] at hb; subst hb
        exact h3 a ha

theorem entry_mem {s : St K C} {i : Nat} {cbs : List C} (hm : (i, cbs) ∈ entry s) : ∃ (n : Nat) (k : K), n ∈ s.regs ∧ s.objs[n]? = some ⟨k, i, cbs⟩ := by
  unfold entry at hm
  obtain ⟨n, hn, h1⟩ := List.mem_filterMap.1 hm
  obtain ⟨o, ho, he⟩ := Option.map_eq_some_iff.1 h1
  cases he
  exact ⟨n, o.key, hn, ho⟩

theorem entry_nodup {s : St K C} (h : Inv s) : ((entry s).map (·.1)).Nodup := by
  unfold entry
  rw [List.map_filterMap]
  refine List.Nodup.filterMap ?_ h.nodup
  intro n n' i h1 h2
  simp only [Option.mem_def, Option.map_map, Option.map_eq_some_iff, Function.comp_apply] at h1 h2
  obtain ⟨o, h1, he⟩ := h1
  obtain ⟨o', h2, he'⟩ := h2
  obtain ⟨_, c, h3, h4, _⟩ := h.objs n o h1
  obtain ⟨_, c', h3', h4', _⟩ := h.objs n' o' h2
  have : o.maker = o'.maker := he.trans he'.symm
  rw [this, h3', Option.some.injEq] at h3
  subst h3
  exact h.keys n n' o o' h1 h2 (h4.symm.trans h4')

/-- **C128** In each collection the callbacks of any one call are run at most once, those of two calls with the same identity never both, and nothing
is run that was not given to a (valid) call. -/
theorem C128_once (acts : List (Act K C)) (e : List (Nat × List C)) (he : e ∈ (run acts).log) :
    (e.map (·.1)).Nodup ∧ (∀ i cbs, (i, cbs) ∈ e → ∃ k pc, (run acts).calls[i]? = some ⟨k, true, cbs, pc⟩) ∧
    ∀ i i' k cbs cbs' cs cs', (i, cbs) ∈ e → (i', cbs') ∈ e → Made (run acts) i k cs → Made (run acts) i' k cs' → i = i' := by
  have hI := inv_run acts
  obtain ⟨L, h1, _, h3, _, _⟩ := later_spec ([] : List (Act K C)) acts
  simp only [List.nil_append] at h1 h3
  rw [h1] at he
  have hp : e <+: entry (run acts) := h3 e (by simpa [run, init] using he)
  refine ⟨(hp.sublist.map _).nodup (entry_nodup hI), ?_, ?_⟩
  · intro i cbs hm
    obtain ⟨n, k, _, ho⟩ := entry_mem (hp.subset hm)
    obtain ⟨_, c, h2, h4, h5, h6⟩ := hI.objs n _ ho
    obtain ⟨ck, cv, cc, cp⟩ := c
    simp only at h2 h4 h5 h6
    subst h4 h5 h6
    exact ⟨_, cp, h2⟩
  · intro i i' k cbs cbs' cs cs' hm hm' hk hk'
    obtain ⟨n, k1, _, ho⟩ := entry_mem (hp.subset hm)
    obtain ⟨n', k2, _, ho'⟩ := entry_mem (hp.subset hm')
    obtain ⟨_, c, h2, h4, _⟩ := hI.objs n _ ho
    obtain ⟨_, c', h2', h4', _⟩ := hI.objs n' _ ho'
    obtain ⟨v, pc, hc⟩ := hk
    obtain ⟨v', pc', hc'⟩ := hk'
    rw [hc, Option.some.injEq] at h2
    rw [hc', Option.some.injEq] at h2'
    subst h2 h2'
    have : n = n' := hI.keys n n' _ _ ho ho' (h4.symm.trans h4')
    subst this
    rw [ho, Option.some.injEq] at ho'
    exact congrArg Obj.maker ho'

/-- **C128** Instruments are asked in the order in which they were enrolled, which does not change: each collection runs what the ones before it ran,
in the same order, and then that of new instruments. -/
theorem C128_order (acts : List (Act K C)) : (run acts).log.Pairwise (· <+: ·) := by
  obtain ⟨L, h1, _, _, _, h5⟩ := later_spec ([] : List (Act K C)) acts
  simp only [List.nil_append] at h1
  rw [h1]
  simpa [run, init] using h5

/-- **C128** Once a call has returned, every later collection runs the callbacks of a call with its identity, always the same one. -/
theorem C128_later (acts acts' : List (Act K C)) (i : Nat) (k : K) (cbs : List C) (h : Returned (run acts) i k cbs) :
    ∃ j cbs', Made (run acts) j k cbs' ∧ ∀ e ∈ later acts acts', (j, cbs') ∈ e := by
  obtain ⟨v, n, hc⟩ := h
  have hI := inv_run acts
  have hp := hI.pcs i _ hc
  obtain ⟨o, h1, h2, h3⟩ := hp
  obtain ⟨_, c, h4, h5, h6, _⟩ := hI.objs n o h1
  obtain ⟨L, h7, h8, _⟩ := later_spec acts acts'
  refine ⟨o.maker, o.cbs, ⟨c.valid, c.pc, ?_⟩, ?_⟩
  · rw [h4]
    have : c.key = k := h5.trans h2
    rw [← this, ← h6]
  · intro e he
    unfold later at he
    rw [h7, List.drop_left] at he
    refine (h8 e he).subset ?_
    unfold entry
    exact List.mem_filterMap.2 ⟨n, h3, by rw [h1]; rfl⟩

/-- **C128** If no other call has the same identity, the callbacks given are run in every collection after the call has returned. -/
theorem C128_alone (acts acts' : List (Act K C)) (i : Nat) (k : K) (cbs : List C) (h : Returned (run acts) i k cbs)
    (hu : ∀ j cbs', Made (run acts) j k cbs' → j = i) : ∀ e ∈ later acts acts', (i, cbs) ∈ e := by
  obtain ⟨j, cbs', hm, hl⟩ := C128_later acts acts' i k cbs h
  have hj := hu j cbs' hm
  subst hj
  obtain ⟨v, pc, hm⟩ := hm
  obtain ⟨v', n, hr⟩ := h
  rw [hr, Option.some.injEq, Call.mk.injEq] at hm
  rw [hm.2.2.1]
  exact hl

/-! ## Findings -/

/-- An identity that no call can get an instrument for any more. -/
def Dead (s : St K C) (k : K) : Prop :=
  k ∈ s.ids ∧ Dict.get? s.store k = none ∧ (∀ o ∈ s.objs, o.key ≠ k) ∧
  ∀ (j : Nat) (c : Call K C), s.calls[j]? = some c → c.key = k → c.pc ≠ .registered false

theorem dead_step {s : St K C} (h : Inv s) {k : K} (hd : Dead s k) (a : Act K C) : Dead (step s a) k := by
  obtain ⟨d1, d2, d3, d4⟩ := hd
  cases a with
  | call k' v cbs =>
    refine ⟨d1, d2, d3, ?_⟩
    intro j c hj hc
    by_cases hl : j < s.calls.length
    · have hj : (s.calls ++ [⟨k', v, cbs, .start⟩])[j]? = some c := hj
      rw [List.getElem?_append_left hl] at hj; exact d4 j c hj hc
    · have hj : (s.calls ++ [⟨k', v, cbs, .start⟩])[j]? = some c := hj
      have := get_lt hj
      simp only [List.length_append, List.length_singleton] at this
      have he : j = s.calls.length := by omega
      subst he
      simp at hj
      rw [← hj]; simp
  | collect => exact ⟨d1, d2, d3, d4⟩
  | next i =>
    simp only [step]
    cases ht : s.calls[i]? with
    | none => exact ⟨d1, d2, d3, d4⟩
    | some t =>
      simp only
      have hp := h.pcs i t ht
      have hg : ∀ (s' : St K C) (pc : PC), s'.calls = s.calls → (pc = .registered false → t.key ≠ k) →
          ∀ (j : Nat) (c : Call K C), (goto s' i t pc).calls[j]? = some c → c.key = k → c.pc ≠ .registered false := by
        intro s' pc hs hpc j c hj hc
        have hj : (s'.calls.set i { t with pc := pc })[j]? = some c := hj
        rw [hs] at hj
        rcases get_set hj with ⟨rfl, rfl⟩ | ⟨_, hj⟩
        · intro he; exact hpc he hc
        · exact d4 j c hj hc
      obtain ⟨k', v, cbs, pc⟩ := t
      unfold advance
      cases pc with
      | start =>
        simp only
        by_cases hk : k' ∈ s.ids
        · rw [if_pos hk]; exact ⟨d1, d2, d3, hg _ _ rfl (by simp)⟩
        · rw [if_neg hk]
          exact ⟨List.mem_append_left _ d1, d2, d3, hg { s with ids := s.ids ++ [k'] } _ rfl (by intro _ he; subst he; exact hk d1)⟩
      | registered b =>
        cases b with
        | true =>
          simp only
          cases Dict.get? s.store k' with
          | none => exact ⟨d1, d2, d3, hg _ _ rfl (by simp)⟩
          | some n => exact ⟨d1, d2, d3, hg _ _ rfl (by simp)⟩
        | false =>
          simp only
          have hne : k' ≠ k := fun he => d4 i _ ht he rfl
          by_cases hv : v = true
          · rw [if_pos hv]
            refine ⟨d1, d2, ?_, hg { s with objs := s.objs ++ [⟨k', i, cbs⟩] } _ rfl (by simp)⟩
            intro o ho
            rcases List.mem_append.1 ho with ho | ho
            · exact d3 o ho
            · rw [List.mem_singleton] at ho; subst ho; exact hne
          · rw [if_neg hv]; exact ⟨d1, d2, d3, hg _ _ rfl (by simp)⟩
      | constructed n => exact ⟨d1, d2, d3, hg { s with regs := s.regs ++ [n] } _ rfl (by simp)⟩
      | enrolled n =>
        have hne : k' ≠ k := fun he => d3 _ (List.mem_of_getElem? hp.1) he
        exact ⟨d1, by show Dict.get? (Dict.set s.store k' n) k = none; rw [Dict.get?_set_ne _ _ hne]; exact d2, d3,
          hg { s with store := Dict.set s.store k' n } _ rfl (by simp)⟩
      | ret n => exact ⟨d1, d2, d3, d4⟩
      | keyError => exact ⟨d1, d2, d3, d4⟩
      | invalid => exact ⟨d1, d2, d3, d4⟩

/-- **C128** (finding) Callbacks given for an identity that already exists are silently ignored: both calls return the same instrument, and however many
collections follow, none runs the callbacks of the second. -/
theorem C128_ignored_violated (k : K) (cbs cbs' : List C) (n : Nat) :
    let acts : List (Act K C) := [.call k true cbs, .next 0, .next 0, .next 0, .next 0, .call k true cbs', .next 1, .next 1]
    Returned (run acts) 0 k cbs ∧ Returned (run acts) 1 k cbs' ∧ later acts (List.replicate n .collect) = List.replicate n [(0, cbs)] := by
  intro acts
  have hr : run acts = ⟨[⟨k, true, cbs, .ret 0⟩, ⟨k, true, cbs', .ret 0⟩], [k], [(k, 0)], [⟨k, 0, cbs⟩], [0], []⟩ := by
    simp [acts, run, step, init, advance, goto, Dict.get?, Dict.set]
  refine ⟨⟨true, 0, by rw [hr]; rfl⟩, ⟨true, 0, by rw [hr]; rfl⟩, ?_⟩
  unfold later
  have key : ∀ n, run (acts ++ List.replicate n .collect) = { run acts with log := List.replicate n [(0, cbs)] } := by
    intro n
    induction n with
    | zero => simp [hr]
    | succ n ih =>
      rw [List.replicate_succ', ← List.append_assoc, run_snoc, ih, hr]
      simp [step, entry, List.replicate_succ']
  rw [key, hr]
  simp

/-- **C128** (finding) If the constructor raises (a generator among the callbacks that returns at once), the identity is lost: no later call with
the same name, kind, unit and description ever returns an instrument. -/
theorem C128_lost_violated (k : K) (cbs : List C) (acts : List (Act K C)) (i : Nat) (cbs' : List C) :
    ¬ Returned (run ([.call k false cbs, .next 0, .next 0] ++ acts)) i k cbs' := by
  have hd : Dead (run ([.call k false cbs, .next 0, .next 0] ++ acts)) k := by
    induction acts using List.reverseRecOn with
    | nil =>
      have hr : run ([.call k false cbs, .next 0, .next 0] ++ []) = (⟨[⟨k, false, cbs, .invalid⟩], [k], [], [], [], []⟩ : St K C) := by
        simp [run, step, init, advance, goto]
      rw [hr]
      refine ⟨by simp, rfl, by simp, ?_⟩
      intro j c hj _
      cases j with
      | zero => simp at hj; rw [← hj]; simp
      | succ j => simp at hj
    | append_singleton acts a ih =>
      rw [← List.append_assoc, run_snoc]
      exact dead_step (inv_run _) ih a
  rintro ⟨v, n, hc⟩
  obtain ⟨o, h1, h2, _⟩ := (inv_run _).pcs i _ hc
  exact hd.2.2.1 o (List.mem_of_getElem? h1) h2

/-! ## Examples -/

/-- Two threads create different instruments while collections are made: the first is enrolled, but not yet stored, when the first collection comes. -/
example : (run [.call 7 true [10, 11], .call 8 true [20], .next 0, .next 1, .next 0, .next 0, .collect, .next 1, .next 1, .next 0, .collect, .next 1,
    .collect] : St Nat Nat).log = [[(0, [10, 11])], [(0, [10, 11]), (1, [20])], [(0, [10, 11]), (1, [20])]] := by decide +kernel

example : Returned (run [.call 7 true [10], .next 0, .next 0, .next 0, .next 0] : St Nat Nat) 0 7 [10] := ⟨true, 0, by decide +kernel⟩

end Observables
end Otel
