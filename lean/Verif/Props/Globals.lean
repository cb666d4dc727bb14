import Verif.Spec.Globals
import Verif.Props.Once
import Mathlib.Tactic.SplitIfs
import Mathlib.Tactic.Tauto
import Mathlib.Tactic.ByContra
/-!
# The global providers
-/
namespace Otel
namespace Globals
open Once (Call PC)

/-- The global is assigned only by a call that will be done, and no call has raised. -/
structure Kept (s : Once.St Prov) : Prop where
  glob : s.glob ≠ none → s.done = true ∨ ∃ (i : Nat) (t : Call Prov), s.calls[i]? = some t ∧ (t.pc = .body ∨ t.pc = .setDone)
  fine : ∀ t ∈ s.calls, t.pc ≠ .raised

/-- A call that moves on. -/
theorem kept_goto (s s' : Once.St Prov) (h : Kept s) (i : Nat) (t : Call Prov) (hi : s.calls[i]? = some t) (pc : PC) (hc : s'.calls = s.calls.set i ⟨t.value, pc⟩) (hg : s'.glob = s.glob)
    (hd : s.done = true → s'.done = true) (hp : pc ≠ .raised) (hk : (t.pc = .body ∨ t.pc = .setDone) → s.glob ≠ none → s'.done = true ∨ pc = .body ∨ pc = .setDone) : Kept s' := by
  refine ⟨?_, ?_⟩
  · rw [hg]
    intro hne
    rcases h.glob hne with hdone | ⟨j, u, hj, hu⟩
    · exact .inl (hd hdone)
    · by_cases e : i = j
      · subst e
        rw [hi] at hj
        cases hj
        rcases hk hu hne with hd' | hpc
        · exact .inl hd'
        · exact .inr ⟨i, ⟨t.value, pc⟩, by rw [hc]; exact Once.get_set_self _ _ _ _ hi, hpc⟩
      · exact .inr ⟨j, u, by rw [hc, List.getElem?_set_ne e]; exact hj, hu⟩
  · intro u hu
    rw [hc] at hu
    rcases List.mem_or_eq_of_mem_set hu with hu | rfl
    · exact h.fine u hu
    · exact hp

theorem kept_step (s : Once.St Prov) (h : Once.Inv s) (k : Kept s) (i : Nat) :
    Kept (Once.step s (.next i true)) ∧ ∀ p, s.glob = some p → (Once.step s (.next i true)).glob = some p := by
  cases hi : s.calls[i]? with
  | none => simp only [Once.step, hi]; exact ⟨k, fun _ hp => hp⟩
  | some t =>
    have hok := h.calls i t hi
    obtain ⟨v, pc⟩ := t
    cases pc with
    | start =>
      simp only [Once.step, hi]
      refine ⟨kept_goto s _ k i _ hi _ rfl rfl id ?_ (fun hp => by simp at hp), fun _ hp => hp⟩
      split_ifs <;> simp
    | want =>
      simp only [Once.step, hi]
      split
      · exact ⟨kept_goto s _ k i _ hi .inside rfl rfl id (by simp) (fun hp => by simp at hp), fun _ hp => hp⟩
      · exact ⟨k, fun _ hp => hp⟩
    | inside =>
      simp only [Once.step, hi]
      split_ifs
      · exact ⟨kept_goto s _ k i _ hi (.ret false) rfl rfl id (by simp) (fun hp => by simp at hp), fun _ hp => hp⟩
      · exact ⟨kept_goto s _ k i _ hi .calling rfl rfl id (by simp) (fun hp => by simp at hp), fun _ hp => hp⟩
    | calling =>
      have hnone : s.glob = none := by
        by_contra hne
        rcases k.glob hne with hd | ⟨j, u, hj, hu⟩
        · have := (hok.2.1 rfl).1
          rw [hd] at this
          cases this
        · have h1 := hok.1 rfl
          have h2 := (h.calls j u hj).1 (by rcases hu with hu | hu <;> rw [hu] <;> rfl)
          rw [h1] at h2
          cases h2
          rw [hi] at hj
          cases hj
          simp at hu
      simp only [Once.step, hi]
      refine ⟨⟨fun _ => .inr ⟨i, ⟨v, .body⟩, Once.get_set_self _ _ _ _ hi, .inl rfl⟩, fun u hu => ?_⟩, fun p hp => by rw [hnone] at hp; cases hp⟩
      rcases List.mem_or_eq_of_mem_set hu with hu | rfl
      · exact k.fine u hu
      · simp
    | body =>
      simp only [Once.step, hi, if_true]
      exact ⟨kept_goto s _ k i _ hi .setDone rfl rfl id (by simp) (fun _ _ => by simp), fun _ hp => hp⟩
    | setDone =>
      simp only [Once.step, hi]
      exact ⟨kept_goto s _ k i _ hi .releasing rfl rfl (fun _ => rfl) (by simp) (fun _ _ => .inl rfl), fun _ hp => hp⟩
    | releasing =>
      simp only [Once.step, hi]
      exact ⟨kept_goto s _ k i _ hi (.ret true) rfl rfl id (by simp) (fun hp => by simp at hp), fun _ hp => hp⟩
    | ret b => simp only [Once.step, hi]; exact ⟨k, fun _ hp => hp⟩
    | raised => simp only [Once.step, hi]; exact ⟨k, fun _ hp => hp⟩

theorem kept_call (s : Once.St Prov) (k : Kept s) (v : Prov) : Kept (Once.step s (.call v)) := by
  refine ⟨fun hne => ?_, fun u hu => ?_⟩
  · rcases k.glob hne with hd | ⟨j, u, hj, hu⟩
    · exact .inl hd
    · exact .inr ⟨j, u, by simp only [Once.step]; rw [List.getElem?_append_left (Once.lt_of_getElem? hj)]; exact hj, hu⟩
  · simp only [Once.step, List.mem_append, List.mem_singleton] at hu
    rcases hu with hu | rfl
    · exact k.fine u hu
    · simp

/-! ## All runs -/

/-- `_done` is never taken back. -/
theorem done_stays (s : Once.St Prov) (a : Once.Act Prov) (h : s.done = true) : (Once.step s a).done = true := by
  cases a with
  | call v => exact h
  | next i ok =>
    simp only [Once.step]
    split
    · exact h
    · split
      · exact h
      · split <;> exact h
      · split_ifs <;> exact h
      · exact h
      · split_ifs <;> exact h
      · rfl
      · exact h
      · exact h
      · exact h

structure Inv (st : St) : Prop where
  once : Once.Inv st.once
  again : ∀ g : Nat, st.gets[g]? = some .again → st.once.done = true
  nothing : ∀ g : Nat, st.gets[g]? ≠ some .nothing

/-- A getter that moves on, and the rest of the state goes on. -/
theorem inv_goto (st st' : St) (h : Inv st) (ho : Once.Inv st'.once) (hd : st.once.done = true → st'.once.done = true) (g : Nat) (pc : GPc) (hg : st'.gets = st.gets.set g pc)
    (h1 : pc = .again → st'.once.done = true) (h2 : pc ≠ .nothing) : Inv st' := by
  refine ⟨ho, fun j hj => ?_, fun j hj => ?_⟩
  · rw [hg] at hj
    rcases Once.get_set _ _ _ _ _ hj with ⟨_, e⟩ | ⟨_, hj⟩
    · exact h1 e.symm
    · exact hd (h.again j hj)
  · rw [hg] at hj
    rcases Once.get_set _ _ _ _ _ hj with ⟨_, e⟩ | ⟨_, hj⟩
    · exact h2 e.symm
    · exact h.nothing j hj

theorem inv_step (st : St) (a : Act) (h : Inv st) : Inv (step st a) := by
  cases a with
  | set n => exact ⟨Once.inv_step st.once (.call (.given n)) h.once, fun g hg => done_stays _ _ (h.again g hg), h.nothing⟩
  | next i ok => exact ⟨Once.inv_step st.once (.next i ok) h.once, fun g hg => done_stays _ _ (h.again g hg), h.nothing⟩
  | setenv b => exact ⟨h.once, h.again, h.nothing⟩
  | get =>
    have key : ∀ (g : Nat) pc, (st.gets ++ [GPc.look])[g]? = some pc → pc = .look ∨ st.gets[g]? = some pc := by
      intro g pc hg
      rcases Nat.lt_or_ge g st.gets.length with hl | hl
      · rw [List.getElem?_append_left hl] at hg
        exact .inr hg
      · rw [List.getElem?_append_right hl] at hg
        rcases Nat.eq_zero_or_pos (g - st.gets.length) with e | e
        · rw [e] at hg
          simp at hg
          exact .inl hg.symm
        · rw [List.getElem?_eq_none (by simp; omega)] at hg
          cases hg
    exact ⟨h.once, fun g hg => (key g _ hg).elim (fun e => by cases e) (h.again g), fun g hg => (key g _ hg).elim (fun e => by cases e) (h.nothing g)⟩
  | getNext g ok =>
    simp only [step]
    split
    · split
      · exact inv_goto st _ h h.once id g _ rfl (by simp) (by simp)
      · exact inv_goto st _ h h.once id g _ rfl (by simp) (by simp)
    · exact inv_goto st _ h h.once id g _ rfl (by split_ifs <;> simp) (by split_ifs <;> simp)
    · split_ifs
      · exact inv_goto st _ h (Once.inv_step st.once (.call (.loaded st.loads)) h.once) (fun hd => done_stays _ _ hd) g _ rfl (by simp) (by simp)
      · exact inv_goto st _ h h.once id g _ rfl (by simp) (by simp)
    · split
      · rename_i i hg _ v b hi
        refine inv_goto st _ h h.once id g _ rfl (fun _ => ?_) (by simp)
        have hok := h.once.calls i _ hi
        cases b with
        | true => exact (hok.2.2.2.1 (.inr rfl)).2
        | false => exact hok.2.2.2.2 rfl
      · exact inv_goto st _ h h.once id g _ rfl (by simp) (by simp)
      · exact h
    · rename_i hg
      have hd := h.again g hg
      obtain ⟨_, t, _, _, _, hglob⟩ := h.once.done hd
      split
      · exact inv_goto st _ h h.once id g _ rfl (by simp) (by simp)
      · rename_i hn
        rw [hn] at hglob
        cases hglob
    · exact h

theorem inv_init (env : Bool) : Inv (init env) := ⟨Once.inv_run [], fun g hg => by simp [init] at hg, fun g hg => by simp [init] at hg⟩

theorem inv_runFrom (acts : List Act) : ∀ st, Inv st → Inv (runFrom st acts) := by
  induction acts with
  | nil => exact fun st h => h
  | cons a l ih => exact fun st h => ih _ (inv_step st a h)

/-- **C116** `get_…_provider` never returns `None`, whatever other threads do meanwhile, and even if setting a provider raises. -/
theorem C116_never_none (env : Bool) (acts : List Act) (g : Nat) : (run env acts).gets[g]? ≠ some .nothing := (inv_runFrom acts _ (inv_init env)).nothing g

/-! ## One provider for all -/

structure Calmed (st : St) : Prop where
  inv : Inv st
  kept : Kept st.once
  got : ∀ (g : Nat) (p : Prov), st.gets[g]? = some (.got p) → st.once.glob = some p

theorem calmed_goto (st st' : St) (h : Calmed st) (hi : Inv st') (hk : Kept st'.once) (hst : ∀ p, st.once.glob = some p → st'.once.glob = some p) (g : Nat) (pc : GPc)
    (hg : st'.gets = st.gets.set g pc) (h1 : ∀ p, pc = .got p → st'.once.glob = some p) : Calmed st' := by
  refine ⟨hi, hk, fun j p hj => ?_⟩
  rw [hg] at hj
  rcases Once.get_set _ _ _ _ _ hj with ⟨_, e⟩ | ⟨_, hj⟩
  · exact h1 p e.symm
  · exact hst p (h.got j p hj)

theorem calmed_step (st : St) (a : Act) (ha : Calm a) (h : Calmed st) : Calmed (step st a) ∧ ∀ p, st.once.glob = some p → (step st a).once.glob = some p := by
  have hi := inv_step st a h.inv
  cases a with
  | set n => exact ⟨⟨hi, kept_call _ h.kept _, h.got⟩, fun _ hp => hp⟩
  | next i ok =>
    cases ha
    obtain ⟨k1, k2⟩ := kept_step st.once h.inv.once h.kept i
    exact ⟨⟨hi, k1, fun g p hg => k2 p (h.got g p hg)⟩, k2⟩
  | setenv b => exact ⟨⟨hi, h.kept, h.got⟩, fun _ hp => hp⟩
  | get =>
    refine ⟨⟨hi, h.kept, fun g p hg => ?_⟩, fun _ hp => hp⟩
    have hg' : (st.gets ++ [GPc.look])[g]? = some (.got p) := hg
    rcases Nat.lt_or_ge g st.gets.length with hl | hl
    · rw [List.getElem?_append_left hl] at hg'
      exact h.got g p hg'
    · rw [List.getElem?_append_right hl] at hg'
      rcases Nat.eq_zero_or_pos (g - st.gets.length) with e | e
      · rw [e] at hg'
        simp at hg'
      · rw [List.getElem?_eq_none (by simp; omega)] at hg'
        cases hg'
  | getNext g ok =>
    revert hi
    simp only [step]
    split
    · split
      · rename_i p hp
        exact fun hi => ⟨calmed_goto st _ h hi h.kept (fun _ hq => hq) g _ rfl (fun q e => by cases e; exact hp), fun _ hq => hq⟩
      · exact fun hi => ⟨calmed_goto st _ h hi h.kept (fun _ hq => hq) g _ rfl (fun q e => by cases e), fun _ hq => hq⟩
    · exact fun hi => ⟨calmed_goto st _ h hi h.kept (fun _ hq => hq) g _ rfl (fun q e => by split_ifs at e), fun _ hq => hq⟩
    · split
      · exact fun hi => ⟨calmed_goto st _ h hi (kept_call _ h.kept _) (fun _ hq => hq) g _ rfl (fun q e => by cases e), fun _ hq => hq⟩
      · exact fun hi => ⟨calmed_goto st _ h hi h.kept (fun _ hq => hq) g _ rfl (fun q e => by cases e), fun _ hq => hq⟩
    · split
      · exact fun hi => ⟨calmed_goto st _ h hi h.kept (fun _ hq => hq) g _ rfl (fun q e => by cases e), fun _ hq => hq⟩
      · exact fun hi => ⟨calmed_goto st _ h hi h.kept (fun _ hq => hq) g _ rfl (fun q e => by cases e), fun _ hq => hq⟩
      · exact fun _ => ⟨h, fun _ hq => hq⟩
    · split
      · rename_i p hp
        exact fun hi => ⟨calmed_goto st _ h hi h.kept (fun _ hq => hq) g _ rfl (fun q e => by cases e; exact hp), fun _ hq => hq⟩
      · exact fun hi => ⟨calmed_goto st _ h hi h.kept (fun _ hq => hq) g _ rfl (fun q e => by cases e), fun _ hq => hq⟩
    · exact fun _ => ⟨h, fun _ hq => hq⟩

theorem calmed_init (env : Bool) : Calmed (init env) := ⟨inv_init env, ⟨fun h => absurd rfl h, fun t ht => by simp [init, Once.init] at ht⟩, fun g p hg => by simp [init] at hg⟩

theorem calmed_runFrom (acts : List Act) (ha : ∀ a ∈ acts, Calm a) : ∀ st, Calmed st → Calmed (runFrom st acts) ∧ ∀ p, st.once.glob = some p → (runFrom st acts).once.glob = some p := by
  induction acts with
  | nil => exact fun st h => ⟨h, fun _ hp => hp⟩
  | cons a l ih =>
    intro st h
    obtain ⟨h1, h2⟩ := calmed_step st a (ha a (by simp)) h
    obtain ⟨h3, h4⟩ := ih (fun b hb => ha b (by simp [hb])) _ h1
    exact ⟨h3, fun p hp => h4 p (h2 p hp)⟩

theorem run_append (env : Bool) (acts acts' : List Act) : run env (acts ++ acts') = runFrom (run env acts) acts' := by simp [run, runFrom]

/-- **C116** All calls of `get_…_provider`, in whatever threads and at whatever times, that return a provider other than the proxy return the same one; it is the one that stays. -/
theorem C116_agree (env : Bool) (acts acts' : List Act) (ha : ∀ a ∈ acts ++ acts', Calm a) (g g' : Nat) (p q : Prov) (h : (run env acts).gets[g]? = some (.got p))
    (h' : (run env (acts ++ acts')).gets[g']? = some (.got q)) : p = q := by
  obtain ⟨c1, _⟩ := calmed_runFrom acts (fun a h => ha a (by simp [h])) _ (calmed_init env)
  obtain ⟨c2, c3⟩ := calmed_runFrom acts' (fun a h => ha a (by simp [h])) _ c1
  rw [run_append] at h'
  have e1 := c3 p (c1.got g p h)
  have e2 := c2.got g' q h'
  rw [e1] at e2
  cases e2
  rfl

/-- **C116** As soon as a call of `set_…_provider` has returned, or one of `get_…_provider` has returned a provider, there is a provider that every call of `get_…_provider` begun from then on
returns at once, for ever; if that call of `set_…_provider` was successful (it logged no warning), it is the one given. -/
theorem C116_settled (env : Bool) (acts acts' : List Act) (ha : ∀ a ∈ acts ++ acts', Calm a)
    (h : (∃ (g : Nat) (p : Prov), (run env acts).gets[g]? = some (.got p)) ∨ ∃ (i : Nat) (t : Call Prov) (b : Bool), (run env acts).once.calls[i]? = some t ∧ t.pc = .ret b) (ok : Bool) :
    ∃ p, (step (step (run env (acts ++ acts')) .get) (.getNext (run env (acts ++ acts')).gets.length ok)).gets[(run env (acts ++ acts')).gets.length]? = some (.got p) ∧
      (∀ (i : Nat) (t : Call Prov), (run env acts).once.calls[i]? = some t → t.pc = .ret true → p = t.value) ∧ ∀ (g : Nat) (q : Prov), (run env acts).gets[g]? = some (.got q) → p = q := by
  obtain ⟨c1, _⟩ := calmed_runFrom acts (fun a h => ha a (by simp [h])) _ (calmed_init env)
  obtain ⟨c2, c3⟩ := calmed_runFrom acts' (fun a h => ha a (by simp [h])) _ c1
  have hdone : ∀ (i : Nat) (t : Call Prov) (b : Bool), (run env acts).once.calls[i]? = some t → t.pc = .ret b → (run env acts).once.done = true := by
    intro i t b hi hb
    have hok := c1.inv.once.calls i t hi
    cases b with
    | true => exact (hok.2.2.2.1 (.inr hb)).2
    | false => exact hok.2.2.2.2 hb
  obtain ⟨p, hp⟩ : ∃ p, (run env acts).once.glob = some p := by
    rcases h with ⟨g, p, hg⟩ | ⟨i, t, b, hi, hb⟩
    · exact ⟨p, c1.got g p hg⟩
    · obtain ⟨_, u, _, _, _, hglob⟩ := c1.inv.once.done (hdone i t b hi hb)
      exact ⟨_, hglob⟩
  have hp' : (run env (acts ++ acts')).once.glob = some p := by
    rw [run_append]
    exact c3 p hp
  refine ⟨p, ?_, ?_, ?_⟩
  · generalize run env (acts ++ acts') = st at *
    have e : step (step st .get) (.getNext st.gets.length ok) = (step st .get).goto st.gets.length (.got p) := by
      have h1 : (step st .get).gets[st.gets.length]? = some .look := by simp [step]
      have h2 : (step st .get).once.glob = some p := hp'
      generalize step st .get = st1 at *
      simp only [step, h1, h2]
    rw [e]
    simp [St.goto, step]
  · intro i t hi ht
    have hok := c1.inv.once.calls i t hi
    obtain ⟨j, u, hj, hju, _, hglob⟩ := c1.inv.once.done (hdone i t true hi ht)
    have e := (hok.2.2.2.1 (.inr ht)).1
    rw [hj] at e
    cases e
    have hi' : (run env acts).once.calls[i]? = some t := hi
    have hju' : (run env acts).once.calls[i]? = some u := hju
    rw [hi'] at hju'
    cases hju'
    have hglob' : (run env acts).once.glob = some t.value := hglob
    rw [hp] at hglob'
    cases hglob'
    rfl
  · intro g q hg
    have := c1.got g q hg
    have h' : (run env acts).once.glob = some q := this
    rw [hp] at h'
    cases h'
    rfl

/-- **C116** Of all calls of `set_…_provider`, and all loaded providers, at most one is successful. -/
theorem C116_one (env : Bool) (acts : List Act) (i j : Nat) (t u : Call Prov) (hi : (run env acts).once.calls[i]? = some t) (hj : (run env acts).once.calls[j]? = some u)
    (ht : t.pc = .ret true) (hu : u.pc = .ret true) : i = j := by
  have h := (inv_runFrom acts _ (inv_init env)).once
  have h1 := ((h.calls i t hi).2.2.2.1 (.inr ht)).1
  have h2 := ((h.calls j u hj).2.2.2.1 (.inr hu)).1
  rw [h1] at h2
  cases h2
  rfl

/-- Calls of `do_once` keep their values. -/
theorem values_next (s : Once.St Prov) (i : Nat) (ok : Bool) : ∀ t ∈ (Once.step s (.next i ok)).calls, ∃ u ∈ s.calls, u.value = t.value := by
  have key : ∀ (u : Call Prov) (pc : PC), s.calls[i]? = some u → ∀ t ∈ s.calls.set i ⟨u.value, pc⟩, ∃ u ∈ s.calls, u.value = t.value := by
    intro u pc hu t ht
    rcases List.mem_or_eq_of_mem_set ht with ht | rfl
    · exact ⟨t, ht, rfl⟩
    · exact ⟨u, List.mem_of_getElem? hu, rfl⟩
  simp only [Once.step]
  split
  · exact fun t ht => ⟨t, ht, rfl⟩
  · rename_i u hu
    split
    · exact key u _ hu
    · split
      · exact key u _ hu
      · exact fun t ht => ⟨t, ht, rfl⟩
    · split
      · exact key u _ hu
      · exact key u _ hu
    · exact key u _ hu
    · split
      · exact key u _ hu
      · exact key u _ hu
    · exact key u _ hu
    · exact key u _ hu
    · exact fun t ht => ⟨t, ht, rfl⟩
    · exact fun t ht => ⟨t, ht, rfl⟩

structure Plain (acts : List Act) (st : St) : Prop where
  env : st.env = false
  loads : st.loads = 0
  gets : ∀ pc ∈ st.gets, pc ∈ [GPc.look, .env, .proxy] ∨ ∃ n, pc = .got (.given n) ∧ Act.set n ∈ acts
  calls : ∀ t ∈ st.once.calls, ∃ n, t.value = .given n ∧ Act.set n ∈ acts

theorem plain_step (acts : List Act) (st : St) (a : Act) (ha : a ∈ acts) (hn : a ≠ .setenv true) (hi : Inv st) (h : Plain acts st) : Plain acts (step st a) := by
  have move : ∀ (g : Nat) (pc : GPc), (pc ∈ [GPc.look, .env, .proxy] ∨ ∃ n, pc = .got (.given n) ∧ Act.set n ∈ acts) → Plain acts (st.goto g pc) := by
    intro g pc hpc
    refine ⟨h.env, h.loads, fun q hq => ?_, h.calls⟩
    rcases List.mem_or_eq_of_mem_set hq with hq | rfl
    · exact h.gets q hq
    · exact hpc
  cases a with
  | set n =>
    refine ⟨h.env, h.loads, h.gets, fun t ht => ?_⟩
    rcases List.mem_append.mp (show t ∈ st.once.calls ++ [⟨.given n, .start⟩] from ht) with ht | ht
    · exact h.calls t ht
    · rw [List.mem_singleton] at ht
      subst ht
      exact ⟨n, rfl, ha⟩
  | next i ok =>
    refine ⟨h.env, h.loads, h.gets, fun t ht => ?_⟩
    obtain ⟨u, hu, e⟩ := values_next st.once i ok t ht
    rw [← e]
    exact h.calls u hu
  | get =>
    refine ⟨h.env, h.loads, fun pc hpc => ?_, h.calls⟩
    rcases List.mem_append.mp (show pc ∈ st.gets ++ [.look] from hpc) with hpc | hpc
    · exact h.gets pc hpc
    · rw [List.mem_singleton] at hpc
      subst hpc
      exact .inl (by simp)
  | setenv b =>
    cases b with
    | true => exact absurd rfl hn
    | false => exact ⟨rfl, h.loads, h.gets, h.calls⟩
  | getNext g ok =>
    have hmem : ∀ pc, st.gets[g]? = some pc → pc ∈ [GPc.look, .env, .proxy] ∨ ∃ n, pc = .got (.given n) ∧ Act.set n ∈ acts := fun pc hpc => h.gets pc (List.mem_of_getElem? hpc)
    simp only [step]
    split
    · split
      · rename_i p hp
        refine move g _ (.inr ?_)
        obtain ⟨t, ht, e⟩ := hi.once.prov p hp
        obtain ⟨n, hn, hs⟩ := h.calls t ht
        exact ⟨n, by rw [← e, hn], hs⟩
      · exact move g _ (.inl (by simp))
    · refine move g _ (.inl ?_)
      rw [h.env]
      simp
    · rename_i hg
      have := hmem _ hg
      simp at this
    · rename_i hg
      have := hmem _ hg
      simp at this
    · rename_i hg
      have := hmem _ hg
      simp at this
    · exact h

/-- **C116** While the environment variable is not set nothing is loaded and no call of `get_…_provider` raises: it returns the proxy, or a provider that the program has given to
`set_…_provider` (even if setting it raises). -/
theorem C116_no_env (acts : List Act) (ha : ∀ a ∈ acts, a ≠ .setenv true) :
    (run false acts).loads = 0 ∧ ∀ pc ∈ (run false acts).gets, pc ∈ [GPc.look, .env, .proxy] ∨ ∃ n, pc = .got (.given n) ∧ Act.set n ∈ acts := by
  have key : ∀ (l : List Act) (st : St), (∀ a ∈ l, a ∈ acts) → Inv st → Plain acts st → Plain acts (runFrom st l) := by
    intro l
    induction l with
    | nil => exact fun st _ _ h => h
    | cons a l ih => exact fun st hl hi h => ih _ (fun b hb => hl b (by simp [hb])) (inv_step st a hi) (plain_step acts st a (hl a (by simp)) (ha a (hl a (by simp))) hi h)
  have h := key acts (init false) (fun _ h => h) (inv_init false) ⟨rfl, rfl, fun pc hpc => by simp [init] at hpc, fun t ht => by simp [init, Once.init] at ht⟩
  exact ⟨h.loads, h.gets⟩

/-! ## What does not hold -/

/-- **C116** (*why `partial`: with the environment variable set, the provider is loaded once*) With the variable set, `n` threads that ask for the provider at the same time make `n` providers —
with whatever threads, exporters and exit handlers their constructors start — of which at most one is ever used (`C116_one`). -/
theorem C116_loads_violated (n : Nat) : (run true (crowd n)).loads = n ∧ (run true (crowd n)).gets = (List.range n).map .setting ∧
    (run true (crowd n)).once.calls.map Call.value = (List.range n).map .loaded := by
  have h0 : ∀ n, runFrom (init true) (List.replicate n .get) = ⟨Once.init Prov, List.replicate n .look, 0, true⟩ := by
    intro n
    induction n with
    | zero => rfl
    | succ n ih =>
      rw [List.replicate_succ', runFrom, List.foldl_append]
      change step (runFrom (init true) (List.replicate n .get)) .get = _
      rw [ih]
      simp [step, ← List.replicate_succ']
  have h1 : ∀ m k, runFrom ⟨Once.init Prov, List.replicate (m + k) .look, 0, true⟩ ((List.range m).flatMap fun g => [.getNext g true, .getNext g true, .getNext g true]) =
      ⟨{ Once.init Prov with calls := (List.range m).map fun i => ⟨.loaded i, .start⟩ }, (List.range m).map .setting ++ List.replicate k .look, m, true⟩ := by
    intro m
    induction m with
    | zero => intro k; simp [runFrom, Once.init]
    | succ m ih =>
      intro k
      rw [List.range_succ, List.flatMap_append, runFrom, List.foldl_append]
      have := ih (k + 1)
      rw [show m + (k + 1) = m + 1 + k by omega, runFrom] at this
      rw [this]
      simp only [List.flatMap_cons, List.flatMap_nil, List.append_nil, List.foldl_cons, List.foldl_nil, List.map_append, List.map_cons, List.map_nil]
      have e : ∀ (pc : GPc) (l : List GPc), ((List.range m).map GPc.setting ++ pc :: l)[m]? = some pc := by
        intro pc l
        rw [List.getElem?_append_right (by simp)]
        simp
      have u : ∀ (pc pc' : GPc) (l : List GPc), ((List.range m).map GPc.setting ++ pc :: l).set m pc' = (List.range m).map GPc.setting ++ pc' :: l := by
        intro pc pc' l
        rw [List.set_append_right _ _ (by simp)]
        simp
      rw [List.replicate_succ]
      simp only [step, e, u, St.goto, Once.init, if_true, Once.step, List.length_map, List.length_range]
      simp
  have h2 : run true (crowd n) = ⟨{ Once.init Prov with calls := (List.range n).map fun i => ⟨.loaded i, .start⟩ }, (List.range n).map .setting, n, true⟩ := by
    rw [run, crowd, runFrom, List.foldl_append]
    change runFrom (runFrom (init true) (List.replicate n .get)) _ = _
    rw [h0]
    have := h1 n 0
    simpa using this
  rw [h2]
  refine ⟨rfl, rfl, ?_⟩
  simp [Function.comp_def]

/-- **C116** (*why `partial`: asking for a provider raises nothing*) If the provider that the variable names cannot be loaded, every call of `get_…_provider` raises, for ever: it is tried anew
each time and nothing falls back to the proxy. -/
theorem C116_raises_violated (n : Nat) : (run true (hopeless n)).gets = List.replicate n .raised ∧ (run true (hopeless n)).once.glob = none := by
  have h : ∀ n, run true (hopeless n) = ⟨Once.init Prov, List.replicate n .raised, 0, true⟩ := by
    intro n
    induction n with
    | zero => rfl
    | succ n ih =>
      rw [hopeless, List.range_succ, List.flatMap_append, run, runFrom, List.foldl_append]
      change (List.foldl step (run true (hopeless n)) _) = _
      rw [ih]
      have e : ∀ (pc : GPc), (List.replicate n GPc.raised ++ [pc])[n]? = some pc := by
        intro pc
        rw [List.getElem?_append_right (by simp)]
        simp
      have u : ∀ (pc pc' : GPc), (List.replicate n GPc.raised ++ [pc]).set n pc' = List.replicate n GPc.raised ++ [pc'] := by
        intro pc pc'
        rw [List.set_append_right _ _ (by simp)]
        simp
      simp [step, e, u, St.goto, Once.init, List.replicate_succ']
  rw [h]
  exact ⟨rfl, rfl⟩

/-- **C116** (*why `partial`: the program's provider is used*) With the variable set, one call of `get_…_provider` — by any library — loads a provider and settles the matter: the provider that
the program sets afterwards is refused, whatever it is. -/
theorem C116_late_violated (n : Nat) : (run true (loading 0 0)).gets = [.got (.loaded 0)] ∧ (run true (loading 0 0 ++ [.set n] ++ whole 1)).once.calls[1]? = some ⟨.given n, .ret false⟩ ∧
    (run true (loading 0 0 ++ [.set n] ++ whole 1)).once.glob = some (.loaded 0) := ⟨rfl, rfl, rfl⟩

/-- **C116** (*why `C116_agree` and `C116_settled` ask for `Calm`*) If an instrument that was asked for earlier cannot be made by the meter provider that is being set, `set_meter_provider`
raises but leaves the provider in place, another thread may already have been given it, and a later `set_meter_provider` succeeds and replaces it. -/
theorem C116_replaced_violated (m n : Nat) : (run false (clumsy m n)).gets = [.got (.given m), .got (.given n)] ∧
    (run false (clumsy m n)).once.calls = [⟨.given m, .raised⟩, ⟨.given n, .ret true⟩] := by
  simp [run, runFrom, clumsy, whole, step, Once.step, Once.goto, St.goto, init, Once.init, List.replicate_succ]

/-- The hypotheses of `C116_agree` and `C116_settled` are met: two threads ask while the variable is set, and the second finds the first one's provider. -/
example : (∀ a ∈ (loading 0 0 ++ [.set 5]) ++ ([.get, .getNext 1 true] : List Act), Calm a) ∧ (run true (loading 0 0 ++ [.set 5])).gets[0]? = some (.got (.loaded 0)) ∧
    (run true ((loading 0 0 ++ [.set 5]) ++ [.get, .getNext 1 true])).gets[1]? = some (.got (.loaded 0)) := by
  refine ⟨fun a ha => ?_, rfl, rfl⟩
  simp [loading, whole] at ha
  rcases ha with rfl | rfl | rfl | rfl | rfl | rfl | rfl | rfl <;> simp [Calm]

/-- Those of `C116_one`, and of `C116_no_env` with a provider that is found. -/
example : (run false ([.set 3] ++ whole 0)).once.calls[0]? = some ⟨.given 3, .ret true⟩ ∧ (run false ([.get, .getNext 0 true, .getNext 0 true, .set 3] ++ whole 0 ++ [.get, .getNext 1 true])).gets =
    [.proxy, .got (.given 3)] := ⟨rfl, rfl⟩

end Globals
end Otel
