import Verif.Spec.Decorated
import Mathlib.Data.List.Perm.Basic
import Mathlib.Data.List.Induction
import Mathlib.Data.List.Nodup
import Mathlib.Tactic.SplitIfs
/-!
# C119: decorated functions
-/
namespace Otel
namespace Decorated
open scoped List

/-- One step when no context manager object has been entered. -/
def next (t : Nat) (T : Task) : Task := (stepTask [] t T).1

/-- The task reaches the other by its own steps. -/
inductive Reaches (t : Nat) : Task → Task → Prop
  | refl (T) : Reaches t T T
  | step {T U} (h : Reaches t (next t T) U) : Reaches t T U

theorem Reaches.trans {t : Nat} {T U V : Task} (h : Reaches t T U) (g : Reaches t U V) : Reaches t T V := by
  induction h with
  | refl => exact g
  | step _ ih => exact .step (ih g)

theorem Reaches.one {t : Nat} {T U : Task} (h : next t T = U) : Reaches t T U := by rw [← h]; exact .step (.refl _)

/-- While an exception propagates, actions are skipped. -/
theorem skip (t : Nat) (l : List Act) (rest : List Micro) (cur : Option Id) (n : Nat) (e : Exc) (L : List Ev) :
    Reaches t ⟨l.map .act ++ rest, cur, n, some e, L⟩ ⟨rest, cur, n, some e, L⟩ := by
  induction l with
  | nil => exact .refl _
  | cons a l ih => exact .step ih

theorem atEnd_eq (f : Fn) (s : Id) (r : Option Exc) :
    (if r = some .error then (if f.record then [Ev.recorded s] else []) ++ (if f.status then [.errored s] else []) else []) ++ (if f.endOnExit then [.closed s] else []) = atEnd f s r := by
  unfold atEnd
  by_cases h : r = some .error <;> simp [h]

mutual
theorem act_reaches (t : Nat) (a : Act) (ha : pureAct a) (rest : List Micro) (cur : Option Id) (n : Nat) (L : List Ev) :
    Reaches t ⟨.act a :: rest, cur, n, none, L⟩ ⟨rest, cur, (traceAct t cur n a).2.1, (traceAct t cur n a).2.2, L ++ (traceAct t cur n a).1⟩ := by
  match a, ha with
  | .note k, _ => exact .one (by simp [next, stepTask, traceAct])
  | .raise e, _ => exact .one (by simp [next, stepTask, traceAct])
  | .make f, _ => exact .one (by simp [next, stepTask, traceAct])
  | .lazy f, _ => exact .one (by simp [next, stepTask, traceAct, Task.open, Task.close, atEnd])
  | .attempt body, ha =>
    simp only [pureAct] at ha
    have h1 : next t ⟨.act (.attempt body) :: rest, cur, n, none, L⟩ = ⟨body.map .act ++ .caught :: rest, cur, n, none, L⟩ := by simp [next, stepTask]
    refine (Reaches.one h1).trans ((acts_reach t body ha (.caught :: rest) cur n L).trans (.one ?_))
    simp [next, stepTask, traceAct]
  | .consume body, ha =>
    simp only [pureAct] at ha
    have h1 : next t ⟨.act (.consume body) :: rest, cur, n, none, L⟩ = ⟨body.map .act ++ rest, cur, n, none, L⟩ := by simp [next, stepTask]
    rw [traceAct]
    exact (Reaches.one h1).trans (acts_reach t body ha rest cur n L)
  | .call f body, ha =>
    simp only [pureAct] at ha
    have h1 : next t ⟨.act (.call f body) :: rest, cur, n, none, L⟩ = ⟨body.map .act ++ .leave (t, n) cur f :: rest, some (t, n), n + 1, none, L ++ [.opened (t, n) f.name (f.context.getD cur)]⟩ := by
      simp [next, stepTask, Task.open]
    refine (Reaches.one h1).trans ((acts_reach t body ha (.leave (t, n) cur f :: rest) _ _ _).trans (.one ?_))
    rw [traceAct]
    simp only [next, stepTask, Task.close, List.append_assoc]
    rw [atEnd_eq]
    simp
  | .enter f body, ha => exact absurd ha (by simp [pureAct])
theorem acts_reach (t : Nat) (l : List Act) (hl : pure l) (rest : List Micro) (cur : Option Id) (n : Nat) (L : List Ev) :
    Reaches t ⟨l.map .act ++ rest, cur, n, none, L⟩ ⟨rest, cur, (trace t cur n l).2.1, (trace t cur n l).2.2, L ++ (trace t cur n l).1⟩ := by
  match l, hl with
  | [], _ => simpa [trace] using Reaches.refl _
  | a :: l, hl =>
    simp only [pure] at hl
    have h1 := act_reaches t a hl.1 (l.map .act ++ rest) cur n L
    rw [trace]
    rw [List.map_cons, List.cons_append]
    refine h1.trans ?_
    by_cases hr : (traceAct t cur n a).2.2 = none
    · rw [if_pos hr, hr]
      have := acts_reach t l hl.2 rest cur (traceAct t cur n a).2.1 (L ++ (traceAct t cur n a).1)
      rw [List.append_assoc] at this
      exact this
    · rw [if_neg hr]
      obtain ⟨e, he⟩ := Option.ne_none_iff_exists'.1 hr
      rw [he]
      exact skip t l rest cur _ e _
end

/-! ## Schedules -/

theorem next_grows (t : Nat) (T : Task) : T.log <+: (next t T).log := by
  unfold next stepTask
  split
  · exact List.prefix_rfl
  · exact List.prefix_rfl
  · exact ⟨_, (List.append_assoc _ _ _).symm⟩
  · split_ifs
    · exact List.prefix_rfl
    · split
      · exact List.prefix_append _ _
      · exact List.prefix_rfl
      · exact List.prefix_rfl
      · split_ifs
        · exact List.prefix_rfl
        · exact List.prefix_append _ _
      · exact List.prefix_rfl
      · split_ifs
        · exact List.prefix_rfl
        · exact ⟨_, by simp [Task.close, Task.open]; rfl⟩
      · exact List.prefix_rfl
      · split_ifs
        · exact List.prefix_rfl
        · exact List.prefix_append _ _

theorem next_finished (t : Nat) (T : Task) (h : T.finished) : next t T = T := by
  unfold Task.finished at h
  simp [next, stepTask, h]

/-- `k` steps. -/
def after (t : Nat) (T : Task) : Nat → Task
  | 0 => T
  | k + 1 => next t (after t T k)

theorem after_succ (t : Nat) (T : Task) (k : Nat) : after t T (k + 1) = after t (next t T) k := by
  induction k with
  | zero => rfl
  | succ k ih => rw [after, ih]; rfl

theorem after_finished (t : Nat) (T : Task) (h : T.finished) (k : Nat) : after t T k = T := by
  induction k with
  | zero => rfl
  | succ k ih => rw [after, ih, next_finished t T h]

theorem reaches_log {t : Nat} {T U : Task} (h : Reaches t T U) : T.log <+: U.log := by
  induction h with
  | refl => exact List.prefix_rfl
  | step _ ih => exact (next_grows _ _).trans ih

theorem reaches_after {t : Nat} {T U : Task} (h : Reaches t T U) (hU : U.finished) (k : Nat) : (after t T k).log <+: U.log ∧ ((after t T k).finished → after t T k = U) := by
  induction h generalizing k with
  | refl T => rw [after_finished t T hU k]; exact ⟨List.prefix_rfl, fun _ => rfl⟩
  | @step T U h ih =>
    cases k with
    | zero =>
      refine ⟨reaches_log (.step h), fun hf => ?_⟩
      have := (ih hU 0).2
      rw [after, next_finished t T hf] at this
      exact this hf
    | succ k => rw [after_succ]; exact ih hU k

/-- Code without direct uses of context managers. -/
def pureCode (c : List Micro) : Prop := ∀ a, Micro.act a ∈ c → pureAct a

theorem pure_mem {l : List Act} (h : pure l) : ∀ a ∈ l, pureAct a := by
  induction l with
  | nil => intro a ha; cases ha
  | cons b l ih =>
    simp only [pure] at h
    intro a ha
    rcases List.mem_cons.1 ha with rfl | ha
    · exact h.1
    · exact ih h.2 a ha

theorem pureCode_tail {m : Micro} {c : List Micro} (h : pureCode (m :: c)) : pureCode c := fun a ha => h a (List.mem_cons_of_mem _ ha)

theorem pureCode_append {l : List Act} {c : List Micro} (h : pure l) (hc : pureCode c) : pureCode (l.map .act ++ c) := by
  intro a ha
  rcases List.mem_append.1 ha with ha | ha
  · obtain ⟨b, hb, he⟩ := List.mem_map.1 ha
    cases he
    exact pure_mem h _ hb
  · exact hc a ha

theorem pureCode_cons {m : Micro} {c : List Micro} (hm : ∀ a, m ≠ .act a) (hc : pureCode c) : pureCode (m :: c) := by
  intro a ha
  rcases List.mem_cons.1 ha with rfl | ha
  · exact absurd rfl (hm a)
  · exact hc a ha

theorem step_pure (t : Nat) (T : Task) (h : pureCode T.code) : pureCode (stepTask [] t T).1.code ∧ (stepTask [] t T).2 = [] := by
  unfold stepTask
  split
  · exact ⟨h, rfl⟩
  · rename_i rest hc; rw [hc] at h; exact ⟨pureCode_tail h, rfl⟩
  · rename_i hc; rw [hc] at h; exact ⟨pureCode_tail h, rfl⟩
  · rename_i a rest hc
    rw [hc] at h
    have ha := h a List.mem_cons_self
    have hr := pureCode_tail h
    split_ifs
    · exact ⟨hr, rfl⟩
    · split
      · exact ⟨hr, rfl⟩
      · exact ⟨hr, rfl⟩
      · simp only [pureAct] at ha; exact ⟨pureCode_append ha (pureCode_cons (by simp) hr), rfl⟩
      · simp only [pureAct] at ha
        rw [if_neg List.not_mem_nil]
        exact ⟨pureCode_append ha (pureCode_cons (by simp) hr), rfl⟩
      · exact ⟨hr, rfl⟩
      · rw [if_neg List.not_mem_nil]; exact ⟨hr, rfl⟩
      · simp only [pureAct] at ha; exact ⟨pureCode_append ha hr, rfl⟩
      · exact absurd ha (by simp [pureAct])

theorem run_tasks (progs : List (Option Id × List Act)) (hp : ∀ p ∈ progs, pure p.2) (sched : List Nat) :
    (run progs sched).entered = [] ∧ ∀ t, (run progs sched).tasks[t]? = (progs[t]?).map fun p => after t (.init p) (sched.count t) := by
  suffices h : (run progs sched).entered = [] ∧ (∀ T ∈ (run progs sched).tasks, pureCode T.code) ∧
      ∀ t, (run progs sched).tasks[t]? = (progs[t]?).map fun p => after t (.init p) (sched.count t) from ⟨h.1, h.2.2⟩
  induction sched using List.reverseRecOn with
  | nil =>
    refine ⟨rfl, ?_, fun t => by simp [run, after]⟩
    intro T hT
    obtain ⟨p, hpm, rfl⟩ := List.mem_map.1 hT
    have := pureCode_append (c := []) (hp p hpm) (fun a ha => (by cases ha))
    rw [List.append_nil] at this
    exact this
  | append_singleton sched u ih =>
    obtain ⟨h1, h2, h3⟩ := ih
    rw [show run progs (sched ++ [u]) = step (run progs sched) u by simp [run]]
    generalize run progs sched = st at h1 h2 h3
    unfold step
    cases hu : st.tasks[u]? with
    | none =>
      refine ⟨h1, h2, fun t => ?_⟩
      rw [h3 t]
      by_cases htu : t = u
      · subst htu
        have := h3 t
        rw [hu] at this
        cases hq : progs[t]? with
        | none => rfl
        | some p => rw [hq] at this; cases this
      · rw [List.count_append, List.count_singleton]
        simp [Ne.symm htu]
    | some T =>
      have hT := step_pure u T (h2 T (List.mem_of_getElem? hu))
      dsimp only
      rw [h1]
      refine ⟨hT.2, ?_, fun t => ?_⟩
      · intro T' hT'
        rcases List.mem_or_eq_of_mem_set hT' with h | rfl
        · exact h2 T' h
        · exact hT.1
      · rw [List.getElem?_set]
        by_cases htu : u = t
        · subst htu
          have hlen : u < st.tasks.length := (List.getElem?_eq_some_iff.1 hu).1
          rw [if_pos rfl, if_pos hlen]
          have := h3 u
          rw [hu] at this
          cases hq : progs[u]? with
          | none => rw [hq] at this; cases this
          | some p =>
            rw [hq] at this
            simp only [Option.map_some, Option.some.injEq] at this ⊢
            rw [List.count_append, List.count_singleton, this]
            simp [after, next]
        · rw [if_neg htu, h3 t, List.count_append, List.count_singleton]
          simp [htu]

/-- Decorated functions run as they should, in every task, in every schedule of the others: what can be observed of a task is the beginning of what its program should show; when the task has finished it is all of
it, the task has its first context again, and what escapes is what should. -/
theorem C119_trace (progs : List (Option Id × List Act)) (hp : ∀ p ∈ progs, pure p.2) (sched : List Nat) (t : Nat) (T : Task) (p : Option Id × List Act) (ht : progs[t]? = some p)
    (hT : (run progs sched).tasks[t]? = some T) :
    T.log <+: (trace t p.1 0 p.2).1 ∧ (T.finished → T.log = (trace t p.1 0 p.2).1 ∧ T.cur = p.1 ∧ T.raising = (trace t p.1 0 p.2).2.2) := by
  rw [(run_tasks progs hp sched).2 t, ht, Option.map_some] at hT
  obtain rfl := Option.some.inj hT
  have h := acts_reach t p.2 (hp p (List.mem_of_getElem? ht)) [] p.1 0 []
  rw [List.append_nil, List.nil_append] at h
  obtain ⟨h1, h2⟩ := reaches_after (show Reaches t (Task.init p) _ from h) rfl (sched.count t)
  refine ⟨h1, fun hf => ?_⟩
  rw [h2 hf]
  exact ⟨rfl, rfl, rfl⟩

/-! ## What the programs should show -/

theorem opened_append (l m : List Ev) : openedIn (l ++ m) = openedIn l ++ openedIn m := List.filterMap_append
theorem closed_append (l m : List Ev) : closedIn (l ++ m) = closedIn l ++ closedIn m := List.filterMap_append

theorem opened_atEnd (f : Fn) (s : Id) (r : Option Exc) : openedIn (atEnd f s r) = [] := by
  unfold atEnd
  split_ifs <;> rfl

theorem closed_atEnd (f : Fn) (s : Id) (r : Option Exc) (h : f.endOnExit = true) : closedIn (atEnd f s r) = [s] := by
  unfold atEnd
  rw [if_pos h]
  split_ifs <;> rfl

/-- Spans are numbered one after the other. -/
def ids (t n : Nat) : Nat → List Id
  | 0 => []
  | k + 1 => (t, n) :: ids t (n + 1) k

theorem ids_append (t n k j : Nat) : ids t n (k + j) = ids t n k ++ ids t (n + k) j := by
  induction k generalizing n with
  | zero => simp [ids]
  | succ k ih => rw [Nat.succ_add, ids, ids, ih]; rw [show n + 1 + k = n + (k + 1) by omega]; rfl

mutual
theorem act_opened (t : Nat) (cur : Option Id) (n : Nat) (a : Act) (hp : pureAct a) : n ≤ (traceAct t cur n a).2.1 ∧ openedIn (traceAct t cur n a).1 = ids t n ((traceAct t cur n a).2.1 - n) := by
  match a, hp with
  | .note k, _ => simp [traceAct, openedIn, ids]
  | .raise e, _ => simp [traceAct, openedIn, ids]
  | .make f, _ => simp [traceAct, openedIn, ids]
  | .lazy f, _ =>
    refine ⟨by simp [traceAct], ?_⟩
    rw [traceAct]
    show (t, n) :: openedIn _ = ids t n (n + 1 - n)
    rw [opened_atEnd, Nat.add_sub_cancel_left]; rfl
  | .attempt body, hp => simp only [pureAct] at hp; rw [traceAct]; exact acts_opened t cur n body hp
  | .consume body, hp => simp only [pureAct] at hp; rw [traceAct]; exact acts_opened t cur n body hp
  | .call f body, hp =>
    simp only [pureAct] at hp
    obtain ⟨h1, h2⟩ := acts_opened t (some (t, n)) (n + 1) body hp
    rw [traceAct]
    refine ⟨by dsimp only; omega, ?_⟩
    show (t, n) :: openedIn (_ ++ _) = _
    rw [opened_append, opened_atEnd, h2, List.append_nil]
    dsimp only
    rw [show (trace t (some (t, n)) (n + 1) body).2.1 - n = ((trace t (some (t, n)) (n + 1) body).2.1 - (n + 1)) + 1 by omega, ids]
  | .enter f body, hp => exact absurd hp (by simp [pureAct])
theorem acts_opened (t : Nat) (cur : Option Id) (n : Nat) (l : List Act) (hp : pure l) : n ≤ (trace t cur n l).2.1 ∧ openedIn (trace t cur n l).1 = ids t n ((trace t cur n l).2.1 - n) := by
  match l, hp with
  | [], _ => simp [trace, openedIn, ids]
  | a :: l, hp =>
    simp only [pure] at hp
    obtain ⟨h1, h2⟩ := act_opened t cur n a hp.1
    obtain ⟨h3, h4⟩ := acts_opened t cur (traceAct t cur n a).2.1 l hp.2
    rw [trace]
    split_ifs
    · refine ⟨by dsimp only; omega, ?_⟩
      dsimp only
      rw [opened_append, h2, h4]
      generalize (traceAct t cur n a).2.1 = m at *
      generalize (trace t cur m l).2.1 = j at *
      rw [show j - n = (m - n) + (j - m) by omega, ids_append, show n + (m - n) = m by omega]
    · exact ⟨h1, h2⟩
end

mutual
theorem act_closed (t : Nat) (cur : Option Id) (n : Nat) (a : Act) (hp : pureAct a) (he : endingAct a) : closedIn (traceAct t cur n a).1 ~ openedIn (traceAct t cur n a).1 := by
  match a, hp, he with
  | .note k, _, _ => simp [traceAct, openedIn, closedIn]
  | .raise e, _, _ => simp [traceAct, openedIn, closedIn]
  | .make f, _, _ => simp [traceAct, openedIn, closedIn]
  | .lazy f, _, he =>
    simp only [endingAct] at he
    rw [traceAct]
    show closedIn (atEnd f (t, n) none) ~ (t, n) :: openedIn _
    rw [opened_atEnd, closed_atEnd _ _ _ he]
  | .attempt body, hp, he => simp only [pureAct] at hp; simp only [endingAct] at he; rw [traceAct]; exact acts_closed t cur n body hp he
  | .consume body, hp, he => simp only [pureAct] at hp; simp only [endingAct] at he; rw [traceAct]; exact acts_closed t cur n body hp he
  | .call f body, hp, he =>
    simp only [pureAct] at hp
    simp only [endingAct] at he
    have h := acts_closed t (some (t, n)) (n + 1) body hp he.2
    rw [traceAct]
    show closedIn (_ ++ _) ~ (t, n) :: openedIn (_ ++ _)
    rw [closed_append, opened_append, opened_atEnd, closed_atEnd _ _ _ he.1, List.append_nil]
    exact (List.perm_append_comm).trans (h.cons _)
  | .enter f body, hp, _ => exact absurd hp (by simp [pureAct])
theorem acts_closed (t : Nat) (cur : Option Id) (n : Nat) (l : List Act) (hp : pure l) (he : ending l) : closedIn (trace t cur n l).1 ~ openedIn (trace t cur n l).1 := by
  match l, hp, he with
  | [], _, _ => simp [trace, openedIn, closedIn]
  | a :: l, hp, he =>
    simp only [pure] at hp
    simp only [ending] at he
    have h1 := act_closed t cur n a hp.1 he.1
    have h2 := acts_closed t cur (traceAct t cur n a).2.1 l hp.2 he.2
    rw [trace]
    split_ifs
    · dsimp only; rw [closed_append, opened_append]; exact h1.append h2
    · exact h1
end

theorem mem_ids (t n k : Nat) (s : Id) (h : s ∈ ids t n k) : n ≤ s.2 ∧ s.1 = t := by
  induction k generalizing n with
  | zero => cases h
  | succ k ih =>
    rcases List.mem_cons.1 h with rfl | h
    · exact ⟨Nat.le_refl _, rfl⟩
    · have := ih _ h; exact ⟨by omega, this.2⟩

theorem ids_nodup (t n k : Nat) : (ids t n k).Nodup := by
  induction k generalizing n with
  | zero => exact List.nodup_nil
  | succ k ih => exact List.nodup_cons.2 ⟨fun h => by have := (mem_ids _ _ _ _ h).1; dsimp only at this; omega, ih _⟩

/-- Every call has a span of its own, which is ended once: whatever is called, recursively, in whatever tasks, and whatever escapes. -/
theorem C119_own (progs : List (Option Id × List Act)) (hp : ∀ p ∈ progs, pure p.2) (he : ∀ p ∈ progs, ending p.2) (sched : List Nat) (hf : ∀ T ∈ (run progs sched).tasks, T.finished) :
    (((run progs sched).tasks).flatMap fun T => openedIn T.log).Nodup ∧ ∀ T ∈ (run progs sched).tasks, closedIn T.log ~ openedIn T.log := by
  have key : ∀ t T, (run progs sched).tasks[t]? = some T → ∃ k, openedIn T.log = ids t 0 k ∧ closedIn T.log ~ openedIn T.log := by
    intro t T hT
    have h := (run_tasks progs hp sched).2 t
    rw [hT] at h
    cases hq : progs[t]? with
    | none => rw [hq] at h; cases h
    | some p =>
      have hm := List.mem_of_getElem? hq
      have h1 := ((C119_trace progs hp sched t T p hq hT).2 (hf T (List.mem_of_getElem? hT))).1
      rw [h1]
      exact ⟨_, (acts_opened t p.1 0 p.2 (hp p hm)).2, acts_closed t p.1 0 p.2 (hp p hm) (he p hm)⟩
  refine ⟨?_, fun T hT => ?_⟩
  · generalize (run progs sched).tasks = l at key
    rw [List.nodup_flatMap]
    refine ⟨fun T hT => ?_, ?_⟩
    · obtain ⟨i, hi⟩ := List.getElem?_of_mem hT
      obtain ⟨k, h1, -⟩ := key i T hi
      rw [h1]; exact ids_nodup _ _ _
    · rw [List.pairwise_iff_getElem]
      intro i j hi hj hij
      obtain ⟨k, h1, -⟩ := key i l[i] (List.getElem?_eq_getElem hi)
      obtain ⟨k', h2, -⟩ := key j l[j] (List.getElem?_eq_getElem hj)
      show List.Disjoint (openedIn l[i].log) (openedIn l[j].log)
      rw [h1, h2]
      intro s hs hs'
      have e1 := (mem_ids _ _ _ _ hs).2
      have e2 := (mem_ids _ _ _ _ hs').2
      omega
  · obtain ⟨i, hi⟩ := List.getElem?_of_mem hT
    exact (key i T hi).choose_spec.2

/-! ## Where it goes wrong -/

theorem trace_append (t : Nat) (cur : Option Id) (l m : List Act) (n : Nat) (h : (trace t cur n l).2.2 = none) :
    (trace t cur n (l ++ m)).1 = (trace t cur n l).1 ++ (trace t cur (trace t cur n l).2.1 m).1 := by
  induction l generalizing n with
  | nil => simp [trace]
  | cons a l ih =>
    rw [List.cons_append]
    rw [trace] at h
    rw [trace, trace]
    by_cases h1 : (traceAct t cur n a).2.2 = none
    · rw [if_pos h1] at h ⊢
      rw [if_pos h1]
      dsimp only at h ⊢
      rw [ih _ h, List.append_assoc]
    · rw [if_neg h1] at h
      exact absurd h h1

theorem pure_append {l m : List Act} (hl : pure l) (hm : pure m) : pure (l ++ m) := by
  induction l with
  | nil => exact hm
  | cons a l ih => simp only [pure, List.cons_append] at hl ⊢; exact ⟨hl.1, ih hl.2⟩

/-- Refuted: the work of a decorated function is done in its span. A function that does its work when its result is consumed has its span started and ended before; the work is done in the consumer's context,
whatever the work and whatever happens before it. -/
theorem C119_lazy_violated (f : Fn) (hf : f.endOnExit = true) (cur : Option Id) (before work : List Act) (hp : pure before) (hw : pure work) (hb : (trace 0 cur 1 before).2.2 = none) (sched : List Nat) (T : Task)
    (hT : (run [(cur, .lazy f :: (before ++ [.consume work]))] sched).tasks[0]? = some T) (hfin : T.finished) :
    T.log = [.opened (0, 0) f.name (f.context.getD cur), .closed (0, 0)] ++ (trace 0 cur 1 before).1 ++ (trace 0 cur (trace 0 cur 1 before).2.1 work).1 := by
  have h := ((C119_trace [(cur, .lazy f :: (before ++ [.consume work]))] (by
    intro p hm
    rw [List.mem_singleton] at hm
    subst hm
    simp only [pure, pureAct, true_and]
    exact pure_append hp (by simp only [pure, pureAct, and_true]; exact hw)) sched 0 T _ rfl hT).2 hfin).1
  rw [h, trace]
  simp only [traceAct, if_true]
  rw [trace_append _ _ _ _ _ hb]
  simp only [atEnd, hf, if_true, trace, traceAct]
  split_ifs <;> simp_all

/-- Refuted: an object that decorates a function can be used in a `with` statement too. Afterwards the function cannot be called: it raises, and its body does not run. -/
theorem C119_reuse_violated (f : Fn) (body : List Act) : ∃ sched T, (run [(none, [.enter f [], .call f body])] sched).tasks[0]? = some T ∧ T.finished ∧ T.raising = some .error ∧
    T.log = [.opened (0, 0) f.name (f.context.getD none)] ++ atEnd f (0, 0) none := by
  refine ⟨[0, 0, 0], ⟨[], none, 1, some .error, [.opened (0, 0) f.name (f.context.getD none)] ++ atEnd f (0, 0) none⟩, ?_, rfl, rfl, rfl⟩
  simp [run, step, stepTask, Task.init, Task.open, Task.close, atEnd]

/-! ## Examples -/

def exF (n : Nat) : Fn := ⟨n, n, none, true, true, true⟩

/-- Two tasks that interleave; the first calls a function that calls itself and raises, and catches the exception. -/
example :
    let progs : List (Option Id × List Act) := [(none, [.attempt [.call (exF 1) [.note 1, .call (exF 1) [.note 2, .raise .error], .note 3]], .note 4]), (some (7, 7), [.make (exF 2), .call (exF 2) [.note 5]])]
    (∀ p ∈ progs, pure p.2) ∧ (∀ p ∈ progs, ending p.2) := by
  simp [pure, pureAct, ending, endingAct, exF]

example :
    let progs : List (Option Id × List Act) := [(none, [.attempt [.call (exF 1) [.note 1, .call (exF 1) [.note 2, .raise .error], .note 3]], .note 4]), (some (7, 7), [.make (exF 2), .call (exF 2) [.note 5]])]
    (run progs [0, 1, 0, 1, 0, 1, 0, 1, 0, 0, 0, 0, 0, 0, 0, 1]).tasks.map (·.log) =
      [[.opened (0, 0) 1 none, .note 1 (some (0, 0)), .opened (0, 1) 1 (some (0, 0)), .note 2 (some (0, 1)), .recorded (0, 1), .errored (0, 1), .closed (0, 1), .recorded (0, 0), .errored (0, 0), .closed (0, 0),
        .note 4 none], [.opened (1, 0) 2 (some (7, 7)), .note 5 (some (1, 0)), .closed (1, 0)]] ∧
    (run progs [0, 1, 0, 1, 0, 1, 0, 1, 0, 0, 0, 0, 0, 0, 0, 1]).tasks.map (·.code.length) = [0, 0] := by
  decide +kernel

/-- A generator function: the hypotheses of `C119_lazy_violated` hold, and its notes are made without its span. -/
example :
    (run [(some (7, 7), [.lazy (exF 1), .call (exF 2) [.note 1], .consume [.note 2, .call (exF 3) [.note 3]]])] (List.replicate 12 0)).tasks.map (·.log) =
      [[.opened (0, 0) 1 (some (7, 7)), .closed (0, 0), .opened (0, 1) 2 (some (7, 7)), .note 1 (some (0, 1)), .closed (0, 1), .note 2 (some (7, 7)), .opened (0, 2) 3 (some (7, 7)), .note 3 (some (0, 2)), .closed (0, 2)]] ∧
    (run [(some (7, 7), [.lazy (exF 1), .call (exF 2) [.note 1], .consume [.note 2, .call (exF 3) [.note 3]]])] (List.replicate 12 0)).tasks.map (·.code.length) = [0] := by
  decide +kernel

end Decorated
end Otel
