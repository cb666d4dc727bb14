import Verif.Spec.Measured
import Verif.Props.Recording
/-!
# C101: from the measurement to the exporter
-/
namespace Otel
namespace Measured
open Recording (Slot Env Call Reply Micro)
open scoped List
variable {K I P S : Type} [DecidableEq K] [DecidableEq P]

/-! ## Steps -/

/-- The effects of a step. -/
inductive Eff (env : Env K I (Option P) S) (st : State K I P S) (t : Nat) (reply : Reply I) (ok : Bool) : State K I P S → Prop
  | start (r b) (h1 : st.phase t = .want r b) (h2 : st.busy r = none) : Eff env st t reply ok
      { st with busy := Function.update st.busy r (some t), phase := Function.update st.phase t (.sending r b), exports := st.exports ++ [.start t r b] }
  | done (r b) (h1 : st.phase t = .sending r b) : Eff env st t reply ok
      { st with busy := Function.update st.busy r none, phase := Function.update st.phase t .idle, exports := st.exports ++ [.done t r b ok] }
  | core (m rest core' code) (h1 : st.core.threads[t]? = some (m :: rest)) (h2 : Recording.exec env st.core t reply m = some (core', code))
      (h3 : st.phase t = .idle ∨ ∃ r b, st.phase t = .took r b) : Eff env st t reply ok (handle st t m { core' with threads := st.core.threads.set t (code ++ rest) })

theorem advance_eff {env : Env K I (Option P) S} {st st' : State K I P S} {t : Nat} {reply : Reply I} {ok : Bool} (h : advance env st t reply ok = some st') : Eff env st t reply ok st' := by
  have core : (st.phase t = .idle ∨ ∃ r b, st.phase t = .took r b) →
      (match st.core.threads[t]? with
        | some (m :: _) => match Recording.exec env st.core t reply m with
          | some _ => some (handle st t m (Recording.step env st.core (t, reply)))
          | none => none
        | _ => none) = some st' → Eff env st t reply ok st' := by
    intro h3 h
    split at h
    · rename_i m rest h1
      split at h
      · rename_i c h2
        obtain ⟨core', code⟩ := c
        obtain rfl := Option.some.inj h
        have e : Recording.step env st.core (t, reply) = { core' with threads := st.core.threads.set t (code ++ rest) } := by
          simp only [Recording.step, h1, h2]
          rw [Recording.exec_threads h2]
        rw [e]
        exact .core m rest core' code h1 h2 h3
      · cases h
    · cases h
  unfold advance at h
  split at h
  · rename_i r b hp
    split at h
    · rename_i hb
      obtain rfl := Option.some.inj h
      exact .start r b hp hb
    · cases h
  · rename_i r b hp
    obtain rfl := Option.some.inj h
    exact .done r b hp
  · rename_i p h1 h2
    refine core ?_ h
    cases hp : st.phase t with
    | idle => exact .inl rfl
    | took r b => exact .inr ⟨r, b, rfl⟩
    | want r b => exact absurd hp (h1 r b)
    | sending r b => exact absurd hp (h2 r b)

/-- Induction over a schedule. -/
theorem run_inv {env : Env K I (Option P) S} {progs : List (List (Call I))} (Q : State K I P S → Prop) (h0 : Q (.init progs))
    (hs : ∀ st t reply ok st', Q st → Eff env st t reply ok st' → Q st') (sched : List (Nat × Reply I × Bool)) : Q (run env progs sched) := by
  have : ∀ st : State K I P S, Q st → Q (sched.foldl (step env) st) := by
    induction sched with
    | nil => exact fun st h => h
    | cons mv sched ih =>
      intro st h
      refine ih _ ?_
      unfold step
      cases e : advance env st mv.1 mv.2.1 mv.2.2 with
      | none => exact h
      | some st' => exact hs _ _ _ _ _ h (advance_eff e)
  exact this _ h0

@[simp] theorem handle_core (st : State K I P S) (t : Nat) (m : Micro I) (core : Recording.State K I (Option P) S) : (handle st t m core).core = core := by
  unfold handle; split <;> rfl

@[simp] theorem handle_busy (st : State K I P S) (t : Nat) (m : Micro I) (core : Recording.State K I (Option P) S) : (handle st t m core).busy = st.busy := by
  unfold handle; split <;> rfl

@[simp] theorem handle_exports (st : State K I P S) (t : Nat) (m : Micro I) (core : Recording.State K I (Option P) S) : (handle st t m core).exports = st.exports := by
  unfold handle; split <;> rfl

theorem handle_phase_ne (st : State K I P S) (t : Nat) (m : Micro I) (core : Recording.State K I (Option P) S) {u : Nat} (h : u ≠ t) : (handle st t m core).phase u = st.phase u := by
  unfold handle; split <;> simp [Function.update_of_ne h]

theorem handle_acc_ne (st : State K I P S) (t : Nat) (m : Micro I) (core : Recording.State K I (Option P) S) {u : Nat} (h : u ≠ t) : (handle st t m core).acc u = st.acc u := by
  unfold handle; split <;> simp [Function.update_of_ne h]

/-- The SDK underneath runs as in `Verif.Model.Recording`, in a schedule with the same callbacks. -/
theorem core_run (env : Env K I (Option P) S) (progs : List (List (Call I))) (sched : List (Nat × Reply I × Bool)) :
    ∃ sched', (run env progs sched).core = Recording.run env progs sched' ∧ ∀ mv ∈ sched', ∃ ok, (mv.1, mv.2, ok) ∈ sched := by
  have : ∀ (st : State K I P S) (done : List (Nat × Reply I)), st.core = Recording.run env progs done →
      ∃ more, (sched.foldl (step env) st).core = Recording.run env progs (done ++ more) ∧ ∀ mv ∈ more, ∃ ok, (mv.1, mv.2, ok) ∈ sched := by
    induction sched with
    | nil => exact fun st done h => ⟨[], by simpa using h, by simp⟩
    | cons mv sched ih =>
      intro st done h
      have hcase : (step env st mv).core = Recording.run env progs done ∨ (step env st mv).core = Recording.run env progs (done ++ [(mv.1, mv.2.1)]) := by
        unfold step
        cases e : advance env st mv.1 mv.2.1 mv.2.2 with
        | none => exact .inl h
        | some st' =>
          simp only [Option.getD_some]
          cases advance_eff e with
          | start r b => exact .inl h
          | done r b => exact .inl h
          | core m rest core' code h1 h2 h3 =>
            right
            rw [handle_core]
            unfold Recording.run
            rw [List.foldl_append, List.foldl_cons, List.foldl_nil]
            show _ = Recording.step env (Recording.run env progs done) _
            rw [← h]
            simp only [Recording.step, h1, h2]
            rw [Recording.exec_threads h2]
      rcases hcase with hc | hc
      · obtain ⟨more, e1, e2⟩ := ih _ _ hc
        exact ⟨more, e1, fun mv' h' => (e2 mv' h').imp fun ok h => List.mem_cons_of_mem _ h⟩
      · obtain ⟨more, e1, e2⟩ := ih _ _ hc
        refine ⟨(mv.1, mv.2.1) :: more, by simpa using e1, fun mv' h' => ?_⟩
        rcases List.mem_cons.1 h' with rfl | h'
        · exact ⟨mv.2.2, List.mem_cons_self⟩
        · exact (e2 mv' h').imp fun ok h => List.mem_cons_of_mem _ h
  obtain ⟨more, e1, e2⟩ := this (.init progs) [] rfl
  exact ⟨more, e1, e2⟩

/-! ## The shape of the code -/

/-- Collections are not inside each other, points are taken in collections only, and after a collection come the two releases; `b`: the reader that is being collected. -/
def Sh : Option Nat → List (Micro I) → Prop
  | b, [] => b = none
  | b, .began r :: k => b = none ∧ Sh (some r) k
  | b, .ended r :: k => b = some r ∧ (∃ k', k = .unlock (.outer r) :: .unlock .consumer :: k') ∧ Sh none k
  | b, .iterStart _ _ :: k => b ≠ none ∧ Sh b k
  | b, .iter _ _ _ _ :: k => b ≠ none ∧ Sh b k
  | b, .call _ :: k => b = none ∧ Sh b k
  | b, .callbacks _ _ :: k => b = none ∧ Sh b k
  | b, .observe _ _ _ :: k => Sh b k
  | b, .addAsync _ :: k => Sh b k
  | b, .lookOuter _ _ _ :: k => Sh b k
  | b, .putOuter _ _ :: k => Sh b k
  | b, .lookInner _ _ :: k => Sh b k
  | b, .putInner _ _ :: k => Sh b k
  | b, .aggregate _ _ :: k => Sh b k
  | b, .lock _ :: k => Sh b k
  | b, .unlock _ :: k => Sh b k

/-- The reader that is being collected, after this piece of code. -/
def into (b : Option Nat) : Micro I → Option Nat
  | .began r => some r
  | .ended _ => none
  | _ => b

/-- Code that may stand anywhere, anywhere outside a collection, or anywhere inside one. -/
def Fits (b : Option Nat) : Micro I → Prop
  | .began _ | .ended _ => False
  | .iterStart _ _ | .iter _ _ _ _ => b ≠ none
  | .call _ | .callbacks _ _ => b = none
  | _ => True

theorem Sh.fits {b : Option Nat} {k : List (Micro I)} (hk : Sh b k) (c : List (Micro I)) (hc : ∀ m ∈ c, Fits b m) : Sh b (c ++ k) := by
  induction c with
  | nil => exact hk
  | cons m c ih =>
    have ih := ih fun m hm => hc m (List.mem_cons_of_mem _ hm)
    have hm := hc m List.mem_cons_self
    cases m <;> first | exact ih | exact absurd hm id | exact ⟨hm, ih⟩

theorem Sh.own {env : Env K I (Option P) S} {st st' : Recording.State K I (Option P) S} {t : Nat} {reply : Reply I} {m : Micro I} {rest code : List (Micro I)} {b : Option Nat}
    (h : Recording.exec env st t reply m = some (st', code)) (hb : Sh b (m :: rest)) : Sh (into b m) (code ++ rest) := by
  have feeds : ∀ r i x, ∀ m ∈ Recording.feeds env r i x, Fits b m := by
    intro r i x m hm
    obtain ⟨j, _, rfl⟩ := List.mem_map.1 hm
    trivial
  cases m with
  | call c =>
    obtain ⟨rfl, hr⟩ := hb
    cases c with
    | record i x =>
      simp only [Recording.exec, Option.some.injEq, Prod.mk.injEq] at h
      rw [← h.2]
      refine hr.fits _ fun m hm => ?_
      obtain ⟨j, _, rfl⟩ := List.mem_map.1 hm
      trivial
    | collect r now =>
      simp only [Recording.exec, Option.some.injEq, Prod.mk.injEq] at h
      rw [← h.2]
      exact ⟨rfl, rfl, by simp, rfl, ⟨_, rfl⟩, hr⟩
    | register a =>
      simp only [Recording.exec, Option.some.injEq, Prod.mk.injEq] at h
      rw [← h.2]
      exact hr
  | callbacks r idx =>
    obtain ⟨rfl, hr⟩ := hb
    simp only [Recording.exec, Option.some.injEq, Prod.mk.injEq] at h
    rw [← h.2]
    split
    · exact hr
    · refine hr.fits _ fun m hm => ?_
      rw [List.mem_append, List.mem_singleton] at hm
      rcases hm with hm | rfl
      · obtain ⟨x, _, rfl⟩ := List.mem_map.1 hm
        rcases x with c | ⟨i, x⟩
        · exact rfl
        · trivial
      · exact rfl
  | lock l => simp only [Recording.exec] at h; split at h <;> simp at h; rw [h.2]; exact hb
  | iter l n idx now =>
    obtain ⟨hne, hr⟩ := hb
    refine hr.fits _ fun m hm => ?_
    rcases Recording.iter_code h m hm with ⟨_, rfl⟩ | ⟨_, rfl⟩ | ⟨_, _, rfl⟩ | ⟨_, _, _, _, rfl⟩
    · trivial
    · trivial
    · exact hne
    · exact hne
  | iterStart l now =>
    simp only [Recording.exec, Option.some.injEq, Prod.mk.injEq] at h
    rw [← h.2]
    exact hb
  | lookInner s x =>
    simp only [Recording.exec, Option.some.injEq, Prod.mk.injEq] at h
    rw [← h.2]
    split <;> exact hb
  | lookOuter r i x =>
    simp only [Recording.exec, Option.some.injEq, Prod.mk.injEq] at h
    rw [← h.2]
    split
    · exact Sh.fits (show Sh b rest from hb) _ (feeds r i x)
    · exact Sh.fits (k := rest) (show Sh b rest from hb) (Recording.feeds env r i x) (feeds r i x)
  | observe r i x =>
    simp only [Recording.exec, Option.some.injEq, Prod.mk.injEq] at h
    rw [← h.2]
    exact hb
  | began r => simp only [Recording.exec, Option.some.injEq, Prod.mk.injEq] at h; rw [← h.2]; exact hb.2
  | ended r => simp only [Recording.exec, Option.some.injEq, Prod.mk.injEq] at h; rw [← h.2]; exact hb.2.2
  | addAsync a => simp only [Recording.exec, Option.some.injEq, Prod.mk.injEq] at h; rw [← h.2]; exact hb
  | putOuter r i => simp only [Recording.exec, Option.some.injEq, Prod.mk.injEq] at h; rw [← h.2]; exact hb
  | putInner s x => simp only [Recording.exec, Option.some.injEq, Prod.mk.injEq] at h; rw [← h.2]; exact hb
  | aggregate s x => simp only [Recording.exec, Option.some.injEq, Prod.mk.injEq] at h; rw [← h.2]; exact hb
  | unlock l => simp only [Recording.exec, Option.some.injEq, Prod.mk.injEq] at h; rw [← h.2]; exact hb

/-! ## Collections in the history -/

/-- What thread `t` has taken in the collection under way, after these events. -/
def curAfter (t : Nat) (cur : List (Pt K P)) : List (Recording.Ev K I (Option P)) → List (Pt K P)
  | [] => cur
  | .began u _ :: l => if u = t then curAfter t [] l else curAfter t cur l
  | .collected u s k _ (some p) :: l => if u = t then curAfter t (cur ++ [(s, k, p)]) l else curAfter t cur l
  | .ended u _ :: l => if u = t then curAfter t [] l else curAfter t cur l
  | _ :: l => curAfter t cur l

omit [DecidableEq K] [DecidableEq P] in
theorem curAfter_append (t : Nat) (cur : List (Pt K P)) (l m : List (Recording.Ev K I (Option P))) : curAfter t cur (l ++ m) = curAfter t (curAfter t cur l) m := by
  induction l generalizing cur with
  | nil => rfl
  | cons e l ih =>
    cases e with
    | collected u s k now o => cases o <;> simp only [List.cons_append, curAfter] <;> first | exact ih _ | (split <;> exact ih _)
    | began u r => simp only [List.cons_append, curAfter]; split <;> exact ih _
    | ended u r => simp only [List.cons_append, curAfter]; split <;> exact ih _
    | _ => exact ih _

omit [DecidableEq K] [DecidableEq P] in
theorem collectionsFrom_append (t : Nat) (cur : List (Pt K P)) (l m : List (Recording.Ev K I (Option P))) :
    collectionsFrom t cur (l ++ m) = collectionsFrom t cur l ++ collectionsFrom t (curAfter t cur l) m := by
  induction l generalizing cur with
  | nil => rfl
  | cons e l ih =>
    cases e with
    | collected u s k now o => cases o <;> simp only [List.cons_append, curAfter, collectionsFrom] <;> first | exact ih _ | (split <;> exact ih _)
    | began u r => simp only [List.cons_append, curAfter, collectionsFrom]; split <;> exact ih _
    | ended u r =>
      simp only [List.cons_append, curAfter, collectionsFrom]
      split
      · split
        · exact ih _
        · rw [ih]; rfl
      · exact ih _
    | _ => exact ih _

/-- The collections of thread `t` follow each other and it takes points in collections only; gives the reader that is being collected. -/
def brk (t : Nat) : Option Nat → List (Recording.Ev K I (Option P)) → Option (Option Nat)
  | o, [] => some o
  | o, .began u r :: l => if u = t then (if o = none then brk t (some r) l else none) else brk t o l
  | o, .ended u r :: l => if u = t then (if o = some r then brk t none l else none) else brk t o l
  | o, .collected u _ _ _ (some _) :: l => if u = t ∧ o = none then none else brk t o l
  | o, _ :: l => brk t o l

omit [DecidableEq K] [DecidableEq P] in
theorem brk_append (t : Nat) (o : Option Nat) (l m : List (Recording.Ev K I (Option P))) : brk t o (l ++ m) = (brk t o l).bind fun o' => brk t o' m := by
  induction l generalizing o with
  | nil => rfl
  | cons e l ih =>
    cases e with
    | collected u s k now p => cases p <;> simp only [List.cons_append, brk] <;> first | exact ih _ | (split <;> first | rfl | exact ih _)
    | began u r => simp only [List.cons_append, brk]; split <;> first | exact ih _ | (split <;> first | rfl | exact ih _)
    | ended u r => simp only [List.cons_append, brk]; split <;> first | exact ih _ | (split <;> first | rfl | exact ih _)
    | _ => exact ih _

omit [DecidableEq K] [DecidableEq P] in
/-- Inside a collection there is no other. -/
theorem brk_inside {t r : Nat} {mid : List (Recording.Ev K I (Option P))} {o : Option Nat} (h : brk t (some r) mid = some o) (hm : .ended t r ∉ mid) :
    (∀ r', .began t r' ∉ mid) ∧ (∀ r', .ended t r' ∉ mid) ∧ o = some r := by
  induction mid with
  | nil => exact ⟨by simp, by simp, (Option.some.inj h).symm⟩
  | cons e mid ih =>
    have hm' : .ended t r ∉ mid := fun h => hm (List.mem_cons_of_mem _ h)
    cases e with
    | began u r' =>
      simp only [brk] at h
      by_cases e : u = t
      · simp [e] at h
      · rw [if_neg e] at h
        obtain ⟨i1, i2, i3⟩ := ih h hm'
        exact ⟨fun r'' hh => by simp [Ne.symm e, i1] at hh, fun r'' hh => by simp [i2] at hh, i3⟩
    | ended u r' =>
      simp only [brk] at h
      by_cases e : u = t
      · rw [if_pos e] at h
        by_cases er : r = r'
        · subst e er; exact absurd List.mem_cons_self hm
        · rw [if_neg (by simpa using er)] at h; cases h
      · rw [if_neg e] at h
        obtain ⟨i1, i2, i3⟩ := ih h hm'
        exact ⟨fun r'' hh => by simp [i1] at hh, fun r'' hh => by simp [Ne.symm e, i2] at hh, i3⟩
    | collected u s k now p =>
      have h : brk t (some r) mid = some o := by cases p <;> simpa [brk] using h
      obtain ⟨i1, i2, i3⟩ := ih h hm'
      exact ⟨fun r'' hh => by simp [i1] at hh, fun r'' hh => by simp [i2] at hh, i3⟩
    | _ =>
      obtain ⟨i1, i2, i3⟩ := ih h hm'
      exact ⟨fun r'' hh => by simp [i1] at hh, fun r'' hh => by simp [i2] at hh, i3⟩

/-- Where a thread's next code is, if it has a result. -/
def Releasing (r : Nat) (code : List (Micro I)) : Prop := (∃ k, code = .unlock (.outer r) :: .unlock .consumer :: k) ∨ ∃ k, code = .unlock .consumer :: k

/-- The result that a thread holds and has not given to the exporter. -/
def pendingOf : Phase K P → List (Nat × List (Pt K P))
  | .took r b => if b = [] then [] else [(r, b)]
  | .want r b => [(r, b)]
  | _ => []

/-- What holds of thread `t`. -/
structure Thr (env : Env K I (Option P) S) (st : State K I P S) (t : Nat) : Prop where
  shape : ∃ b, brk t none st.core.log = some b ∧ ∀ code, st.core.threads[t]? = some code → Sh b code ∧ (b = none → st.acc t = [])
  cur : st.acc t = curAfter t [] st.core.log
  took : ∀ r b, st.phase t = .took r b → ∃ code, st.core.threads[t]? = some code ∧ Releasing r code ∧ st.acc t = []
  colls : collections t st.core.log = startsBy t st.exports ++ pendingOf (st.phase t)
  full : ∀ r b, st.phase t = .want r b ∨ st.phase t = .sending r b → b ≠ []
  absent : st.core.threads[t]? = none → st.phase t = .idle ∧ st.acc t = []

/-- The invariant. -/
structure Inv (env : Env K I (Option P) S) (progs : List (List (Call I))) (st : State K I P S) : Prop where
  safe : Recording.Safe env st.core
  len : st.core.threads.length = progs.length
  thr : ∀ t, Thr env st t

/-- An event that is not about a collection by thread `u`. -/
def Neutral (u : Nat) : Recording.Ev K I (Option P) → Prop
  | .began v _ | .ended v _ => v ≠ u
  | .collected v _ _ _ (some _) => v ≠ u
  | _ => True

omit [DecidableEq K] [DecidableEq P] in
theorem neutral {u : Nat} {evs : List (Recording.Ev K I (Option P))} (h : ∀ e ∈ evs, Neutral u e) (cur : List (Pt K P)) :
    curAfter u cur evs = cur ∧ collectionsFrom u cur evs = [] ∧ points u evs = [] ∧ ∀ o, brk u o evs = some o := by
  induction evs with
  | nil => exact ⟨rfl, rfl, rfl, fun _ => rfl⟩
  | cons e evs ih =>
    obtain ⟨i1, i2, i3, i4⟩ := ih fun e he => h e (List.mem_cons_of_mem _ he)
    have he := h e List.mem_cons_self
    cases e with
    | began v r => have he : v ≠ u := he; simp only [curAfter, collectionsFrom, brk, if_neg he]; exact ⟨i1, i2, i3, i4⟩
    | ended v r => have he : v ≠ u := he; simp only [curAfter, collectionsFrom, brk, if_neg he]; exact ⟨i1, i2, i3, i4⟩
    | collected v s k now o =>
      cases o with
      | none => exact ⟨i1, i2, i3, i4⟩
      | some p =>
        have he : v ≠ u := he
        simp only [curAfter, collectionsFrom, brk, if_neg he, he, false_and, if_false]
        refine ⟨i1, i2, ?_, i4⟩
        simp only [points, List.filterMap_cons, if_neg he] at i3 ⊢
        exact i3
    | _ => exact ⟨i1, i2, i3, i4⟩

omit [DecidableEq P] in
/-- What a step of thread `t` in the SDK adds to the history: nothing about collections; the beginning or the end of one; a point. -/
theorem change_evs {env : Env K I (Option P) S} {st st' : Recording.State K I (Option P) S} {t : Nat} {m : Micro I} (hc : Recording.Change env st st' t m) :
    ∃ evs, st'.log = st.log ++ evs ∧ (∀ u, u ≠ t → ∀ e ∈ evs, Neutral u e) ∧
      (((∀ e ∈ evs, Neutral t e) ∧ (∀ r, m ≠ .began r) ∧ ∀ r, m ≠ .ended r) ∨ (∃ r, m = .began r ∧ evs = [.began t r]) ∨ (∃ r, m = .ended r ∧ evs = [.ended t r]) ∨
        ∃ s n idx now k p, m = .iter (.inner s) n idx now ∧ evs = [.collected t s k now (some p)]) := by
  cases hc with
  | quiet _ h1 _ _ _ _ h6 h7 => exact ⟨[], by simp [h1], by simp, .inl ⟨by simp, h6, h7⟩⟩
  | instrument _ _ _ h1 => exact ⟨[], by simp [h1], by simp, .inl ⟨by simp, by simp, by simp⟩⟩
  | called i x h1 => exact ⟨_, h1, by simp [Neutral], .inl ⟨by simp [Neutral], by simp, by simp⟩⟩
  | observed r i x h1 => exact ⟨_, h1, by simp [Neutral], .inl ⟨by simp [Neutral], by simp, by simp⟩⟩
  | began r h1 => exact ⟨_, h1, by intro u hu; simpa [Neutral] using Ne.symm hu, .inr (.inl ⟨r, rfl, rfl⟩)⟩
  | ended r h1 => exact ⟨_, h1, by intro u hu; simpa [Neutral] using Ne.symm hu, .inr (.inr (.inl ⟨r, rfl, rfl⟩))⟩
  | created s x _ h1 => exact ⟨_, h1, by simp [Neutral], .inl ⟨by simp [Neutral], by simp, by simp⟩⟩
  | fed s x _ h1 => exact ⟨_, h1, by simp [Neutral], .inl ⟨by simp [Neutral], by simp, by simp⟩⟩
  | collected s n idx now k a _ h1 =>
    cases ho : (env.coll s a now).1 with
    | none => rw [ho] at h1; exact ⟨_, h1, by simp [Neutral], .inl ⟨by simp [Neutral], by simp, by simp⟩⟩
    | some p => rw [ho] at h1; exact ⟨_, h1, by intro u hu; simpa [Neutral] using Ne.symm hu, .inr (.inr (.inr ⟨s, n, idx, now, k, p, rfl, rfl⟩))⟩

/-- A step in the SDK that does not end a collection or release the consumer's lock. -/
theorem handle_plain (st : State K I P S) (t : Nat) (m : Micro I) (core : Recording.State K I (Option P) S) (h1 : ∀ r, m ≠ .ended r) (h2 : m ≠ .unlock .consumer) :
    handle st t m core = { st with core := core, acc := Function.update st.acc t (st.acc t ++ points t (core.log.drop st.core.log.length)) } := by
  unfold handle
  split
  · exact absurd rfl (h1 _)
  · exact absurd rfl h2
  · rfl

omit [DecidableEq K] [DecidableEq P] in
theorem startsBy_append (t : Nat) (l m : List (XEv K P)) : startsBy t (l ++ m) = startsBy t l ++ startsBy t m := by simp [startsBy]

theorem inv_step {env : Env K I (Option P) S} {progs : List (List (Call I))} {st st' : State K I P S} {t : Nat} {reply : Reply I} {ok : Bool} (hi : Inv env progs st)
    (he : Eff env st t reply ok st') : Inv env progs st' := by
  cases he with
  | start r b h1 h2 =>
    refine ⟨hi.safe, hi.len, fun u => ?_⟩
    have hu := hi.thr u
    by_cases e : u = t
    · subst e
      refine ⟨hu.shape, hu.cur, ?_, ?_, ?_, fun h => ?_⟩
      · intro r' b' h; simp at h
      · have := hu.colls
        rw [h1] at this
        simp only [Function.update_self, startsBy_append, pendingOf] at this ⊢
        rw [this]; simp [startsBy]
      · intro r' b' h
        simp only [Function.update_self, reduceCtorEq, Phase.sending.injEq, false_or] at h
        exact h.2 ▸ hu.full r b (.inl h1)
      · have := (hu.absent h).1; rw [h1] at this; cases this
    · refine ⟨hu.shape, hu.cur, ?_, ?_, ?_, fun h => ?_⟩
      · intro r' b' h; exact hu.took r' b' (by simpa [Function.update_of_ne e] using h)
      · show collections u st.core.log = startsBy u (st.exports ++ [.start t r b]) ++ pendingOf (Function.update st.phase t _ u)
        rw [startsBy_append, Function.update_of_ne e]
        refine hu.colls.trans ?_
        simp [startsBy, Ne.symm e]
      · intro r' b' h; exact hu.full r' b' (by simpa [Function.update_of_ne e] using h)
      · simpa [Function.update_of_ne e] using hu.absent h
  | done r b h1 =>
    refine ⟨hi.safe, hi.len, fun u => ?_⟩
    have hu := hi.thr u
    by_cases e : u = t
    · subst e
      refine ⟨hu.shape, hu.cur, ?_, ?_, ?_, fun h => ?_⟩
      · intro r' b' h; simp at h
      · have := hu.colls
        rw [h1] at this
        simp only [Function.update_self, startsBy_append, pendingOf] at this ⊢
        rw [this]; simp [startsBy]
      · intro r' b' h; simp at h
      · have := (hu.absent h).1; rw [h1] at this; cases this
    · refine ⟨hu.shape, hu.cur, ?_, ?_, ?_, fun h => ?_⟩
      · intro r' b' h; exact hu.took r' b' (by simpa [Function.update_of_ne e] using h)
      · show collections u st.core.log = startsBy u (st.exports ++ [.done t r b ok]) ++ pendingOf (Function.update st.phase t _ u)
        rw [startsBy_append, Function.update_of_ne e]
        refine hu.colls.trans ?_
        simp [startsBy]
      · intro r' b' h; exact hu.full r' b' (by simpa [Function.update_of_ne e] using h)
      · simpa [Function.update_of_ne e] using hu.absent h
  | core m rest core' code h1 h2 h3 =>
    have hsafe : Recording.Safe env { core' with threads := st.core.threads.set t (code ++ rest) } := Recording.safe_step hi.safe h1 h2
    have hlt : t < st.core.threads.length := (List.getElem?_eq_some_iff.1 h1).1
    obtain ⟨evs, hlog, hother, hown⟩ := change_evs (Recording.exec_change hi.safe h1 h2)
    refine ⟨by rw [handle_core]; exact hsafe, by rw [handle_core]; simpa using hi.len, fun u => ?_⟩
    have hu := hi.thr u
    by_cases e : u = t
    · subst e
      have hdrop : (core'.log.drop st.core.log.length) = evs := by rw [hlog]; simp
      have hcode : (st.core.threads.set u (code ++ rest))[u]? = some (code ++ rest) := by rw [List.getElem?_set_self hlt]
      obtain ⟨b, hb0, hb⟩ := hu.shape
      obtain ⟨hb1, hb2⟩ := hb _ h1
      have hown' := hb1.own h2
      rcases hown with ⟨hn, hnb, hne⟩ | ⟨r, rfl, rfl⟩ | ⟨r, rfl, rfl⟩ | ⟨s, n, idx, now, k, p, rfl, rfl⟩
      · have hinto : into b m = b := by
          cases m <;> first | rfl | exact absurd rfl (hnb _) | exact absurd rfl (hne _)
        rw [hinto] at hown'
        obtain ⟨n1, n2, n3, n4⟩ := neutral hn (st.acc u)
        by_cases hm : m = .unlock .consumer
        · subst hm
          rcases h3 with h3 | ⟨r, b', h3⟩
          · have hh : handle st u (.unlock .consumer) { core' with threads := st.core.threads.set u (code ++ rest) } =
                { st with core := { core' with threads := st.core.threads.set u (code ++ rest) }, acc := Function.update st.acc u (st.acc u ++ points u (core'.log.drop st.core.log.length)) } := by
              unfold handle; rw [h3]
            rw [hh, hdrop, n3, List.append_nil, Function.update_eq_self]
            refine ⟨?_, ?_, ?_, ?_, ?_, fun h => ?_⟩
            · refine ⟨b, ?_, fun c hc => ?_⟩
              · show brk u none core'.log = _; rw [hlog, brk_append, hb0]; exact n4 b
              · rw [hcode] at hc; obtain rfl := Option.some.inj hc; exact ⟨hown', hb2⟩
            · show st.acc u = curAfter u [] core'.log; rw [hlog, curAfter_append, ← hu.cur, n1]
            · intro r' b'' h; rw [show st.phase u = .took r' b'' from h] at h3; cases h3
            · show collections u core'.log = _
              rw [hlog, collections, collectionsFrom_append, ← hu.cur, n2, List.append_nil]; exact hu.colls
            · exact hu.full
            · rw [hcode] at h; cases h
          · have hh : handle st u (.unlock .consumer) { core' with threads := st.core.threads.set u (code ++ rest) } =
                { st with core := { core' with threads := st.core.threads.set u (code ++ rest) }, acc := Function.update st.acc u (st.acc u ++ points u (core'.log.drop st.core.log.length)),
                          phase := Function.update st.phase u (if b' = [] then .idle else .want r b') } := by
              unfold handle; rw [h3]
            rw [hh, hdrop, n3, List.append_nil, Function.update_eq_self]
            have hcolls : collections u core'.log = collections u st.core.log := by rw [hlog, collections, collectionsFrom_append, ← hu.cur, n2, List.append_nil]; rfl
            refine ⟨?_, ?_, ?_, ?_, ?_, fun h => ?_⟩
            · refine ⟨b, ?_, fun c hc => ?_⟩
              · show brk u none core'.log = _; rw [hlog, brk_append, hb0]; exact n4 b
              · rw [hcode] at hc; obtain rfl := Option.some.inj hc; exact ⟨hown', hb2⟩
            · show st.acc u = curAfter u [] core'.log; rw [hlog, curAfter_append, ← hu.cur, n1]
            · intro r' b'' h; simp only [Function.update_self] at h; split at h <;> cases h
            · show collections u core'.log = startsBy u st.exports ++ pendingOf (Function.update st.phase u _ u)
              rw [hcolls, hu.colls, h3, Function.update_self]
              congr 1
              by_cases hbe : b' = [] <;> simp [pendingOf, hbe]
            · intro r' b'' h
              simp only [Function.update_self] at h
              by_cases hbe : b' = []
              · simp [hbe] at h
              · simp only [if_neg hbe, Phase.want.injEq, reduceCtorEq, or_false] at h
                exact h.2 ▸ hbe
            · rw [hcode] at h; cases h
        · rw [handle_plain _ _ _ _ hne hm]
          show Thr env { st with core := _, acc := Function.update st.acc u (st.acc u ++ points u (core'.log.drop st.core.log.length)) } u
          rw [hdrop, n3, List.append_nil, Function.update_eq_self]
          refine ⟨?_, ?_, ?_, ?_, ?_, fun h => ?_⟩
          · refine ⟨b, ?_, fun c hc => ?_⟩
            · show brk u none core'.log = _; rw [hlog, brk_append, hb0]; exact n4 b
            · rw [hcode] at hc; obtain rfl := Option.some.inj hc; exact ⟨hown', hb2⟩
          · show st.acc u = curAfter u [] core'.log; rw [hlog, curAfter_append, ← hu.cur, n1]
          · intro r' b' h
            obtain ⟨c, hc, hrel, hacc⟩ := hu.took r' b' h
            rw [h1] at hc
            obtain rfl := Option.some.inj hc
            refine ⟨_, hcode, ?_, hacc⟩
            rcases hrel with ⟨k, hk⟩ | ⟨k, hk⟩
            · obtain ⟨rfl, rfl⟩ := List.cons.inj hk
              simp only [Recording.exec, Option.some.injEq, Prod.mk.injEq] at h2
              rw [← h2.2]
              exact .inr ⟨k, rfl⟩
            · exact absurd (List.cons.inj hk).1 hm
          · show collections u core'.log = _
            rw [hlog, collections, collectionsFrom_append, ← hu.cur, n2, List.append_nil]; exact hu.colls
          · exact hu.full
          · rw [hcode] at h; cases h
      · -- the beginning
        obtain ⟨rfl, -⟩ := id hb1
        have hacc := hb2 rfl
        rw [handle_plain _ _ _ _ (by simp) (by simp)]
        show Thr env { st with core := _, acc := Function.update st.acc u (st.acc u ++ points u (core'.log.drop st.core.log.length)) } u
        rw [hdrop, show points u [Recording.Ev.began u r] = ([] : List (Pt K P)) from rfl, List.append_nil, Function.update_eq_self]
        refine ⟨?_, ?_, ?_, ?_, ?_, fun h => ?_⟩
        · refine ⟨some r, ?_, fun c hc => ?_⟩
          · show brk u none core'.log = _; rw [hlog, brk_append, hb0]; simp [brk]
          · rw [hcode] at hc; obtain rfl := Option.some.inj hc; exact ⟨hown', by simp⟩
        · show st.acc u = curAfter u [] core'.log; rw [hlog, curAfter_append, hacc]; simp [curAfter]
        · intro r' b' h
          obtain ⟨c, hc, hrel, -⟩ := hu.took r' b' h
          rw [h1] at hc
          obtain rfl := Option.some.inj hc
          rcases hrel with ⟨k, hk⟩ | ⟨k, hk⟩ <;> cases (List.cons.inj hk).1
        · show collections u core'.log = _
          rw [hlog, collections, collectionsFrom_append]
          simp only [collectionsFrom, if_true, List.append_nil]
          exact hu.colls
        · exact hu.full
        · rw [hcode] at h; cases h
      · -- the end
        obtain ⟨rfl, ⟨k', rfl⟩, -⟩ := id hb1
        have hidle : st.phase u = .idle := by
          rcases h3 with h3 | ⟨r', b', h3⟩
          · exact h3
          · obtain ⟨c, hc, hrel, -⟩ := hu.took r' b' h3
            rw [h1] at hc
            obtain rfl := Option.some.inj hc
            rcases hrel with ⟨k, hk⟩ | ⟨k, hk⟩ <;> cases (List.cons.inj hk).1
        have hh : handle st u (.ended r) { core' with threads := st.core.threads.set u (code ++ .unlock (.outer r) :: .unlock .consumer :: k') } =
            { st with core := { core' with threads := st.core.threads.set u (code ++ .unlock (.outer r) :: .unlock .consumer :: k') }, acc := Function.update st.acc u [],
                      phase := Function.update st.phase u (.took r (st.acc u ++ points u (core'.log.drop st.core.log.length))) } := by
          unfold handle; rfl
        rw [hh, hdrop, show points u [Recording.Ev.ended u r] = ([] : List (Pt K P)) from rfl, List.append_nil]
        refine ⟨?_, ?_, ?_, ?_, ?_, fun h => ?_⟩
        · refine ⟨none, ?_, fun c hc => ?_⟩
          · show brk u none core'.log = _; rw [hlog, brk_append, hb0]; simp [brk]
          · rw [hcode] at hc; obtain rfl := Option.some.inj hc; exact ⟨hown', by simp⟩
        · show Function.update st.acc u [] u = curAfter u [] core'.log
          rw [hlog, curAfter_append]; simp [curAfter]
        · intro r' b' h
          simp only [Function.update_self, Phase.took.injEq] at h
          refine ⟨_, hcode, ?_, by simp⟩
          simp only [Recording.exec, Option.some.injEq, Prod.mk.injEq] at h2
          rw [← h2.2, ← h.1]
          exact .inl ⟨k', rfl⟩
        · show collections u core'.log = startsBy u st.exports ++ pendingOf (Function.update st.phase u _ u)
          rw [Function.update_self, hlog, collections, collectionsFrom_append, ← hu.cur]
          have := hu.colls
          rw [hidle] at this
          simp only [pendingOf, List.append_nil] at this ⊢
          rw [← this]
          simp only [collectionsFrom, if_true]
          rfl
        · intro r' b' h; simp at h
        · rw [hcode] at h; cases h
      · -- a point
        obtain ⟨hbn, -⟩ := id hb1
        rw [handle_plain _ _ _ _ (by simp) (by simp)]
        show Thr env { st with core := _, acc := Function.update st.acc u (st.acc u ++ points u (core'.log.drop st.core.log.length)) } u
        rw [hdrop, show points u [Recording.Ev.collected u s k now (some p)] = ([(s, k, p)] : List (Pt K P)) by simp [points]]
        refine ⟨?_, ?_, ?_, ?_, ?_, fun h => ?_⟩
        · refine ⟨b, ?_, fun c hc => ?_⟩
          · show brk u none core'.log = _; rw [hlog, brk_append, hb0]; simp [brk, hbn]
          · rw [hcode] at hc; obtain rfl := Option.some.inj hc; exact ⟨hown', fun h => absurd h hbn⟩
        · show Function.update st.acc u _ u = curAfter u [] core'.log
          rw [Function.update_self, hlog, curAfter_append, ← hu.cur]; simp [curAfter]
        · intro r' b' h
          obtain ⟨c, hc, hrel, -⟩ := hu.took r' b' h
          rw [h1] at hc
          obtain rfl := Option.some.inj hc
          rcases hrel with ⟨k, hk⟩ | ⟨k, hk⟩ <;> cases (List.cons.inj hk).1
        · show collections u core'.log = _
          rw [hlog, collections, collectionsFrom_append]
          simp only [collectionsFrom, if_true, List.append_nil]
          exact hu.colls
        · exact hu.full
        · rw [hcode] at h; cases h
    · have e1 := handle_phase_ne st t m { core' with threads := st.core.threads.set t (code ++ rest) } e
      have e2 := handle_acc_ne st t m { core' with threads := st.core.threads.set t (code ++ rest) } e
      have e3 : (handle st t m { core' with threads := st.core.threads.set t (code ++ rest) }).core.threads[u]? = st.core.threads[u]? := by
        rw [handle_core]; exact List.getElem?_set_ne (Ne.symm e)
      obtain ⟨n1, n2, n3, n4⟩ := neutral (hother u e) (st.acc u)
      refine ⟨?_, ?_, ?_, ?_, ?_, ?_⟩
      · obtain ⟨b, hb0, hb⟩ := hu.shape
        refine ⟨b, ?_, ?_⟩
        · rw [handle_core]; show brk u none core'.log = _; rw [hlog, brk_append, hb0]; exact n4 b
        · rw [e2, e3]; exact hb
      · rw [e2, handle_core]; show _ = curAfter u [] core'.log; rw [hlog, curAfter_append, ← hu.cur, n1]
      · rw [e1, e2, e3]; exact hu.took
      · rw [e1, handle_core, handle_exports]
        show collections u core'.log = _
        rw [hlog, collections, collectionsFrom_append, ← hu.cur, n2, List.append_nil]; exact hu.colls
      · rw [e1]; exact hu.full
      · rw [e1, e2, e3]; exact hu.absent

theorem inv_run (env : Env K I (Option P) S) (progs : List (List (Call I))) (sched : List (Nat × Reply I × Bool)) : Inv env progs (run env progs sched) := by
  refine run_inv _ ⟨Recording.safe_init env progs, by simp [State.init, Recording.State.init], fun t => ?_⟩ (fun _ _ _ _ _ h he => inv_step h he) sched
  refine ⟨⟨none, rfl, fun code h => ⟨?_, fun _ => rfl⟩⟩, rfl, by simp [State.init], rfl, by simp [State.init], fun _ => ⟨rfl, rfl⟩⟩
  obtain ⟨p, -, rfl⟩ := Recording.init_threads h
  have := Sh.fits (b := none) (k := ([] : List (Micro I))) rfl (p.map .call) (by intro m hm; obtain ⟨c, _, rfl⟩ := List.mem_map.1 hm; exact rfl)
  rwa [List.append_nil] at this

/-- What the exporters get is what the collections took, in every schedule: each thread hands to the exporters the results of its collections, whole, once each, in order, and those only;
all of them when it has finished. -/
theorem C101_exports (env : Env K I (Option P) S) (progs : List (List (Call I))) (sched : List (Nat × Reply I × Bool)) (t : Nat) :
    startsBy t (run env progs sched).exports <+: collections t (run env progs sched).core.log ∧
    ((run env progs sched).finishedAt t → startsBy t (run env progs sched).exports = collections t (run env progs sched).core.log) := by
  have h := ((inv_run env progs sched).thr t).colls
  refine ⟨⟨_, h.symm⟩, fun hf => ?_⟩
  rw [h, hf.2]
  simp [pendingOf]

/-! ## One export at a time -/

/-- The call under way at reader `r`. -/
def underWay (r : Nat) : Option (Nat × List (Pt K P)) → List (XEv K P) → Option (Nat × List (Pt K P))
  | now, [] => now
  | now, .start t r' b :: l => underWay r (if r' = r then some (t, b) else now) l
  | now, .done _ r' _ _ :: l => underWay r (if r' = r then none else now) l

theorem oneByOne_append (r : Nat) (now : Option (Nat × List (Pt K P))) (l m : List (XEv K P)) (h1 : OneByOne r now l) (h2 : OneByOne r (underWay r now l) m) :
    OneByOne r now (l ++ m) := by
  induction l generalizing now with
  | nil => exact h2
  | cons e l ih =>
    cases e with
    | start t r' b =>
      by_cases e : r' = r
      · simp only [OneByOne, List.cons_append, underWay, if_pos e] at h1 h2 ⊢; exact ⟨h1.1, ih _ h1.2 h2⟩
      · simp only [OneByOne, List.cons_append, underWay, if_neg e] at h1 h2 ⊢; exact ih _ h1 h2
    | done t r' b ok =>
      by_cases e : r' = r
      · simp only [OneByOne, List.cons_append, underWay, if_pos e] at h1 h2 ⊢; exact ⟨h1.1, ih _ h1.2 h2⟩
      · simp only [OneByOne, List.cons_append, underWay, if_neg e] at h1 h2 ⊢; exact ih _ h1 h2

omit [DecidableEq K] [DecidableEq P] in
theorem underWay_append (r : Nat) (now : Option (Nat × List (Pt K P))) (l m : List (XEv K P)) : underWay r now (l ++ m) = underWay r (underWay r now l) m := by
  induction l generalizing now with
  | nil => rfl
  | cons e l ih => cases e <;> exact ih _

/-- The export locks and the calls of the exporters. -/
structure Calls (st : State K I P S) : Prop where
  one : ∀ r, OneByOne r none st.exports
  free : ∀ r, st.busy r = none → underWay r none st.exports = none
  held : ∀ r t, st.busy r = some t → ∃ b, st.phase t = .sending r b ∧ underWay r none st.exports = some (t, b)
  sends : ∀ t r b, st.phase t = .sending r b → st.busy r = some t

theorem calls_step {env : Env K I (Option P) S} {st st' : State K I P S} {t : Nat} {reply : Reply I} {ok : Bool} (hi : Calls st) (he : Eff env st t reply ok st') : Calls st' := by
  cases he with
  | start r b h1 h2 =>
    refine ⟨fun r' => oneByOne_append _ _ _ _ (hi.one r') ?_, fun r' h => ?_, fun r' u h => ?_, fun u r' b' h => ?_⟩
    · simp only [OneByOne, and_true]
      split
      · rename_i e; subst e; exact hi.free r h2
      · trivial
    · by_cases e : r' = r
      · subst e; simp at h
      · simp only [Function.update_of_ne e] at h
        simp only [underWay_append, underWay, if_neg (Ne.symm e)]
        exact hi.free _ h
    · by_cases e : r' = r
      · subst e
        simp only [Function.update_self, Option.some.injEq] at h
        subst h
        exact ⟨b, by simp, by simp [underWay_append, underWay]⟩
      · simp only [Function.update_of_ne e] at h
        obtain ⟨b', g1, g2⟩ := hi.held _ _ h
        have : u ≠ t := by rintro rfl; rw [h1] at g1; cases g1
        exact ⟨b', by simpa [Function.update_of_ne this] using g1, by simpa [underWay_append, underWay, Ne.symm e] using g2⟩
    · by_cases e : u = t
      · subst e
        simp only [Function.update_self, Phase.sending.injEq] at h
        simp [h.1]
      · simp only [Function.update_of_ne e] at h
        have := hi.sends _ _ _ h
        have hr : r' ≠ r := by rintro rfl; rw [h2] at this; cases this
        simpa [Function.update_of_ne hr] using this
  | done r b h1 =>
    have hb := hi.sends _ _ _ h1
    obtain ⟨b0, g1, g2⟩ := hi.held _ _ hb
    rw [h1] at g1
    obtain ⟨-, rfl⟩ := Phase.sending.inj g1
    refine ⟨fun r' => oneByOne_append _ _ _ _ (hi.one r') ?_, fun r' h => ?_, fun r' u h => ?_, fun u r' b' h => ?_⟩
    · simp only [OneByOne, and_true]
      split
      · rename_i e; subst e; exact g2
      · trivial
    · by_cases e : r' = r
      · subst e; simp [underWay_append, underWay]
      · simp only [Function.update_of_ne e] at h
        simp only [underWay_append, underWay, if_neg (Ne.symm e)]
        exact hi.free _ h
    · by_cases e : r' = r
      · subst e; simp at h
      · simp only [Function.update_of_ne e] at h
        obtain ⟨b', g1, g2⟩ := hi.held _ _ h
        have : u ≠ t := by rintro rfl; rw [h1] at g1; exact e (Phase.sending.inj g1).1.symm
        exact ⟨b', by simpa [Function.update_of_ne this] using g1, by simpa [underWay_append, underWay, Ne.symm e] using g2⟩
    · by_cases e : u = t
      · subst e; simp at h
      · simp only [Function.update_of_ne e] at h
        have := hi.sends _ _ _ h
        have hr : r' ≠ r := by rintro rfl; rw [hb] at this; exact e (Option.some.inj this).symm
        simpa [Function.update_of_ne hr] using this
  | core m rest core' code h1 h2 h3 =>
    have hno : ∀ r b, (handle st t m { core' with threads := st.core.threads.set t (code ++ rest) }).phase t ≠ .sending r b := by
      intro r b
      unfold handle
      split
      · simp
      · simp only [Function.update_self]; split <;> simp
      · rcases h3 with h3 | ⟨r', b', h3⟩ <;> simp [h3]
    have hph : ∀ u r b, (handle st t m { core' with threads := st.core.threads.set t (code ++ rest) }).phase u = .sending r b ↔ st.phase u = .sending r b := by
      intro u r b
      by_cases e : u = t
      · subst e
        refine ⟨fun h => absurd h (hno r b), fun h => ?_⟩
        rcases h3 with h3 | ⟨r', b', h3⟩ <;> rw [h3] at h <;> cases h
      · rw [handle_phase_ne _ _ _ _ e]
    refine ⟨?_, ?_, ?_, ?_⟩
    · rw [handle_exports]; exact hi.one
    · rw [handle_exports, handle_busy]; exact hi.free
    · rw [handle_exports, handle_busy]
      intro r u h
      obtain ⟨b, g1, g2⟩ := hi.held r u h
      exact ⟨b, (hph u r b).2 g1, g2⟩
    · rw [handle_busy]
      exact fun u r b h => hi.sends u r b ((hph u r b).1 h)

theorem calls_run (env : Env K I (Option P) S) (progs : List (List (Call I))) (sched : List (Nat × Reply I × Bool)) : Calls (run env progs sched) :=
  run_inv _ ⟨fun _ => trivial, fun _ _ => rfl, by simp [State.init], by simp [State.init]⟩ (fun _ _ _ _ _ h he => calls_step h he) sched

/-- The exporter of a reader is called by one thread at a time, in every schedule. -/
theorem C101_one_by_one (env : Env K I (Option P) S) (progs : List (List (Call I))) (sched : List (Nat × Reply I × Bool)) (r : Nat) : OneByOne r none (run env progs sched).exports :=
  (calls_run env progs sched).one r

/-! ## Nothing is lost on the way, nothing is doubled -/

omit [DecidableEq K] [DecidableEq P] in
theorem flatMap_move {n t : Nat} (ht : t < n) {f g : Nat → List P} {x : List P} (h1 : ∀ u, u ≠ t → f u = g u) (h2 : f t ~ g t ++ x) :
    (List.range n).flatMap f ~ (List.range n).flatMap g ++ x := by
  have hp := List.perm_cons_erase (List.mem_range.2 ht)
  have hrest : ((List.range n).erase t).flatMap f = ((List.range n).erase t).flatMap g := by
    rw [List.flatMap_def, List.flatMap_def]
    congr 1
    refine List.map_congr_left fun u hu => h1 u ?_
    rintro rfl
    exact absurd hu (List.Nodup.not_mem_erase List.nodup_range)
  refine (hp.flatMap_right f).trans ?_
  refine List.Perm.trans ?_ ((hp.flatMap_right g).symm.append_right x)
  rw [List.flatMap_cons, List.flatMap_cons, hrest]
  refine (h2.append_right _).trans ?_
  rw [List.append_assoc, List.append_assoc]
  exact List.Perm.append_left _ List.perm_append_comm

/-- What thread `t` is sending. -/
def sendingOf (s : Slot) (k : K) (p : Phase K P) : List P := match p with | .sending _ b => ofStream s k b | _ => []

/-- The accounts. -/
structure Books (st : State K I P S) (n : Nat) (s : Slot) (k : K) : Prop where
  outs : (Recording.outsOf s k st.core.log).filterMap id ~ given s k st.exports ++ (List.range n).flatMap (st.holds s k)
  sent : given s k st.exports ~ ended s k true st.exports ++ ended s k false st.exports ++ (List.range n).flatMap fun t => sendingOf s k (st.phase t)

omit [DecidableEq P] in
theorem outsOf_neutral {t : Nat} {evs : List (Recording.Ev K I (Option P))} (hn : ∀ e ∈ evs, Neutral t e) (ho : ∀ u, u ≠ t → ∀ e ∈ evs, Neutral u e) (s : Slot) (k : K) :
    (Recording.outsOf s k evs).filterMap id = [] := by
  rw [List.filterMap_eq_nil_iff]
  intro o h
  simp only [Recording.outsOf, List.mem_filterMap] at h
  obtain ⟨e, he, h⟩ := h
  cases e with
  | collected v s' k' now o' =>
    by_cases hc : s' = s ∧ k' = k
    · simp only [hc, and_self, if_true, Option.some.injEq] at h
      subst h
      cases o' with
      | none => rfl
      | some p =>
        by_cases e : v = t
        · exact absurd e (hn _ he)
        · exact absurd rfl (ho v e _ he)
    · simp [if_neg hc] at h
  | _ => simp at h

omit [DecidableEq P] in
theorem ofStream_append (s : Slot) (k : K) (a b : List (Pt K P)) : ofStream s k (a ++ b) = ofStream s k a ++ ofStream s k b := by simp [ofStream]

theorem books_step {env : Env K I (Option P) S} {progs : List (List (Call I))} {st st' : State K I P S} {t : Nat} {reply : Reply I} {ok : Bool} {s : Slot} {k : K} (hi : Inv env progs st)
    (hb : Books st progs.length s k) (he : Eff env st t reply ok st') : Books st' progs.length s k := by
  have inrange : st.phase t ≠ .idle → t < progs.length := by
    intro h
    by_contra hn
    refine h ((hi.thr t).absent ?_).1
    rw [List.getElem?_eq_none_iff, hi.len]
    omega
  cases he with
  | start r b h1 h2 =>
    have ht := inrange (by rw [h1]; simp)
    have hg : given s k (st.exports ++ [.start t r b]) = given s k st.exports ++ ofStream s k b := by simp [given]
    refine ⟨?_, ?_⟩
    · refine hb.outs.trans ?_
      show _ ~ given s k (st.exports ++ [.start t r b]) ++ _
      rw [hg, List.append_assoc]
      refine List.Perm.append_left _ (List.Perm.trans (flatMap_move ht (g := State.holds _ s k) (x := ofStream s k b) ?_ ?_) List.perm_append_comm)
      · intro u hu; simp [State.holds, Function.update_of_ne hu]
      · simp only [State.holds, h1, Function.update_self, List.nil_append]
        rw [ofStream_append]
        exact List.perm_append_comm
    · show given s k (st.exports ++ [.start t r b]) ~ ended s k true (st.exports ++ [.start t r b]) ++ ended s k false (st.exports ++ [.start t r b]) ++ _
      rw [hg, show ended s k true (st.exports ++ [.start t r b]) = ended s k true st.exports by simp [ended], show ended s k false (st.exports ++ [.start t r b]) = ended s k false st.exports by simp [ended]]
      refine (hb.sent.append_right _).trans ?_
      rw [List.append_assoc (_ ++ _)]
      refine List.Perm.append_left _ (List.Perm.symm (flatMap_move ht ?_ ?_))
      · intro u hu; simp [Function.update_of_ne hu]
      · simp [sendingOf, h1]
  | done r b h1 =>
    have ht := inrange (by rw [h1]; simp)
    have hg : given s k (st.exports ++ [.done t r b ok]) = given s k st.exports := by simp [given]
    refine ⟨?_, ?_⟩
    · refine hb.outs.trans ?_
      show _ ~ given s k (st.exports ++ [.done t r b ok]) ++ _
      rw [hg]
      refine List.Perm.append_left _ (List.Perm.trans (flatMap_move ht (g := State.holds _ s k) (x := []) ?_ ?_) (by rw [List.append_nil]))
      · intro u hu; simp [State.holds, Function.update_of_ne hu]
      · simp [State.holds, h1]
    · show given s k (st.exports ++ [.done t r b ok]) ~ ended s k true (st.exports ++ [.done t r b ok]) ++ ended s k false (st.exports ++ [.done t r b ok]) ++ _
      rw [hg]
      have hmove := flatMap_move ht (f := fun t => sendingOf s k (st.phase t)) (g := fun u => sendingOf s k (Function.update st.phase t .idle u)) (x := ofStream s k b)
        (by intro u hu; simp [Function.update_of_ne hu]) (by simp [sendingOf, h1])
      refine (hb.sent.trans (List.Perm.append_left _ hmove)).trans ?_
      cases ok with
      | true =>
        rw [show ended s k true (st.exports ++ [.done t r b true]) = ended s k true st.exports ++ ofStream s k b by simp [ended],
          show ended s k false (st.exports ++ [.done t r b true]) = ended s k false st.exports by simp [ended]]
        simp only [List.append_assoc]
        refine List.Perm.append_left _ ?_
        refine List.Perm.trans ?_ List.perm_append_comm
        simp only [List.append_assoc]
        exact .refl _
      | false =>
        rw [show ended s k true (st.exports ++ [.done t r b false]) = ended s k true st.exports by simp [ended],
          show ended s k false (st.exports ++ [.done t r b false]) = ended s k false st.exports ++ ofStream s k b by simp [ended]]
        simp only [List.append_assoc]
        exact List.Perm.append_left _ (List.Perm.append_left _ List.perm_append_comm)
  | core m rest core' code h1 h2 h3 =>
    have ht : t < progs.length := hi.len ▸ (List.getElem?_eq_some_iff.1 h1).1
    have hsend : ∀ u, sendingOf s k ((handle st t m { core' with threads := st.core.threads.set t (code ++ rest) }).phase u) = sendingOf s k (st.phase u) := by
      intro u
      by_cases e : u = t
      · subst e
        rw [show sendingOf s k (st.phase u) = [] by rcases h3 with h3 | ⟨r', b', h3⟩ <;> simp [h3, sendingOf]]
        unfold handle
        split
        · simp [sendingOf]
        · simp only [Function.update_self]; split <;> rfl
        · rcases h3 with h3 | ⟨r', b', h3⟩ <;> simp [h3, sendingOf]
      · rw [handle_phase_ne _ _ _ _ e]
    have hold : ∀ u, u ≠ t → (handle st t m { core' with threads := st.core.threads.set t (code ++ rest) }).holds s k u = st.holds s k u := by
      intro u e
      unfold State.holds
      rw [handle_phase_ne _ _ _ _ e, handle_acc_ne _ _ _ _ e]
    obtain ⟨evs, hlog, hother, hown⟩ := change_evs (Recording.exec_change hi.safe h1 h2)
    have hdrop : (core'.log.drop st.core.log.length) = evs := by rw [hlog]; simp
    have howned : (handle st t m { core' with threads := st.core.threads.set t (code ++ rest) }).holds s k t = st.holds s k t ++ ofStream s k (points t evs) := by
      by_cases hm1 : ∃ r, m = .ended r
      · obtain ⟨r, rfl⟩ := hm1
        have hidle : st.phase t = .idle := by
          rcases h3 with h3 | ⟨r', b', h3⟩
          · exact h3
          · obtain ⟨c, hc, hrel, -⟩ := (hi.thr t).took r' b' h3
            rw [h1] at hc
            obtain rfl := Option.some.inj hc
            rcases hrel with ⟨k, hk⟩ | ⟨k, hk⟩ <;> cases (List.cons.inj hk).1
        unfold State.holds handle
        simp only [Function.update_self, hdrop, hidle, List.append_nil, List.nil_append]
        rw [ofStream_append]
      · have hm1 : ∀ r, m ≠ .ended r := fun r e => hm1 ⟨r, e⟩
        by_cases hm2 : m = .unlock .consumer
        · subst hm2
          rcases h3 with h3 | ⟨r', b', h3⟩
          · unfold State.holds handle
            simp only [h3, Function.update_self, hdrop, List.nil_append]
            rw [ofStream_append]
          · unfold State.holds handle
            simp only [h3, Function.update_self, hdrop]
            by_cases hbe : b' = []
            · simp [hbe, ofStream_append]
            · simp [hbe, ofStream_append]
        · rw [handle_plain _ _ _ _ hm1 hm2]
          unfold State.holds
          simp only [Function.update_self, hdrop]
          rw [← List.append_assoc, ofStream_append]
    have houts : (Recording.outsOf s k core'.log).filterMap id = (Recording.outsOf s k st.core.log).filterMap id ++ ofStream s k (points t evs) := by
      rw [hlog, show Recording.outsOf s k (st.core.log ++ evs) = Recording.outsOf s k st.core.log ++ Recording.outsOf s k evs by simp [Recording.outsOf], List.filterMap_append]
      congr 1
      rcases hown with ⟨hn, -, -⟩ | ⟨r, rfl, rfl⟩ | ⟨r, rfl, rfl⟩ | ⟨s', n, idx, now, k', p, rfl, rfl⟩
      · rw [outsOf_neutral hn hother, (neutral hn []).2.2.1]; rfl
      · rfl
      · rfl
      · by_cases hc : s' = s ∧ k' = k
        · simp [Recording.outsOf, points, ofStream, hc]
        · simp [Recording.outsOf, points, ofStream, hc]
    refine ⟨?_, ?_⟩
    · rw [handle_core, handle_exports]
      show (Recording.outsOf s k core'.log).filterMap id ~ _
      rw [houts]
      refine (hb.outs.append_right _).trans ?_
      rw [List.append_assoc]
      exact List.Perm.append_left _ (List.Perm.symm (flatMap_move ht hold (by rw [howned])))
    · rw [handle_exports]
      simp only [hsend]
      exact hb.sent

theorem books_run (env : Env K I (Option P) S) (progs : List (List (Call I))) (sched : List (Nat × Reply I × Bool)) (s : Slot) (k : K) : Books (run env progs sched) progs.length s k := by
  have := run_inv (env := env) (progs := progs) (fun st => Inv env progs st ∧ Books st progs.length s k)
    ⟨inv_run env progs [], by
      have h1 : ((List.range progs.length).flatMap ((State.init progs : State K I P S).holds s k)) = [] := by rw [List.flatMap_eq_nil_iff]; intro t _; rfl
      have h2 : ((List.range progs.length).flatMap fun t => sendingOf s k ((State.init progs : State K I P S).phase t)) = [] := by rw [List.flatMap_eq_nil_iff]; intro t _; rfl
      exact ⟨by rw [h1]; exact .refl _, by rw [h2]; exact .refl _⟩⟩
    (fun st t reply ok st' h he => ⟨inv_step h.1 he, books_step h.1 h.2 he⟩) sched
  exact this.2

theorem finished_core {st : State K I P S} (h : st.finished) : st.core.finished := by
  intro c hc
  obtain ⟨t, ht⟩ := List.mem_iff_getElem?.1 hc
  exact (h t).1 c ht

/-- Every point that is taken from a stream goes to an exporter once: at every moment what was taken is what the exporters were given and what the threads still hold; when the threads have
finished it is what was exported with success and what was exported without. -/
theorem C101_conserved (env : Env K I (Option P) S) (progs : List (List (Call I))) (sched : List (Nat × Reply I × Bool)) (s : Slot) (k : K) :
    let st := run env progs sched
    (Recording.outsOf s k st.core.log).filterMap id ~ given s k st.exports ++ (List.range progs.length).flatMap (st.holds s k) ∧
    (st.finished → (Recording.outsOf s k st.core.log).filterMap id ~ ended s k true st.exports ++ ended s k false st.exports) := by
  intro st
  have hb := books_run env progs sched s k
  refine ⟨hb.outs, fun hf => ?_⟩
  have h1 : (List.range progs.length).flatMap (st.holds s k) = [] := by
    rw [List.flatMap_eq_nil_iff]
    intro t ht
    have hthr := (inv_run env progs sched).thr t
    have hacc : st.acc t = [] := by
      cases hc : st.core.threads[t]? with
      | none => exact (hthr.absent hc).2
      | some c =>
        obtain ⟨b, -, g⟩ := hthr.shape
        obtain ⟨g1, g2⟩ := g c hc
        rw [(hf t).1 c hc] at g1
        exact g2 g1
    show ofStream s k ((match st.phase t with | .took _ b => b | .want _ b => b | _ => []) ++ st.acc t) = []
    rw [(hf t).2, hacc]
    rfl
  have h2 : ((List.range progs.length).flatMap fun t => sendingOf s k (st.phase t)) = [] := by
    rw [List.flatMap_eq_nil_iff]
    intro t ht
    rw [(hf t).2]
    rfl
  have := hb.outs.trans (hb.sent.append_right _)
  rw [show (List.range progs.length).flatMap ((run env progs sched).holds s k) = [] from h1,
    show ((List.range progs.length).flatMap fun t => sendingOf s k ((run env progs sched).phase t)) = [] from h2, List.append_nil, List.append_nil] at this
  exact this

section
variable {α : Type} [AddCommGroup α] [DecidableEq α]

/-- Counters read with delta temporality, in every schedule and whatever exports fail: when all threads have finished, what was exported with success, what was exported without, and what has not been
collected add up to all threads' measurements. -/
theorem C101_delta_total (start : I → Int) (readers : Nat) (arity : Nat → Nat → Nat) (key : Slot → I → K) (val : I → α) (progs : List (List (Call I))) (sched : List (Nat × Reply I × Bool)) (s : Slot)
    (k : K) (a : Metrics.SumAgg α) :
    let env := Env.of (Metrics.sumM .delta .delta 0) readers arity key val (fun x => Metrics.SumAgg.new .delta (start x))
    let st := run env progs sched
    st.finished → (k, a) ∈ st.core.dict s →
      ((ended s k true st.exports).map Metrics.NumPoint.value).sum + ((ended s k false st.exports).map Metrics.NumPoint.value).sum + a.value.getD 0 =
        ((Recording.made env progs.length s k st.core.log).map val).sum := by
  intro env st hf ha
  obtain ⟨sched', hrun, -⟩ := core_run env progs sched
  have hfc := finished_core hf
  rw [show st.core = _ from hrun] at hfc ha
  have := Recording.C95_sum_total start readers arity key val progs sched' s k a hfc ha
  rw [show st.core = _ from hrun, ← this, ← hrun]
  congr 1
  have hp := ((C101_conserved env progs sched s k).2 hf).map Metrics.NumPoint.value
  rw [← List.sum_append, ← List.map_append]
  exact hp.sum_eq.symm
end

/-! ## What one collection gets -/

omit [DecidableEq P] in
theorem curAfter_mem {t : Nat} {mid : List (Recording.Ev K I (Option P))} (h1 : ∀ r, .began t r ∉ mid) (h2 : ∀ r, .ended t r ∉ mid) {s : Slot} {k : K} {p : P} (cur : List (Pt K P))
    (h : (s, k, p) ∈ cur ∨ ∃ now, .collected t s k now (some p) ∈ mid) : (s, k, p) ∈ curAfter t cur mid := by
  induction mid generalizing cur with
  | nil =>
    rcases h with h | ⟨now, h⟩
    · exact h
    · cases h
  | cons e mid ih =>
    have ih := fun cur => ih (fun r hm => h1 r (List.mem_cons_of_mem _ hm)) (fun r hm => h2 r (List.mem_cons_of_mem _ hm)) cur
    have h' : (s, k, p) ∈ cur ∨ (∃ now, e = .collected t s k now (some p)) ∨ ∃ now, .collected t s k now (some p) ∈ mid := by
      rcases h with h | ⟨now, h⟩
      · exact .inl h
      · rcases List.mem_cons.1 h with h | h
        · exact .inr (.inl ⟨now, h.symm⟩)
        · exact .inr (.inr ⟨now, h⟩)
    cases e with
    | collected u s' k' now o =>
      cases o with
      | none =>
        simp only [curAfter]
        refine ih cur ?_
        rcases h' with h | ⟨now', h⟩ | h
        · exact .inl h
        · cases h
        · exact .inr h
      | some p' =>
        simp only [curAfter]
        split
        · refine ih _ ?_
          rcases h' with h | ⟨now', h⟩ | h
          · exact .inl (List.mem_append_left _ h)
          · injection h with _ e1 e2 _ e3
            injection e3 with e3
            rw [e1, e2, e3]
            exact .inl (by simp)
          · exact .inr h
        · rename_i hne
          refine ih _ ?_
          rcases h' with h | ⟨now', h⟩ | h
          · exact .inl h
          · injection h with e0
            exact absurd e0 hne
          · exact .inr h
    | began u r =>
      have : u ≠ t := by rintro rfl; exact h1 r List.mem_cons_self
      simp only [curAfter, if_neg this]
      exact ih cur (h'.imp_right fun h => h.elim (fun ⟨_, h⟩ => by cases h) id)
    | ended u r =>
      have : u ≠ t := by rintro rfl; exact h2 r List.mem_cons_self
      simp only [curAfter, if_neg this]
      exact ih cur (h'.imp_right fun h => h.elim (fun ⟨_, h⟩ => by cases h) id)
    | _ => exact ih cur (h'.imp_right fun h => h.elim (fun ⟨_, h⟩ => by cases h) id)

omit [DecidableEq P] in
/-- A point that is taken in a collection is in the result of that collection. -/
theorem mem_collections {t r : Nat} {pre mid post : List (Recording.Ev K I (Option P))} (h1 : ∀ r, .began t r ∉ mid) (h2 : ∀ r, .ended t r ∉ mid) {s : Slot} {k : K} {now : Int} {p : P}
    (h : .collected t s k now (some p) ∈ mid) : ∃ b, (r, b) ∈ collections t (pre ++ .began t r :: (mid ++ .ended t r :: post)) ∧ (s, k, p) ∈ b := by
  have hm := curAfter_mem h1 h2 [] (.inr ⟨now, h⟩)
  refine ⟨curAfter t [] mid, ?_, hm⟩
  unfold collections
  rw [collectionsFrom_append]
  refine List.mem_append_right _ ?_
  simp only [collectionsFrom, if_true]
  rw [collectionsFrom_append]
  refine List.mem_append_right _ ?_
  simp only [collectionsFrom, if_true]
  rw [if_neg (by intro e; rw [e] at hm; cases hm)]
  exact List.mem_cons_self

omit [DecidableEq P] in
theorem takes_mem {t : Nat} {s : Slot} {k : K} {mid : List (Recording.Ev K I (Option P))} (h : Recording.takes t s k mid ≠ 0) : ∃ now o, .collected t s k now o ∈ mid := by
  unfold Recording.takes at h
  obtain ⟨e, he⟩ := List.exists_mem_of_length_pos (Nat.pos_of_ne_zero h)
  obtain ⟨hm, hd⟩ := List.mem_filter.1 he
  cases e with
  | collected u s' k' now o =>
    obtain ⟨e1, e2, e3⟩ := of_decide_eq_true hd
    rw [e1, e2, e3] at hm
    exact ⟨now, o, hm⟩
  | _ => simp at hd

/-- Between the beginning and the end of a collection its thread begins and ends no other. -/
theorem inside {env : Env K I (Option P) S} {progs : List (List (Call I))} {sched : List (Nat × Reply I × Bool)} {t r : Nat} {pre mid post : List (Recording.Ev K I (Option P))}
    (h : (run env progs sched).core.log = pre ++ .began t r :: (mid ++ .ended t r :: post)) (hm : .ended t r ∉ mid) : (∀ r', .began t r' ∉ mid) ∧ ∀ r', .ended t r' ∉ mid := by
  obtain ⟨b, hb, -⟩ := ((inv_run env progs sched).thr t).shape
  rw [h, brk_append] at hb
  obtain ⟨o, h1, h2⟩ := Option.bind_eq_some_iff.1 hb
  simp only [brk, if_true] at h2
  split at h2
  · rw [brk_append] at h2
    obtain ⟨o', h3, -⟩ := Option.bind_eq_some_iff.1 h2
    exact ⟨(brk_inside h3 hm).1, (brk_inside h3 hm).2.1⟩
  · cases h2

section
variable {α : Type} [AddCommGroup α] [DecidableEq α]

/-- Counters read with cumulative temporality, in every schedule: a collection that begins when the last measurement of a stream has been made hands to the exporter the total of all threads'
measurements, whatever happened to earlier exports. -/
theorem C101_cumulative_total (start : I → Int) (readers : Nat) (arity : Nat → Nat → Nat) (key : Slot → I → K) (val : I → α) (progs : List (List (Call I))) (sched : List (Nat × Reply I × Bool))
    (s : Slot) (k : K) (t r : Nat) (pre mid post : List (Recording.Ev K I (Option (Metrics.NumPoint α)))) :
    let env := Env.of (Metrics.sumM .delta .cumulative 0) readers arity key val (fun x => Metrics.SumAgg.new .delta (start x))
    let st := run env progs sched
    st.finished → st.core.log = pre ++ .began t r :: (mid ++ .ended t r :: post) → .ended t r ∉ mid → s.r = r → Recording.creations s k pre ≠ [] → (∀ u x, .fed u s k x ∉ mid ++ post) →
      ∃ b x now, (r, b) ∈ startsBy t st.exports ∧ x ∈ Recording.made env progs.length s k st.core.log ∧
        (s, k, ⟨some (start x), now, ((Recording.made env progs.length s k st.core.log).map val).sum⟩) ∈ b := by
  intro env st hf hlog hmid hr hcr hfed
  obtain ⟨hin1, hin2⟩ := inside hlog hmid
  obtain ⟨sched', hrun, -⟩ := core_run env progs sched
  have hlog' : (Recording.run env progs sched').log = pre ++ .began t r :: (mid ++ .ended t r :: post) := by rw [← hrun]; exact hlog
  have htake := (Recording.C95_collection env progs sched' t r pre mid post hlog' hmid).1 s k hr hcr
  obtain ⟨now, o, hmem⟩ := takes_mem (h := by rw [htake]; exact one_ne_zero)
  obtain ⟨m1, m2, rfl⟩ := List.append_of_mem hmem
  have hfc : (Recording.run env progs sched').finished := by rw [← hrun]; exact finished_core hf
  obtain ⟨x, hx, ho⟩ := Recording.C95_sum_final start readers arity key val progs sched' s k t now o (pre ++ .began t r :: m1) (m2 ++ .ended t r :: post) hfc (by rw [hlog']; simp) (by
    intro u x hh
    rcases List.mem_append.1 hh with hh | hh
    · exact hfed u x (by simp [hh])
    · rcases List.mem_cons.1 hh with hh | hh
      · cases hh
      · exact hfed u x (by simp [hh]))
  subst ho
  obtain ⟨b, hb1, hb2⟩ := mem_collections (r := r) (pre := pre) (post := post) hin1 hin2 hmem
  refine ⟨b, x, now, ?_, by rw [show st.core = _ from hrun]; exact hx, by rw [show st.core = _ from hrun]; exact hb2⟩
  rw [(C101_exports env progs sched t).2 (hf t), show (run env progs sched).core.log = _ from hlog]
  exact hb1

/-! ## Flushing with delta temporality -/

/-- Up to the last collection of a stream everything it received has been taken. -/
theorem delta_outs (start : I → Int) (readers : Nat) (arity : Nat → Nat → Nat) (key : Slot → I → K) (val : I → α) (progs : List (List (Call I))) (sched : List (Nat × Reply I))
    (s : Slot) (k : K) (t : Nat) (now : Int) (o : Option (Metrics.NumPoint α)) (A B : List (Recording.Ev K I (Option (Metrics.NumPoint α)))) :
    let env := Env.of (Metrics.sumM .delta .delta 0) readers arity key val (fun x => Metrics.SumAgg.new .delta (start x))
    (Recording.run env progs sched).log = A ++ .collected t s k now o :: B → (∀ u now o, .collected u s k now o ∉ B) →
      (((Recording.outsOf s k (Recording.run env progs sched).log).filterMap id).map Metrics.NumPoint.value).sum = ((Recording.fedTo s k A).map val).sum := by
  intro env hlog hB
  have hs := Recording.streams_run env progs sched
  have e1 : Recording.opsOf s k (Recording.run env progs sched).log = Recording.opsOf s k A ++ .coll now :: Recording.opsOf s k B := by rw [hlog]; simp [Recording.opsOf]
  have e2 : Recording.outsOf s k (Recording.run env progs sched).log = Recording.outsOf s k A ++ [o] := by
    rw [hlog]
    have : Recording.outsOf s k B = [] := by
      unfold Recording.outsOf
      rw [List.filterMap_eq_nil_iff]
      intro e he
      cases e with
      | collected u s' k' now' o' =>
        by_cases hc : s' = s ∧ k' = k
        · obtain ⟨rfl, rfl⟩ := hc; exact absurd he (hB u now' o')
        · simp [if_neg hc]
      | _ => rfl
    simp only [Recording.outsOf, List.filterMap_append, List.filterMap_cons, and_self, if_true] at this ⊢
    rw [this]
  rcases hs.at_ s k with ⟨-, -, g3, -⟩ | ⟨x, b, g1, g2, g3, g4⟩
  · rw [g3] at e2; simp at e2
  · rw [e1, e2, Recording.alone_append] at g4
    have g5 := (Prod.mk.inj g4).1
    obtain ⟨g6, g7⟩ := List.append_inj g5 (Recording.alone_length env s _ k A)
    have g8 := (List.cons.inj (show (env.coll s (Recording.alone env s (env.new s k x) (Recording.opsOf s k A)).2 now).1 :: _ = o :: _ from g7)).1
    have hm := Recording.alone_machine (Metrics.sumM .delta .delta 0) readers arity key val (fun x => (Metrics.SumAgg.new .delta (start x) : Metrics.SumAgg α)) s (env.new s k x) (Recording.opsOf s k A)
    have hsum := Recording.sum_run .delta (Metrics.SumAgg.new .delta (start x)) 0 ((Recording.opsOf s k A).map (Recording.toOp val)) rfl rfl
    rw [Recording.ops_measurements] at hsum
    have g8 := (congrArg (fun p => (env.coll s p.2 now).1) hm).symm.trans g8
    have g6 := (congrArg Prod.fst hm).symm.trans g6
    rw [e2]
    have hinst : ∀ (ops : List (Metrics.Op α)) (a : Metrics.SumAgg α), a.inst = .delta → (((Metrics.sumM .delta .delta 0).run a ops).1 : Metrics.SumAgg α).inst = .delta := by
      intro ops
      induction ops with
      | nil => exact fun a h => h
      | cons op ops ih =>
        intro a h
        cases op with
        | meas v => exact ih (Metrics.SumAgg.aggregate a v) h
        | coll now => exact ih (Metrics.SumAgg.collect a .delta now).2 (by simp only [Metrics.SumAgg.collect, h]; split <;> rfl)
    have hi := hinst ((Recording.opsOf s k A).map (Recording.toOp val)) (Metrics.SumAgg.new .delta (start x)) rfl
    rw [List.filterMap_append, List.map_append, List.sum_append]
    have hlast : (([o].filterMap id).map Metrics.NumPoint.value).sum =
        (((Metrics.sumM .delta .delta 0).run (Metrics.SumAgg.new .delta (start x)) ((Recording.opsOf s k A).map (Recording.toOp val))).1 : Metrics.SumAgg α).value.getD 0 := by
      have g8 : (Metrics.SumAgg.collect (((Metrics.sumM .delta .delta 0).run (Metrics.SumAgg.new .delta (start x)) ((Recording.opsOf s k A).map (Recording.toOp val))).1 : Metrics.SumAgg α) .delta now).1 = o := g8
      rw [← g8]
      generalize (((Metrics.sumM .delta .delta 0).run (Metrics.SumAgg.new .delta (start x)) ((Recording.opsOf s k A).map (Recording.toOp val))).1 : Metrics.SumAgg α) = a at hi ⊢
      cases hv : a.value <;> simp [Metrics.SumAgg.collect, hi, hv]
    rw [hlast, show Recording.outsOf s k A = _ from g6.symm]
    refine hsum.trans ?_
    simp [Metrics.SumAgg.new]
end

omit [DecidableEq K] [DecidableEq P] in
/-- The last of the elements with a property. -/
theorem split_last' {β : Type} (Q : β → Prop) (l : List β) (h : ∃ x ∈ l, Q x) : ∃ A x B, l = A ++ x :: B ∧ Q x ∧ ∀ y ∈ B, ¬ Q y := by
  induction l with
  | nil => obtain ⟨x, hx, -⟩ := h; cases hx
  | cons a l ih =>
    by_cases hl : ∃ x ∈ l, Q x
    · obtain ⟨A, x, B, rfl, h1, h2⟩ := ih hl
      exact ⟨a :: A, x, B, rfl, h1, h2⟩
    · obtain ⟨x, hx, hq⟩ := h
      rcases List.mem_cons.1 hx with rfl | hx
      · exact ⟨[], x, l, rfl, hq, fun y hy hq => hl ⟨y, hy, hq⟩⟩
      · exact absurd ⟨x, hx, hq⟩ hl

omit [DecidableEq P] in
theorem fedTo_append (s : Slot) (k : K) (l m : List (Recording.Ev K I (Option P))) : Recording.fedTo s k (l ++ m) = Recording.fedTo s k l ++ Recording.fedTo s k m := by simp [Recording.fedTo]

theorem betweenCalls_holds {env : Env K I (Option P) S} {progs : List (List (Call I))} {st : State K I P S} (hi : Inv env progs st) {t : Nat} (h : st.betweenCalls t) (s : Slot) (k : K) :
    st.holds s k t = [] := by
  obtain ⟨h1, cs, h2⟩ := h
  obtain ⟨b, -, g⟩ := (hi.thr t).shape
  obtain ⟨g1, g2⟩ := g _ h2
  have hb : b = none := by
    cases cs with
    | nil => exact g1
    | cons c cs => exact g1.1
  unfold State.holds
  rw [h1, g2 hb]
  rfl

omit [DecidableEq K] [DecidableEq P] in
theorem flatMap_drop (n t : Nat) (f : Nat → List P) (h : f t = []) : (List.range n).flatMap f = ((List.range n).filter (· ≠ t)).flatMap f := by
  generalize List.range n = l
  induction l with
  | nil => rfl
  | cons a l ih =>
    by_cases e : a = t
    · subst e; simp [List.filter_cons, h, ih]
    · simp [List.filter_cons, e, ih]

section
variable {α : Type} [AddCommGroup α] [DecidableEq α]

/-- What a flush of counters read with delta temporality does, in every schedule: when the thread that collected has returned, what the exporters were given and what *other* threads hold add up to
everything that the stream had received when the collection began (and some of what came later). -/
theorem C101_flush_covers (start : I → Int) (readers : Nat) (arity : Nat → Nat → Nat) (key : Slot → I → K) (val : I → α) (progs : List (List (Call I))) (sched : List (Nat × Reply I × Bool))
    (s : Slot) (k : K) (t r : Nat) (pre mid post : List (Recording.Ev K I (Option (Metrics.NumPoint α)))) :
    let env := Env.of (Metrics.sumM .delta .delta 0) readers arity key val (fun x => Metrics.SumAgg.new .delta (start x))
    let st := run env progs sched
    st.core.log = pre ++ .began t r :: (mid ++ .ended t r :: post) → .ended t r ∉ mid → s.r = r → Recording.creations s k pre ≠ [] → st.betweenCalls t →
      ∃ extra, extra <+: Recording.fedTo s k (mid ++ .ended t r :: post) ∧
        ((given s k st.exports).map Metrics.NumPoint.value).sum + ((((List.range progs.length).filter (· ≠ t)).flatMap (st.holds s k)).map Metrics.NumPoint.value).sum =
          ((Recording.fedTo s k pre).map val).sum + (extra.map val).sum := by
  intro env st hlog hmid hr hcr hbt
  obtain ⟨sched', hrun, -⟩ := core_run env progs sched
  have hlog' : (Recording.run env progs sched').log = pre ++ .began t r :: (mid ++ .ended t r :: post) := by rw [← hrun]; exact hlog
  have htake := (Recording.C95_collection env progs sched' t r pre mid post hlog' hmid).1 s k hr hcr
  obtain ⟨now, o, hmem⟩ := takes_mem (h := by rw [htake]; exact one_ne_zero)
  obtain ⟨A, c, B, hsplit, ⟨u, now', o', rfl⟩, hB⟩ := split_last' (fun e => ∃ u now o, e = .collected u s k now o) (mid ++ .ended t r :: post)
    ⟨_, List.mem_append_left _ hmem, t, now, o, rfl⟩
  have hd := delta_outs start readers arity key val progs sched' s k u now' o' (pre ++ .began t r :: A) B (by rw [hlog', hsplit]; simp) (fun u now o h => hB _ h ⟨u, now, o, rfl⟩)
  refine ⟨Recording.fedTo s k A, ?_, ?_⟩
  · rw [hsplit, fedTo_append]; exact List.prefix_append _ _
  · have hp := (((C101_conserved env progs sched s k).1).map Metrics.NumPoint.value).sum_eq
    rw [List.map_append, List.sum_append, flatMap_drop _ t _ (betweenCalls_holds (inv_run env progs sched) hbt s k)] at hp
    refine hp.symm.trans ?_
    rw [hrun]
    refine hd.trans ?_
    rw [fedTo_append, List.map_append, List.sum_append]
    rfl
end

/-- Code that collects only readers in `C`. -/
def Only (C : Nat → Prop) : Micro I → Prop
  | .call (.collect r _) => C r
  | .callbacks r _ => C r
  | .began r => C r
  | .ended r => C r
  | .iterStart (.outer r) _ => C r
  | .iterStart (.inner s) _ => C s.r
  | .iter (.outer r) _ _ _ => C r
  | .iter (.inner s) _ _ _ => C s.r
  | _ => True

omit [DecidableEq P] in
theorem Only.own {env : Env K I (Option P) S} {st st' : Recording.State K I (Option P) S} {t : Nat} {reply : Reply I} {m : Micro I} {code : List (Micro I)} {C : Nat → Prop}
    (hmild : Recording.Mild reply) (h : Recording.exec env st t reply m = some (st', code)) (hm : Only C m) : ∀ m ∈ code, Only C m := by
  have feeds : ∀ r i x, ∀ m ∈ Recording.feeds env r i x, Only C m := by
    intro r i x m hm
    obtain ⟨j, _, rfl⟩ := List.mem_map.1 hm
    trivial
  cases m with
  | call c =>
    cases c with
    | record i x =>
      simp only [Recording.exec, Option.some.injEq, Prod.mk.injEq] at h
      rw [← h.2]
      intro m hm
      obtain ⟨j, _, rfl⟩ := List.mem_map.1 hm
      trivial
    | collect r now =>
      simp only [Recording.exec, Option.some.injEq, Prod.mk.injEq] at h
      rw [← h.2]
      have hm : C r := hm
      simpa [Only] using hm
    | register a =>
      simp only [Recording.exec, Option.some.injEq, Prod.mk.injEq] at h
      rw [← h.2]
      simp [Only]
  | callbacks r idx =>
    simp only [Recording.exec, Option.some.injEq, Prod.mk.injEq] at h
    rw [← h.2]
    split
    · simp
    · intro m' hm'
      rw [List.mem_append, List.mem_singleton] at hm'
      rcases hm' with hm' | rfl
      · obtain ⟨x, hx, rfl⟩ := List.mem_map.1 hm'
        rcases x with c | ⟨i, x⟩
        · obtain ⟨i, x, rfl⟩ := hmild c hx
          trivial
        · trivial
      · exact hm
  | lock l => simp only [Recording.exec] at h; split at h <;> simp at h; rw [h.2]; simp
  | iterStart l now =>
    simp only [Recording.exec, Option.some.injEq, Prod.mk.injEq] at h
    rw [← h.2]
    cases l <;> simpa [Only] using hm
  | iter l n idx now =>
    cases l with
    | consumer => simp only [Recording.exec, Option.some.injEq, Prod.mk.injEq] at h; rw [← h.2]; simp
    | outer r =>
      have hm : C r := hm
      simp only [Recording.exec] at h
      split at h <;> simp only [Option.some.injEq, Prod.mk.injEq] at h <;> rw [← h.2]
      · simp
      · split
        · simp
        · intro m hm'
          rw [List.mem_append, List.mem_flatMap, List.mem_singleton] at hm'
          rcases hm' with ⟨j, _, hm'⟩ | rfl
          · simp only [List.mem_cons, List.not_mem_nil, or_false] at hm'
            rcases hm' with rfl | rfl | rfl
            · trivial
            · exact hm
            · trivial
          · exact hm
    | inner s' =>
      simp only [Recording.exec] at h
      split at h
      · simp only [Option.some.injEq, Prod.mk.injEq] at h; rw [← h.2]; simp
      · split at h <;> simp only [Option.some.injEq, Prod.mk.injEq] at h <;> rw [← h.2]
        · simp
        · simpa [Only] using hm
  | lookInner s x =>
    simp only [Recording.exec, Option.some.injEq, Prod.mk.injEq] at h
    rw [← h.2]
    split <;> simp [Only]
  | lookOuter r i x =>
    simp only [Recording.exec, Option.some.injEq, Prod.mk.injEq] at h
    rw [← h.2]
    split
    · exact feeds r i x
    · intro m hm
      simp only [List.mem_cons] at hm
      rcases hm with rfl | rfl | rfl | hm
      · trivial
      · trivial
      · trivial
      · exact feeds r i x m hm
  | observe r i x => simp only [Recording.exec, Option.some.injEq, Prod.mk.injEq] at h; rw [← h.2]; simp [Only]
  | _ => simp only [Recording.exec, Option.some.injEq, Prod.mk.injEq] at h; rw [← h.2]; simp

/-- What a thread has taken. -/
def inHand (st : State K I P S) (t : Nat) : List (Pt K P) := (match st.phase t with | .took _ b => b | .want _ b => b | .sending _ b => b | _ => []) ++ st.acc t

omit [DecidableEq K] [DecidableEq P] in
theorem inHand_of (st : State K I P S) (u : Nat) {y : Pt K P} (h : y ∈ (match st.phase u with | .took _ b => b | .want _ b => b | _ => []) ++ st.acc u) : y ∈ inHand st u := by
  unfold inHand
  revert h
  cases st.phase u <;> simp +contextual

/-- Thread `u` collects only readers that its program collects. -/
structure Own (progs : List (List (Call I))) (st : State K I P S) (u : Nat) : Prop where
  code : ∀ p c, progs[u]? = some p → st.core.threads[u]? = some c → ∀ m ∈ c, Only (collects · p) m
  hand : ∀ p, progs[u]? = some p → ∀ s k x, (s, k, x) ∈ inHand st u → collects s.r p

theorem own_step {env : Env K I (Option P) S} {progs : List (List (Call I))} {st st' : State K I P S} {t : Nat} {reply : Reply I} {ok : Bool} (hm : Recording.Mild reply) (hi : Inv env progs st)
    (ho : ∀ u, Own progs st u) (he : Eff env st t reply ok st') (u : Nat) : Own progs st' u := by
  have hu := ho u
  cases he with
  | start r b h1 h2 =>
    refine ⟨hu.code, fun p hp s k x h => hu.hand p hp s k x ?_⟩
    by_cases e : u = t
    · subst e; simpa [inHand, h1] using h
    · simpa [inHand, Function.update_of_ne e] using h
  | done r b h1 =>
    refine ⟨hu.code, fun p hp s k x h => hu.hand p hp s k x ?_⟩
    by_cases e : u = t
    · subst e
      simp only [inHand, Function.update_self, List.nil_append] at h
      simp only [inHand, h1]
      exact List.mem_append_right _ h
    · simpa [inHand, Function.update_of_ne e] using h
  | core m rest core' code h1 h2 h3 =>
    obtain ⟨evs, hlog, hother, hown⟩ := change_evs (Recording.exec_change hi.safe h1 h2)
    by_cases e : u = t
    · subst e
      refine ⟨fun p c hp hc m' hm' => ?_, fun p hp s k x h => ?_⟩
      · rw [handle_core] at hc
        rw [show ({ core' with threads := st.core.threads.set u (code ++ rest) } : Recording.State K I (Option P) S).threads[u]? = some (code ++ rest) from
          List.getElem?_set_self (List.getElem?_eq_some_iff.1 h1).1] at hc
        obtain rfl := Option.some.inj hc
        rcases List.mem_append.1 hm' with hm' | hm'
        · exact Only.own hm h2 (hu.code p _ hp h1 _ List.mem_cons_self) _ hm'
        · exact hu.code p _ hp h1 _ (List.mem_cons_of_mem _ hm')
      · have hdrop : (core'.log.drop st.core.log.length) = evs := by rw [hlog]; simp
        have hpt : ∀ s k x, (s, k, x) ∈ points u evs → collects s.r p := by
          intro s k x hx
          rcases hown with ⟨hn, -, -⟩ | ⟨r, rfl, rfl⟩ | ⟨r, rfl, rfl⟩ | ⟨s', n, idx, now, k', x', rfl, rfl⟩
          · rw [(neutral hn []).2.2.1] at hx; cases hx
          · cases hx
          · cases hx
          · simp only [points, List.filterMap_cons, if_true, List.filterMap_nil, List.mem_singleton, Prod.mk.injEq] at hx
            rw [hx.1]
            exact hu.code p _ hp h1 _ List.mem_cons_self
        have hsub : (s, k, x) ∈ inHand st u ∨ (s, k, x) ∈ points u evs := by
          have fin : ∀ c : List (Pt K P), (s, k, x) ∈ c ++ (st.acc u ++ points u evs) → (∀ y ∈ c, y ∈ inHand st u) → (s, k, x) ∈ inHand st u ∨ (s, k, x) ∈ points u evs := by
            intro c hc hin
            rcases List.mem_append.1 hc with hc | hc
            · exact .inl (hin _ hc)
            · rcases List.mem_append.1 hc with hc | hc
              · exact .inl (List.mem_append_right _ hc)
              · exact .inr hc
          by_cases hm1 : ∃ r, m = .ended r
          · obtain ⟨r, rfl⟩ := hm1
            refine fin [] ?_ (by simp)
            simp only [inHand, handle, Function.update_self, hdrop, List.append_nil] at h
            exact h
          · have hm1 : ∀ r, m ≠ .ended r := fun r e => hm1 ⟨r, e⟩
            by_cases hm2 : m = .unlock .consumer
            · subst hm2
              rcases h3 with h3 | ⟨r', b', h3⟩
              · refine fin [] ?_ (by simp)
                simp only [inHand, handle, h3, Function.update_self, hdrop] at h
                exact h
              · by_cases hb : b' = []
                · refine fin [] ?_ (by simp)
                  simp only [inHand, handle, h3, Function.update_self, hdrop, hb, if_true] at h
                  exact h
                · refine fin b' ?_ (fun y hy => by simp [inHand, h3, hy])
                  simp only [inHand, handle, h3, Function.update_self, hdrop, hb, if_false] at h
                  exact h
            · rw [handle_plain _ _ _ _ hm1 hm2] at h
              simp only [inHand, Function.update_self, hdrop] at h
              exact fin _ h (fun y hy => List.mem_append_left _ hy)
        rcases hsub with h | h
        · exact hu.hand p hp s k x h
        · exact hpt s k x h
    · refine ⟨fun p c hp hc => ?_, fun p hp s k x h => ?_⟩
      · rw [handle_core] at hc
        exact hu.code p c hp (by rw [← hc]; exact (List.getElem?_set_ne (Ne.symm e)).symm)
      · refine hu.hand p hp s k x ?_
        unfold inHand at h ⊢
        rwa [handle_phase_ne _ _ _ _ e, handle_acc_ne _ _ _ _ e] at h

theorem own_run (env : Env K I (Option P) S) (progs : List (List (Call I))) (sched : List (Nat × Reply I × Bool)) (hm : ∀ mv ∈ sched, Recording.Mild mv.2.1) (u : Nat) :
    Own progs (run env progs sched) u := by
  have : ∀ st : State K I P S, Inv env progs st → (∀ u, Own progs st u) → ∀ u, Own progs (sched.foldl (step env) st) u := by
    induction sched with
    | nil => exact fun st _ h => h
    | cons mv sched ih =>
      intro st h1 h2
      have h3 : Inv env progs (step env st mv) ∧ ∀ u, Own progs (step env st mv) u := by
        unfold step
        cases e : advance env st mv.1 mv.2.1 mv.2.2 with
        | none => exact ⟨h1, h2⟩
        | some st' => exact ⟨inv_step h1 (advance_eff e), own_step (hm mv List.mem_cons_self) h1 h2 (advance_eff e)⟩
      exact ih (fun mv h => hm mv (List.mem_cons_of_mem _ h)) _ h3.1 h3.2
  refine this (.init progs) (inv_run env progs []) (fun u => ⟨fun p c hp hc m hm => ?_, fun p hp s k x h => ?_⟩) u
  · obtain ⟨p', hp', rfl⟩ := Recording.init_threads hc
    rw [hp] at hp'
    obtain rfl := Option.some.inj hp'
    obtain ⟨c, hc, rfl⟩ := List.mem_map.1 hm
    cases c with
    | collect r now => exact ⟨now, hc⟩
    | _ => trivial
  · simp [inHand, State.init] at h

section
variable {α : Type} [AddCommGroup α] [DecidableEq α]

/-- A flush of counters read with delta temporality, in every schedule in which no other thread collects the reader: when it returns the exporter has been given everything that the stream had received
when it began. -/
theorem C101_flush_alone (start : I → Int) (readers : Nat) (arity : Nat → Nat → Nat) (key : Slot → I → K) (val : I → α) (progs : List (List (Call I))) (sched : List (Nat × Reply I × Bool))
    (s : Slot) (k : K) (t r : Nat) (pre mid post : List (Recording.Ev K I (Option (Metrics.NumPoint α)))) :
    let env := Env.of (Metrics.sumM .delta .delta 0) readers arity key val (fun x => Metrics.SumAgg.new .delta (start x))
    let st := run env progs sched
    (∀ mv ∈ sched, ∀ c, Sum.inl c ∈ mv.2.1 → ∃ i x, c = .record i x) → (∀ u p, u ≠ t → progs[u]? = some p → ¬ collects r p) →
    st.core.log = pre ++ .began t r :: (mid ++ .ended t r :: post) → .ended t r ∉ mid → s.r = r → Recording.creations s k pre ≠ [] → st.betweenCalls t →
      ∃ extra, extra <+: Recording.fedTo s k (mid ++ .ended t r :: post) ∧
        ((given s k st.exports).map Metrics.NumPoint.value).sum = ((Recording.fedTo s k pre).map val).sum + (extra.map val).sum := by
  intro env st hmild halone hlog hmid hr hcr hbt
  obtain ⟨extra, h1, h2⟩ := C101_flush_covers start readers arity key val progs sched s k t r pre mid post hlog hmid hr hcr hbt
  refine ⟨extra, h1, ?_⟩
  rw [← h2]
  have : ((List.range progs.length).filter (· ≠ t)).flatMap (st.holds s k) = [] := by
    rw [List.flatMap_eq_nil_iff]
    intro u hu
    obtain ⟨hu1, hu2⟩ := List.mem_filter.1 hu
    have hlt := List.mem_range.1 hu1
    have hne : u ≠ t := by simpa using hu2
    have ho := (own_run env progs sched hmild u).hand _ (List.getElem?_eq_getElem hlt)
    show ofStream s k _ = []
    unfold ofStream
    rw [List.filterMap_eq_nil_iff]
    rintro ⟨s', k', x⟩ hx
    by_cases hc : s' = s ∧ k' = k
    · exfalso
      refine halone u _ hne (List.getElem?_eq_getElem hlt) ?_
      rw [← hr, ← hc.1]
      refine ho s' k' x ?_
      exact inHand_of _ _ hx
    · simp [if_neg hc]
  rw [show ((List.range progs.length).filter (· ≠ t)).flatMap ((run env progs sched).holds s k) = [] from this]
  simp
  rfl
end

/-! ## Progress -/

/-- While a thread has something to do, some thread can go on (callbacks that record are allowed): waiting for the export lock is no deadlock. -/
theorem C101_progress (env : Env K I (Option P) S) (progs : List (List (Call I))) (sched : List (Nat × Reply I × Bool)) (hm : ∀ mv ∈ sched, ∀ c, Sum.inl c ∈ mv.2.1 → ∃ i x, c = .record i x)
    (hf : ¬ (run env progs sched).finished) : ∃ t, ∀ reply ok, advance env (run env progs sched) t reply ok ≠ none := by
  have hc := calls_run env progs sched
  by_cases h1 : ∃ t r b, (run env progs sched).phase t = .sending r b
  · obtain ⟨t, r, b, h⟩ := h1
    exact ⟨t, fun reply ok => by simp [advance, h]⟩
  by_cases h2 : ∃ t r b, (run env progs sched).phase t = .want r b
  · obtain ⟨t, r, b, h⟩ := h2
    refine ⟨t, fun reply ok => ?_⟩
    have : (run env progs sched).busy r = none := by
      cases hb : (run env progs sched).busy r with
      | none => rfl
      | some u => obtain ⟨b', hp, -⟩ := hc.held r u hb; exact absurd ⟨u, r, b', hp⟩ h1
    simp [advance, h, this]
  obtain ⟨sched', hrun, hsub⟩ := core_run env progs sched
  have hm' : ∀ mv ∈ sched', ∀ c, Sum.inl c ∈ mv.2 → ∃ i x, c = Call.record i x := by
    intro mv hmv c hcall
    obtain ⟨ok, h⟩ := hsub mv hmv
    exact hm _ h c hcall
  have hphase : ∀ t, (run env progs sched).phase t = .idle ∨ ∃ r b, (run env progs sched).phase t = .took r b := by
    intro t
    cases hp : (run env progs sched).phase t with
    | idle => exact .inl rfl
    | took r b => exact .inr ⟨r, b, rfl⟩
    | want r b => exact absurd ⟨t, r, b, hp⟩ h2
    | sending r b => exact absurd ⟨t, r, b, hp⟩ h1
  have hnf : ¬ (Recording.run env progs sched').finished := by
    intro hfc
    refine hf fun t => ⟨fun c hcode => ?_, ?_⟩
    · rw [hrun] at hcode
      exact hfc c (List.mem_of_getElem? hcode)
    · rcases hphase t with h | ⟨r, b, h⟩
      · exact h
      · obtain ⟨c, hcode, hrel, -⟩ := ((inv_run env progs sched).thr t).took r b h
        rw [hrun] at hcode
        have := hfc c (List.mem_of_getElem? hcode)
        subst this
        rcases hrel with ⟨k, hk⟩ | ⟨k, hk⟩ <;> cases hk
  obtain ⟨t, m, rest, ht, he⟩ := Recording.C95_progress env progs sched' hm' hnf
  rw [← hrun] at ht he
  refine ⟨t, fun reply ok => ?_⟩
  have he := he reply
  have hcore : (match (run env progs sched).core.threads[t]? with
        | some (m :: _) => match Recording.exec env (run env progs sched).core t reply m with
          | some _ => some (handle (run env progs sched) t m (Recording.step env (run env progs sched).core (t, reply)))
          | none => none
        | _ => none) ≠ none := by
    rw [ht]
    cases hx : Recording.exec env (run env progs sched).core t reply m with
    | none => exact absurd hx he
    | some c => simp [hx]
  unfold advance
  rcases hphase t with h | ⟨r, b, h⟩ <;> rw [h] <;> exact hcore

/-! ## Where it goes wrong, and examples -/

/-- One reader that reads counters with the given temporality; every instrument has one stream set; measurements are their own attributes modulo 2. -/
def exEnv (t : Metrics.Temporality) : Env Int Int (Option (Metrics.NumPoint Int)) (Metrics.SumAgg Int) :=
  Env.of (Metrics.sumM .delta t 0) 1 (fun _ _ => 1) (fun _ x => x % 2) id (fun _ => Metrics.SumAgg.new .delta 0)

/-- `n` steps of thread `t`; exports end with `ok`. -/
def steps (t n : Nat) (ok : Bool) : List (Nat × Reply Int × Bool) := List.replicate n (t, [], ok)

/-- The ticker and a thread that records and flushes. -/
def exProgs : List (List (Call Int)) := [[.collect 0 100], [.record 0 5, .collect 0 200]]

/-- The ticker has collected and not exported yet; the other thread flushes. -/
def exFlush : List (Nat × Reply Int × Bool) := steps 1 10 true ++ steps 0 16 true ++ steps 1 40 true

/-- Refuted: `force_flush` has the exporter given everything that was recorded before. With delta temporality the ticker may have taken it and not exported it yet: here the flush, which began after
the measurement was received, returns and the exporter has been given nothing. -/
theorem C101_flush_violated : ∃ (progs : List (List (Call Int))) (sched : List (Nat × Reply Int × Bool)) (pre mid post : List (Recording.Ev Int Int (Option (Metrics.NumPoint Int)))),
    (run (exEnv .delta) progs sched).core.log = pre ++ .began 1 0 :: (mid ++ .ended 1 0 :: post) ∧ .ended 1 0 ∉ mid ∧ Recording.fedTo ⟨0, 0, 0⟩ 1 pre = [5] ∧
    (run (exEnv .delta) progs sched).betweenCalls 1 ∧ (run (exEnv .delta) progs sched).exports = [] := by
  refine ⟨exProgs, exFlush, (run (exEnv .delta) exProgs exFlush).core.log.take 6, ((run (exEnv .delta) exProgs exFlush).core.log.drop 7).take 1, [], by decide +kernel, by decide +kernel,
    by decide +kernel, ⟨by decide +kernel, [], by decide +kernel⟩, by decide +kernel⟩

/-- Two threads that record and collect. -/
def exTwo : List (List (Call Int)) := [[.record 0 5, .collect 0 100], [.record 0 3, .collect 0 200]]

/-- The second collects later and exports earlier. -/
def exOvertake : List (Nat × Reply Int × Bool) := steps 0 26 true ++ steps 1 40 true ++ steps 0 5 true

/-- Refuted: the exporter is given collections in the order in which they were made (the export lock is taken after the consumer's lock is released). With cumulative temporality the exporter sees the
total of a counter fall, and its time run backwards. -/
theorem C101_order_violated : ∃ (progs : List (List (Call Int))) (sched : List (Nat × Reply Int × Bool)),
    (Recording.outsOf ⟨0, 0, 0⟩ 1 (run (exEnv .cumulative) progs sched).core.log).filterMap id = [⟨some 0, 100, 5⟩, ⟨some 0, 200, 8⟩] ∧
    given ⟨0, 0, 0⟩ 1 (run (exEnv .cumulative) progs sched).exports = [⟨some 0, 200, 8⟩, ⟨some 0, 100, 5⟩] := by
  exact ⟨exTwo, exOvertake, by decide +kernel, by decide +kernel⟩

/-- Refuted: what an export fails to deliver is exported again. With delta temporality it is gone. -/
theorem C101_failed_violated : ∃ (progs : List (List (Call Int))) (sched : List (Nat × Reply Int × Bool)),
    (∀ t < progs.length, (run (exEnv .delta) progs sched).core.threads[t]? = some [] ∧ (run (exEnv .delta) progs sched).phase t = .idle) ∧
    Recording.made (exEnv .delta) progs.length ⟨0, 0, 0⟩ 1 (run (exEnv .delta) progs sched).core.log = [5, 3] ∧
    ended ⟨0, 0, 0⟩ 1 true (run (exEnv .delta) progs sched).exports = [⟨some 100, 200, 3⟩] ∧ ((run (exEnv .delta) progs sched).core.dict ⟨0, 0, 0⟩).map (·.2.value) = [none] := by
  exact ⟨[[.record 0 5, .collect 0 100, .record 0 3, .collect 0 200]], steps 0 28 false ++ steps 0 40 true, by decide +kernel, by decide +kernel, by decide +kernel, by decide +kernel⟩

/-- The same run with cumulative temporality: the total gets there, as in `C101_cumulative_total`. -/
example :
    let st := run (exEnv .cumulative) [[.record 0 5, .collect 0 100, .record 0 3, .collect 0 200]] (steps 0 28 false ++ steps 0 40 true)
    (∀ t < 1, st.core.threads[t]? = some [] ∧ st.phase t = .idle) ∧ ended ⟨0, 0, 0⟩ 1 true st.exports = [⟨some 0, 200, 8⟩] ∧
    st.core.log = st.core.log.take 8 ++ .began 0 0 :: (((st.core.log.drop 9).take 1) ++ .ended 0 0 :: []) ∧ Recording.creations ⟨0, 0, 0⟩ 1 (st.core.log.take 8) = [5] := by
  decide +kernel

/-- A flush as in `C101_flush_alone`: one thread records, another collects. -/
example :
    let st := run (exEnv .delta) [[.record 0 5, .record 0 4], [.collect 0 100]] (steps 0 20 true ++ steps 1 40 true)
    st.core.threads[1]? = some [] ∧ st.phase 1 = .idle ∧ given ⟨0, 0, 0⟩ 1 st.exports = [⟨some 0, 100, 5⟩] ∧ startsBy 1 st.exports = collections 1 st.core.log ∧ (collections 1 st.core.log).length = 1 ∧
    st.core.log.contains (.began 1 0) ∧ (st.core.log.filter fun | .fed .. => true | _ => false).length = 2 := by
  decide +kernel

end Measured
end Otel
