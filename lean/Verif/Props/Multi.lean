import Verif.Model.Multi
import Mathlib.Data.List.Basic
import Mathlib.Data.List.Perm.Basic
import Mathlib.Tactic.Linarith
import Mathlib.Data.List.Induction
/-!
# C27, C55: fan-out to several processors
-/
namespace Otel
namespace Multi
variable {P : Type}

/-! ## Calls -/

/-- **C27** If no processor raises (which their contract forbids), `on_start`, `on_end` and `shutdown` call every
registered processor exactly once, in registration order. -/
theorem C27_fan_out (raises : P → Bool) (l : List P) (h : ∀ p ∈ l, raises p = false) :
    forEach raises l = (l, false) := by
  induction l with
  | nil => rfl
  | cons p l ih =>
    simp [forEach, h p (by simp), ih (fun q hq => h q (by simp [hq]))]

/-- **C27** In general the processors up to and including the first that raises are called, and the exception reaches
the caller. -/
theorem C27_fan_out_raise (raises : P → Bool) (l : List P) :
    (forEach raises l).1 = l.take (l.findIdx raises + 1) ∧ ((forEach raises l).2 = true ↔ ∃ p ∈ l, raises p = true) := by
  induction l with
  | nil => simp [forEach]
  | cons p l ih =>
    cases hp : raises p with
    | true => simp [forEach, hp, List.findIdx_cons]
    | false => simp [forEach, hp, List.findIdx_cons, ih.1, ih.2]

example : forEach (fun n : Nat => n == 2) [1, 2, 3] = ([1, 2], true) ∧ forEach (fun _ => false) [1, 2, 3] = ([1, 2, 3], false) := by
  decide

/-! ## Synchronous `force_flush` -/

/-- The turn of a processor succeeds: it is reached before the deadline and its flush returns something truthy. -/
def TurnOK (deadline : Int) (t : Turn P) : Prop := t.now < deadline ∧ t.result = .truthy

/-- **C27** `force_flush` returns `True` exactly when every processor was reached before the deadline and flushed
successfully. -/
theorem C27_flush_true_iff (start timeout : Int) (turns : List (Turn P)) :
    (syncFlush start timeout turns).2 = .ret true ↔ ∀ t ∈ turns, TurnOK (start + timeout * 1000000) t := by
  unfold syncFlush
  generalize start + timeout * 1000000 = d
  induction turns with
  | nil => simp [syncLoop]
  | cons t l ih =>
    simp only [syncLoop]
    by_cases hn : t.now ≥ d
    · simp only [if_pos hn, List.mem_cons, forall_eq_or_imp, TurnOK]
      constructor
      · intro h; simp at h
      · intro h; omega
    · rw [if_neg hn]
      have hlt : t.now < d := by omega
      cases hr : t.result with
      | raises => simp [TurnOK, hr]
      | falsy => simp [TurnOK, hr]
      | truthy => simp [TurnOK, hr, hlt, ih]

/-- **C27** It stops at the first failure: the processors called are exactly those before the first turn that does not
succeed, and that one too if it was reached in time. -/
theorem C27_flush_calls (start timeout : Int) (ok rest : List (Turn P)) (t : Turn P)
    (hok : ∀ u ∈ ok, TurnOK (start + timeout * 1000000) u) (ht : ¬ TurnOK (start + timeout * 1000000) t) :
    ((syncFlush start timeout (ok ++ t :: rest)).1.map Prod.fst =
      ok.map Turn.proc ++ (if t.now < start + timeout * 1000000 then [t.proc] else [])) ∧
    (syncFlush start timeout (ok ++ t :: rest)).2 =
      (if t.now < start + timeout * 1000000 ∧ t.result = .raises then .raised else .ret false) := by
  unfold syncFlush
  generalize start + timeout * 1000000 = d at *
  induction ok with
  | nil =>
    simp only [List.nil_append, syncLoop]
    by_cases hn : t.now ≥ d
    · have : ¬ t.now < d := by omega
      simp [if_pos hn, this]
    · have hlt : t.now < d := by omega
      rw [if_neg hn]
      cases hr : t.result with
      | raises => simp [hlt]
      | falsy => simp [hlt]
      | truthy => exact absurd ⟨hlt, hr⟩ ht
  | cons u ok ih =>
    obtain ⟨h1, h2⟩ := hok u (by simp)
    have hn : ¬ u.now ≥ d := by omega
    obtain ⟨i1, i2⟩ := ih (fun v hv => hok v (by simp [hv]))
    simp only [List.cons_append, syncLoop, if_neg hn, h2, List.map_cons, i1, i2, and_self]

/-- **C27** Each processor is given what is left of the time-out: with a clock that does not run backwards, between
zero and the whole time-out, and no more than the one before. -/
theorem C27_flush_budget (start timeout : Int) (turns : List (Turn P))
    (hmono : (start :: turns.map Turn.now).Pairwise (· ≤ ·)) :
    (∀ c ∈ (syncFlush start timeout turns).1, 0 ≤ c.2 ∧ c.2 ≤ timeout) ∧
    ((syncFlush start timeout turns).1.map Prod.snd).Pairwise (· ≥ ·) := by
  unfold syncFlush
  generalize hd : start + timeout * 1000000 = d
  have key : ∀ (turns : List (Turn P)), (turns.map Turn.now).Pairwise (· ≤ ·) → ∀ c ∈ (syncLoop d turns).1,
      ∃ t ∈ turns, c.2 = (d - t.now) / 1000000 ∧ t.now < d := by
    intro turns
    induction turns with
    | nil => intro _ c hc; simp [syncLoop] at hc
    | cons t l ih =>
      intro hp c hc
      simp only [List.map_cons, List.pairwise_cons] at hp
      simp only [syncLoop] at hc
      by_cases hn : t.now ≥ d
      · simp [if_pos hn] at hc
      · rw [if_neg hn] at hc
        have hlt : t.now < d := by omega
        have hself : ∃ u ∈ t :: l, (d - t.now) / 1000000 = (d - u.now) / 1000000 ∧ u.now < d := ⟨t, by simp, rfl, hlt⟩
        cases hr : t.result with
        | raises => simp [hr] at hc; subst hc; exact hself
        | falsy => simp [hr] at hc; subst hc; exact hself
        | truthy =>
          simp only [hr, List.mem_cons] at hc
          rcases hc with hc | hc
          · subst hc; exact hself
          · obtain ⟨u, hu, e⟩ := ih hp.2 c hc
            exact ⟨u, by simp [hu], e⟩
  simp only [List.pairwise_cons] at hmono
  refine ⟨?_, ?_⟩
  · intro c hc
    obtain ⟨t, ht, e, hlt⟩ := key turns hmono.2 c hc
    have := hmono.1 t.now (List.mem_map_of_mem ht)
    omega
  · have hm := hmono.2
    clear hmono hd
    induction turns with
    | nil => simp [syncLoop]
    | cons t l ih =>
      simp only [List.map_cons, List.pairwise_cons] at hm
      simp only [syncLoop]
      by_cases hn : t.now ≥ d
      · simp [if_pos hn]
      · rw [if_neg hn]
        cases hr : t.result with
        | raises => simp
        | falsy => simp
        | truthy =>
          simp only [List.map_cons, List.pairwise_cons]
          refine ⟨?_, ih hm.2⟩
          intro b hb
          obtain ⟨c, hc, rfl⟩ := List.mem_map.mp hb
          obtain ⟨u, hu, e, _⟩ := key l hm.2 c hc
          have := hm.1 u.now (List.mem_map_of_mem hu)
          rw [e]; omega

example : syncFlush (P := Nat) 0 10 [⟨1, 0, .truthy⟩, ⟨2, 4000000, .falsy⟩, ⟨3, 5000000, .truthy⟩]
    = ([(1, 10), (2, 6)], .ret false) := by decide

/-! ## Concurrent `force_flush` -/

theorem scan_true (l : List FlushResult) : scan l = .ret true ↔ ∀ r ∈ l, r = .truthy := by
  induction l with
  | nil => simp [scan]
  | cons r l ih => cases r <;> simp [scan, ih]

theorem scan_raised (l : List FlushResult) (h : ∀ r ∈ l, r ≠ .raises) : scan l ≠ .raised := by
  induction l with
  | nil => simp [scan]
  | cons r l ih =>
    cases r with
    | raises => exact absurd rfl (h _ (by simp))
    | falsy => simp [scan]
    | truthy => simpa [scan] using ih (fun q hq => h q (by simp [hq]))

/-- **C27** The concurrent variant returns `True` exactly when every processor finished in time with success, in
whatever order the finished ones are looked at; and it raises only if some processor's flush raised. -/
theorem C27_concurrent_flush (futures : List (Option FlushResult)) (order : List FlushResult)
    (ho : order.Perm (futures.filterMap id)) :
    (concFlush futures order = .ret true ↔ ∀ f ∈ futures, f = some .truthy) ∧
    (concFlush futures order = .raised → some .raises ∈ futures) := by
  unfold concFlush
  have hmem : ∀ r, r ∈ order ↔ some r ∈ futures := by
    intro r
    rw [ho.mem_iff]; simp
  constructor
  · split
    · rename_i h
      simp only [List.any_eq_true] at h
      obtain ⟨f, hf, hn⟩ := h
      constructor
      · intro h'; simp at h'
      · intro h'; rw [h' f hf] at hn; simp at hn
    · rename_i h
      rw [scan_true]
      constructor
      · intro h' f hf
        cases f with
        | none => exact absurd (List.any_eq_true.mpr ⟨none, hf, rfl⟩) h
        | some r => rw [h' r ((hmem r).mpr hf)]
      · intro h' r hr
        exact Option.some.inj (h' _ ((hmem r).mp hr))
  · split
    · intro h; simp at h
    · intro h
      by_contra hn
      refine scan_raised order ?_ h
      intro r hr he
      subst he
      exact hn ((hmem _).mp hr)

example : concFlush [some .truthy, none] [.truthy] = .ret false ∧ concFlush [some .truthy, some .truthy] [.truthy, .truthy] = .ret true := by
  decide

/-! ## Registration -/

/-- The processors passed to `add_span_processor` so far. -/
def added : List (RAct P) → List P
  | [] => []
  | .add p :: l => p :: added l
  | _ :: l => added l

theorem added_append (a b : List (RAct P)) : added (a ++ b) = added a ++ added b := by
  induction a with
  | nil => rfl
  | cons x a ih => cases x <;> simp [added, ih]

structure RegInv (s : Reg P) (l : List P) : Prop where
  all : (s.procs ++ (s.holder.map Prod.fst).toList ++ s.waiting).Perm l
  read : ∀ p old, s.holder = some (p, some old) → old = s.procs
  iters : ∀ it ∈ s.iters, it.snap <+: s.procs ∧ it.pos ≤ it.snap.length

theorem regInv_step (s : Reg P) (l : List P) (a : RAct P) (h : RegInv s l) : RegInv (s.step a) (l ++ added [a]) := by
  cases a with
  | add p =>
    refine ⟨?_, h.read, h.iters⟩
    have := h.all
    simp only [Reg.step, added]
    rw [← List.append_assoc]
    exact this.append_right _
  | acquire i =>
    simp only [Reg.step, added, List.append_nil]
    split
    · rename_i p hh hw
      refine ⟨?_, ?_, h.iters⟩
      · have := h.all
        rw [hh] at this
        have hi : i < s.waiting.length := by
          rcases Nat.lt_or_ge i s.waiting.length with hl | hl
          · exact hl
          · rw [List.getElem?_eq_none hl] at hw; cases hw
        have hx : s.waiting[i] = p := by
          rw [List.getElem?_eq_getElem hi] at hw; exact Option.some.inj hw
        simp only [Option.map_some, Option.toList_some, Option.map_none, Option.toList_none, List.append_nil] at this ⊢
        refine List.Perm.trans ?_ this
        rw [List.append_assoc]
        refine List.Perm.append_left _ ?_
        rw [← hx]
        exact List.getElem_cons_eraseIdx_perm hi
      · intro q old hq
        simp at hq
    · exact ⟨h.all, h.read, h.iters⟩
  | read =>
    simp only [Reg.step, added, List.append_nil]
    split
    · rename_i p hh
      refine ⟨?_, ?_, h.iters⟩
      · have := h.all; rw [hh] at this; exact this
      · intro q old hq
        simp at hq; exact hq.2.symm
    · exact ⟨h.all, h.read, h.iters⟩
  | write =>
    simp only [Reg.step, added, List.append_nil]
    split
    · rename_i p old hh
      have ho := h.read p old hh
      subst ho
      refine ⟨?_, by simp, ?_⟩
      · have := h.all; rw [hh] at this; simpa using this
      · intro it hit
        obtain ⟨h1, h2⟩ := h.iters it hit
        exact ⟨h1.trans (List.prefix_append _ _), h2⟩
    · exact ⟨h.all, h.read, h.iters⟩
  | iter =>
    simp only [Reg.step, added, List.append_nil]
    refine ⟨h.all, h.read, ?_⟩
    intro it hit
    simp only [List.mem_append, List.mem_singleton] at hit
    rcases hit with hit | hit
    · exact h.iters it hit
    · subst hit; exact ⟨List.prefix_rfl, Nat.zero_le _⟩
  | next j =>
    simp only [Reg.step, added, List.append_nil]
    split
    · rename_i it hj
      split
      · rename_i hlt
        refine ⟨h.all, h.read, ?_⟩
        intro u hu
        rcases List.mem_or_eq_of_mem_set hu with hu | hu
        · exact h.iters u hu
        · subst hu
          exact ⟨(h.iters it (List.mem_of_getElem? hj)).1, hlt⟩
      · exact ⟨h.all, h.read, h.iters⟩
    · exact ⟨h.all, h.read, h.iters⟩

theorem regInv_run (acts : List (RAct P)) : RegInv (Reg.run acts) (added acts) := by
  induction acts using List.reverseRecOn with
  | nil => exact ⟨List.Perm.refl _, by simp [Reg.run, Reg.init], by simp [Reg.run, Reg.init]⟩
  | append_singleton acts a ih =>
    have : Reg.run (acts ++ [a]) = (Reg.run acts).step a := by simp [Reg.run]
    rw [this, added_append]
    exact regInv_step _ _ a ih

/-- **C27** No registration is lost or doubled under concurrent `add_span_processor` calls: the registered processors
and those whose call has not finished are the ones added; when all calls have finished, exactly they. -/
theorem C27_registration (acts : List (RAct P)) :
    (∃ pending, ((Reg.run acts).procs ++ pending).Perm (added acts)) ∧
    ((Reg.run acts).holder = none → (Reg.run acts).waiting = [] → (Reg.run acts).procs.Perm (added acts)) := by
  have h := regInv_run acts
  refine ⟨⟨((Reg.run acts).holder.map Prod.fst).toList ++ (Reg.run acts).waiting, by rw [← List.append_assoc]; exact h.all⟩, ?_⟩
  intro h1 h2
  have := h.all
  simpa [h1, h2] using this

/-- **C27** An iteration that runs while processors are being added calls a prefix of the registered processors, in
order, each once; later registrations do not disturb it. -/
theorem C27_iteration (acts : List (RAct P)) (it : Iter P) (h : it ∈ (Reg.run acts).iters) :
    it.called <+: it.snap ∧ it.snap <+: (Reg.run acts).procs ∧ it.called.length = it.pos := by
  obtain ⟨h1, h2⟩ := (regInv_run acts).iters it h
  exact ⟨List.take_prefix _ _, h1, by simp [Iter.called, h2]⟩

example : let s := Reg.run ([.add 1, .acquire 0, .read, .write, .add 2, .iter, .acquire 0, .next 0, .read, .write, .iter, .next 1, .next 1] : List (RAct Nat));
    s.procs = [1, 2] ∧ s.iters.map Iter.called = [[1], [1, 2]] := by decide

/-! ## C55: the log processors
The bodies are the same; these restate the two claims under the log property. -/

/-- **C55** `emit` and `shutdown` reach every registered log processor once and in order. -/
theorem C55_fan_out (raises : P → Bool) (l : List P) (h : ∀ p ∈ l, raises p = false) :
    forEach raises l = (l, false) := C27_fan_out raises l h

/-- **C55** `force_flush` is true exactly when all succeed within the deadline. -/
theorem C55_flush_true_iff (start timeout : Int) (turns : List (Turn P)) :
    (syncFlush start timeout turns).2 = .ret true ↔ ∀ t ∈ turns, t.now < start + timeout * 1000000 ∧ t.result = .truthy :=
  C27_flush_true_iff start timeout turns

/-- **C55** … for the concurrent variant, whatever the order in which results are looked at. -/
theorem C55_concurrent_flush (futures : List (Option FlushResult)) (order : List FlushResult)
    (ho : order.Perm (futures.filterMap id)) :
    concFlush futures order = .ret true ↔ ∀ f ∈ futures, f = some .truthy := (C27_concurrent_flush futures order ho).1

end Multi
end Otel
