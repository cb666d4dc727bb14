import Verif.Spec.ErrorHandler
import Mathlib.Tactic.SplitIfs
import Mathlib.Data.List.Nodup
/-!
# The global error handler
-/
namespace Otel
namespace ErrorHandler
variable {C E : Type}

open Classical in
/-- The positions, counted from `i`, of the plugins that want the error. -/
noncomputable def wanted (w : World C E) (e : E) : Nat → List (Plugin C E) → List Nat
  | _, [] => []
  | i, p :: rest => if p.wants w e then i :: wanted w e (i + 1) rest else wanted w e (i + 1) rest

theorem mem_wanted (w : World C E) (e : E) (i : Nat) (ps : List (Plugin C E)) (k : Nat) :
    k ∈ wanted w e i ps ↔ i ≤ k ∧ ∃ p, ps[k - i]? = some p ∧ p.wants w e := by
  induction ps generalizing i with
  | nil => simp [wanted]
  | cons p ps ih =>
    unfold wanted
    have hrec : k ∈ wanted w e (i + 1) ps ↔ i + 1 ≤ k ∧ ∃ q, (p :: ps)[k - i]? = some q ∧ q.wants w e := by
      rw [ih]
      refine and_congr_right fun hk => ?_
      rw [show k - i = (k - (i + 1)) + 1 by omega, List.getElem?_cons_succ]
    by_cases e' : i = k
    · subst e'
      have : i ∉ wanted w e (i + 1) ps := fun h => by have := (hrec.1 h).1; omega
      split_ifs with h
      · simp [h]
      · simp [this, h]
    · split_ifs with h
      · rw [List.mem_cons, hrec]
        constructor
        · rintro (h | ⟨h1, h2⟩)
          · exact absurd h.symm e'
          · exact ⟨by omega, h2⟩
        · rintro ⟨h1, h2⟩; exact .inr ⟨by omega, h2⟩
      · rw [hrec]
        constructor
        · rintro ⟨h1, h2⟩; exact ⟨by omega, h2⟩
        · rintro ⟨h1, h2⟩; exact ⟨by omega, h2⟩

theorem wanted_sorted (w : World C E) (e : E) (i : Nat) (ps : List (Plugin C E)) : (wanted w e i ps).Pairwise (· < ·) := by
  induction ps generalizing i with
  | nil => simp [wanted]
  | cons p ps ih =>
    unfold wanted
    split_ifs with h
    · refine List.pairwise_cons.2 ⟨?_, ih _⟩
      intro k hk
      have := ((mem_wanted w e (i + 1) ps k).1 hk).1
      omega
    · exact ih _

/-- What the loop does with well-behaved plugins. -/
theorem loop_tame (w : World C E) (e : E) (ps : List (Plugin C E)) (ht : ∀ p ∈ ps, p.tame w) (i : Nat) (handled : Bool) (log : List (Ev E)) :
    ∃ es b, exitLoop w e i ps handled log = (log ++ es, .ok b) ∧ (calls es).map Prod.fst = wanted w e i ps ∧ (∀ x ∈ calls es, x.2.1 = e) ∧
      (b = true ↔ handled = true ∨ ∃ k, (k, e, true) ∈ calls es) ∧ defaults es = [] ∧ failures es = ((calls es).filter fun x => !x.2.2).map fun x => (x.1, e) := by
  induction ps generalizing i handled log with
  | nil => exact ⟨[], handled, by simp [exitLoop], by simp [calls, wanted], by simp [calls], by simp [calls], rfl, rfl⟩
  | cons p ps ih =>
    obtain ⟨⟨c, hc⟩, hh⟩ := ht p (by simp)
    have hps : ∀ q ∈ ps, q.tame w := fun q hq => ht q (by simp [hq])
    have hw : p.wants w e ↔ w.issubclass c (w.classOf e) = true := by
      constructor
      · rintro ⟨c', h1, h2⟩; rw [hc] at h1; cases h1; exact h2
      · intro h; exact ⟨c, hc, h⟩
    unfold exitLoop wanted
    simp only [hc]
    by_cases hsub : w.issubclass c (w.classOf e) = true
    · rw [if_pos hsub, if_pos (hw.2 hsub)]
      cases hx : p.handle log.length e with
      | none =>
        obtain ⟨es, b, h1, h2, h3, h4, h5, h6⟩ := ih hps (i + 1) true (log ++ [.called i e true])
        refine ⟨.called i e true :: es, b, ?_, ?_, ?_, ?_, ?_, ?_⟩
        · simpa using h1
        · simpa [calls] using h2
        · intro x hx
          simp only [calls, List.filterMap_cons, List.mem_cons] at hx
          rcases hx with rfl | hx
          · rfl
          · exact h3 x hx
        · simp only [true_or, iff_true] at h4
          simp [h4, calls]
        · simpa [defaults] using h5
        · simpa [failures, calls] using h6
      | some x =>
        simp only [hh _ _ _ hx, if_true]
        obtain ⟨es, b, h1, h2, h3, h4, h5, h6⟩ := ih hps (i + 1) handled (log ++ [.called i e false, .logged i e x])
        refine ⟨.called i e false :: .logged i e x :: es, b, ?_, ?_, ?_, ?_, ?_, ?_⟩
        · simpa using h1
        · simpa [calls] using h2
        · intro x hx
          simp only [calls, List.filterMap_cons, List.mem_cons] at hx
          rcases hx with rfl | hx
          · rfl
          · exact h3 x hx
        · rw [h4]; simp [calls]
        · simpa [defaults] using h5
        · simpa [failures, calls] using h6
    · rw [if_neg hsub, if_neg (fun h => hsub (hw.1 h))]
      exact ih hps (i + 1) handled log

/-- **C103** With well-behaved plugins, no error leaves a guarded block, whatever the block does and whatever was done before. -/
theorem C103_contained (w : World C E) (ps : List (Plugin C E)) (ht : ∀ p ∈ ps, p.tame w) (a : Prog E) (log : List (Ev E)) : (exec w ps (.guarded a) log).2 = none := by
  unfold exec
  rcases exec w ps a log with ⟨l, _ | e⟩
  · rfl
  · obtain ⟨es, b, h1, _⟩ := loop_tame w e ps ht 0 false l
    simp only [exit, h1]
    cases b <;> rfl

/-- **C103** How an error that reaches the end of a guarded block is handled: what the block did is left as it is; then the plugins whose class is a subclass of the error's class are
called, each once and in their order, with that error; the failures among them are logged; and the default handler logs the error exactly if none of them returned. -/
theorem C103_handled (w : World C E) (ps : List (Plugin C E)) (ht : ∀ p ∈ ps, p.tame w) (a : Prog E) (log l : List (Ev E)) (e : E) (h : exec w ps a log = (l, some e)) :
    ∃ es, exec w ps (.guarded a) log = (l ++ es, none) ∧ ((calls es).map Prod.fst).Pairwise (· < ·) ∧
      (∀ k, k ∈ (calls es).map Prod.fst ↔ ∃ p, ps[k]? = some p ∧ p.wants w e) ∧ (∀ x ∈ calls es, x.2.1 = e) ∧
      HandledOnce e es ∧ failures es = ((calls es).filter fun x => !x.2.2).map fun x => (x.1, e) := by
  obtain ⟨es, b, h1, h2, h3, h4, h5, h6⟩ := loop_tame w e ps ht 0 false l
  have hwant : ∀ k, k ∈ (calls es).map Prod.fst ↔ ∃ p, ps[k]? = some p ∧ p.wants w e := by
    intro k; rw [h2, mem_wanted]; simp
  have hsort : ((calls es).map Prod.fst).Pairwise (· < ·) := by rw [h2]; exact wanted_sorted ..
  cases b with
  | true =>
    have h4' : ∃ k, (k, e, true) ∈ calls es := by simpa using h4
    exact ⟨es, by simp [exec, h, exit, h1], hsort, hwant, h3, .inl ⟨h4', h5⟩, h6⟩
  | false =>
    have h4' : ∀ k, (k, e, true) ∉ calls es := by simpa using h4
    refine ⟨es ++ [.default e], by simp [exec, h, exit, h1], ?_⟩
    have hcalls : calls (es ++ [.default e]) = calls es := by simp [calls]
    have hfail : failures (es ++ [.default e]) = failures es := by simp [failures]
    rw [hcalls, hfail]
    refine ⟨hsort, hwant, h3, .inr ⟨by rw [hcalls]; exact h4', ?_⟩, h6⟩
    simp only [defaults, List.filterMap_append] at h5 ⊢
    simp [h5]

/-- **C103** The rest of a guarded block is not run after an error: the block ends there, and the error is handled as if the rest were not there. -/
theorem C103_abandons (w : World C E) (ps : List (Plugin C E)) (a b : Prog E) (log l : List (Ev E)) (e : E) (h : exec w ps a log = (l, some e)) :
    exec w ps (.guarded (.seq a b)) log = exec w ps (.guarded a) log := by
  simp only [exec, h]

/-- **C103** A block that raises nothing is not touched: no plugin is loaded or called, not even a broken one. -/
theorem C103_transparent (w : World C E) (ps : List (Plugin C E)) (a : Prog E) (log l : List (Ev E)) (h : exec w ps a log = (l, none)) : exec w ps (.guarded a) log = (l, none) := by
  simp [exec, h]

/-- **C103** An `except` clause around a guarded block never sees its error: what the block did stays done, and the clause is not run. -/
theorem C103_around (w : World C E) (ps : List (Plugin C E)) (ht : ∀ p ∈ ps, p.tame w) (a b : Prog E) (log : List (Ev E)) :
    exec w ps (.tryCatch (.guarded a) b) log = exec w ps (.guarded a) log := by
  have h := C103_contained w ps ht a log
  rw [exec]
  rcases hq : exec w ps (.guarded a) log with ⟨l, r⟩
  rw [hq] at h
  simp only at h
  subst h
  rfl

/-- **C103** An error is handled where it is caught first: a block around a guarded block handles nothing of it. -/
theorem C103_innermost (w : World C E) (ps : List (Plugin C E)) (ht : ∀ p ∈ ps, p.tame w) (a : Prog E) (log : List (Ev E)) :
    exec w ps (.guarded (.guarded a)) log = exec w ps (.guarded a) log := by
  have h := C103_contained w ps ht a log
  rcases hq : exec w ps (.guarded a) log with ⟨l, r⟩
  rw [hq] at h
  simp only at h
  subst h
  exact C103_transparent w ps _ log l hq

/-- **C103** What follows a guarded block is executed. -/
theorem C103_continues (w : World C E) (ps : List (Plugin C E)) (ht : ∀ p ∈ ps, p.tame w) (a b : Prog E) (log : List (Ev E)) :
    exec w ps (.seq (.guarded a) b) log = exec w ps b (exec w ps (.guarded a) log).1 := by
  have h := C103_contained w ps ht a log
  rw [exec]
  rcases hq : exec w ps (.guarded a) log with ⟨l, r⟩
  rw [hq] at h
  simp only at h
  subst h
  rfl

/-- **C103** The refuted part, plugins that do not load (or are no classes): the loading error leaves the block in place of the error that was to be handled, which neither the default
handler nor the plugins behind it see. This holds whatever the error is and whichever plugins come first. -/
theorem C103_load_violated (w : World C E) (ps rest : List (Plugin C E)) (p : Plugin C E) (x : E) (ht : ∀ q ∈ ps, q.tame w) (hp : p.load = .raises x ∨ p.load = .notClass x)
    (a : Prog E) (log l : List (Ev E)) (e : E) (h : exec w (ps ++ p :: rest) a log = (l, some e)) :
    ∃ es, exec w (ps ++ p :: rest) (.guarded a) log = (l ++ es, some x) ∧ defaults es = [] ∧ ∀ y ∈ calls es, y.1 < ps.length := by
  have key : ∀ (ps : List (Plugin C E)), (∀ q ∈ ps, q.tame w) → ∀ i handled (log : List (Ev E)),
      ∃ es, exitLoop w e i (ps ++ p :: rest) handled log = (log ++ es, .error x) ∧ defaults es = [] ∧ ∀ y ∈ calls es, y.1 < i + ps.length := by
    intro ps
    induction ps with
    | nil =>
      intro _ i handled log
      refine ⟨[], ?_, rfl, by simp [calls]⟩
      rcases hp with hp | hp <;> simp [exitLoop, hp]
    | cons q ps ih =>
      intro ht i handled log
      obtain ⟨⟨c, hc⟩, hh⟩ := ht q (by simp)
      have ih := ih (fun r hr => ht r (by simp [hr]))
      rw [List.cons_append]
      unfold exitLoop
      simp only [hc, List.length_cons]
      split_ifs with hsub
      · cases hx : q.handle log.length e with
        | none =>
          obtain ⟨es, h1, h2, h3⟩ := ih (i + 1) true (log ++ [.called i e true])
          refine ⟨.called i e true :: es, by simpa using h1, by simpa [defaults] using h2, ?_⟩
          intro y hy
          simp only [calls, List.filterMap_cons, List.mem_cons] at hy
          rcases hy with rfl | hy
          · show i < _; omega
          · have := h3 y hy; omega
        | some z =>
          simp only [hh _ _ _ hx, if_true]
          obtain ⟨es, h1, h2, h3⟩ := ih (i + 1) handled (log ++ [.called i e false, .logged i e z])
          refine ⟨.called i e false :: .logged i e z :: es, by simpa using h1, by simpa [defaults] using h2, ?_⟩
          intro y hy
          simp only [calls, List.filterMap_cons, List.mem_cons] at hy
          rcases hy with rfl | hy
          · show i < _; omega
          · have := h3 y hy; omega
      · obtain ⟨es, h1, h2, h3⟩ := ih (i + 1) handled log
        exact ⟨es, h1, h2, fun y hy => by have := h3 y hy; omega⟩
  obtain ⟨es, h1, h2, h3⟩ := key ps ht 0 false l
  exact ⟨es, by simp [exec, h, exit, h1], h2, by simpa using h3⟩

/-- **C103** The refuted part, handlers that raise something else than an `Exception` (`SystemExit`, say): it leaves the block in place of the error, the handler counts as one that did not return, the
handlers after it are not called, nor is the default handler, and nothing is logged about it. -/
theorem C103_escapes_violated (w : World C E) (ps rest : List (Plugin C E)) (p : Plugin C E) (x : E) (ht : ∀ q ∈ ps, q.tame w) (a : Prog E) (log l : List (Ev E)) (e : E)
    (hp : p.wants w e) (hx : ∀ n, p.handle n e = some x) (hb : w.isException (w.classOf x) = false) (h : exec w (ps ++ p :: rest) a log = (l, some e)) :
    ∃ es, exec w (ps ++ p :: rest) (.guarded a) log = (l ++ es, some x) ∧ defaults es = [] ∧ (calls es).getLast? = some (ps.length, e, false) ∧ (∀ y ∈ calls es, y.1 ≤ ps.length) ∧
      ∀ y ∈ failures es, y.1 < ps.length := by
  obtain ⟨c, hc, hsub⟩ := hp
  have key : ∀ (ps : List (Plugin C E)), (∀ q ∈ ps, q.tame w) → ∀ i handled (log : List (Ev E)),
      ∃ es, exitLoop w e i (ps ++ p :: rest) handled log = (log ++ es ++ [.called (i + ps.length) e false], .error x) ∧ defaults es = [] ∧ (∀ y ∈ calls es, y.1 < i + ps.length) ∧
        ∀ y ∈ failures es, y.1 < i + ps.length := by
    intro ps
    induction ps with
    | nil =>
      intro _ i handled log
      refine ⟨[], ?_, rfl, by simp [calls], by simp [failures]⟩
      simp [exitLoop, hc, hsub, hx, hb]
    | cons q ps ih =>
      intro ht i handled log
      obtain ⟨⟨c', hc'⟩, hh⟩ := ht q (by simp)
      have ih := ih (fun r hr => ht r (by simp [hr]))
      rw [List.cons_append]
      unfold exitLoop
      simp only [hc', List.length_cons]
      have hn : i + (ps.length + 1) = i + 1 + ps.length := by omega
      rw [hn]
      split_ifs with hsub'
      · cases hz : q.handle log.length e with
        | none =>
          obtain ⟨es, h1, h2, h3, h4⟩ := ih (i + 1) true (log ++ [.called i e true])
          refine ⟨.called i e true :: es, by simpa using h1, by simpa [defaults] using h2, ?_, by simpa [failures] using h4⟩
          intro y hy
          simp only [calls, List.filterMap_cons, List.mem_cons] at hy
          rcases hy with rfl | hy
          · show i < _; omega
          · exact h3 y hy
        | some z =>
          simp only [hh _ _ _ hz, if_true]
          obtain ⟨es, h1, h2, h3, h4⟩ := ih (i + 1) handled (log ++ [.called i e false, .logged i e z])
          refine ⟨.called i e false :: .logged i e z :: es, by simpa using h1, by simpa [defaults] using h2, ?_, ?_⟩
          · intro y hy
            simp only [calls, List.filterMap_cons, List.mem_cons] at hy
            rcases hy with rfl | hy
            · show i < _; omega
            · exact h3 y hy
          · intro y hy
            simp only [failures, List.filterMap_cons, List.mem_cons] at hy
            rcases hy with rfl | hy
            · show i < _; omega
            · exact h4 y hy
      · exact ih (i + 1) handled log
  obtain ⟨es, h1, h2, h3, h4⟩ := key ps ht 0 false l
  refine ⟨es ++ [.called (0 + ps.length) e false], by simp [exec, h, exit, h1], by simp [defaults] at h2 ⊢; exact h2, ?_, ?_, ?_⟩
  · simp [calls]
  · intro y hy
    simp only [calls, List.filterMap_append, List.mem_append, List.filterMap_cons, List.filterMap_nil, List.mem_singleton] at hy
    rcases hy with hy | rfl
    · have := h3 y hy; omega
    · show 0 + ps.length ≤ ps.length; omega
  · intro y hy
    simp only [failures, List.filterMap_append, List.mem_append, List.filterMap_cons, List.filterMap_nil, List.not_mem_nil, or_false] at hy
    have := h4 y hy; omega

/-- **C103** The refuted part, errors that are not to be handled: a `KeyboardInterrupt` or `SystemExit` in a guarded block, which no `except Exception` would catch, does not stop the
program, even without any plugin; what follows is executed. -/
theorem C103_interrupt_violated (w : World C E) (e : E) (_hi : w.isException (w.classOf e) = false) (n : Nat) :
    exec w [] (.seq (.guarded (.throws e)) (.does n)) [] = ([.default e, .did n], none) := rfl

/-- Classes of an example: 0 `BaseException`, 1 `Exception`, 2 `ArithmeticError`, 3 `ZeroDivisionError`, 4 `KeyboardInterrupt`, 5 a handler of `ZeroDivisionError`, 6 a handler of
`ArithmeticError`; errors are classes. -/
private def exWorld : World Nat Nat where
  classOf := id
  issubclass a b := decide ((a, b) ∈ [(1, 0), (2, 1), (2, 0), (3, 2), (3, 1), (3, 0), (4, 0), (5, 3), (5, 2), (5, 1), (5, 0), (6, 2), (6, 1), (6, 0)] ∨ a = b)
  isException c := decide (c ∈ [1, 2, 3, 5, 6])

/-- **C103** A handler of `ArithmeticError` is not asked about a `ZeroDivisionError`, which is one; a handler of `ZeroDivisionError` is asked about an `ArithmeticError`, which is none. -/
theorem C103_subclass_violated :
    exec exWorld [⟨.cls 6, fun _ _ => none⟩] (.guarded (.throws 3)) [] = ([.default 3], none) ∧
    exec exWorld [⟨.cls 5, fun _ _ => none⟩] (.guarded (.throws 2)) [] = ([.called 0 2 true], none) := by decide +kernel

/-- The hypotheses hold of two plugins one of which fails. -/
example : ∃ ps : List (Plugin Nat Nat), (∀ p ∈ ps, p.tame exWorld) ∧
    exec exWorld ps (.guarded (.seq (.does 7) (.throws 3))) [] = ([.did 7, .called 0 3 false, .logged 0 3 1, .called 1 3 true], none) := by
  refine ⟨[⟨.cls 5, fun _ _ => some 1⟩, ⟨.cls 5, fun _ _ => none⟩], ?_, by decide +kernel⟩
  intro p hp
  simp only [List.mem_cons, List.not_mem_nil, or_false] at hp
  rcases hp with rfl | rfl
  · exact ⟨⟨5, rfl⟩, fun n e x h => by cases h; rfl⟩
  · exact ⟨⟨5, rfl⟩, fun n e x h => by cases h⟩

end ErrorHandler
end Otel
