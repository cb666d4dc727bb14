import Verif.Model.Provider
import Mathlib.Data.List.Basic
import Mathlib.Data.List.Nodup
/-!
# C51, C66, C67: `MeterProvider`
-/
namespace Otel
namespace Provider
variable {R A : Type}

/-! ## Reaching the readers -/

/-- A reader is reached in time. -/
def InTime (deadline : Int) (env : R → Turn) (r : R) : Prop := (env r).now < deadline

/-- A reader fails: it is not reached in time, or its method raises. -/
def Fails (deadline : Int) (env : R → Turn) (r : R) : Prop := deadline ≤ (env r).now ∨ (env r).raises = true

instance (d : Int) (env : R → Turn) (r : R) : Decidable (InTime d env r) := inferInstanceAs (Decidable (_ < _))
instance (d : Int) (env : R → Turn) (r : R) : Decidable (Fails d env r) := inferInstanceAs (Decidable (_ ∨ _))

theorem loop_eq (d : Int) (env : R → Turn) (l : List R) :
    readerLoop d env l =
      ((l.filter (fun r => decide (InTime d env r))).map (fun r => (r, ((d - (env r).now : Int) : Rat) / 1000000)),
       l.filter (fun r => decide (Fails d env r))) := by
  induction l with
  | nil => rfl
  | cons r l ih =>
    simp only [readerLoop, ih]
    by_cases h : (env r).now ≥ d
    · have h1 : ¬ InTime d env r := by unfold InTime; omega
      have h2 : Fails d env r := Or.inl h
      simp [h, h1, h2]
    · have h1 : InTime d env r := by unfold InTime; omega
      simp only [if_neg h, List.filter_cons, h1, decide_true, if_true, List.map_cons]
      cases hr : (env r).raises with
      | true => have h2 : Fails d env r := Or.inr hr; simp [h2]
      | false => have h2 : ¬ Fails d env r := by rintro (h2 | h2); exact h h2; simp [hr] at h2
                 simp [h2]

/-- **C51** `force_flush` calls exactly the readers it reaches before the deadline, each once, in order, with the remaining time, whatever
the others do, and raises exactly if some reader failed or was not reached; the error names exactly those. -/
theorem C51_flush [DecidableEq A] (s : St R A) (start timeout : Int) (env : R → Turn) :
    ∃ calls errors, step s (.flush start timeout env) = (s, .called calls errors) ∧
      calls.map Prod.fst = s.readers.filter (fun r => decide (InTime (start + timeout * 1000000) env r)) ∧
      (∀ c ∈ calls, c.2 * 1000000 = (start + timeout * 1000000 - (env c.1).now : Int)) ∧
      errors = s.readers.filter (fun r => decide (Fails (start + timeout * 1000000) env r)) := by
  refine ⟨_, _, rfl, ?_, ?_, ?_⟩
  · rw [loop_eq]; simp [Function.comp_def]
  · rw [loop_eq]
    intro c hc
    simp only [List.mem_map] at hc
    obtain ⟨r, _, rfl⟩ := hc
    show (((start + timeout * 1000000 - (env r).now : Int) : Rat) / 1000000) * 1000000 = _
    exact Rat.div_mul_cancel (by decide)
  · rw [loop_eq]

/-- **C51** If all readers are reached in time, every reader is flushed, whatever fails. -/
theorem C51_flush_all [DecidableEq A] (s : St R A) (start timeout : Int) (env : R → Turn)
    (h : ∀ r ∈ s.readers, (env r).now < start + timeout * 1000000) :
    ∃ calls errors, step s (.flush start timeout env) = (s, .called calls errors) ∧ calls.map Prod.fst = s.readers ∧
      errors = s.readers.filter (fun r => (env r).raises) := by
  obtain ⟨c, e, h0, h1, _, h3⟩ := C51_flush s start timeout env
  refine ⟨c, e, h0, ?_, ?_⟩
  · rw [h1, List.filter_eq_self]; intro r hr; simp [InTime, h r hr]
  · rw [h3]
    apply List.filter_congr
    intro r hr
    have := h r hr
    have h1 : ¬ start + timeout * 1000000 ≤ (env r).now := by omega
    simp [Fails, h1]

example : (step (init ['a', 'b', 'c'] false : St Char Unit)
    (.flush 0 1 (fun r => if r = 'a' then ⟨0, true⟩ else if r = 'b' then ⟨500000, false⟩ else ⟨2000000, false⟩))).2 =
    .called [('a', 1), ('b', 1/2)] ['a', 'c'] := by decide +kernel

/-- The same for the first `shutdown`. -/
theorem C51_shutdown [DecidableEq A] (s : St R A) (start timeout : Int) (env : R → Turn) (hs : s.shutdown = false) :
    ∃ calls errors, step s (.shutdown start timeout env) = ({ s with shutdown := true }, .called calls errors) ∧
      calls.map Prod.fst = s.readers.filter (fun r => decide (InTime (start + timeout * 1000000) env r)) ∧
      (∀ c ∈ calls, c.2 * 1000000 = (start + timeout * 1000000 - (env c.1).now : Int)) ∧
      errors = s.readers.filter (fun r => decide (Fails (start + timeout * 1000000) env r)) := by
  obtain ⟨c, e, h0, h1, h2, h3⟩ := C51_flush s start timeout env
  refine ⟨c, e, ?_, h1, h2, h3⟩
  simp only [step, Prod.mk.injEq, true_and] at h0
  simp [step, hs, h0]

/-- The `shutdown` calls in a history, with what they did. -/
def shutdowns : List (Op R A) → List (Out R) → List (Out R)
  | .shutdown _ _ _ :: ops, o :: outs => o :: shutdowns ops outs
  | _ :: ops, _ :: outs => shutdowns ops outs
  | _, _ => []

theorem refused_of_shutdown [DecidableEq A] (s : St R A) (hs : s.shutdown = true) (l : List (Op R A)) :
    ∀ o ∈ shutdowns l (run s l), o = .refused := by
  induction l generalizing s with
  | nil => simp [run, shutdowns]
  | cons o l ih =>
    have hstep : (step s o).1.shutdown = true := by
      cases o with
      | flush => exact hs
      | shutdown => simp [step, hs]
      | getMeter n v c a => simp [step, hs]
    cases o with
    | flush => exact ih _ hstep
    | shutdown a b e =>
      intro x hx
      simp only [run, shutdowns, List.mem_cons] at hx
      rcases hx with rfl | hx
      · simp [step, hs]
      · exact ih _ hstep x hx
    | getMeter => exact ih _ hstep

/-- **C51** In any history of calls, every `shutdown` after the first reaches no reader. -/
theorem C51_shutdown_once [DecidableEq A] (readers : List R) (disabled : Bool) (l : List (Op R A)) :
    ∀ o ∈ (shutdowns l (run (init readers disabled) l)).tail, o = .refused := by
  suffices h : ∀ s : St R A, s.shutdown = false → ∀ o ∈ (shutdowns l (run s l)).tail, o = .refused from h _ rfl
  induction l with
  | nil => intro s _ o ho; simp [run, shutdowns] at ho
  | cons x l ih =>
    intro s hs
    cases x with
    | flush => exact ih _ hs
    | shutdown a b e =>
      intro o ho
      simp only [run, shutdowns, List.tail_cons] at ho
      exact refused_of_shutdown _ (by simp [step, hs]) l o ho
    | getMeter n v c a =>
      refine ih _ ?_
      simp only [step]
      split
      · exact hs
      · split <;> exact hs

/-- **C51** After `shutdown`, whatever it raised, only no-op meters are handed out. -/
theorem C51_no_meter_after [DecidableEq A] (s : St R A) (start timeout : Int) (env : R → Turn) (mid : List (Op R A)) (name : Str)
    (v c : Option Str) (a : A) :
    run s (.shutdown start timeout env :: mid ++ [.getMeter name v c a]) =
      run s (.shutdown start timeout env :: mid) ++ [.meter none] := by
  have key : ∀ (l : List (Op R A)) (s : St R A), s.shutdown = true → run s (l ++ [.getMeter name v c a]) = run s l ++ [.meter none] := by
    intro l
    induction l with
    | nil => intro s hs; simp [run, step, hs]
    | cons o l ih =>
      intro s hs
      have hstep : (step s o).1.shutdown = true := by
        cases o with
        | flush => exact hs
        | shutdown => simp [step, hs]
        | getMeter n v c a => simp [step, hs]
      simp only [List.cons_append, run, ih _ hstep]
  rw [List.cons_append]
  simp only [run, List.cons_append]
  refine congrArg₂ List.cons rfl (key mid _ ?_)
  simp only [step]
  split
  · assumption
  · rfl

/-! ## C67: one meter per scope -/

/-- The scope a call asks for. -/
def scopeOf (name : Str) (version schema : Option Str) (attrs : A) : Scope A := ⟨name, version, schema.getD [], attrs⟩

/-- The meters of a provider are numbered without repetition. -/
def MetersOk [DecidableEq A] (l : List (Scope A × Nat)) : Prop :=
  (l.map Prod.fst).Nodup ∧ ∀ i (h : i < l.length), (l[i]).2 = i

theorem find_none [DecidableEq A] (k : Scope A) (l : List (Scope A × Nat)) : find k l = none ↔ k ∉ l.map Prod.fst := by
  induction l with
  | nil => simp [find]
  | cons x l ih =>
    obtain ⟨k', m⟩ := x
    simp only [find]
    split
    · rename_i h; simp [h]
    · rename_i h; rw [ih]; simp [Ne.symm h]

theorem find_some [DecidableEq A] (k : Scope A) (m : Nat) (l : List (Scope A × Nat)) (h : find k l = some m) : (k, m) ∈ l := by
  induction l with
  | nil => simp [find] at h
  | cons x l ih =>
    obtain ⟨k', n⟩ := x
    simp only [find] at h
    split at h
    · rename_i hk; subst hk; injection h with h; subst h; simp
    · exact List.mem_cons_of_mem _ (ih h)

theorem metersOk_append [DecidableEq A] (l : List (Scope A × Nat)) (h : MetersOk l) (k : Scope A) (hk : find k l = none) :
    MetersOk (l ++ [(k, l.length)]) := by
  refine ⟨?_, ?_⟩
  · rw [List.map_append, List.nodup_append]
    refine ⟨h.1, by simp, ?_⟩
    intro a ha b hb
    simp only [List.map_cons, List.map_nil, List.mem_singleton] at hb
    subst hb
    rintro rfl
    exact (find_none _ _).1 hk ha
  · intro i hi
    rw [List.length_append, List.length_singleton] at hi
    by_cases hil : i < l.length
    · rw [List.getElem_append_left hil]; exact h.2 i hil
    · have : i = l.length := by omega
      subst this
      simp

theorem step_metersOk [DecidableEq A] (s : St R A) (o : Op R A) (h : MetersOk s.meters) :
    MetersOk (step s o).1.meters ∧ s.meters <+: (step s o).1.meters := by
  cases o with
  | flush => exact ⟨h, List.prefix_rfl⟩
  | shutdown => simp only [step]; split <;> exact ⟨h, List.prefix_rfl⟩
  | getMeter n v c a =>
    simp only [step]
    split
    · exact ⟨h, List.prefix_rfl⟩
    · split
      · exact ⟨h, List.prefix_rfl⟩
      · rename_i hf
        exact ⟨metersOk_append _ h _ hf, List.prefix_append _ _⟩

/-- The state after a history. -/
def after [DecidableEq A] : St R A → List (Op R A) → St R A
  | s, [] => s
  | s, o :: l => after (step s o).1 l

theorem after_ok [DecidableEq A] (l : List (Op R A)) (s : St R A) (h : MetersOk s.meters) :
    MetersOk (after s l).meters ∧ s.meters <+: (after s l).meters := by
  induction l generalizing s with
  | nil => exact ⟨h, List.prefix_rfl⟩
  | cons o l ih =>
    have h1 := step_metersOk s o h
    have h2 := ih _ h1.1
    exact ⟨h2.1, h1.2.trans h2.2⟩

theorem getMeter_mem [DecidableEq A] (s : St R A) (n : Str) (v c : Option Str) (a : A) (m : Nat)
    (h : (step s (.getMeter n v c a)).2 = .meter (some m)) :
    (scopeOf n v c a, m) ∈ (step s (.getMeter n v c a)).1.meters := by
  simp only [step] at h ⊢
  split at h
  · simp at h
  · rename_i h0
    rw [if_neg h0]
    split at h
    · rename_i x hx
      simp only [Out.meter.injEq, Option.some.injEq] at h
      subst h
      exact find_some _ _ _ hx
    · rename_i hx
      simp only [Out.meter.injEq, Option.some.injEq] at h
      subst h
      simp [scopeOf]

/-- **C67** Two `get_meter` calls anywhere in a history that return real meters return the same one exactly if name, version, schema URL
(missing counts as empty) and attributes agree. -/
theorem C67_same_meter [DecidableEq A] (readers : List R) (disabled : Bool) (pre mid : List (Op R A))
    (n n' : Str) (v v' c c' : Option Str) (a a' : A) (m m' : Nat)
    (h1 : (step (after (init readers disabled) pre) (.getMeter n v c a)).2 = .meter (some m))
    (h2 : (step (after (init readers disabled) (pre ++ .getMeter n v c a :: mid)) (.getMeter n' v' c' a')).2 = .meter (some m')) :
    m = m' ↔ n = n' ∧ v = v' ∧ c.getD [] = c'.getD [] ∧ a = a' := by
  have happ : ∀ (l : List (Op R A)) (s : St R A) (l' : List (Op R A)), after s (l ++ l') = after (after s l) l' := by
    intro l
    induction l with
    | nil => intros; rfl
    | cons o l ih => intro s l'; exact ih _ _
  rw [happ] at h2
  generalize hs : after (init readers disabled) pre = s at h1 h2
  have hs0 : MetersOk s.meters := by
    rw [← hs]; exact (after_ok pre _ ⟨by simp [init], by simp [init]⟩).1
  have hm1 := getMeter_mem s n v c a m h1
  have h2' : (step (after (step s (.getMeter n v c a)).1 mid) (.getMeter n' v' c' a')).2 = .meter (some m') := h2
  have hm2 := getMeter_mem _ n' v' c' a' m' h2'
  have ok1 := step_metersOk s (.getMeter n v c a) hs0
  have ok2 := after_ok mid _ ok1.1
  have ok3 := step_metersOk _ (.getMeter n' v' c' a') ok2.1
  have hm1' := (ok2.2.trans ok3.2).subset hm1
  generalize (step (after (step s (.getMeter n v c a)).1 mid) (.getMeter n' v' c' a')).1.meters = L at hm1' hm2 ok3
  obtain ⟨i, hi, ei⟩ := List.getElem_of_mem hm1'
  obtain ⟨j, hj, ej⟩ := List.getElem_of_mem hm2
  have e1 := ok3.1.2 i hi
  have e2 := ok3.1.2 j hj
  rw [ei] at e1
  rw [ej] at e2
  simp only at e1 e2
  have hsc : scopeOf n v c a = scopeOf n' v' c' a' ↔ n = n' ∧ v = v' ∧ c.getD [] = c'.getD [] ∧ a = a' := by simp [scopeOf]
  rw [← hsc]
  constructor
  · intro hmm
    have : i = j := by omega
    subst this
    rw [ei] at ej
    exact (Prod.mk.inj ej).1
  · intro hss
    have hn := ok3.1.1
    have : i = j := by
      have hi' : i < (L.map Prod.fst).length := by simpa using hi
      have hj' : j < (L.map Prod.fst).length := by simpa using hj
      refine (List.Nodup.getElem_inj_iff hn (hi := hi') (hj := hj')).1 ?_
      simp [ei, ej, hss]
    omega

/-- **C67** A provider that is neither disabled nor shut down hands out a real meter for every non-empty name. -/
theorem C67_real [DecidableEq A] (s : St R A) (hd : s.disabled = false) (hs : s.shutdown = false) (n : Str) (hn : n ≠ []) (v c : Option Str)
    (a : A) : ∃ m, (step s (.getMeter n v c a)).2 = .meter (some m) := by
  have h0 : ¬ (s.disabled || s.shutdown || n.isEmpty) = true := by simp [hd, hs, hn]
  simp only [step, if_neg h0]
  split <;> exact ⟨_, rfl⟩

/-! ## C66: a reader serves one provider -/

/-- Registered readers have one callback each, set by one constructor. -/
def RegOk [DecidableEq R] (g : Registry R) : Prop := g.callbacks.map Prod.fst = g.taken ∧ g.taken.Nodup

theorem register_ok [DecidableEq R] (p : Nat) (l : List R) (g : Registry R) (h : RegOk g) : RegOk (register p g l).1 := by
  induction l generalizing g with
  | nil => exact h
  | cons r l ih =>
    simp only [register]
    split
    · exact h
    · rename_i hr
      apply ih
      refine ⟨by simp [h.1], ?_⟩
      rw [List.nodup_append]
      refine ⟨h.2, by simp, ?_⟩
      intro a ha b hb
      simp only [List.mem_singleton] at hb
      subst hb
      rintro rfl
      exact hr ha

theorem register_returns [DecidableEq R] (p : Nat) (l : List R) (g : Registry R) :
    (register p g l).2 = true ↔ l.Nodup ∧ ∀ r ∈ l, r ∉ g.taken := by
  induction l generalizing g with
  | nil => simp [register]
  | cons r l ih =>
    simp only [register]
    split
    · rename_i hr; simp [hr]
    · rename_i hr
      rw [ih]
      simp only [List.mem_append, List.mem_singleton, not_or, List.nodup_cons, List.mem_cons, forall_eq_or_imp, hr, not_false_eq_true,
        true_and]
      constructor
      · rintro ⟨hn, hl⟩
        exact ⟨⟨fun hm => (hl r hm).2.1 rfl, hn⟩, fun x hx => (hl x hx).1⟩
      · rintro ⟨⟨hm, hn⟩, hl⟩
        exact ⟨hn, fun x hx => ⟨hl x hx, fun e => hm (e ▸ hx), by simp⟩⟩

/-- **C66** Whatever providers are constructed, with success or not, no reader's data source is ever set twice: a reader collects from one
provider for good. -/
theorem C66_one_provider [DecidableEq R] (l : List (List R)) :
    ((constructs 0 ⟨[], []⟩ l).1.callbacks.map Prod.fst).Nodup := by
  suffices h : ∀ n (g : Registry R), RegOk g → RegOk (constructs n g l).1 by
    have := h 0 ⟨[], []⟩ ⟨rfl, by simp⟩
    rw [this.1]; exact this.2
  induction l with
  | nil => intro n g h; exact h
  | cons rs l ih => intro n g h; exact ih _ _ (register_ok n rs g h)

/-- **C66** A constructor returns exactly if its readers are distinct and none of them was registered before. -/
theorem C66_returns_iff [DecidableEq R] (n : Nat) (g : Registry R) (rs : List R) :
    (register n g rs).2 = true ↔ rs.Nodup ∧ ∀ r ∈ rs, r ∉ g.taken := register_returns n rs g

/-- **C66** (witness) A constructor that raises keeps the readers it had already registered: they can be used with no other provider,
although the provider they belong to does not exist. -/
theorem C66_failed_keeps :
    (constructs 0 ⟨[], []⟩ [["a"], ["b", "a"], ["b"]]).2 = [true, false, false] ∧
    ("b", 1) ∈ (constructs 0 ⟨[], []⟩ [["a"], ["b", "a"], ["b"]]).1.callbacks := by decide

end Provider
end Otel
