import Verif.Spec.LogSharing
import Mathlib.Data.List.Induction
/-!
# C130: what log exporters see of a record that others change
-/
namespace Otel
namespace LogSharing
open Spec
variable {V : Type}

/-- Whether a processor exports. -/
def Exports : Proc V → Bool
  | .edit _ => false
  | _ => true

/-- Only records that were emitted are passed on. -/
structure Known (s : St V) : Prop where
  queues : ∀ k, ∀ r ∈ s.queues k, r < s.recs.length
  exports : ∀ e ∈ s.exports, e.2.1 < s.recs.length

/-- The invariant for the record `r` that was emitted with the content `v`; since some moment `n0` processors have been called with it, and
`e0` exports were made before. -/
structure Inv (procs : List (Proc V)) (v : V) (r n0 e0 : Nat) (s : St V) : Prop where
  val : ∃ t, s.recs[r]? = some t ∧ t.val = changed v (procs.take t.pos) ∧ n0 ≤ t.pos ∧ t.pos ≤ procs.length ∧
    ∀ k, (got k r s.exports).length + (s.queues k).count r = if k < t.pos ∧ (procs[k]?.map Exports) = some true then 1 else 0
  length : e0 ≤ s.exports.length
  since : ∀ e ∈ s.exports.drop e0, e.2.1 = r → ∃ m, e.2.2 = changed v (procs.take m) ∧ m ≤ procs.length ∧
    ((∃ (_ : procs[e.1]? = some .simple), m = e.1) ∨ (procs[e.1]? = some .batch ∧ e.1 < m ∧ n0 ≤ m))
  queue : ∀ k, r ∈ s.queues k → procs[k]? = some .batch ∧ ∀ t, s.recs[r]? = some t → k < t.pos

theorem changed_snoc (v : V) (l : List (Proc V)) (p : Proc V) :
    changed v (l ++ [p]) = match p with | .edit f => f (changed v l) | _ => changed v l := by
  induction l generalizing v with
  | nil => cases p <;> rfl
  | cons q l ih => cases q <;> simp only [List.cons_append, changed, ih]

theorem take_succ {X : Type} {l : List X} {n : Nat} {p : X} (h : l[n]? = some p) : l.take (n + 1) = l.take n ++ [p] := by
  rw [List.take_add_one, h]; rfl

theorem set_self {X : Type} {l : List X} {i : Nat} {t : X} (a : X) (h : l[i]? = some t) : (l.set i a)[i]? = some a := by
  have hi := (List.getElem?_eq_some_iff.mp h).1
  rw [List.getElem?_set, if_pos rfl, if_pos hi]

theorem set_other {X : Type} {l : List X} {i j : Nat} (a : X) (h : i ≠ j) : (l.set i a)[j]? = l[j]? := by
  rw [List.getElem?_set, if_neg h]

theorem got_append (k r : Nat) (a b : List (Nat × Nat × V)) : got k r (a ++ b) = got k r a ++ got k r b := by simp [got]

theorem known_init : Known (V := V) init := ⟨by simp [init], by simp [init]⟩

variable (procs : List (Proc V))

theorem known_step {s : St V} (h : Known s) (a : Act V) : Known (step procs s a) := by
  cases a with
  | emit v =>
    refine ⟨fun k r hr => ?_, fun e he => ?_⟩
    · have := h.queues k r hr; simp [step]; omega
    · have := h.exports e he; simp [step]; omega
  | change r f =>
    simp only [step]
    split
    · exact h
    · refine ⟨fun k r hr => ?_, fun e he => ?_⟩
      · have := h.queues k r hr; simpa using this
      · have := h.exports e he; simpa using this
  | next r =>
    simp only [step]
    split
    · exact h
    · next t ht =>
      have hl := (List.getElem?_eq_some_iff.mp ht).1
      simp only [advance]
      split
      · exact h
      · next p hp =>
        cases p with
        | edit f =>
          refine ⟨fun k r hr => ?_, fun e he => ?_⟩
          · have := h.queues k r hr; simpa [call] using this
          · have := h.exports e he; simpa [call] using this
        | simple =>
          refine ⟨fun k r hr => ?_, fun e he => ?_⟩
          · have := h.queues k r hr; simpa [call] using this
          · simp only [call, List.mem_append, List.mem_singleton, List.length_set] at he ⊢
            rcases he with he | rfl
            · exact h.exports e he
            · exact hl
        | batch =>
          refine ⟨fun k r' hr => ?_, fun e he => ?_⟩
          · simp only [call, List.length_set] at hr ⊢
            split at hr
            · rcases List.mem_append.mp hr with hr | hr
              · exact h.queues k r' hr
              · rw [List.mem_singleton.mp hr]; exact hl
            · exact h.queues k r' hr
          · have := h.exports e he; simpa [call] using this
  | drain k =>
    simp only [step, export1]
    split
    · exact h
    · next r rest hq =>
      have hr := h.queues k r (by rw [hq]; simp)
      split
      · exact h
      · refine ⟨fun k' r' hr' => ?_, fun e he => ?_⟩
        · simp only at hr'
          split at hr'
          · next e => subst e; exact h.queues k' r' (by rw [hq]; simp [hr'])
          · exact h.queues k' r' hr'
        · simp only [List.mem_append, List.mem_singleton] at he
          rcases he with he | rfl
          · exact h.exports e he
          · exact hr

theorem known_run (acts : List (Act V)) : Known (run procs acts) := by
  have : ∀ (s : St V), Known s → Known (acts.foldl (step procs) s) := by
    induction acts with
    | nil => exact fun s h => h
    | cons a l ih => exact fun s h => ih _ (known_step procs h a)
  exact this _ known_init

/-- Nothing was exported of a record that has not been emitted. -/
theorem got_nil {s : St V} (h : Known s) {r : Nat} (hr : s.recs.length ≤ r) (k : Nat) : got k r s.exports = [] ∧ r ∉ s.queues k := by
  constructor
  · rw [got, List.filter_eq_nil_iff.mpr]
    · rfl
    · intro e he
      have := h.exports e he
      simp; intro _; omega
  · intro hm
    have := h.queues k r hm; omega

/-- When the record is emitted. -/
theorem inv_emit {s : St V} (h : Known s) (v : V) : Inv procs v s.recs.length 0 0 (step procs s (.emit v)) where
  val := by
    refine ⟨⟨v, 0⟩, by simp [step], by simp [changed], Nat.le_refl _, Nat.zero_le _, fun k => ?_⟩
    obtain ⟨h1, h2⟩ := got_nil h (Nat.le_refl _) k
    simp [step, h1, List.count_eq_zero.mpr h2]
  length := Nat.zero_le _
  since := by
    intro e he hr
    have := h.exports e (List.mem_of_mem_drop he); omega
  queue := by
    intro k hk
    exact absurd hk (got_nil h (Nat.le_refl _) k).2

/-- From now on. -/
theorem rebase {v : V} {r n0 e0 : Nat} {s : St V} (h : Inv procs v r n0 e0 s) {t : Rec V} (ht : s.recs[r]? = some t) :
    Inv procs v r t.pos s.exports.length s where
  val := by
    obtain ⟨t', e, h1, h2, h3, h4⟩ := h.val
    rw [ht] at e
    cases e
    exact ⟨_, ht, h1, Nat.le_refl _, h3, h4⟩
  length := Nat.le_refl _
  since := by simp
  queue := h.queue

variable {procs}

theorem got_other {k r : Nat} (x : Nat × Nat × V) (h : x.2.1 ≠ r) (l : List (Nat × Nat × V)) : got k r (l ++ [x]) = got k r l := by
  rw [got_append]
  have : got k r [x] = [] := by simp [got, h]
  rw [this, List.append_nil]

theorem got_same {k r : Nat} (i : Nat) (v : V) (l : List (Nat × Nat × V)) :
    got k r (l ++ [(i, r, v)]) = if i = k then got k r l ++ [v] else got k r l := by
  rw [got_append]
  by_cases h : i = k
  · simp [got, h]
  · simp [got, h]

/-- What happens to other records. -/
theorem inv_other {v : V} {r n0 e0 : Nat} {s s' : St V} (h : Inv procs v r n0 e0 s) (hr : s'.recs[r]? = s.recs[r]?)
    (hq : ∀ k, (s'.queues k).count r = (s.queues k).count r)
    (he : s'.exports = s.exports ∨ ∃ x, x.2.1 ≠ r ∧ s'.exports = s.exports ++ [x]) : Inv procs v r n0 e0 s' where
  val := by
    obtain ⟨t, e, h1, h2, h3, h4⟩ := h.val
    refine ⟨t, hr.trans e, h1, h2, h3, fun k => ?_⟩
    rw [hq k, ← h4 k]
    rcases he with he | ⟨x, hx, he⟩
    · rw [he]
    · rw [he, got_other x hx]
  length := by
    have := h.length
    rcases he with he | ⟨x, hx, he⟩ <;> rw [he]
    · exact this
    · simp; omega
  since := by
    rcases he with he | ⟨x, hx, he⟩
    · rw [he]; exact h.since
    · rw [he, List.drop_append_of_le_length h.length]
      intro e hm e2
      rcases List.mem_append.mp hm with hm | hm
      · exact h.since e hm e2
      · rw [List.mem_singleton.mp hm] at e2
        exact absurd e2 hx
  queue := by
    intro k hk
    rw [hr]
    refine h.queue k ?_
    rw [← List.count_pos_iff, ← hq k, List.count_pos_iff]
    exact hk

theorem inv_next {v : V} {r n0 e0 : Nat} {s : St V} (h : Inv procs v r n0 e0 s) {t : Rec V} (ht : s.recs[r]? = some t) :
    Inv procs v r n0 e0 (advance procs s r t) := by
  obtain ⟨t', e, h1, h2, h3, h4⟩ := h.val
  rw [ht] at e
  cases e
  unfold advance
  split
  · exact h
  · next p hp =>
    have hlt := (List.getElem?_eq_some_iff.mp hp).1
    have step_count : ∀ k, k ≠ t.pos → ((k < t.pos + 1) ↔ k < t.pos) := by intro k hk; omega
    cases p with
    | edit f =>
      refine ⟨⟨_, set_self _ ht, ?_, by simp only; omega, hlt, fun k => ?_⟩, h.length, h.since, ?_⟩
      · simp only [take_succ hp, changed_snoc, ← h1]
      · by_cases hk : k = t.pos
        · subst hk
          have := h4 t.pos
          simp only [Nat.lt_irrefl, false_and, if_false] at this
          simp only [call, hp, Option.map_some, Exports, Option.some.injEq, Bool.false_eq_true, and_false, if_false]
          exact this
        · simp only [call, step_count k hk]; exact h4 k
      · intro k hk
        refine ⟨(h.queue k hk).1, ?_⟩
        intro t' e
        simp only [call, set_self _ ht] at e
        cases e
        have := (h.queue k hk).2 t ht
        simp only; omega
    | simple =>
      refine ⟨⟨_, set_self _ ht, ?_, by simp only; omega, hlt, fun k => ?_⟩, by simp only [call, List.length_append]; have := h.length; omega, ?_, ?_⟩
      · simp only [take_succ hp, changed_snoc, ← h1]
      · simp only [call, got_same]
        by_cases hk : k = t.pos
        · subst hk
          have := h4 t.pos
          simp only [Nat.lt_irrefl, false_and, if_false] at this
          simp only [hp, Option.map_some, Exports, and_true, if_true, List.length_append, List.length_singleton, Nat.lt_succ_self]
          omega
        · simp only [if_neg (Ne.symm hk), step_count k hk]; exact h4 k
      · simp only [call]
        rw [List.drop_append_of_le_length h.length]
        intro e hm e2
        rcases List.mem_append.mp hm with hm | hm
        · exact h.since e hm e2
        · rw [List.mem_singleton.mp hm]
          exact ⟨t.pos, h1, h3, .inl ⟨hp, rfl⟩⟩
      · intro k hk
        refine ⟨(h.queue k hk).1, ?_⟩
        intro t' e
        simp only [call, set_self _ ht] at e
        cases e
        have := (h.queue k hk).2 t ht
        simp only; omega
    | batch =>
      refine ⟨⟨_, set_self _ ht, ?_, by simp only; omega, hlt, fun k => ?_⟩, h.length, h.since, ?_⟩
      · simp only [take_succ hp, changed_snoc, ← h1]
      · simp only [call]
        by_cases hk : k = t.pos
        · subst hk
          have := h4 t.pos
          simp only [Nat.lt_irrefl, false_and, if_false] at this
          simp only [hp, Option.map_some, Exports, and_true, if_true, List.count_append, List.count_singleton_self, Nat.lt_succ_self]
          omega
        · simp only [if_neg hk, step_count k hk]; exact h4 k
      · intro k hk
        simp only [call] at hk
        by_cases hkp : k = t.pos
        · subst hkp
          refine ⟨hp, ?_⟩
          intro t' e
          simp only [call, set_self _ ht] at e
          cases e
          simp
        · rw [if_neg hkp] at hk
          refine ⟨(h.queue k hk).1, ?_⟩
          intro t' e
          simp only [call, set_self _ ht] at e
          cases e
          have := (h.queue k hk).2 t ht
          simp only; omega

theorem inv_drain {v : V} {r n0 e0 : Nat} {s : St V} (h : Inv procs v r n0 e0 s) (k : Nat) : Inv procs v r n0 e0 (export1 s k) := by
  unfold export1
  split
  · exact h
  · next r' rest hq =>
    split
    · exact h
    · next t ht =>
      by_cases hr : r' = r
      · subst hr
        obtain ⟨hb, hk⟩ := h.queue k (by rw [hq]; simp)
        have hk := hk t ht
        obtain ⟨t', e, h1, h2, h3, h4⟩ := h.val
        rw [ht] at e
        cases e
        refine ⟨⟨t, ht, h1, h2, h3, fun k' => ?_⟩, by simp only [List.length_append]; have := h.length; omega, ?_, ?_⟩
        · rw [← h4 k']
          simp only [got_same]
          by_cases hkk : k' = k
          · subst hkk
            simp only [if_true, hq, List.count_cons_self, List.length_append, List.length_singleton]
            omega
          · simp only [if_neg hkk, if_neg (Ne.symm hkk)]
        · simp only
          rw [List.drop_append_of_le_length h.length]
          intro e hm e2
          rcases List.mem_append.mp hm with hm | hm
          · exact h.since e hm e2
          · rw [List.mem_singleton.mp hm]
            exact ⟨t.pos, h1, h3, .inr ⟨hb, hk, h2⟩⟩
        · intro k' hk'
          refine h.queue k' ?_
          simp only at hk'
          split at hk'
          · next e => subst e; rw [hq]; simp [hk']
          · exact hk'
      · refine inv_other h rfl ?_ (.inr ⟨_, hr, rfl⟩)
        intro k'
        simp only
        split
        · next e => subst e; rw [hq, List.count_cons]; simp [hr]
        · rfl

theorem inv_step {v : V} {r n0 e0 : Nat} {s : St V} (h : Inv procs v r n0 e0 s) (a : Act V) (ha : ∀ f, a ≠ .change r f) :
    Inv procs v r n0 e0 (step procs s a) := by
  obtain ⟨t, ht, -⟩ := h.val
  have hl := (List.getElem?_eq_some_iff.mp ht).1
  cases a with
  | emit v' => exact inv_other h (by simp only [step]; rw [List.getElem?_append_left hl]) (fun _ => rfl) (.inl rfl)
  | change r' f =>
    have hr : r' ≠ r := by rintro rfl; exact ha f rfl
    simp only [step]
    split
    · exact h
    · exact inv_other h (set_other _ hr) (fun _ => rfl) (.inl rfl)
  | drain k => exact inv_drain h k
  | next r' =>
    simp only [step]
    split
    · exact h
    · next t' ht' =>
      by_cases hr : r' = r
      · subst hr; exact inv_next h ht'
      · unfold advance
        split
        · exact h
        · next p hp =>
          cases p with
          | edit f => exact inv_other h (set_other _ hr) (fun _ => rfl) (.inl rfl)
          | simple => exact inv_other h (set_other _ hr) (fun _ => rfl) (.inr ⟨_, hr, rfl⟩)
          | batch =>
            refine inv_other h (set_other _ hr) (fun k => ?_) (.inl rfl)
            simp only [call]
            split
            · simp [List.count_append, hr]
            · rfl

theorem inv_fold {v : V} {r n0 e0 : Nat} {s : St V} (h : Inv procs v r n0 e0 s) (acts : List (Act V)) (ha : Unchanged r acts) :
    Inv procs v r n0 e0 (acts.foldl (step procs) s) := by
  induction acts generalizing s with
  | nil => exact h
  | cons a l ih =>
    refine ih (inv_step h a ?_) ?_
    · rintro f rfl
      exact ha f (by simp)
    · intro f hf
      exact ha f (by simp [hf])

variable (procs)

theorem inv_run (a b : List (Act V)) (v : V) (hu : Unchanged (run procs a).recs.length b) :
    Inv procs v (run procs a).recs.length 0 0 (run procs (a ++ .emit v :: b)) := by
  have : run procs (a ++ .emit v :: b) = b.foldl (step procs) (step procs (run procs a) (.emit v)) := by simp [run]
  rw [this]
  exact inv_fold (inv_emit procs (known_run procs a) v) b hu

theorem mem_got {k r : Nat} {x : V} {l : List (Nat × Nat × V)} (h : x ∈ got k r l) : (k, r, x) ∈ l := by
  simp only [got, List.mem_map, List.mem_filter] at h
  obtain ⟨⟨a, b, c⟩, ⟨h1, h2⟩, h3⟩ := h
  simp only [decide_eq_true_eq] at h2 h3
  obtain ⟨rfl, rfl⟩ := h2
  subst h3
  exact h1

/-- **C130** What a simple processor exports is the record with the changes of the processors registered before it, and of no others. -/
theorem C130_simple (a b : List (Act V)) (v : V) (hu : Unchanged (run procs a).recs.length b) (k : Nat) (hk : procs[k]? = some .simple) :
    ∀ x ∈ got k (run procs a).recs.length (run procs (a ++ .emit v :: b)).exports, x = changed v (procs.take k) := by
  intro x hx
  obtain ⟨m, h1, -, h2⟩ := (inv_run procs a b v hu).since _ (mem_got hx) rfl
  rcases h2 with ⟨-, rfl⟩ | ⟨hb, -⟩
  · exact h1
  · simp only [hk] at hb
    cases hb

/-- **C130** What a batch processor exports has the changes of all processors registered before it, and of some of those after it: as many as have
been called with the record. -/
theorem C130_batch (a b : List (Act V)) (v : V) (hu : Unchanged (run procs a).recs.length b) (k : Nat) (hk : procs[k]? = some .batch) :
    ∀ x ∈ got k (run procs a).recs.length (run procs (a ++ .emit v :: b)).exports, ∃ m, k < m ∧ m ≤ procs.length ∧ x = changed v (procs.take m) := by
  intro x hx
  obtain ⟨m, h1, h3, h2⟩ := (inv_run procs a b v hu).since _ (mem_got hx) rfl
  rcases h2 with ⟨hb, -⟩ | ⟨-, h2, -⟩
  · simp only [hk] at hb
    cases hb
  · exact ⟨m, h2, h3, h1⟩

/-- **C130** What a batch processor exports after `emit` has returned has the changes of all processors. -/
theorem C130_batch_late (a b c : List (Act V)) (v : V) (hu : Unchanged (run procs a).recs.length (b ++ c))
    (he : Emitted procs (run procs (a ++ .emit v :: b)) (run procs a).recs.length) (k : Nat) (hk : procs[k]? = some .batch) :
    ∀ x ∈ got k (run procs a).recs.length ((run procs (a ++ .emit v :: (b ++ c))).exports.drop (run procs (a ++ .emit v :: b)).exports.length),
      x = changed v procs := by
  intro x hx
  have hb : Unchanged (run procs a).recs.length b := fun f hf => hu f (by simp [hf])
  have hc : Unchanged (run procs a).recs.length c := fun f hf => hu f (by simp [hf])
  obtain ⟨v', hv⟩ := he
  have h := inv_fold (rebase procs (inv_run procs a b v hb) hv) c hc
  have e : run procs (a ++ .emit v :: (b ++ c)) = c.foldl (step procs) (run procs (a ++ .emit v :: b)) := by simp [run]
  rw [e] at hx
  obtain ⟨m, h1, h3, h2⟩ := h.since _ (mem_got hx) rfl
  rcases h2 with ⟨hb, -⟩ | ⟨-, -, h2⟩
  · simp only [hk] at hb
    cases hb
  · simp only at h2
    have : m = procs.length := by omega
    exact h1.trans (by rw [this, List.take_length])

theorem changed_no_edits (v : V) (l l' : List (Proc V)) (h : ∀ f, Proc.edit f ∉ l') : changed v (l ++ l') = changed v l := by
  induction l' using List.reverseRecOn with
  | nil => simp
  | append_singleton l' p ih =>
    rw [← List.append_assoc, changed_snoc, ih (fun f hf => h f (by simp [hf]))]
    cases p with
    | edit f => exact absurd (List.mem_append_right l' (List.mem_singleton_self (Proc.edit f))) (h f)
    | simple => rfl
    | batch => rfl

/-- **C130** If the processors that change records are registered first, all exporters after them see the same. -/
theorem C130_agree (a b : List (Act V)) (v : V) (hu : Unchanged (run procs a).recs.length b) (k : Nat)
    (hk : ∀ f, Proc.edit f ∉ procs.drop k) :
    ∀ x ∈ got k (run procs a).recs.length (run procs (a ++ .emit v :: b)).exports, x = changed v procs := by
  intro x hx
  have all : ∀ m, k ≤ m → changed v (procs.take m) = changed v procs := by
    intro m hm
    conv_rhs => rw [← List.take_append_drop m procs]
    rw [changed_no_edits]
    intro f hf
    refine hk f ?_
    have : m = k + (m - k) := by omega
    rw [this, ← List.drop_drop] at hf
    exact List.mem_of_mem_drop hf
  obtain ⟨m, h1, -, h2⟩ := (inv_run procs a b v hu).since _ (mem_got hx) rfl
  rcases h2 with ⟨-, rfl⟩ | ⟨-, h2, -⟩
  · exact Eq.trans h1 (all _ (Nat.le_refl _))
  · exact Eq.trans h1 (all _ (Nat.le_of_lt h2))

/-- **C130** When `emit` has returned, each simple processor has exported the record once, each batch processor has exported it once or has it once
in its queue, and nobody else has. -/
theorem C130_each (a b : List (Act V)) (v : V) (hu : Unchanged (run procs a).recs.length b)
    (he : Emitted procs (run procs (a ++ .emit v :: b)) (run procs a).recs.length) (k : Nat) :
    (procs[k]? = some .simple → (got k (run procs a).recs.length (run procs (a ++ .emit v :: b)).exports).length = 1) ∧
    (procs[k]? = some .batch → (got k (run procs a).recs.length (run procs (a ++ .emit v :: b)).exports).length +
      ((run procs (a ++ .emit v :: b)).queues k).count (run procs a).recs.length = 1) ∧
    (procs[k]? ≠ some .simple → procs[k]? ≠ some .batch → got k (run procs a).recs.length (run procs (a ++ .emit v :: b)).exports = []) := by
  have h := inv_run procs a b v hu
  obtain ⟨t, ht, -, -, -, h4⟩ := h.val
  obtain ⟨v', hv⟩ := he
  rw [hv] at ht
  cases ht
  have h4 := h4 k
  have hq := h.queue k
  refine ⟨fun hk => ?_, fun hk => ?_, fun hs hb => ?_⟩
  · have hl := (List.getElem?_eq_some_iff.mp hk).1
    have hn : (run procs a).recs.length ∉ (run procs (a ++ .emit v :: b)).queues k := by
      intro hm
      have := (hq hm).1
      simp only [hk] at this
      cases this
    rw [List.count_eq_zero.mpr hn, if_pos ⟨hl, by rw [hk]; rfl⟩] at h4
    exact h4
  · have hl := (List.getElem?_eq_some_iff.mp hk).1
    rw [if_pos ⟨hl, by rw [hk]; rfl⟩] at h4
    exact h4
  · rw [if_neg] at h4
    · exact List.eq_nil_of_length_eq_zero (by omega)
    · rintro ⟨-, he⟩
      cases hp : procs[k]? with
      | none => rw [hp] at he; cases he
      | some p =>
        rw [hp] at he hs hb
        cases p with
        | edit f => cases he
        | simple => exact hs rfl
        | batch => exact hb rfl

example : let s := run (V := Nat) [.batch, .edit (· + 1), .simple, .batch, .edit (· * 2), .simple] (
      [.emit 5, .next 0, .next 0, .emit 1, .next 1, .next 0, .drain 0, .next 0, .next 0, .drain 3, .next 0, .next 1]);
    s.recs.map (fun t => (t.val, t.pos)) = [(12, 6), (2, 2)] ∧ s.exports = [(2, 0, 6), (0, 0, 6), (3, 0, 12), (5, 0, 12)] := by decide

/-! ## Where one would expect more -/

/-- **C130**, violated: a batch processor does not export the record as it was when the processor was called with it: it exports the change of a
processor that was registered later. -/
theorem C130_later_violated (v : V) (f : V → V) :
    got 0 0 (run [.batch, .edit f] [.emit v, .next 0, .next 0, .drain 0]).exports = [f v] := by
  simp [run, init, step, advance, call, export1, got]

/-- **C130**, violated: what is exported is not what was emitted: a change that the application makes to the record (or to the object that is its
body) after `emit` has returned is exported by the batch processors, while the simple ones have exported the record as it was. -/
theorem C130_after_violated (v : V) (f : V → V) :
    Emitted [.simple, .batch] (run [.simple, .batch] [.emit v, .next 0, .next 0]) 0 ∧
    (run [.simple, .batch] ([.emit v, .next 0, .next 0] ++ [.change 0 f, .drain 1])).exports = [(0, 0, v), (1, 0, f v)] := by
  constructor
  · exact ⟨v, by simp [run, init, step, advance, call]⟩
  · simp [run, init, step, advance, call, export1]

end LogSharing
end Otel
