import Verif.Lemmas.Span
/-!
# C17–C19: the life of a span, its status and its limits
-/
namespace Otel
namespace Span
open Spec

/-- A span after its construction and any interleaving of calls. -/
abbrev after (lim : SpanLimits) (name : Str) (ctx : SpanContext) (parent : Option SpanContext) (attrs : RawAttrs)
    (events : List (Str × RawAttrs × Int)) (links : List (Option (Option SpanContext × RawAttrs)))
    (l : List Step) : State := l.foldl step (init lim name ctx parent attrs events links)

/-- The `on_end` calls made. -/
def endNotes (log : List Note) : List Data := log.filterMap fun | .ended d => some d | .started => none
/-- The number of `on_start` calls made. -/
def startNotes (log : List Note) : Nat := (log.filter fun | .started => true | .ended _ => false).length

/-- Invariant: notifications made and owed match the times, and every snapshot is the present data. -/
def Inv (s : State) : Prop :=
  (endNotes s.log).length + s.owedEnd = (if s.data.endTime.isSome then 1 else 0) ∧
  startNotes s.log + s.owedStart = (if s.data.startTime.isSome then 1 else 0) ∧
  (s.data.endTime.isSome → s.data.startTime.isSome) ∧
  (∀ d ∈ endNotes s.log, d = s.data)

theorem inv_step (s : State) (op : Step) (h : Inv s) : Inv (step s op) := by
  obtain ⟨h1, h2, h3, h4⟩ := h
  by_cases hm : ∃ op' : Step, op = op' ∧ (∀ t, op' ≠ .start t) ∧ (∀ t, op' ≠ .end_ t) ∧ op' ≠ .notifyStart ∧ op' ≠ .notifyEnd
  · obtain ⟨op, rfl, g1, g2, g3, g4⟩ := hm
    have e : step s op = if s.data.endTime.isSome then s else { s with data := mutate s.lim s.data op } := by
      cases op <;> simp_all [step]
    rw [e]
    split
    · exact ⟨h1, h2, h3, h4⟩
    · rename_i hn
      obtain ⟨t1, t2, _, _⟩ := mutate_times s.lim s.data op
      refine ⟨by simpa [t2] using h1, by simpa [t1] using h2, by simpa [t1, t2] using h3, ?_⟩
      have h0 : (endNotes s.log).length = 0 := by
        rw [if_neg hn] at h1; omega
      intro d hd
      rw [List.length_eq_zero_iff.mp h0] at hd
      simp at hd
  · cases op with
    | start t =>
      simp only [step]
      split
      · exact ⟨h1, h2, h3, h4⟩
      · rename_i hn
        have hend : ¬ s.data.endTime.isSome := fun h => hn (h3 h)
        have h0 : (endNotes s.log).length = 0 := by
          rw [if_neg hend] at h1; omega
        refine ⟨h1, ?_, by simp, ?_⟩
        · simp only [hn] at h2; simp at h2 ⊢; omega
        · intro d hd
          rw [List.length_eq_zero_iff.mp h0] at hd
          simp at hd
    | end_ t =>
      simp only [step]
      split
      · exact ⟨h1, h2, h3, h4⟩
      · rename_i hn
        rw [not_or] at hn
        have h0 : (endNotes s.log).length = 0 := by
          rw [if_neg hn.2] at h1; omega
        refine ⟨?_, h2, ?_, ?_⟩
        · simp only [hn.2] at h1; simp at h1 ⊢; omega
        · intro _; exact Option.isSome_iff_ne_none.mpr hn.1
        · intro d hd
          rw [List.length_eq_zero_iff.mp h0] at hd
          simp at hd
    | notifyStart =>
      simp only [step]
      split
      · exact ⟨h1, h2, h3, h4⟩
      · refine ⟨by simpa [endNotes] using h1, ?_, h3, by simpa [endNotes] using h4⟩
        simp only [startNotes, List.filter_append, List.length_append] at h2 ⊢
        simp; omega
    | notifyEnd =>
      simp only [step]
      split
      · exact ⟨h1, h2, h3, h4⟩
      · refine ⟨?_, by simpa [startNotes] using h2, h3, ?_⟩
        · simp only [endNotes, List.filterMap_append, List.length_append] at h1 ⊢
          simp only [List.filterMap_cons, List.filterMap_nil, List.length_cons, List.length_nil]; omega
        · intro d hd
          simp only [endNotes, List.filterMap_append, List.mem_append] at hd
          rcases hd with hd | hd
          · exact h4 d hd
          · simpa using hd
    | _ => exact absurd ⟨_, rfl, by simp, by simp, by simp, by simp⟩ hm

theorem inv_run (s : State) (l : List Step) (h : Inv s) : Inv (l.foldl step s) := by
  induction l generalizing s with
  | nil => exact h
  | cons a l ih => exact ih _ (inv_step s a h)

theorem inv_init (lim : SpanLimits) (name ctx parent attrs events links) :
    Inv (init lim name ctx parent attrs events links) := by
  refine ⟨by simp [init, endNotes], by simp [init, startNotes], by simp [init], by simp [init, endNotes]⟩

section
variable (lim : SpanLimits) (name : Str) (ctx : SpanContext) (parent : Option SpanContext) (attrs : RawAttrs)
  (events : List (Str × RawAttrs × Int)) (links : List (Option (Option SpanContext × RawAttrs)))

theorem after_core (l : List Step) :
    core (after lim name ctx parent attrs events links l).data =
      (recorded false l).foldl (mutate lim) (init lim name ctx parent attrs events links).data ∧
    (after lim name ctx parent attrs events links l).data.endTime = firstEnd false l ∧
    (after lim name ctx parent attrs events links l).data.startTime = firstStart l := by
  have := run_core (init lim name ctx parent attrs events links) l rfl
  exact this

/-- **C17 (times).** The end time is that of the first `end` after `start`, the start time that of the first
`start`; the span records exactly until that end. -/
theorem C17_times (l : List Step) :
    (after lim name ctx parent attrs events links l).data.endTime = firstEnd false l ∧
    (after lim name ctx parent attrs events links l).data.startTime = firstStart l ∧
    (isRecording (after lim name ctx parent attrs events links l) = true ↔ firstEnd false l = none) := by
  obtain ⟨_, h2, h3⟩ := after_core lim name ctx parent attrs events links l
  refine ⟨h2, h3, ?_⟩
  unfold isRecording
  rw [h2]; simp

/-- **C17 (one notification).** The processor's `on_end` calls made plus those a thread is about to make are one
if the span was ended and none otherwise, however often and from however many threads `end` is called; likewise
`on_start`. -/
theorem C17_notified_once (l : List Step) :
    (endNotes (after lim name ctx parent attrs events links l).log).length +
      (after lim name ctx parent attrs events links l).owedEnd = (if (firstEnd false l).isSome then 1 else 0) ∧
    startNotes (after lim name ctx parent attrs events links l).log +
      (after lim name ctx parent attrs events links l).owedStart = (if (firstStart l).isSome then 1 else 0) := by
  obtain ⟨h1, h2, _, _⟩ := inv_run _ l (inv_init lim name ctx parent attrs events links)
  obtain ⟨_, g2, g3⟩ := after_core lim name ctx parent attrs events links l
  rw [show l.foldl step (init lim name ctx parent attrs events links) = after lim name ctx parent attrs events links l from rfl] at h1 h2
  rw [g2] at h1; rw [g3] at h2
  exact ⟨h1, h2⟩

/-- **C17 (snapshot).** What `on_end` receives is the final data of the span, with its end time set. -/
theorem C17_snapshot_final (l l' : List Step) (d : Data)
    (h : d ∈ endNotes (after lim name ctx parent attrs events links l).log) :
    d = (after lim name ctx parent attrs events links (l ++ l')).data ∧ d.endTime = firstEnd false l ∧
    d.endTime.isSome := by
  obtain ⟨h1, h2, h3, h4⟩ := inv_run _ l (inv_init lim name ctx parent attrs events links)
  have hd := h4 d h
  have hpos : 0 < (endNotes (after lim name ctx parent attrs events links l).log).length := List.length_pos_of_mem h
  have hsome : (after lim name ctx parent attrs events links l).data.endTime.isSome = true := by
    by_contra hc
    rw [show l.foldl step (init lim name ctx parent attrs events links) = after lim name ctx parent attrs events links l from rfl] at h1
    rw [if_neg hc] at h1
    omega
  refine ⟨?_, ?_, ?_⟩
  · rw [hd, after, List.foldl_append, run_ended _ l' hsome (h3 hsome)]
  · rw [hd]; exact (after_core lim name ctx parent attrs events links l).2.1
  · rw [hd]; exact hsome

/-- **C17 (immutable).** Once the span has ended, no sequence of calls changes its data and it never records
again. -/
theorem C17_immutable_after_end (l l' : List Step) (h : (firstEnd false l).isSome = true) :
    (after lim name ctx parent attrs events links (l ++ l')).data = (after lim name ctx parent attrs events links l).data ∧
    isRecording (after lim name ctx parent attrs events links (l ++ l')) = false := by
  obtain ⟨h1, h2, h3, h4⟩ := inv_run _ l (inv_init lim name ctx parent attrs events links)
  have hsome : (after lim name ctx parent attrs events links l).data.endTime.isSome = true := by
    rw [(after_core lim name ctx parent attrs events links l).2.1]; exact h
  have e : (after lim name ctx parent attrs events links (l ++ l')).data = (after lim name ctx parent attrs events links l).data := by
    rw [after, after, List.foldl_append, run_ended _ l' hsome (h3 hsome)]
  refine ⟨e, ?_⟩
  unfold isRecording
  rw [e]
  cases hh : (after lim name ctx parent attrs events links l).data.endTime with
  | none => rw [hh] at hsome; simp at hsome
  | some t => rfl

/-- **C17 (end before start).** `end` before `start` has no effect at all. -/
theorem C17_end_before_start (l : List Step) (t : Int) (h : firstStart l = none) :
    after lim name ctx parent attrs events links (l ++ [.end_ t]) = after lim name ctx parent attrs events links l := by
  have h3 := (after_core lim name ctx parent attrs events links l).2.2
  rw [h] at h3
  rw [after, List.foldl_append]
  simp only [List.foldl_cons, List.foldl_nil, step]
  rw [if_pos (Or.inl h3)]

/-- **C17 (identity).** No call changes the span's context or parent. -/
theorem C17_identity_fixed (l : List Step) :
    (after lim name ctx parent attrs events links l).data.ctx = ctx ∧
    (after lim name ctx parent attrs events links l).data.parent = parent := by
  have key : ∀ (l : List Step) (d : Data), (l.foldl (mutate lim) d).ctx = d.ctx ∧ (l.foldl (mutate lim) d).parent = d.parent := by
    intro l
    induction l with
    | nil => intro d; exact ⟨rfl, rfl⟩
    | cons a l ih =>
      intro d
      obtain ⟨i1, i2⟩ := ih (mutate lim d a)
      obtain ⟨_, _, t3, t4⟩ := mutate_times lim d a
      exact ⟨i1.trans t3, i2.trans t4⟩
  have h := (after_core lim name ctx parent attrs events links l).1
  obtain ⟨k1, k2⟩ := key (recorded false l) (init lim name ctx parent attrs events links).data
  rw [← h] at k1 k2
  exact ⟨k1, k2⟩

/-- **C17 (name).** The name is the last one given while the span recorded. -/
theorem C17_name (l : List Step) :
    (after lim name ctx parent attrs events links l).data.name = lastName name (recorded false l) := by
  have key : ∀ (l : List Step) (d : Data), (l.foldl (mutate lim) d).name = lastName d.name l := by
    intro l
    induction l with
    | nil => intro d; rfl
    | cons a l ih =>
      intro d
      rw [List.foldl_cons, ih, lastName, lastName, List.foldl_cons]
      congr 1
      cases a <;> try rfl
      rename_i c a
      cases c with
      | none => rfl
      | some c => simp only [mutate]; split <;> rfl
  have h := (after_core lim name ctx parent attrs events links l).1
  have := key (recorded false l) (init lim name ctx parent attrs events links).data
  rw [← h] at this
  exact this

/-! ## Status -/

theorem make_code (c : StatusCode) (d : Option Str) : (Status.make c d).code = c := by
  unfold Status.make
  split
  · rfl
  · rfl
  · split <;> rfl

theorem status_fold (l : List Step) (d : Data) :
    (l.foldl (mutate lim) d).status =
      (requestedStatuses l).foldl (fun cur s => if cur.code = .ok then cur else s) d.status := by
  induction l generalizing d with
  | nil => rfl
  | cons a l ih =>
    rw [List.foldl_cons, ih]
    cases a with
    | setStatus s =>
      cases s with
      | obj c ds =>
        simp only [mutate, newStatus, requestedStatuses]
        by_cases hc : c = .unset
        · simp [hc]
        · simp [hc]
      | code c ds =>
        simp only [mutate, newStatus, requestedStatuses]
        by_cases hc : c = .unset
        · simp [hc]
        · simp [hc]
      | other => rfl
    | addLink c a =>
      cases c with
      | none => rfl
      | some c => simp only [mutate, requestedStatuses]; split <;> rfl
    | _ => rfl

theorem fold_ok (l : List Status) (s : Status) (h : s.code = .ok) :
    l.foldl (fun cur s => if cur.code = .ok then cur else s) s = s := by
  induction l with
  | nil => rfl
  | cons a l ih => rw [List.foldl_cons, if_pos h, ih]

theorem fold_status (l : List Status) (s : Status) (h : s.code ≠ .ok) :
    l.foldl (fun cur s => if cur.code = .ok then cur else s) s =
      match l.find? (fun s => s.code = .ok) with
      | some s => s
      | none => l.getLast?.getD s := by
  induction l generalizing s with
  | nil => rfl
  | cons a l ih =>
    rw [List.foldl_cons, if_neg h]
    by_cases ha : a.code = .ok
    · rw [fold_ok _ _ ha, List.find?_cons_of_pos (by simpa using ha)]
    · rw [ih a ha, List.find?_cons_of_neg (by simpa using ha)]
      cases l with
      | nil => simp
      | cons b l =>
        split
        · rfl
        · rw [List.getLast?_cons_cons]
          simp [List.getLast?_eq_some_getLast]

/-- **C18 (precedence).** The status of a span is decided by the requests made while it recorded: the first OK if
there is one, otherwise the last request, otherwise UNSET. -/
theorem C18_status (l : List Step) :
    (after lim name ctx parent attrs events links l).data.status = winningStatus (requestedStatuses (recorded false l)) := by
  have h := (after_core lim name ctx parent attrs events links l).1
  have hs : (after lim name ctx parent attrs events links l).data.status =
      (core (after lim name ctx parent attrs events links l).data).status := rfl
  rw [hs, h, status_fold, fold_status]
  · rfl
  · simp [init, Status.make]

/-- **C18 (OK is final).** A span whose status is OK keeps exactly that status for ever. -/
theorem C18_ok_is_final (l l' : List Step)
    (h : (after lim name ctx parent attrs events links l).data.status.code = .ok) :
    (after lim name ctx parent attrs events links (l ++ l')).data.status =
      (after lim name ctx parent attrs events links l).data.status := by
  rw [after, after, List.foldl_append]
  rw [after] at h
  generalize l.foldl step (init lim name ctx parent attrs events links) = s at h ⊢
  induction l' generalizing s with
  | nil => rfl
  | cons a l' ih =>
    rw [List.foldl_cons]
    have e : (step s a).data.status = s.data.status := by
      cases a with
      | setStatus x =>
        simp only [step]
        split
        · rfl
        · cases x <;> simp [mutate, newStatus, h]
      | addLink c a =>
        simp only [step]
        split
        · rfl
        · cases c with
          | none => rfl
          | some c => simp only [mutate]; split <;> rfl
      | _ => simp only [step]; split <;> rfl
    rw [ih _ (by rw [e]; exact h), e]

theorem requested_desc (l : List Step) (s : Status) (h : s ∈ requestedStatuses l) :
    s.code ≠ .unset ∧ (∀ c cs, s.desc = some (c :: cs) → s.code = .error) := by
  induction l with
  | nil => simp [requestedStatuses] at h
  | cons a l ih =>
    have mk : ∀ (c : StatusCode) (d : Option Str), c ≠ .unset → s = Status.make c d →
        s.code ≠ .unset ∧ (∀ x xs, s.desc = some (x :: xs) → s.code = .error) := by
      rintro c d hc rfl
      refine ⟨by rw [make_code]; exact hc, ?_⟩
      intro x xs hx
      rw [make_code]
      unfold Status.make at hx
      split at hx
      · simp at hx
      · simp at hx
      · split at hx
        · assumption
        · simp at hx
    cases a with
    | setStatus x =>
      cases x with
      | obj c d =>
        simp only [requestedStatuses] at h
        split at h
        · exact ih h
        · rcases List.mem_cons.mp h with h | h
          · exact mk c d (by assumption) h
          · exact ih h
      | code c d =>
        simp only [requestedStatuses] at h
        split at h
        · exact ih h
        · rcases List.mem_cons.mp h with h | h
          · exact mk c d (by assumption) h
          · exact ih h
      | other => exact ih h
    | _ => exact ih h

/-- **C18 (description).** A non-empty description only ever accompanies ERROR. -/
theorem C18_description_only_with_error (l : List Step) (c : Char) (cs : Str)
    (h : (after lim name ctx parent attrs events links l).data.status.desc = some (c :: cs)) :
    (after lim name ctx parent attrs events links l).data.status.code = .error := by
  rw [C18_status] at h ⊢
  unfold winningStatus at h ⊢
  split at h
  · rename_i s hs
    exact (requested_desc _ s (List.mem_of_find?_eq_some hs)).2 c cs h
  · rename_i hs
    cases hg : (requestedStatuses (recorded false l)).getLast? with
    | none => rw [hg] at h; simp at h
    | some s =>
      rw [hg] at h
      exact (requested_desc _ s (List.mem_of_getLast? hg)).2 c cs h

/-! ## Limits -/

theorem attrs_fold (l : List Step) (d : Data) :
    (l.foldl (mutate lim) d).attrs = (givenAttributes l).foldl (fun b kv => b.setCore kv.1 kv.2) d.attrs := by
  induction l generalizing d with
  | nil => rfl
  | cons a l ih =>
    rw [List.foldl_cons, ih]
    unfold givenAttributes
    rw [List.flatMap_cons, List.foldl_append]
    congr 1
    cases a with
    | addLink c a =>
      cases c with
      | none => rfl
      | some c => simp only [mutate]; split <;> rfl
    | _ => rfl

/-- The collection a span's attributes are kept in: assignments to an empty one. -/
theorem attrs_eq (l : List Step) :
    (after lim name ctx parent attrs events links l).data.attrs =
      ((attrs ++ givenAttributes (recorded false l)).map fun kv => BAttrs.Op.set kv.1 kv.2).foldl BAttrs.step
        (BAttrs.empty lim.maxSpanAttributes lim.maxSpanAttributeLength) := by
  have h := (after_core lim name ctx parent attrs events links l).1
  have hs : (after lim name ctx parent attrs events links l).data.attrs =
      (core (after lim name ctx parent attrs events links l).data).attrs := rfl
  rw [hs, h, attrs_fold]
  have e : ∀ (kvs : List (AKey × Val)) (b : BAttrs), b.immutable = false →
      kvs.foldl (fun (b : BAttrs) kv => b.setCore kv.1 kv.2) b =
        (kvs.map fun kv => BAttrs.Op.set kv.1 kv.2).foldl BAttrs.step b := by
    intro kvs
    induction kvs with
    | nil => intro b _; rfl
    | cons kv kvs ih =>
      intro b hb
      rw [List.foldl_cons, List.map_cons, List.foldl_cons]
      have : BAttrs.step b (.set kv.1 kv.2) = b.setCore kv.1 kv.2 := by simp [BAttrs.step, BAttrs.set, hb]
      rw [this]
      exact ih _ (by rw [(BAttrs.setCore_cfg b kv.1 kv.2).2.2]; exact hb)
  have hi : (init lim name ctx parent attrs events links).data.attrs =
      attrs.foldl (fun (b : BAttrs) kv => b.setCore kv.1 kv.2) (BAttrs.empty lim.maxSpanAttributes lim.maxSpanAttributeLength) := by
    have himm : (attrs.foldl (fun (b : BAttrs) kv => b.setCore kv.1 kv.2)
        (BAttrs.empty lim.maxSpanAttributes lim.maxSpanAttributeLength)).immutable = false := by
      rw [e _ _ rfl]
      exact (BAttrs.run_cfg _ _).2.2
    show { (attrs.foldl (fun (b : BAttrs) kv => b.setCore kv.1 kv.2)
        (BAttrs.empty lim.maxSpanAttributes lim.maxSpanAttributeLength)) with immutable := false } = _
    rw [← himm]
  rw [hi, ← List.foldl_append, e _ _ rfl]

/-- **C19 (attributes).** The attributes of a span are the newest `max_span_attributes` last assignments (cleaned)
among those given to the constructor and to the setters while it recorded. -/
theorem C19_attributes (l : List Step) :
    (after lim name ctx parent attrs events links l).data.attrs.d =
      newest lim.maxSpanAttributes (lastAssignments
        ((attrs ++ givenAttributes (recorded false l)).filterMap (BAttrs.stored lim.maxSpanAttributeLength))) := by
  rw [attrs_eq, List.foldl_map, BAttrs.C14_contents]

/-- **C19 (dropped attributes).** `dropped_attributes` plus the attributes present is the number of times a new
key entered the collection; with limit 0 it is the number of assignments. -/
theorem C19_dropped_attributes (l : List Step) :
    (lim.maxSpanAttributes ≠ some 0 →
      (after lim name ctx parent attrs events links l).data.attrs.dropped +
      (after lim name ctx parent attrs events links l).data.attrs.d.length =
      BAttrs.total BAttrs.added (BAttrs.empty lim.maxSpanAttributes lim.maxSpanAttributeLength)
        ((attrs ++ givenAttributes (recorded false l)).map fun kv => BAttrs.Op.set kv.1 kv.2)) ∧
    (lim.maxSpanAttributes = some 0 →
      (after lim name ctx parent attrs events links l).data.attrs.dropped =
        (attrs ++ givenAttributes (recorded false l)).length) := by
  rw [attrs_eq]
  refine ⟨fun h => ?_, fun h => ?_⟩
  · have := BAttrs.C14_accounting lim.maxSpanAttributes lim.maxSpanAttributeLength
      ((attrs ++ givenAttributes (recorded false l)).map fun kv => BAttrs.Op.set kv.1 kv.2) h
    have hr : ∀ (kvs : List (AKey × Val)) (b : BAttrs),
        BAttrs.total BAttrs.removed b (kvs.map fun kv => BAttrs.Op.set kv.1 kv.2) = 0 := by
      intro kvs
      induction kvs with
      | nil => intro b; rfl
      | cons kv kvs ih => intro b; simp [BAttrs.total, BAttrs.removed, ih]
    rw [hr] at this
    omega
  · rw [h, (BAttrs.C14_maxlen_zero _ _).2, List.filter_eq_self.mpr]
    · simp
    · intro op hop
      obtain ⟨kv, _, rfl⟩ := List.mem_map.mp hop
      rfl

/-- `BoundedList` contents after appends. -/
theorem blist_appends {α : Type} (xs ys : List α) (m : Option Nat) (d : Nat) (b : BList α)
    (hb : b.maxlen = m) (h1 : b.items = newest m xs) (h2 : b.dropped + b.items.length = xs.length) :
    (ys.foldl BList.append b).items = newest m (xs ++ ys) ∧
    (ys.foldl BList.append b).dropped + (ys.foldl BList.append b).items.length = (xs ++ ys).length := by
  induction ys generalizing xs b with
  | nil => simpa using ⟨h1, h2⟩
  | cons y ys ih =>
    rw [List.foldl_cons]
    have := ih (xs ++ [y]) (b.append y) hb
    simp only [List.append_assoc, List.singleton_append] at this
    refine this ?_ ?_
    · simp only [BList.append, BList.trim_eq, hb, h1, BList.newest_newest]
    · simp only [BList.append, BList.trim_eq, hb, List.length_append, List.length_cons, List.length_nil]
      cases m with
      | none => simp only [newest, List.length_append, List.length_cons, List.length_nil, if_neg (show ¬ ((none : Option Nat) = some b.items.length) by simp)]; omega
      | some n =>
        have hle : b.items.length ≤ n := by rw [h1, BList.newest_length]; omega
        rw [BList.newest_length, List.length_append, List.length_singleton]
        simp only [Option.some.injEq]
        split <;> omega

theorem events_fold (l : List Step) (d : Data) :
    (l.foldl (mutate lim) d).events =
      ((givenEvents l).map fun e => mkEvent lim e.1 e.2.1 e.2.2).foldl BList.append d.events := by
  induction l generalizing d with
  | nil => rfl
  | cons a l ih =>
    rw [List.foldl_cons, ih]
    unfold givenEvents
    cases a with
    | addLink c a =>
      cases c with
      | none => rfl
      | some c => simp only [mutate]; split <;> rfl
    | _ => rfl

theorem isValidLink_iff (c : SpanContext) (a : RawAttrs) :
    validLink (some c, a) = if isValidLink (some c) a then some (c, a) else none := by
  unfold validLink isValidLink
  congr 1
  simp [List.isEmpty_iff, or_assoc]

theorem links_fold (l : List Step) (d : Data) :
    (l.foldl (mutate lim) d).links =
      ((givenLinks l).map fun e => mkLink lim e.1 e.2).foldl BList.append d.links := by
  induction l generalizing d with
  | nil => rfl
  | cons a l ih =>
    rw [List.foldl_cons, ih]
    unfold givenLinks
    cases a with
    | addLink c a =>
      cases c with
      | none => rfl
      | some c =>
        simp only [mutate, List.filterMap_cons, isValidLink_iff]
        split <;> rfl
    | _ => rfl

/-- **C19 (events).** The events are the newest `max_events` of those given to the constructor and to
`add_event`/`record_exception` while the span recorded, and `dropped_events` counts the rest. -/
theorem C19_events (l : List Step) :
    (after lim name ctx parent attrs events links l).data.events.items =
      newest lim.maxEvents ((events ++ givenEvents (recorded false l)).map fun e => mkEvent lim e.1 e.2.1 e.2.2) ∧
    (after lim name ctx parent attrs events links l).data.events.dropped +
      (after lim name ctx parent attrs events links l).data.events.items.length =
      (events ++ givenEvents (recorded false l)).length := by
  have h := (after_core lim name ctx parent attrs events links l).1
  have hs : (after lim name ctx parent attrs events links l).data.events =
      (core (after lim name ctx parent attrs events links l).data).events := rfl
  rw [hs, h, events_fold]
  have hi : (init lim name ctx parent attrs events links).data.events =
      (events.map fun e => mkEvent lim e.1 e.2.1 e.2.2).foldl BList.append (BList.new lim.maxEvents) := by
    rw [List.foldl_map]; rfl
  rw [hi, ← List.foldl_append, ← List.map_append]
  have := blist_appends [] ((events ++ givenEvents (recorded false l)).map fun e => mkEvent lim e.1 e.2.1 e.2.2)
    lim.maxEvents 0 (BList.new lim.maxEvents) rfl (by cases lim.maxEvents <;> simp [newest, BList.new]) rfl
  simpa using this

/-- **C19 (links).** The links are the newest `max_links` of the valid ones given to the constructor and to
`add_link` while the span recorded, and `dropped_links` counts the rest. -/
theorem C19_links (l : List Step) :
    (after lim name ctx parent attrs events links l).data.links.items =
      newest lim.maxLinks (((links.filterMap fun x => x.bind validLink) ++ givenLinks (recorded false l)).map
        fun e => mkLink lim e.1 e.2) ∧
    (after lim name ctx parent attrs events links l).data.links.dropped +
      (after lim name ctx parent attrs events links l).data.links.items.length =
      ((links.filterMap fun x => x.bind validLink) ++ givenLinks (recorded false l)).length := by
  have h := (after_core lim name ctx parent attrs events links l).1
  have hs : (after lim name ctx parent attrs events links l).data.links =
      (core (after lim name ctx parent attrs events links l).data).links := rfl
  rw [hs, h, links_fold]
  have hf : (links.filterMap fun l =>
          match l with
          | some (some c, a) => if isValidLink (some c) a then some (mkLink lim c a) else none
          | _ => none) = (links.filterMap fun x => x.bind validLink).map fun e => mkLink lim e.1 e.2 := by
    rw [List.map_filterMap]
    congr 1
    funext x
    cases x with
    | none => rfl
    | some x =>
      obtain ⟨c, a⟩ := x
      cases c with
      | none => rfl
      | some c =>
        simp only [Option.bind_some, isValidLink_iff]
        split <;> rfl
  have hi : (init lim name ctx parent attrs events links).data.links =
      BList.fromSeq lim.maxLinks ((links.filterMap fun x => x.bind validLink).map fun e => mkLink lim e.1 e.2) := by
    rw [← hf]; rfl
  have hc := BList.C16_newest_and_dropped lim.maxLinks
    [BList.Op.extend ((links.filterMap fun x => x.bind validLink).map fun e => mkLink lim e.1 e.2)]
  simp only [List.foldl_cons, List.foldl_nil, BList.step, List.flatMap_cons, List.flatMap_nil, BList.given,
    List.append_nil] at hc
  have := blist_appends ((links.filterMap fun x => x.bind validLink).map fun e => mkLink lim e.1 e.2)
    ((givenLinks (recorded false l)).map fun e => mkLink lim e.1 e.2)
    lim.maxLinks 0 (init lim name ctx parent attrs events links).data.links (by rw [hi]; rfl)
    (by rw [hi]; exact hc.1) (by rw [hi]; exact hc.2)
  rw [List.map_append]
  simpa using this

theorem newest_mem {α : Type} (m : Option Nat) (l : List α) (x : α) (h : x ∈ newest m l) : x ∈ l := by
  cases m with
  | none => exact h
  | some n => rw [newest_some] at h; exact List.mem_of_mem_drop h

theorem newest_le {α : Type} (n : Nat) (l : List α) : (newest (some n) l).length ≤ n := by
  rw [newest_some]; simp; omega

theorem new_bound (m : Option Nat) (kvs : List (AKey × Val)) (imm : Bool) (ml : Option Nat) (n : Nat)
    (h : m = some n) : (BAttrs.new m kvs imm ml).d.length ≤ n := by
  have e : ∀ (kvs : List (AKey × Val)) (b : BAttrs), b.WF →
      (kvs.foldl (fun (b : BAttrs) kv => b.setCore kv.1 kv.2) b).WF ∧
      (kvs.foldl (fun (b : BAttrs) kv => b.setCore kv.1 kv.2) b).maxlen = b.maxlen := by
    intro kvs
    induction kvs with
    | nil => intro b hb; exact ⟨hb, rfl⟩
    | cons kv kvs ih =>
      intro b hb
      obtain ⟨i1, i2⟩ := ih _ (BAttrs.setCore_wf b kv.1 kv.2 hb)
      exact ⟨i1, i2.trans (BAttrs.setCore_cfg b kv.1 kv.2).1⟩
  obtain ⟨h1, h2⟩ := e kvs { maxlen := m, maxValueLen := ml, immutable := false, dropped := 0, d := [] }
    ⟨by simp, by simp⟩
  exact h1.2 n (h2.trans h)

/-- **C19 (bounds at every moment).** Whatever was called, the span has at most `max_span_attributes` attributes,
`max_events` events, `max_links` links, and each event and link has at most its own limit of attributes. -/
theorem C19_bounds (l : List Step) :
    (∀ n, lim.maxSpanAttributes = some n → (after lim name ctx parent attrs events links l).data.attrs.d.length ≤ n) ∧
    (∀ n, lim.maxEvents = some n → (after lim name ctx parent attrs events links l).data.events.items.length ≤ n) ∧
    (∀ n, lim.maxLinks = some n → (after lim name ctx parent attrs events links l).data.links.items.length ≤ n) ∧
    (∀ e ∈ (after lim name ctx parent attrs events links l).data.events.items,
      ∀ n, lim.maxEventAttributes = some n → e.attrs.d.length ≤ n) ∧
    (∀ e ∈ (after lim name ctx parent attrs events links l).data.links.items,
      ∀ n, lim.maxLinkAttributes = some n → e.attrs.d.length ≤ n) := by
  refine ⟨?_, ?_, ?_, ?_, ?_⟩
  · intro n hn
    rw [C19_attributes, hn]
    exact newest_le _ _
  · intro n hn
    rw [(C19_events lim name ctx parent attrs events links l).1, hn]
    exact newest_le _ _
  · intro n hn
    rw [(C19_links lim name ctx parent attrs events links l).1, hn]
    exact newest_le _ _
  · intro e he n hn
    rw [(C19_events lim name ctx parent attrs events links l).1] at he
    obtain ⟨x, _, rfl⟩ := List.mem_map.mp (newest_mem _ _ _ he)
    exact new_bound _ _ _ _ _ hn
  · intro e he n hn
    rw [(C19_links lim name ctx parent attrs events links l).1] at he
    obtain ⟨x, _, rfl⟩ := List.mem_map.mp (newest_mem _ _ _ he)
    exact new_bound _ _ _ _ _ hn

end

/-! ## Leaving a `with` block -/

/-- Limits used in the example below. -/
def exLim0 : SpanLimits := ⟨some 128, some 1, some 1, some 2, some 4, some 1, none, some 3⟩

/-- **C57.** Leaving `with span:` ends a recording span at that time and notifies the processor once; an escaping
exception adds one `exception` event with its type, message and stack trace and `escaped = True` (if configured), and
sets ERROR with the description `Type: message` unless the status was already OK (if configured); without an
exception the events and the status are untouched. Name, attributes and links are never touched. -/
theorem C57_with_exit (s : State) (recordExc setStatusOnExc : Bool) (exc : Option (Exc × Str)) (ts tEnd t0 : Int)
    (hstart : s.data.startTime = some t0) (hrec : s.data.endTime = none) (howed : s.owedEnd = 0) :
    let s' := (exitSteps (isRecording s) recordExc setStatusOnExc exc ts tEnd).foldl step s
    s'.data.endTime = some tEnd ∧ s'.log = s.log ++ [.ended s'.data] ∧
    s'.data.name = s.data.name ∧ s'.data.attrs = s.data.attrs ∧ s'.data.links = s.data.links ∧
    s'.data.events = (match exc, recordExc with
      | some (e, _), true => s.data.events.append (mkEvent s.lim "exception".toList
          [(.str "exception.type".toList, .atom (.str e.typeName true)),
           (.str "exception.message".toList, .atom (.str e.message true)),
           (.str "exception.stacktrace".toList, .atom (.str e.stacktrace true)),
           (.str "exception.escaped".toList, .atom (.str "True".toList true))] ts)
      | _, _ => s.data.events) ∧
    s'.data.status = (match exc, setStatusOnExc with
      | some (_, desc), true => if s.data.status.code = .ok then s.data.status else Status.make .error (some desc)
      | _, _ => s.data.status) := by
  have hr : isRecording s = true := by simp [isRecording, hrec]
  rw [hr]
  cases exc with
  | none => simp [exitSteps, step, hstart, hrec, howed]
  | some x =>
    obtain ⟨e, desc⟩ := x
    have hu : excAttrs e [] true =
        [(.str "exception.type".toList, .atom (.str e.typeName true)),
           (.str "exception.message".toList, .atom (.str e.message true)),
           (.str "exception.stacktrace".toList, .atom (.str e.stacktrace true)),
           (.str "exception.escaped".toList, .atom (.str "True".toList true))] := rfl
    cases recordExc <;> cases setStatusOnExc <;>
      simp only [← hu, exitSteps, if_true, if_false, Bool.false_eq_true, List.nil_append, List.append_nil,
        List.cons_append, List.foldl_cons, List.foldl_nil, step, mutate, newStatus, hstart, hrec, howed,
        Option.isSome_none, reduceCtorEq, or_false, Option.isSome_some] <;>
      simp

/-- **C57 (already ended).** On an ended span the exit of a `with` block changes nothing and notifies nobody. -/
theorem C57_with_exit_ended (s : State) (recordExc setStatusOnExc : Bool) (exc : Option (Exc × Str)) (ts tEnd t : Int)
    (hend : s.data.endTime = some t) (howed : s.owedEnd = 0) :
    (exitSteps (isRecording s) recordExc setStatusOnExc exc ts tEnd).foldl step s = s := by
  have hr : isRecording s = false := by simp [isRecording, hend]
  rw [hr]
  cases exc <;> simp [exitSteps, step, hend, howed]

example : ((exitSteps true true true (some (⟨"m".toList, "E".toList, "boom".toList, "tb".toList⟩, "E: boom".toList)) 7 9).foldl step
    (after exLim0 ['n'] ⟨1, 2, false, 1, []⟩ none [] [] [] [.start 5, .notifyStart])).data.status =
    ⟨.error, some "E: boom".toList⟩ := by rfl

/-! ## Concrete histories -/

/-- Limits used in the examples. -/
def exLim : SpanLimits := ⟨some 128, some 1, some 1, some 2, some 1, some 1, none, some 3⟩
/-- A history: two threads, an early end, events over the limit, a late change. -/
def exHist : List Step :=
  [.end_ 3, .start 5, .notifyStart, .setStatus (.code .error (some ['x'])), .setAttributes [(.str ['a'], .atom (.int 1 true))],
   .addEvent ['e'] [] 6, .addEvent ['f'] [] 7, .setStatus (.code .ok (some ['y'])), .setStatus (.code .error none),
   .end_ 9, .end_ 10, .setStatus (.code .error none), .updateName ['z'], .notifyEnd, .notifyEnd]

example : let s := after exLim ['n'] ⟨1, 2, false, 1, []⟩ none [] [] [] exHist
    (s.data.endTime, s.data.startTime, s.data.status, s.data.name, s.data.events.dropped, s.data.events.items.length,
      s.data.attrs.d.length, (endNotes s.log).length, s.owedEnd) =
    (some 9, some 5, ⟨.ok, none⟩, ['n'], 1, 1, 1, 1, 0) := by rfl

end Span
end Otel
