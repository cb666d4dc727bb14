import Verif.Model.Fork
import Verif.Props.Batch
import Verif.Props.Periodic
import Verif.Props.OtlpShutdown
import Verif.Props.Metrics
/-!
# C93: forking
The parent is `run c (acts ++ more)`: a fork changes nothing in it. The child starts from the forked copy of the state at the fork.
-/
namespace Otel

/-! ## Spans and log records -/
namespace Batch
open Spec
variable {σ : Type}

/-- The processor in a child forked from a parent that has done `acts`, after the child's threads did `acts'`. -/
def child (c : Cfg σ) (acts acts' : List (Act σ)) : St σ := acts'.foldl (step c) (fork (run c acts))

theorem owed_fork (c : Cfg σ) (s : St σ) : Owed c 0 (fork s) := by
  refine ⟨⟨rfl, rfl, Nat.zero_le _, by simp [fork]⟩, ?_, ?_, Nat.le_refl _⟩
  · exact ⟨by simp [fork, batches], trivial⟩
  · refine ⟨?_, ?_, ?_, ?_, ?_, ⟨[], 0, rfl, fun h => absurd h (Nat.lt_irrefl 0)⟩⟩
    · cases h : s.done <;> simp [fork, h]
    · intro h; simp [fork, after] at h
    · intro h; simp [fork] at h
    · intro d fl h
      cases hd : s.done <;> simp [fork, hd] at h
      obtain ⟨rfl, rfl⟩ := h
      simp [fork]
    · intro h; simp [fork, drained] at h

theorem owed_foldl (c : Cfg σ) (b : Nat) (acts : List (Act σ)) (s : St σ) (h : Owed c b s) : Owed c b (acts.foldl (step c) s) := by
  induction acts generalizing s with
  | nil => exact h
  | cons a acts ih => exact ih _ (owed_step c b s a h)

theorem owed_child (c : Cfg σ) (acts acts' : List (Act σ)) : Owed c 0 (child c acts acts') := owed_foldl c 0 acts' _ (owed_fork c _)

/-- **C93 (partial)** In the child the processor works as in a process that was never forked, on the spans of the child alone: every batch has between one and
`max_export_batch_size` spans, and what was exported, what the worker holds and what is queued, merged with what was lost to overflow, is exactly what the child's
threads appended, in that order. Missing: metrics and the gRPC exporter, see below. -/
theorem C93_child_spans_partial (c : Cfg σ) (acts acts' : List (Act σ)) :
    (∀ b ∈ batches (child c acts acts').log, 1 ≤ b.length ∧ b.length ≤ c.maxBatch) ∧
    (child c acts acts').queue.length ≤ c.maxQueue ∧
    ∃ held : List σ, held.length ≤ c.maxBatch ∧
      Shuffle (exported (child c acts acts') ++ held ++ (child c acts acts').queue) (evicted (child c acts acts')) (child c acts acts').accepted := by
  obtain ⟨hd, hb, _, _⟩ := owed_child c acts acts'
  refine ⟨fun b h => ⟨List.length_pos_iff.mpr (hb.1 b h).1, (hb.1 b h).2⟩, hd.size, bufOf (child c acts acts').pc, ?_, ?_⟩
  · have hb := hb.2
    unfold bufOf
    split
    · rename_i h; rw [h] at hb; exact hb.1
    · rename_i h; rw [h] at hb; exact hb.2
    · exact Nat.zero_le _
  · rw [hd.exp, hd.acc]
    exact shuffle_append_left _ _ _ _ (shuffle_marks _)

/-- **C93** What the child appended was handed to `on_end` in the child and is sampled: no span of the parent gets into the child. Unless the processor is shut down,
everything handed to `on_end` in the child is appended or about to be. -/
theorem C93_only_own_spans (c : Cfg σ) (acts acts' : List (Act σ)) :
    ((child c acts acts').accepted ++ (child c acts acts').inflight).Subperm (offered c acts') ∧
    ((child c acts acts').done = false → ((child c acts acts').accepted ++ (child c acts acts').inflight).Perm (offered c acts')) := by
  have hsnoc : ∀ (l : List (Act σ)) (a : Act σ), child c acts (l ++ [a]) = step c (child c acts l) a := by intro l a; simp [child]
  induction acts' using List.reverseRecOn with
  | nil => exact ⟨by simp [child, fork], by simp [child, fork, offered]⟩
  | append_singleton l a ih =>
    have he := entered_step c _ a (owed_child c acts l).data
    rw [hsnoc, offered_append]
    refine ⟨he.subperm.trans (List.Subperm.append ih.1 ?_), ?_⟩
    · split
      · exact List.nil_subperm
      · exact List.Subperm.refl _
    · intro hdn
      have hdn0 : (child c acts l).done = false := by
        by_contra hc
        rw [done_step c _ a (by simpa using hc)] at hdn; cases hdn
      rw [hdn0] at he
      exact he.trans (List.Perm.append_right _ (ih.2 hdn0))

/-- **C93** No span is exported twice, once by the parent and once by the child: if all the spans handed to `on_end`, in either process, differ, so do all the spans
exported by the two. -/
theorem C93_no_span_twice (c : Cfg σ) (acts more acts' : List (Act σ)) (h : (offered c (acts ++ more) ++ offered c acts').Nodup) :
    (exported (run c (acts ++ more)) ++ exported (child c acts acts')).Nodup := by
  have h1 : (exported (run c (acts ++ more))).Subperm (offered c (acts ++ more)) :=
    (((C24_order c _).trans (List.sublist_append_left _ _)).subperm).trans (C24_only_sampled_offered c _).1
  have h2 : (exported (child c acts acts')).Subperm (offered c acts') := by
    obtain ⟨_, _, held, _, hs⟩ := C93_child_spans_partial c acts acts'
    have := shuffle_sublist _ _ _ hs
    rw [List.append_assoc] at this
    exact ((((List.sublist_append_left _ _).trans this).trans (List.sublist_append_left _ _)).subperm).trans (C93_only_own_spans c acts acts').1
  obtain ⟨l, hl, hsub⟩ := List.Subperm.append h1 h2
  exact hl.nodup (hsub.nodup h)

/-- **C93** The child has a worker: every span appended in the child is handed to the exporter or lost to overflow within a number of worker steps that depends only
on the configuration, unless the processor is shut down. -/
theorem C93_child_progress (c : Cfg σ) (acts acts' acts'' : List (Act σ))
    (hw : c.maxQueue * (c.maxBatch + 19) + c.maxBatch + 20 ≤ workerSteps acts'') :
    (child c acts (acts' ++ acts'')).done = true ∨
    ∃ e d, e <+: exported (child c acts (acts' ++ acts'')) ∧ d <+: evicted (child c acts (acts' ++ acts'')) ∧ Shuffle e d (child c acts acts').accepted := by
  have hrun : child c acts (acts' ++ acts'') = acts''.foldl (step c) (child c acts acts') := by simp [child]
  have ho := owed_child c acts acts'
  rcases settles c acts'' (child c acts acts') ⟨ho.data, ho.batch, ho.shut, Nat.le_refl _⟩ hw with h | h
  · exact .inl (by rw [hrun]; exact h)
  · right
    rw [← hrun] at h
    obtain ⟨e, d, h1, h2, h3⟩ := settled_shuffle c _ _ (owed_child c acts _).data h
    refine ⟨e, d, h1, h2, ?_⟩
    have hpre : (child c acts acts').accepted <+: (child c acts (acts' ++ acts'')).accepted := by
      rw [hrun]; exact accepted_steps c acts'' _
    rwa [← List.prefix_iff_eq_take.1 hpre] at h3

/-- **C93** `shutdown` in the child ends: the child's worker stops within a bounded number of its steps, and when the child shuts the exporter down everything
appended in the child, except what was being appended when `shutdown` was called, has been exported or lost to overflow. -/
theorem C93_child_shutdown (c : Cfg σ) (acts acts' acts'' : List (Act σ)) :
    ((child c acts acts').done = true →
      10 * (child c acts acts').queue.length + 11 * (child c acts acts').inflight.length + 12 ≤ workerSteps acts'' →
      (child c acts (acts' ++ acts'')).pc = .stopped) ∧
    ((child c acts acts').done = false → (child c acts acts').inflight = [] → Ev.shutdown ∈ (child c acts (acts' ++ .shutCall :: acts'')).log →
      (child c acts (acts' ++ .shutCall :: acts'')).queue = [] ∧
      Shuffle (exported (child c acts (acts' ++ .shutCall :: acts''))) (evicted (child c acts (acts' ++ .shutCall :: acts'')))
        (child c acts (acts' ++ .shutCall :: acts'')).accepted) := by
  have ho := owed_child c acts acts'
  refine ⟨fun hd hw => ?_, fun hd hi hs => ?_⟩
  · have := stops c acts'' (child c acts acts') ho.data ho.batch hd ?_
    · simpa [child] using this
    · refine Nat.le_trans ?_ hw
      have : weight (child c acts acts').pc ≤ 12 := by unfold weight; split <;> omega
      unfold work; omega
  · have ho' := owed_child c acts (acts' ++ .shutCall :: acts'')
    obtain ⟨d, fl, h1, _, h3, h4⟩ := nothing_lost c _ ho'.data ho'.shut hs
    have hrun : child c acts (acts' ++ .shutCall :: acts'') = acts''.foldl (step c) (step c (child c acts acts') .shutCall) := by simp [child]
    rw [hrun, doneAt_kept c acts'' _ ((child c acts acts').accepted.length, (child c acts acts').inflight) rfl (by simp [step, hd]), hi] at h1
    cases h1
    have hq := List.subperm_nil.mp h4
    rw [hq, List.append_nil] at h3
    exact ⟨hq, h3⟩

/-! The parent has a span queued and one exported when it forks; the child gets its own span out, the parent its own. -/
example :
    let parent : List (Act Nat) := [.offer 1, .append 0] ++ List.replicate 14 .worker ++ [.offer 2, .append 0]
    let s := child demo parent ([.offer 3, .append 0] ++ List.replicate 14 .worker);
    exported s = [3] ∧ s.queue = [] ∧ (run demo parent).queue = [2] ∧
    exported (run demo (parent ++ List.replicate 14 .worker)) = [1, 2] := by
  decide

end Batch

/-! ## Metrics -/
namespace Periodic

/-- The reader in a child forked from a parent that has done `acts`, after the child's threads did `acts'`. -/
def child (thread : Bool) (acts acts' : List Act) : St := acts'.foldl step (fork (run thread acts))

theorem run_record (thread : Bool) (n : Nat) : run thread (List.replicate n .record) = { init thread with recorded := n } := by
  induction n with
  | zero => rfl
  | succ n ih =>
    rw [List.replicate_succ', run, List.foldl_append, ← run, ih]
    rfl

theorem ticker_kind (acts : List Act) (s : St) : ((acts.foldl step s).ticker = none ↔ s.ticker = none) := by
  induction acts generalizing s with
  | nil => rfl
  | cons a acts ih =>
    rw [List.foldl_cons, ih]
    cases a with
    | record => rfl
    | callFlush => rfl
    | callShutdown => rfl
    | ticker c =>
      simp only [step]
      cases hp : s.ticker with
      | none => simp [hp]
      | some p => cases p <;> simp [tstep, hp] <;> (try cases c) <;> (try split) <;> simp [hp]
    | user i c late =>
      simp only [step]
      split
      · rfl
      · rename_i u hu
        unfold ustep
        split <;> (try cases c) <;> (try rfl) <;> (try split) <;> (try rfl) <;> (try split) <;> rfl

/-- **C93** If the parent was not exporting or being shut down when it forked, the child's reader behaves as a new reader in whose process the parent's measurements
were made: everything proved of readers (C52) holds in the child. -/
theorem C93_child_reader (thread : Bool) (acts acts' : List Act) (hl : (run thread acts).lock = none) (he : (run thread acts).event = false)
    (ho : (run thread acts).once = false) :
    child thread acts acts' = run thread (List.replicate (run thread acts).recorded .record ++ acts') := by
  have hf : fork (run thread acts) = run thread (List.replicate (run thread acts).recorded .record) := by
    rw [run_record]
    unfold fork init
    have hk := ticker_kind acts (init thread)
    rw [← run] at hk
    cases thread with
    | true =>
      obtain ⟨p, hp⟩ := ticker_some acts
      simp [hl, he, ho, hp]
    | false =>
      have := hk.2 rfl
      simp [hl, he, ho, this]
  rw [child, hf]
  simp [run]

/-- **C93** The claim is false for measurements: whatever the parent did, the child's ticker collects the parent's measurements too and, unless the lock was held,
exports them. -/
theorem C93_metrics_twice_violated (acts : List Act) (hl : (run true acts).lock = none) :
    (child true acts [.ticker .data, .ticker .data, .ticker .data, .ticker .data]).log =
      [.collected .ticker (run true acts).event (run true acts).recorded .data, .exportBegin .ticker (run true acts).recorded, .exportEnd .ticker] := by
  obtain ⟨p, hp⟩ := ticker_some acts
  simp [child, fork, step, hp, tstep, hl]

/-- No thread of the process is exporting, and the lock is taken. -/
structure Stuck (s : St) : Prop where
  lock : s.lock ≠ none
  ticker : ∀ f v, s.ticker ≠ some (.exporting f v)
  users : ∀ u ∈ s.users, ∀ v, u.pc ≠ .fExporting v
  log : ∀ t v, .exportBegin t v ∉ s.log

theorem stuck_step (s : St) (a : Act) (h : Stuck s) : Stuck (step s a) := by
  obtain ⟨h1, h2, h3, h4⟩ := h
  have hset : ∀ (i : Nat) (x : User), (∀ v, x.pc ≠ .fExporting v) → ∀ u ∈ s.users.set i x, ∀ v, u.pc ≠ .fExporting v := by
    intro i x hx u hu
    rcases List.mem_or_eq_of_mem_set hu with h | rfl
    · exact h3 u h
    · exact hx
  cases a with
  | record => exact ⟨h1, h2, h3, h4⟩
  | callFlush =>
    refine ⟨h1, h2, ?_, h4⟩
    intro u hu
    simp only [step, List.mem_append, List.mem_singleton] at hu
    rcases hu with hu | rfl
    · exact h3 u hu
    · simp
  | callShutdown =>
    refine ⟨h1, h2, ?_, h4⟩
    intro u hu
    simp only [step, List.mem_append, List.mem_singleton] at hu
    rcases hu with hu | rfl
    · exact h3 u hu
    · simp
  | ticker c =>
    simp only [step]
    split
    · exact ⟨h1, h2, h3, h4⟩
    · rename_i p hp
      cases p with
      | wait => exact ⟨h1, by simp [tstep], h3, h4⟩
      | collect f =>
        cases c <;> refine ⟨h1, ?_, h3, ?_⟩ <;> simp [tstep] <;> (try exact h4) <;> cases f <;> simp [after]
      | want f v =>
        cases hlk : s.lock with
        | none => exact absurd hlk h1
        | some t => simp only [tstep, hlk]; exact ⟨h1, h2, h3, h4⟩
      | exporting f v => exact absurd hp (h2 f v)
      | finished => exact ⟨h1, h2, h3, h4⟩
      | dead => exact ⟨h1, h2, h3, h4⟩
  | user i c late =>
    simp only [step]
    split
    · exact ⟨h1, h2, h3, h4⟩
    · rename_i u hu
      have hum : u ∈ s.users := List.mem_of_getElem? hu
      unfold ustep
      cases hpc : u.pc with
      | fCollect => cases c <;> refine ⟨h1, h2, hset i _ (by simp), ?_⟩ <;> simp [goto] <;> exact h4
      | fWant v =>
        cases hlk : s.lock with
        | none => exact absurd hlk h1
        | some t => exact ⟨h1, h2, h3, h4⟩
      | fExporting v => exact absurd hpc (h3 u hum v)
      | fFlush => refine ⟨h1, h2, hset i _ (by simp), ?_⟩; simp [goto]; exact h4
      | sStart => simp only; split <;> exact ⟨h1, h2, hset i _ (by simp), h4⟩
      | sSet => exact ⟨h1, h2, hset i _ (by simp), h4⟩
      | sJoin =>
        simp only
        split
        · exact ⟨h1, h2, hset i _ (by simp), h4⟩
        · split
          · exact ⟨h1, h2, hset i _ (by simp), h4⟩
          · exact ⟨h1, h2, h3, h4⟩
      | sExp l => refine ⟨h1, h2, hset i _ (by simp), ?_⟩; simp [goto]; exact h4
      | fRet => exact ⟨h1, h2, h3, h4⟩
      | fRaised => exact ⟨h1, h2, h3, h4⟩
      | sRet l => exact ⟨h1, h2, h3, h4⟩
      | sRefused => exact ⟨h1, h2, h3, h4⟩

/-- **C93** A fork while the parent exports leaves the child without metrics for ever: the lock stays held by a thread that does not exist there, and nothing the
child does ever begins an export. -/
theorem C93_metrics_locked_violated (thread : Bool) (acts acts' : List Act) (hl : (run thread acts).lock ≠ none) (t : Tid) (v : Nat) :
    .exportBegin t v ∉ (child thread acts acts').log := by
  have h0 : Stuck (fork (run thread acts)) := by
    refine ⟨hl, ?_, ?_, ?_⟩
    · intro f v
      simp only [fork]
      cases (run thread acts).ticker <;> simp
    · simp [fork]
    · simp [fork]
  exact (foldl_inv Stuck stuck_step acts' _ h0).log t v

/-! The parent's ticker is exporting when the process forks, so it happens. -/
example : (run true [.record, .ticker .data, .ticker .data, .ticker .data]).lock = some .ticker := by decide

/-- **C93** A reader that was shut down comes back to life in the child: there a new ticker collects and exports once more. -/
theorem C93_metrics_after_shutdown_violated :
    let parent : List Act := [.record, .callShutdown, .user 0 .data false, .user 0 .data false, .ticker .data, .ticker .data, .ticker .data, .ticker .data,
      .user 0 .data false, .user 0 .data false]
    (run true parent).users = [⟨1, .sRet false⟩] ∧
    (child true parent [.ticker .data, .ticker .data, .ticker .data, .ticker .data]).log =
      [.collected .ticker true 1 .data, .exportBegin .ticker 1, .exportEnd .ticker] := by decide

end Periodic

namespace Metrics

theorem fork_run_append {α P : Type} (m : Machine α P) (l q : List (Op α)) (s : m.S) :
    m.run s (l ++ q) = ((m.run (m.run s l).1 q).1, (m.run s l).2 ++ (m.run (m.run s l).1 q).2) := by
  induction l generalizing s with
  | nil => rfl
  | cons o l ih =>
    cases o with
    | meas v => exact ih _
    | coll t => simp [Machine.run, ih]

/-- **C93** How much is counted twice: the deltas reported by the parent (before and after the fork) and by the child, with what neither has collected yet, are the
measurements made before the fork, those made after it in the parent and those made in the child — and once more what had not been collected when the process
forked. `l`, `p` and `q` are what happens to the stream before the fork, in the parent, and in the child, which has a copy of it. -/
theorem C93_delta_double_violated {α : Type} [AddCommGroup α] (start : Int) (l p q : List (Op α)) :
    (((sumM .delta .delta start).out (l ++ p)).filterMap (·.map (·.value))).sum +
      (((sumM (α := α) .delta .delta start).run ((sumM .delta .delta start).run (SumAgg.new .delta start) l).1 q).2.filterMap (·.map (·.value))).sum +
      (pending (l ++ p)).sum + (pending (l ++ q)).sum =
    ((measurements l).sum + (measurements p).sum + (measurements q).sum) + (pending l).sum := by
  have hm : ∀ a b : List (Op α), measurements (a ++ b) = measurements a ++ measurements b := by
    intro a b
    induction a with
    | nil => rfl
    | cons o a ih => cases o <;> simp [measurements, ih]
  have h1 := C29_conservation (α := α) start (l ++ p)
  have h2 := C29_conservation (α := α) start (l ++ q)
  have h3 := C29_conservation (α := α) start l
  rw [hm, List.sum_append] at h1 h2
  have ho : (sumM (α := α) .delta .delta start).out (l ++ q) = (sumM .delta .delta start).out l ++
      ((sumM (α := α) .delta .delta start).run ((sumM .delta .delta start).run (SumAgg.new .delta start) l).1 q).2 := by
    simp only [Machine.out, fork_run_append]; rfl
  rw [ho, List.filterMap_append, List.sum_append] at h2
  generalize (((sumM (α := α) .delta .delta start).run ((sumM .delta .delta start).run (SumAgg.new .delta start) l).1 q).2.filterMap (·.map (·.value))).sum = C at *
  generalize (((sumM (α := α) .delta .delta start).out l).filterMap (·.map (·.value))).sum = L at *
  generalize (((sumM (α := α) .delta .delta start).out (l ++ p)).filterMap (·.map (·.value))).sum = Pa at *
  have e2 : C + (pending (l ++ q)).sum = (measurements q).sum + (pending l).sum := by
    have : L + C + (pending (l ++ q)).sum = L + ((measurements q).sum + (pending l).sum) := by
      rw [h2, ← h3]; abel
    rw [add_assoc] at this
    exact add_left_cancel this
  calc Pa + C + (pending (l ++ p)).sum + (pending (l ++ q)).sum = Pa + (pending (l ++ p)).sum + (C + (pending (l ++ q)).sum) := by abel
    _ = Pa + (pending (l ++ p)).sum + (measurements q).sum + (pending l).sum := by rw [e2]; abel
    _ = _ := by rw [h1]

/-! Seven measured but not collected before the fork: the parent reports 7, the child 7 + 1. -/
example : ((sumM (α := Int) .delta .delta 0).out ([.meas 7] ++ [.coll 1])).filterMap (·.map (·.value)) = [7] ∧
    ((sumM (α := Int) .delta .delta 0).run ((sumM .delta .delta 0).run (SumAgg.new .delta 0) [.meas 7]).1 [.meas 1, .coll 1]).2.filterMap (·.map (·.value)) = [8] := by
  decide

end Metrics

/-! ## The gRPC exporter -/
namespace GrpcShutdown

/-- **C93** An exporter that is neither exporting nor being shut down when the process forks is as good as new in the child (so C69 holds there). -/
theorem C93_grpc_fresh (s : St) (h1 : s.locked = false) (h2 : s.shut = false) (h3 : s.channelClosed = false) : fork s = init := by
  simp [fork, init, h1, h2, h3]

/-- **C93** A fork while an export is under way leaves the child with an exporter that never sends anything: whatever the child's threads do, and also if they give
up waiting for the lock when they shut the exporter down, no request is ever made. -/
theorem C93_grpc_locked_violated (timeouts : Prop) (s s' : St) (hl : s.locked = true) (h : Steps timeouts (fork s) s') (t n : Nat) : s'.exporter t ≠ .flying n := by
  have key : (s'.locked = false → s'.channelClosed = true) ∧ (∀ t, s'.stopper t = .closed → s'.channelClosed = true) ∧
      (∀ t, (s'.exporter t).inside = true → s'.channelClosed = true) ∧ (∀ t n, s'.exporter t ≠ .flying n) ∧ (∀ t n, s'.exporter t ≠ .sleeping n) ∧
      (∀ t n, s'.exporter t ≠ .again n) := by
    induction h with
    | refl => simp [fork, hl, EPc.inside]
    | step b c _ hbc ih =>
      obtain ⟨i1, i2, i3, i4, i5, i6⟩ := ih
      cases hbc with
      | begin t h =>
        refine ⟨i1, i2, ?_, ?_, ?_, ?_⟩ <;> intro u <;> by_cases hu : u = t <;> simp [setE, hu] <;> (try split) <;>
          (first | exact i3 u | exact i4 u | exact i5 u | exact i6 u | simp [EPc.inside])
      | round t n h =>
        refine ⟨i1, i2, ?_, ?_, ?_, ?_⟩ <;> intro u <;> by_cases hu : u = t <;> simp [setE, hu] <;> (try split) <;>
          (first | exact i3 u | exact i4 u | exact i5 u | exact i6 u | simp [EPc.inside])
      | acquire t n h hlk =>
        have hc := i1 hlk
        refine ⟨fun _ => hc, fun _ _ => hc, fun _ _ => hc, ?_, ?_, ?_⟩ <;> intro u <;> by_cases hu : u = t <;> simp [setE, hu] <;>
          (first | exact i4 u | exact i5 u | exact i6 u)
      | call t n h =>
        have hc := i3 t (by rw [h]; rfl)
        refine ⟨fun _ => hc, fun _ _ => hc, fun _ _ => hc, ?_, ?_, ?_⟩ <;> intro u <;> by_cases hu : u = t <;> simp [setE, hu, hc] <;>
          (first | exact i4 u | exact i5 u | exact i6 u)
      | answer t n v h => exact absurd h (i4 t n)
      | wake t n h => exact absurd h (i5 t n)
      | leave t o h =>
        have hc := i3 t (by rw [h]; rfl)
        refine ⟨fun _ => hc, fun _ _ => hc, fun _ _ => hc, ?_, ?_, ?_⟩ <;> intro u <;> by_cases hu : u = t <;> simp [setE, hu] <;>
          (first | exact i4 u | exact i5 u | exact i6 u)
      | leaveAgain t n h => exact absurd h (i6 t n)
      | sBegin t h =>
        refine ⟨i1, ?_, i3, i4, i5, i6⟩
        intro u; by_cases hu : u = t <;> simp [setS, hu]
        · split <;> simp
        · exact i2 u
      | sAcquire t h hlk => exact ⟨fun _ => i1 hlk, fun _ _ => i1 hlk, i3, i4, i5, i6⟩
      | sTimeout t h hlk ht =>
        refine ⟨i1, ?_, i3, i4, i5, i6⟩
        intro u; by_cases hu : u = t <;> simp [setS, hu]
        exact i2 u
      | sFlag t h =>
        refine ⟨i1, ?_, i3, i4, i5, i6⟩
        intro u; by_cases hu : u = t <;> simp [setS, hu]
        exact i2 u
      | sClose t h => exact ⟨fun _ => rfl, fun _ _ => rfl, fun _ _ => rfl, i4, i5, i6⟩
      | sRelease t h =>
        have hc := i2 t h
        exact ⟨fun _ => hc, fun _ _ => hc, fun _ _ => hc, i4, i5, i6⟩
  exact key.2.2.2.1 t n

/-! It happens: an export is under way, and the lock with it. -/
example : ∃ s, Reach False s ∧ s.exporter 0 = .flying 0 ∧ s.locked = true :=
  ⟨_, .step _ _ (.step _ _ (.step _ _ (.step _ _ .init (.begin _ 0 rfl)) (.round _ 0 0 rfl)) (.acquire _ 0 0 rfl rfl)) (.call _ 0 0 rfl), rfl, rfl⟩

end GrpcShutdown
end Otel
