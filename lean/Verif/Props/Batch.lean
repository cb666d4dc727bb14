import Verif.Lemmas.BatchProgress
import Verif.Spec.Shuffle
import Mathlib.Data.List.Induction
import Mathlib.Tactic.Tauto
/-!
# C24–C26: the batch processors
`Batch.run c acts` is the state after the scheduler's choices `acts`: producers, flushers, shut-downs and the worker in
any order and number. `exported`/`batches` read the calls made on the exporter.
-/
namespace Otel
namespace Batch
open Spec
variable {σ : Type}

/-! ## Lists -/

theorem shuffle_marks (l : List (σ × Bool)) : Shuffle (popped l) ((l.filter (fun p => !p.2)).map Prod.fst) (l.map Prod.fst) := by
  induction l with
  | nil => exact .nil
  | cons p l ih =>
    obtain ⟨x, b⟩ := p
    cases b with
    | true => simpa [popped] using Shuffle.left x ih
    | false => simpa [popped] using Shuffle.right x ih

theorem shuffle_append_left (a b c d : List σ) (h : Shuffle a b c) : Shuffle (a ++ d) b (c ++ d) := by
  induction h with
  | nil =>
    induction d with
    | nil => exact .nil
    | cons x d ih => exact .left x ih
  | left x _ ih => exact .left x ih
  | right x _ ih => exact .right x ih

theorem shuffle_sublist (a b c : List σ) (h : Shuffle a b c) : a.Sublist c := by
  induction h with
  | nil => exact List.Sublist.refl _
  | left x _ ih => exact ih.cons_cons x
  | right x _ ih => exact ih.cons x

theorem shuffle_length (a b c : List σ) (h : Shuffle a b c) : c.length = a.length + b.length := by
  induction h with
  | nil => rfl
  | left x _ ih => simp [ih]; omega
  | right x _ ih => simp [ih]; omega

theorem shuffle_mem (a b c : List σ) (h : Shuffle a b c) (x : σ) : x ∈ c ↔ x ∈ a ∨ x ∈ b := by
  induction h with
  | nil => simp
  | left y _ ih => simp [ih, or_assoc]
  | right y _ ih => simp only [List.mem_cons, ih]; tauto

/-! ## C24 -/

/-- **C24** Every exported batch has between one and `max_export_batch_size` spans. -/
theorem C24_batch_bound (c : Cfg σ) (acts : List (Act σ)) (b : List σ) (h : b ∈ batches (run c acts).log) :
    1 ≤ b.length ∧ b.length ≤ c.maxBatch := by
  obtain ⟨h1, h2⟩ := (batch_run c acts).1 b h
  exact ⟨List.length_pos_iff.mpr h1, h2⟩

/-- **C24** Accounting, order and absence of duplication: the spans exported, followed by those the worker is about to
hand over and those still queued, merged with the spans lost to overflow, are exactly the appended spans, in the order
they were appended. -/
theorem C24_accounting (c : Cfg σ) (acts : List (Act σ)) :
    ∃ held : List σ, held.length ≤ c.maxBatch ∧
      Shuffle (exported (run c acts) ++ held ++ (run c acts).queue) (evicted (run c acts)) (run c acts).accepted := by
  have hd := data_run c acts
  have hb := (batch_run c acts).2
  refine ⟨bufOf (run c acts).pc, ?_, ?_⟩
  · unfold bufOf
    split
    · rename_i h; rw [h] at hb; exact hb.1
    · rename_i h; rw [h] at hb; exact hb.2
    · exact Nat.zero_le _
  · rw [hd.exp, hd.acc]
    exact shuffle_append_left _ _ _ _ (shuffle_marks _)

/-- **C24** The exported sequence is a subsequence of the appended one: queue order, nothing exported twice. -/
theorem C24_order (c : Cfg σ) (acts : List (Act σ)) : (exported (run c acts)).Sublist (run c acts).accepted := by
  obtain ⟨h, _, hs⟩ := C24_accounting c acts
  have := shuffle_sublist _ _ _ hs
  rw [List.append_assoc] at this
  exact (List.sublist_append_left _ _).trans this

/-- **C24** If each span was appended once, each is exported at most once. -/
theorem C24_no_duplicates (c : Cfg σ) (acts : List (Act σ)) (h : (run c acts).accepted.Nodup) :
    (exported (run c acts)).Nodup :=
  (C24_order c acts).nodup h

/-- The spans whose `on_end` was called and that are sampled, in call order. -/
def offered (c : Cfg σ) : List (Act σ) → List σ
  | [] => []
  | .offer x :: l => if c.sampled x then x :: offered c l else offered c l
  | _ :: l => offered c l

theorem offered_append (c : Cfg σ) (a b : List (Act σ)) : offered c (a ++ b) = offered c a ++ offered c b := by
  induction a with
  | nil => rfl
  | cons x a ih => cases x <;> simp only [List.cons_append, offered, ih] <;> (try split) <;> simp

theorem run_snoc (c : Cfg σ) (acts : List (Act σ)) (a : Act σ) : run c (acts ++ [a]) = step c (run c acts) a := by
  simp [run]

theorem entered_step (c : Cfg σ) (s : St σ) (a : Act σ) (hd : Data c s) :
    ((step c s a).accepted ++ (step c s a).inflight).Perm
      (s.accepted ++ s.inflight ++ (if s.done then [] else offered c [a])) := by
  cases a with
  | offer x =>
    cases hdn : s.done <;> cases hx : c.sampled x <;> simp [step, offered, hdn, hx]
  | append i =>
    have e0 : offered c [Act.append i] = ([] : List σ) := rfl
    rw [e0, ite_self, List.append_nil]
    simp only [step]
    split
    · rename_i x hx
      obtain ⟨ev, e1, _⟩ := push_spec c { s with inflight := s.inflight.eraseIdx i } x hd.size
      rw [e1]
      have hi : i < s.inflight.length := by
        rcases Nat.lt_or_ge i s.inflight.length with hh | hh
        · exact hh
        · rw [List.getElem?_eq_none hh] at hx; cases hx
      have hx' : s.inflight[i] = x := by
        rw [List.getElem?_eq_getElem hi] at hx; exact Option.some.inj hx
      dsimp only
      rw [List.append_assoc]
      refine List.Perm.append_left _ ?_
      rw [← hx']
      exact List.getElem_cons_eraseIdx_perm hi
    · exact List.Perm.refl _
  | flushCall => simp [step, offered]
  | flushReq i => simp only [step]; split <;> (try split) <;> simp [offered]
  | flushRet i ok => simp only [step]; split <;> (try split) <;> simp [offered]
  | shutCall => simp [step, offered]
  | shutJoin => simp only [step]; split <;> simp [offered]
  | worker =>
    simp only [step]
    rw [(frame_wstep c s).1, (frame_wstep c s).2.2.2.1]; simp [offered]

/-- **C24** What is appended or about to be appended was offered, is sampled, and nothing else: no more often than
offered, and exactly the offered sampled spans as long as `shutdown` has not been called. -/
theorem C24_only_sampled_offered (c : Cfg σ) (acts : List (Act σ)) :
    ((run c acts).accepted ++ (run c acts).inflight).Subperm (offered c acts) ∧
    ((run c acts).done = false → ((run c acts).accepted ++ (run c acts).inflight).Perm (offered c acts)) ∧
    (∀ x ∈ (run c acts).accepted, c.sampled x = true) := by
  refine ⟨?_, ?_, fun x hx => (data_run c acts).samp x (by simp [hx])⟩
  · induction acts using List.reverseRecOn with
    | nil => exact List.Subperm.refl _
    | append_singleton acts a ih =>
      rw [run_snoc, offered_append]
      refine (entered_step c _ a (data_run c acts)).subperm.trans ?_
      refine List.Subperm.append ih ?_
      split
      · exact List.nil_subperm
      · exact List.Subperm.refl _
  · induction acts using List.reverseRecOn with
    | nil => intro _; exact List.Perm.refl _
    | append_singleton acts a ih =>
      rw [run_snoc, offered_append]
      intro hdn
      have hdn0 : (run c acts).done = false := by
        by_contra hc
        rw [done_step c _ a (by simpa using hc)] at hdn; cases hdn
      have := entered_step c _ a (data_run c acts)
      rw [hdn0] at this
      exact this.trans (List.Perm.append_right _ (ih hdn0))

/-- **C24** The queue never exceeds its capacity, and a span is lost only when it is the oldest of a full queue to which
another span is appended. -/
theorem C24_overflow (c : Cfg σ) (acts : List (Act σ)) (a : Act σ) :
    (run c acts).queue.length ≤ c.maxQueue ∧
    (evicted (step c (run c acts) a) = evicted (run c acts) ∨
      ∃ x, evicted (step c (run c acts) a) = evicted (run c acts) ++ [x] ∧ (run c acts).queue.head? = some x ∧
        (run c acts).queue.length = c.maxQueue ∧ ∃ i, a = .append i) := by
  have hd := data_run c acts
  refine ⟨hd.size, ?_⟩
  generalize run c acts = s at *
  cases a with
  | offer x => left; simp only [step]; split <;> rfl
  | append i =>
    simp only [step]
    split
    · rename_i x hx
      simp only [push]
      split
      · rename_i y q hq
        split
        · rename_i hf
          right
          have hq' : s.queue = y :: q := hq
          refine ⟨y, by simp [evicted], by simp [hq'], by rw [hq']; exact hf, i, rfl⟩
        · left; rfl
      · left; rfl
    · left; rfl
  | flushCall => left; rfl
  | flushReq i => left; simp only [step]; split <;> (try split) <;> rfl
  | flushRet i ok => left; simp only [step]; split <;> (try split) <;> rfl
  | shutCall => left; rfl
  | shutJoin => left; simp only [step]; split <;> rfl
  | worker =>
    left
    simp only [step]
    unfold wstep evicted
    split <;> (try rfl) <;> (split <;> (try rfl) <;> (split <;> (try rfl)))
    simp

/-! A concrete run: two batches of at most two, one overflow, one unsampled span. -/
def demo : Cfg Nat := { maxQueue := 2, maxBatch := 2, sampled := fun n => decide (n < 10), pos := by decide, le := by decide }

example : let s := run demo ([.offer 1, .append 0, .offer 2, .append 0, .offer 77, .offer 3, .append 0] ++ List.replicate 11 .worker);
    batches s.log = [[2, 3]] ∧ evicted s = [1] ∧ s.accepted = [1, 2, 3] ∧ s.queue = [] := by
  decide

/-! ## C25 -/

/-- What is settled, in terms of the exporter's calls. -/
theorem settled_shuffle (c : Cfg σ) (s : St σ) (b : Nat) (hd : Data c s) (hs : Settled s b) :
    ∃ e d, e <+: exported s ∧ d <+: evicted s ∧ Shuffle e d (s.accepted.take b) := by
  refine ⟨popped (s.gone.take b), ((s.gone.take b).filter (fun p => !p.2)).map Prod.fst, ?_, ?_, ?_⟩
  · obtain ⟨h1, h2⟩ := hs
    have hp : popped (s.gone.take b) <+: exported s ++ bufOf s.pc := by
      rw [hd.exp]
      refine ⟨popped (s.gone.drop b), ?_⟩
      rw [← popped_append, List.take_append_drop]
    exact List.prefix_of_prefix_length_le hp (List.prefix_append _ _) h2
  · refine ⟨((s.gone.drop b).filter (fun p => !p.2)).map Prod.fst, ?_⟩
    rw [← List.map_append, ← List.filter_append, List.take_append_drop]; rfl
  · have : s.accepted.take b = (s.gone.take b).map Prod.fst := by
      rw [hd.acc, List.take_append_of_le_length (by simpa using hs.1), List.map_take]
    rw [this]
    exact shuffle_marks _

/-- **C24** Nobody has to ask: every span accepted so far is handed to the exporter, or lost to overflow, within a number of worker steps that depends only on the
configuration, however busy the producers are, unless `shutdown` is called meanwhile (then C26). -/
theorem C24_progress (c : Cfg σ) (acts acts' : List (Act σ)) (hw : c.maxQueue * (c.maxBatch + 19) + c.maxBatch + 20 ≤ workerSteps acts') :
    (run c (acts ++ acts')).done = true ∨
    ∃ e d, e <+: exported (run c (acts ++ acts')) ∧ d <+: evicted (run c (acts ++ acts')) ∧ Shuffle e d (run c acts).accepted := by
  have hrun : run c (acts ++ acts') = acts'.foldl (step c) (run c acts) := by simp [run]
  rcases settles c acts' (run c acts) (owed_run c acts) hw with h | h
  · exact .inl (by rw [hrun]; exact h)
  · right
    rw [← hrun] at h
    obtain ⟨e, d, h1, h2, h3⟩ := settled_shuffle c _ _ (data_run c _) h
    refine ⟨e, d, h1, h2, ?_⟩
    have hpre : (run c acts).accepted <+: (run c (acts ++ acts')).accepted := by
      rw [hrun]; exact accepted_steps c acts' _
    rwa [show (run c (acts ++ acts')).accepted.take (run c acts).accepted.length = (run c acts).accepted from (List.prefix_iff_eq_take.1 hpre).symm] at h3

/-! Nobody flushes and the batch is not full: the span is exported after the worker's next time-out. -/
example : exported (run demo ([.offer 1, .append 0] ++ List.replicate 64 .worker)) = [1] ∧ 64 = demo.maxQueue * (demo.maxBatch + 19) + demo.maxBatch + 20 := by
  decide

/-- **C25 (partial)** If a `force_flush` that waited for the worker returned `True`, then every span appended before the
call has been handed to the exporter or was dropped on overflow: the first `before` appended spans are a merge of a
prefix of what was exported and a prefix of what was dropped. Missing: a `force_flush` called once `shutdown` has
set its flag returns `True` at once (see `C25_after_shutdown_violated`). -/
theorem C25_successful_flush_partial (c : Cfg σ) (acts : List (Act σ)) (f : Flush) (hf : f ∈ (run c acts).flushes)
    (h : f.state = .returned true false) :
    f.before ≤ (run c acts).accepted.length ∧
    ∃ e d, e <+: exported (run c acts) ∧ d <+: evicted (run c acts) ∧
      Shuffle e d ((run c acts).accepted.take f.before) := by
  have hd := data_run c acts
  obtain ⟨hb, _, hs⟩ := flushes_run c acts f hf
  exact ⟨hb, settled_shuffle c _ _ hd (hs h)⟩

/-- **C25** The ghost field says what it should: `before` is the number of spans appended when the call was made, and
no step changes it later. -/
theorem C25_before_recorded (c : Cfg σ) (acts : List (Act σ)) :
    (∀ k, (run c (acts ++ [.flushCall])).flushes[k]? =
      if k = (run c acts).flushes.length then
        some ⟨(run c acts).accepted.length, if (run c acts).done then .returned true true else .checked⟩
      else (run c acts).flushes[k]?) ∧
    ∀ (a : Act σ) (k : Nat) (f : Flush), (run c acts).flushes[k]? = some f →
      ∃ f' : Flush, (step c (run c acts) a).flushes[k]? = some f' ∧ f'.before = f.before := by
  refine ⟨?_, ?_⟩
  · intro k
    rw [run_snoc]
    simp only [step]
    by_cases hk : k = (run c acts).flushes.length
    · rw [if_pos hk, hk]; simp
    · rw [if_neg hk]
      rcases Nat.lt_or_ge k (run c acts).flushes.length with hl | hl
      · rw [List.getElem?_append_left hl]
      · rw [List.getElem?_eq_none hl, List.getElem?_eq_none (by simp; omega)]
  · generalize run c acts = s
    have hset : ∀ (i k b : Nat) (st st' : FState) (f : Flush), s.flushes[i]? = some ⟨b, st⟩ → s.flushes[k]? = some f →
        ∃ f' : Flush, (s.flushes.set i ⟨b, st'⟩)[k]? = some f' ∧ f'.before = f.before := by
      intro i k b st st' f hi hk
      by_cases hik : i = k
      · subst hik
        rw [hi] at hk
        have hlt : i < s.flushes.length := by
          rcases Nat.lt_or_ge i s.flushes.length with hl | hl
          · exact hl
          · rw [List.getElem?_eq_none hl] at hi; cases hi
        refine ⟨⟨b, st'⟩, by simp [hlt], ?_⟩
        cases hk; rfl
      · exact ⟨f, by rw [List.getElem?_set_ne hik]; exact hk, rfl⟩
    intro a k f hk
    cases a with
    | offer x => refine ⟨f, ?_, rfl⟩; simp only [step]; split <;> exact hk
    | append i =>
      refine ⟨f, ?_, rfl⟩
      simp only [step]
      split
      · rw [(push_frame c _ _).2.2.2.2.1]; exact hk
      · exact hk
    | flushCall =>
      refine ⟨f, ?_, rfl⟩
      simp only [step]
      have hlt : k < s.flushes.length := by
        rcases Nat.lt_or_ge k s.flushes.length with hl | hl
        · exact hl
        · rw [List.getElem?_eq_none hl] at hk; cases hk
      rw [List.getElem?_append_left hlt]; exact hk
    | flushReq i =>
      simp only [step]
      split
      · rename_i b hi
        split
        · exact hset i k b _ _ f hi hk
        · exact hset i k b _ _ f hi hk
      · exact ⟨f, hk, rfl⟩
    | flushRet i ok =>
      simp only [step]
      split
      · rename_i b r hi
        split
        · exact ⟨f, hk, rfl⟩
        · exact hset i k b _ _ f hi hk
      · exact ⟨f, hk, rfl⟩
    | shutCall => exact ⟨f, hk, rfl⟩
    | shutJoin => refine ⟨f, ?_, rfl⟩; simp only [step]; split <;> exact hk
    | worker => refine ⟨f, ?_, rfl⟩; simp only [step]; rw [(frame_wstep c s).2.1]; exact hk

/-- **C25** The claim is false once `shutdown` has begun: a span is queued, `shutdown` sets its flag, and a
`force_flush` then returns `True` although the span has been neither exported nor dropped. -/
theorem C25_after_shutdown_violated :
    let s := run demo [.offer 1, .append 0, .shutCall, .flushCall]
    s.flushes = [⟨1, .returned true true⟩] ∧ exported s = [] ∧ evicted s = [] ∧ s.accepted = [1] := ⟨rfl, rfl, rfl, rfl⟩

/-- **C25** A waiting `force_flush` is served: unless `shutdown` is called meanwhile, its event is set once the worker
has made a number of steps that depends only on the configuration — however busy the producers are. -/
theorem C25_flush_served (c : Cfg σ) (acts acts' : List (Act σ)) (f : Flush) (r : Nat)
    (hf : f ∈ (run c acts).flushes) (h : f.state = .waiting r)
    (hw : 2 * (c.maxQueue * (c.maxBatch + 6) + c.maxBatch + 12) ≤ workerSteps acts') :
    (run c (acts ++ acts')).done = true ∨ r ∈ (run c (acts ++ acts')).events := by
  have hr : r ∈ reqs (run c acts) := by
    unfold reqs
    rcases (flushes_run c acts f hf).2.1 r h with h1 | h1 | h1
    · rw [h1]; simp
    · simp [h1.1]
    · simp [h1.1]
  have := served c acts acts' r hr hw
  simpa [run] using this

/-! A flush with a busy producer: spans 1 and 2 are flushed, 3 arrives meanwhile. -/
example : let s := run demo ([.offer 1, .append 0, .offer 2, .append 0, .flushCall, .flushReq 0] ++
      List.replicate 5 .worker ++ [.offer 3, .append 0] ++ List.replicate 10 .worker ++ [.flushRet 0 true]);
    s.flushes = [⟨2, .returned true false⟩] ∧ batches s.log = [[2, 3]] ∧ evicted s = [1] := ⟨rfl, rfl, rfl⟩

/-! ## C26 -/

/-- **C26** The exporter is shut down only after the last export: its calls are exports followed by shut-downs. -/
theorem C26_shutdown_last (c : Cfg σ) (acts : List (Act σ)) :
    ∃ (bs : List (List σ)) (k : Nat), (run c acts).log = bs.map Ev.export ++ List.replicate k Ev.shutdown := by
  obtain ⟨bs, k, h, _⟩ := (shut_run c acts).log
  exact ⟨bs, k, h⟩

/-- The state in which `shutdown` first set its flag, if it did: the spans appended and in flight then. -/
def atShutdown (c : Cfg σ) (acts : List (Act σ)) : Option (Nat × List σ) := (run c acts).doneAt

/-- Once set, the record of when `done` was set stays. -/
theorem doneAt_kept (c : Cfg σ) (acts' : List (Act σ)) (s : St σ) (v : Nat × List σ) (hd : s.done = true) (hv : s.doneAt = some v) :
    (acts'.foldl (step c) s).doneAt = some v := by
  have key : ∀ (acts' : List (Act σ)) (s : St σ) (v), s.done = true → s.doneAt = some v →
      (acts'.foldl (step c) s).doneAt = some v := by
    intro acts'
    induction acts' with
    | nil => intro s v _ h; exact h
    | cons a acts' ih =>
      intro s v hd hv
      refine ih _ v (done_step c s a hd) ?_
      cases a with
      | offer x => simp only [step]; split <;> exact hv
      | append i =>
        simp only [step]
        split
        · rw [(push_frame c _ _).2.2.2.2.2.2.2.2.2]; exact hv
        · exact hv
      | flushCall => exact hv
      | flushReq i => simp only [step]; split <;> (try split) <;> exact hv
      | flushRet i ok => simp only [step]; split <;> (try split) <;> exact hv
      | shutCall => simp [step, hd, hv]
      | shutJoin => simp only [step]; split <;> exact hv
      | worker => simp only [step]; rw [(frame_wstep c s).2.2.2.2.2]; exact hv
  exact key acts' s v hd hv

/-- **C26** `doneAt` records the state of the first `shutdown` call. -/
theorem C26_recorded (c : Cfg σ) (acts acts' : List (Act σ)) (h : (run c acts).done = false) :
    (run c (acts ++ .shutCall :: acts')).doneAt = some ((run c acts).accepted.length, (run c acts).inflight) := by
  have h1 : run c (acts ++ .shutCall :: acts') = acts'.foldl (step c) (step c (run c acts) .shutCall) := by simp [run]
  rw [h1]
  exact doneAt_kept c acts' _ _ rfl (by simp [step, h])

/-- What a state that satisfies the invariants says once the exporter has been shut down. -/
theorem nothing_lost (c : Cfg σ) (s : St σ) (hd : Data c s) (hs : Shut s) (h : Ev.shutdown ∈ s.log) :
    ∃ d fl, s.doneAt = some (d, fl) ∧
      (∃ e v, e <+: exported s ∧ v <+: evicted s ∧ Shuffle e v (s.accepted.take d)) ∧
      Shuffle (exported s ++ s.queue) (evicted s) s.accepted ∧
      s.queue.Subperm fl := by
  obtain ⟨bs, k, hl, hk⟩ := hs.log
  have hk0 : 0 < k := by
    rw [hl] at h
    simp only [List.mem_append, List.mem_map, List.mem_replicate] at h
    rcases h with ⟨b, _, hb⟩ | h
    · cases hb
    · exact Nat.pos_of_ne_zero h.1
  have hp := hk hk0
  have hdone := hs.aft (by rw [hp]; rfl)
  have hsome := hs.flag.mp hdone
  obtain ⟨⟨d, fl⟩, hda⟩ := Option.isSome_iff_exists.mp hsome
  have hgd := hs.drn (by rw [hp]; rfl) d fl hda
  obtain ⟨h1, h2⟩ := hs.late d fl hda
  have hexp : exported s = popped s.gone := by
    have := hd.exp; rw [hp] at this; simpa [bufOf] using this
  refine ⟨d, fl, hda, ⟨popped (s.gone.take d), ((s.gone.take d).filter (fun p => !p.2)).map Prod.fst, ?_, ?_, ?_⟩, ?_, ?_⟩
  · rw [hexp]
    exact ⟨popped (s.gone.drop d), by rw [← popped_append, List.take_append_drop]⟩
  · refine ⟨((s.gone.drop d).filter (fun p => !p.2)).map Prod.fst, ?_⟩
    rw [← List.map_append, ← List.filter_append, List.take_append_drop]; rfl
  · have : s.accepted.take d = (s.gone.take d).map Prod.fst := by
      rw [hd.acc, List.take_append_of_le_length (by simpa using hgd), List.map_take]
    rw [this]
    exact shuffle_marks _
  · rw [hexp, hd.acc]
    exact shuffle_append_left _ _ _ _ (shuffle_marks _)
  · refine List.Subperm.trans ?_ h2.subperm
    have : s.queue.Sublist (s.accepted.drop d) := by
      rw [hd.acc, List.drop_append_of_le_length (by simpa using hgd)]
      exact List.sublist_append_right _ _
    exact (this.trans (List.sublist_append_left _ _)).subperm

/-- **C26 (partial)** Once the exporter has been shut down — so when `shutdown` returns — every span whose `on_end` was
over before `shutdown` was called has been exported or dropped on overflow; whatever else is left in the queue was in
flight at that moment. Missing: spans in flight can be lost (see `C26_race_violated`). -/
theorem C26_nothing_lost_partial (c : Cfg σ) (acts : List (Act σ)) (h : Ev.shutdown ∈ (run c acts).log) :
    ∃ d fl, (run c acts).doneAt = some (d, fl) ∧
      (∃ e v, e <+: exported (run c acts) ∧ v <+: evicted (run c acts) ∧ Shuffle e v ((run c acts).accepted.take d)) ∧
      Shuffle (exported (run c acts) ++ (run c acts).queue) (evicted (run c acts)) (run c acts).accepted ∧
      (run c acts).queue.Subperm fl :=
  nothing_lost c _ (data_run c acts) (shut_run c acts) h

/-- **C26** With no `on_end` in flight when `shutdown` is called, nothing is lost: when the exporter is shut down the
queue is empty and every appended span was exported or dropped on overflow. -/
theorem C26_quiescent (c : Cfg σ) (acts acts' : List (Act σ)) (h : (run c acts).done = false)
    (hq : (run c acts).inflight = []) (hs : Ev.shutdown ∈ (run c (acts ++ .shutCall :: acts')).log) :
    let s := run c (acts ++ .shutCall :: acts')
    s.queue = [] ∧ Shuffle (exported s) (evicted s) s.accepted := by
  intro s
  obtain ⟨d, fl, h1, _, h3, h4⟩ := C26_nothing_lost_partial c _ hs
  rw [C26_recorded c acts acts' h, hq] at h1
  cases h1
  have hq : s.queue = [] := List.subperm_nil.mp h4
  refine ⟨hq, ?_⟩
  have h3' : Shuffle (exported s ++ s.queue) (evicted s) s.accepted := h3
  rw [hq, List.append_nil] at h3'
  exact h3'

/-- **C26** `shutdown` is not kept waiting for ever: after it has set its flag the worker stops within a bounded number
of its own steps — ten per queued span, eleven per span in flight, and twelve — whatever the other threads do. -/
theorem C26_worker_stops (c : Cfg σ) (acts acts' : List (Act σ)) (h : (run c acts).done = true)
    (hw : 10 * (run c acts).queue.length + 11 * (run c acts).inflight.length + 12 ≤ workerSteps acts') :
    (run c (acts ++ acts')).pc = .stopped := by
  have := stops c acts' (run c acts) (data_run c acts) (batch_run c acts) h ?_
  · simpa [run] using this
  · refine Nat.le_trans ?_ hw
    have : weight (run c acts).pc ≤ 12 := by unfold weight; split <;> omega
    unfold work; omega

/-- **C26** Nothing is exported after the exporter was first shut down. -/
theorem C26_no_export_after (c : Cfg σ) (acts acts' : List (Act σ)) (h : Ev.shutdown ∈ (run c acts).log) :
    exported (run c (acts ++ acts')) = exported (run c acts) := by
  obtain ⟨bs, k, hl, hk⟩ := (shut_run c acts).log
  have hk0 : 0 < k := by
    rw [hl] at h
    simp only [List.mem_append, List.mem_map, List.mem_replicate] at h
    rcases h with ⟨b, _, hb⟩ | h
    · cases hb
    · exact Nat.pos_of_ne_zero h.1
  have := (stopped_run c acts' (run c acts) (hk hk0)).2
  simpa [run] using this

/-- The schedule of the race: `on_end` reads the flag, `shutdown` runs to its end, then the span is appended. -/
def race : List (Act Nat) := [.offer 1, .shutCall] ++ List.replicate 5 .worker ++ [.shutJoin, .append 0]

/-- **C26** The claim is false for a span in flight: `on_end` passes its check, `shutdown` runs and returns, the span is
appended — and is never exported, whatever happens afterwards. -/
theorem C26_race_violated (acts' : List (Act Nat)) :
    let s := run demo (race ++ acts')
    (run demo race).accepted = [1] ∧ (run demo race).queue = [1] ∧ Ev.shutdown ∈ (run demo race).log ∧ exported s = [] := by
  have hl : (run demo race).log = [Ev.shutdown] := rfl
  have hm : Ev.shutdown ∈ (run demo race).log := by rw [hl]; simp
  refine ⟨rfl, rfl, hm, ?_⟩
  rw [C26_no_export_after demo race acts' hm]
  rfl

/-- **C26** Two `shutdown` calls shut the exporter down twice. -/
theorem C26_double_shutdown : (run demo ([.shutCall, .shutCall] ++ List.replicate 5 .worker ++ [.shutJoin, .shutJoin])).log
    = [Ev.shutdown, Ev.shutdown] := rfl

/-! Shutting down with two spans queued and a flush pending. -/
example : let s := run demo ([.offer 1, .append 0, .offer 2, .append 0, .shutCall] ++ List.replicate 32 .worker ++ [.shutJoin]);
    batches s.log = [[1, 2]] ∧ s.queue = [] ∧ s.log.length = 2 := by
  decide

end Batch
end Otel
