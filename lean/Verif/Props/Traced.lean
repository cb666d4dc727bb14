import Verif.Model.Traced
import Verif.Spec.Traced
import Verif.Props.Tasks
import Verif.Props.Batch
import Verif.Props.OtlpGroup
import Verif.Props.Otlp
import Mathlib.Data.List.Perm.Basic
/-!
# C94: from the text of a program to the wire
-/
namespace Otel
namespace Traced
open Tasks (Prog Event Site events sitesOf runs Belongs)
open Tracer (KeepsState Draws World SpanAt callKey)
open Sampling (Sampler)
open Batch (exported evicted batches)
open scoped List

/-! ## Program and processor together -/

theorem steps_log_grows (w : World) (i : Nat) (l : List Span.Step) : w.log <+: (w.steps i l).log := by
  unfold Tracer.World.steps
  split
  · exact List.prefix_rfl
  · exact List.prefix_append _ _

theorem startIn_log_grows (S : Sampler) (lim : SpanLimits) (t : Nat) (o : Tracer.Opts) (w : World) : w.log <+: (Tracer.startIn S lim t o w).log := by
  unfold Tracer.startIn
  simp only
  split
  · exact List.prefix_append _ _
  · exact List.prefix_rfl

theorem log_grows (S : Sampler) (lim : SpanLimits) (st : Tasks.State) (t : Nat) : st.world.log <+: (Tasks.step S lim st t).world.log := by
  unfold Tasks.step
  split
  · exact List.prefix_rfl
  · rename_i k hk
    obtain ⟨ctl, stack⟩ := k
    cases ctl with
    | run p =>
      cases p with
      | op i s => exact steps_log_grows _ _ _
      | start _ o => exact startIn_log_grows _ _ _ _ _
      | block _ o b => exact startIn_log_grows _ _ _ _ _
      | _ => exact List.prefix_rfl
    | enter i o b => exact List.prefix_rfl
    | ret e =>
      cases stack with
      | nil => exact List.prefix_rfl
      | cons f r => cases f <;> exact List.prefix_rfl
    | error i o e => exact steps_log_grows _ _ _
    | finish i o e =>
      simp only
      split
      · exact steps_log_grows _ _ _
      · exact List.prefix_rfl
    | notify i e => exact steps_log_grows _ _ _

theorem ends_append (a b : List (Nat × Span.Note)) : ends (a ++ b) = ends a ++ ends b := by simp [ends]

/-- Everything offered. -/
def offers {σ : Type} : List (Batch.Act σ) → List σ
  | [] => []
  | .offer x :: l => x :: offers l
  | _ :: l => offers l

theorem offers_append {σ : Type} (a b : List (Batch.Act σ)) : offers (a ++ b) = offers a ++ offers b := by
  induction a with
  | nil => rfl
  | cons x a ih => cases x <;> simp [offers, ih]

theorem offered_eq {σ : Type} (c : Batch.Cfg σ) (l : List (Batch.Act σ)) : Batch.offered c l = (offers l).filter c.sampled := by
  induction l with
  | nil => rfl
  | cons x l ih => cases x <;> simp [offers, Batch.offered, ih, List.filter_cons]

theorem foldl_offer {σ : Type} (c : Batch.Cfg σ) (l : List σ) (b : Batch.St σ) :
    l.foldl (fun b x => Batch.step c b (.offer x)) b = (l.map Batch.Act.offer).foldl (Batch.step c) b ∧ offers (l.map Batch.Act.offer) = l := by
  induction l generalizing b with
  | nil => exact ⟨rfl, rfl⟩
  | cons x l ih => exact ⟨(ih _).1, by simp [offers, (ih b).2]⟩

/-- A run of both is a run of each, and the program's `on_end` calls are the processor's offers. -/
theorem split_run (S : Sampler) (lim : SpanLimits) (c : Batch.Cfg Item) (moves : List Move) (st : State) :
    ∃ (acts : List (Batch.Act Item)) (sched : List Nat),
      (steps S lim c st moves).batch = acts.foldl (Batch.step c) st.batch ∧
      (steps S lim c st moves).tasks = sched.foldl (Tasks.step S lim) st.tasks ∧
      ends (steps S lim c st moves).tasks.world.log = ends st.tasks.world.log ++ offers acts := by
  induction moves generalizing st with
  | nil => exact ⟨[], [], rfl, rfl, by simp [steps, offers]⟩
  | cons m moves ih =>
    obtain ⟨acts, sched, h1, h2, h3⟩ := ih (step S lim c st m)
    have e : steps S lim c st (m :: moves) = steps S lim c (step S lim c st m) moves := rfl
    rw [e, h3, h1, h2]
    cases m with
    | task t =>
      obtain ⟨k1, k2⟩ := foldl_offer c (ends ((Tasks.step S lim st.tasks t).world.log.drop st.tasks.world.log.length)) st.batch
      refine ⟨(ends ((Tasks.step S lim st.tasks t).world.log.drop st.tasks.world.log.length)).map Batch.Act.offer ++ acts, t :: sched, ?_, rfl, ?_⟩
      · rw [List.foldl_append, ← k1]; rfl
      · rw [offers_append, k2, ← List.append_assoc]
        congr 1
        obtain ⟨r, hr⟩ := log_grows S lim st.tasks t
        show ends (Tasks.step S lim st.tasks t).world.log = _
        rw [← hr, List.drop_left, ends_append]
    | proc a =>
      cases a with
      | offer x => exact ⟨acts, sched, rfl, rfl, rfl⟩
      | append i => exact ⟨.append i :: acts, sched, rfl, rfl, rfl⟩
      | flushCall => exact ⟨.flushCall :: acts, sched, rfl, rfl, rfl⟩
      | flushReq i => exact ⟨.flushReq i :: acts, sched, rfl, rfl, rfl⟩
      | flushRet i ok => exact ⟨.flushRet i ok :: acts, sched, rfl, rfl, rfl⟩
      | shutCall => exact ⟨.shutCall :: acts, sched, rfl, rfl, rfl⟩
      | shutJoin => exact ⟨.shutJoin :: acts, sched, rfl, rfl, rfl⟩
      | worker => exact ⟨.worker :: acts, sched, rfl, rfl, rfl⟩

theorem finished_step (S : Sampler) (lim : SpanLimits) (st : Tasks.State) (h : st.finished) (t : Nat) : Tasks.step S lim st t = st := by
  unfold Tasks.step
  split
  · rfl
  · rename_i k hk
    obtain ⟨e, rfl⟩ := h k (List.mem_of_getElem? hk)
    rfl

theorem finished_steps (S : Sampler) (lim : SpanLimits) (st : Tasks.State) (h : st.finished) (sched : List Nat) : sched.foldl (Tasks.step S lim) st = st := by
  induction sched with
  | nil => rfl
  | cons t l ih => rw [List.foldl_cons, finished_step S lim st h t, ih]

/-! ## The processor -/

theorem shuffle_perm {α : Type} {a b c : List α} (h : Spec.Shuffle a b c) : (a ++ b).Perm c := by
  induction h with
  | nil => exact List.Perm.refl _
  | left x _ ih => exact ih.cons x
  | right x _ ih => exact List.perm_middle.trans (ih.cons x)

/-- Something is lost to overflow only if more spans came than the queue holds. -/
theorem evicted_nil {σ : Type} (c : Batch.Cfg σ) (acts : List (Batch.Act σ)) (h : (Batch.run c acts).accepted.length ≤ c.maxQueue) : evicted (Batch.run c acts) = [] := by
  induction acts using List.reverseRecOn with
  | nil => rfl
  | append_singleton acts a ih =>
    have hacc : (Batch.run c acts).accepted <+: (Batch.run c (acts ++ [a])).accepted := by
      rw [Batch.run_snoc]; exact Batch.accepted_step c _ a
    have ih := ih (Nat.le_trans hacc.length_le h)
    rw [Batch.run_snoc] at h ⊢
    rcases (Batch.C24_overflow c acts a).2 with h1 | ⟨x, h1, h2, h3, i, rfl⟩
    · rw [h1, ih]
    · exfalso
      have hlen := Batch.acc_len c _ (Batch.data_run c acts)
      have hd := Batch.data_step c _ (.append i) (Batch.data_run c acts)
      have hlen' := Batch.acc_len c _ hd
      have hq := hd.size
      -- the appended span is one more
      have : (Batch.run c acts).accepted.length < (Batch.step c (Batch.run c acts) (.append i)).accepted.length := by
        have hev : evicted (Batch.step c (Batch.run c acts) (.append i)) ≠ evicted (Batch.run c acts) := by rw [h1]; simp
        revert hev
        simp only [Batch.step]
        split
        · intro _
          unfold Batch.push
          simp only
          split
          · split <;> simp
          · simp
        · intro hev; exact absurd rfl hev
      omega

/-- A processor that is shut down after the last offer has returned: everything is exported, or lost to overflow. -/
theorem delivered {σ : Type} (c : Batch.Cfg σ) (acts1 acts2 : List (Batch.Act σ)) (hno : offers acts2 = [])
    (hdn : (Batch.run c acts1).done = false) (hin : (Batch.run c acts1).inflight = [])
    (hs : Batch.Ev.shutdown ∈ (Batch.run c (acts1 ++ .shutCall :: acts2)).log) :
    (exported (Batch.run c (acts1 ++ .shutCall :: acts2)) ++ evicted (Batch.run c (acts1 ++ .shutCall :: acts2))).Perm ((offers acts1).filter c.sampled) ∧
    (∀ b ∈ batches (Batch.run c (acts1 ++ .shutCall :: acts2)).log, 1 ≤ b.length ∧ b.length ≤ c.maxBatch) ∧
    (((offers acts1).filter c.sampled).length ≤ c.maxQueue → evicted (Batch.run c (acts1 ++ .shutCall :: acts2)) = []) := by
  obtain ⟨hq, hsh⟩ := Batch.C26_quiescent c acts1 acts2 hdn hin hs
  -- everything accepted is what was offered
  have hp1 : (Batch.run c acts1).accepted.Perm ((offers acts1).filter c.sampled) := by
    have := (Batch.C24_only_sampled_offered c acts1).2.1 hdn
    rw [hin, List.append_nil, offered_eq] at this
    exact this
  have hacc : (Batch.run c (acts1 ++ .shutCall :: acts2)).accepted.Perm ((offers acts1).filter c.sampled) := by
    have hpre : (Batch.run c acts1).accepted <+: (Batch.run c (acts1 ++ .shutCall :: acts2)).accepted := by
      have := Batch.accepted_steps c (.shutCall :: acts2) (Batch.run c acts1)
      simpa [Batch.run] using this
    have hsub := (Batch.C24_only_sampled_offered c (acts1 ++ .shutCall :: acts2)).1
    rw [offered_eq, offers_append, show offers (.shutCall :: acts2) = [] from hno, List.append_nil] at hsub
    have hle : (Batch.run c (acts1 ++ .shutCall :: acts2)).accepted.length ≤ (Batch.run c acts1).accepted.length := by
      have h1 := hsub.length_le
      have h2 := hp1.length_eq
      rw [List.length_append] at h1
      omega
    rw [← hpre.eq_of_length (Nat.le_antisymm hpre.length_le hle)]
    exact hp1
  refine ⟨(shuffle_perm hsh).trans hacc, fun b hbb => Batch.C24_batch_bound _ _ b hbb, fun hlen => ?_⟩
  exact evicted_nil _ _ (by rw [hacc.length_eq]; exact hlen)

/-- **C94** Whatever the program, the sampler, the configuration and the schedule: if every thread and task has finished, every `on_end` call has returned, and then the processor
is shut down, the exporter has been given each sampled span that was ended exactly once, in its final state, unless it was lost to overflow; nothing is lost if no more spans
ended than the queue holds; every batch has between one and `max_export_batch_size` spans. -/
theorem C94_delivered (S : Sampler) (lim : SpanLimits) (maxQueue maxBatch : Nat) (pos : 0 < maxBatch) (le : maxBatch ≤ maxQueue) (main : Prog) (moves rest : List Move)
    (hf : (steps S lim (cfg maxQueue maxBatch pos le) (.init main) moves).tasks.finished)
    (hdn : (steps S lim (cfg maxQueue maxBatch pos le) (.init main) moves).batch.done = false)
    (hin : (steps S lim (cfg maxQueue maxBatch pos le) (.init main) moves).batch.inflight = [])
    (hs : Batch.Ev.shutdown ∈ (steps S lim (cfg maxQueue maxBatch pos le) (.init main) (moves ++ .proc .shutCall :: rest)).batch.log) :
    let st := steps S lim (cfg maxQueue maxBatch pos le) (.init main) (moves ++ .proc .shutCall :: rest)
    (∃ sched, st.tasks = runs S lim main sched ∧ st.tasks.finished) ∧
    (exported st.batch ++ evicted st.batch).Perm ((ends st.tasks.world.log).filter fun x => x.2.ctx.sampled) ∧
    (∀ b ∈ batches st.batch.log, 1 ≤ b.length ∧ b.length ≤ maxBatch) ∧
    (((ends st.tasks.world.log).filter fun x => x.2.ctx.sampled).length ≤ maxQueue → evicted st.batch = []) := by
  intro st
  obtain ⟨acts1, sched1, b1, t1, e1⟩ := split_run S lim (cfg maxQueue maxBatch pos le) moves (.init main)
  generalize hm : steps S lim (cfg maxQueue maxBatch pos le) (.init main) moves = mid at *
  have hst0 : st = steps S lim (cfg maxQueue maxBatch pos le) mid (.proc .shutCall :: rest) := by
    rw [← hm]; simp only [st, steps, List.foldl_append]
  obtain ⟨acts2, sched2, b2, t2, e2⟩ := split_run S lim (cfg maxQueue maxBatch pos le) rest (step S lim (cfg maxQueue maxBatch pos le) mid (.proc .shutCall))
  have hst : st = steps S lim (cfg maxQueue maxBatch pos le) (step S lim (cfg maxQueue maxBatch pos le) mid (.proc .shutCall)) rest := hst0
  rw [← hst] at b2 t2 e2
  have ht : st.tasks = mid.tasks := by
    rw [t2]; exact finished_steps S lim mid.tasks hf sched2
  have hno : offers acts2 = [] := by
    rw [ht] at e2
    have : (step S lim (cfg maxQueue maxBatch pos le) mid (.proc .shutCall)).tasks = mid.tasks := rfl
    rw [this] at e2
    exact (List.append_cancel_left (by rw [← e2, List.append_nil] : ends mid.tasks.world.log ++ [] = ends mid.tasks.world.log ++ offers acts2)).symm
  have hb1 : mid.batch = Batch.run (cfg maxQueue maxBatch pos le) acts1 := b1
  have hb : st.batch = Batch.run (cfg maxQueue maxBatch pos le) (acts1 ++ .shutCall :: acts2) := by
    rw [b2]
    show acts2.foldl (Batch.step (cfg maxQueue maxBatch pos le)) (Batch.step (cfg maxQueue maxBatch pos le) mid.batch .shutCall) = _
    rw [hb1]; simp [Batch.run]
  have hof : offers acts1 = ends st.tasks.world.log := by
    rw [ht, e1]; rfl
  have hs' : Batch.Ev.shutdown ∈ st.batch.log := hs
  rw [hb1] at hdn hin
  rw [hb] at hs'
  obtain ⟨g1, g2, g3⟩ := delivered (cfg maxQueue maxBatch pos le) acts1 acts2 hno hdn hin hs'
  rw [hof] at g1 g3
  rw [hb]
  exact ⟨⟨sched1, ht.trans t1, ht ▸ hf⟩, g1, g2, g3⟩

/-! ## The program -/

/-- Identifiers of the right size. -/
def LinkOk (c : SpanContext) : Prop := (0 ≤ c.traceId ∧ c.traceId < 2 ^ 128) ∧ (0 ≤ c.spanId ∧ c.spanId < 2 ^ 64)

/-- A span method that changes neither name nor status and does not end the span: attributes, events, links. -/
def Quiet : Span.Step → Prop
  | .setAttributes _ => True
  | .addEvent _ _ _ => True
  | .recordException _ _ _ _ => True
  | .addLink (some c) _ => LinkOk c
  | .addLink none _ => True
  | _ => False

/-- A block that ends its span. -/
def ends? (x : Site) : Bool := x.leaves.isSome && x.opts.endOnExit

theorem exception_steps (o : Tracer.Opts) (e : Option UseSpan.Esc) (s : Span.Step) (h : s ∈ Tasks.exceptionSteps o e) :
    (∃ x a t b, s = .recordException x a t b) ∨ ∃ a, s = .setStatus a := by
  unfold Tasks.exceptionSteps at h
  split at h
  · rw [List.mem_append] at h
    rcases h with h | h <;> split at h <;> simp at h
    · exact .inl ⟨_, _, _, _, h⟩
    · exact .inr ⟨_, h⟩
  · cases h

/-- What a history with quiet calls among the steps `E`, then the end, amounts to. -/
theorem history (E : List Span.Step) (hE : ∀ s ∈ E, (∃ x a t b, s = Span.Step.recordException x a t b) ∨ ∃ a, s = Span.Step.setStatus a) (te : Int)
    (h : List (Bool × Span.Step)) (hown : (h.filter (fun c => c.1)).map Prod.snd = E ++ [.end_ te, .notifyEnd]) (hq : ∀ s, (false, s) ∈ h → Quiet s) :
    Spec.firstEnd true (h.map Prod.snd) = some te ∧
    Spec.requestedStatuses (Spec.recorded true (h.map Prod.snd)) = Spec.requestedStatuses E ∧
    (∀ s ∈ Spec.recorded true (h.map Prod.snd), (∀ n, s ≠ .updateName n) ∧ ∀ c a, s = .addLink (some c) a → LinkOk c) := by
  induction h generalizing E with
  | nil => simp at hown
  | cons c h ih =>
    obtain ⟨b, s⟩ := c
    have hq' : ∀ s, (false, s) ∈ h → Quiet s := fun s hs => hq s (List.mem_cons_of_mem _ hs)
    cases b with
    | true =>
      simp only [List.filter_cons, if_true, List.map_cons] at hown
      cases E with
      | nil =>
        simp only [List.nil_append, List.cons.injEq] at hown
        obtain ⟨rfl, -⟩ := hown
        simp [Spec.firstEnd, Spec.recorded, Spec.requestedStatuses]
      | cons e E =>
        simp only [List.cons_append, List.cons.injEq] at hown
        obtain ⟨rfl, hown⟩ := hown
        obtain ⟨i1, i2, i3⟩ := ih E (fun s hs => hE s (List.mem_cons_of_mem _ hs)) hown hq'
        rcases hE s List.mem_cons_self with ⟨x, a, t, b, rfl⟩ | ⟨a, rfl⟩
        · refine ⟨i1, i2, ?_⟩
          intro s hs
          simp only [List.map_cons, Spec.recorded, List.mem_cons] at hs
          rcases hs with rfl | hs
          · simp
          · exact i3 s hs
        · refine ⟨i1, ?_, ?_⟩
          · cases a <;> simp [Spec.recorded, Spec.requestedStatuses, i2]
          · intro s hs
            simp only [List.map_cons, Spec.recorded, List.mem_cons] at hs
            rcases hs with rfl | hs
            · simp
            · exact i3 s hs
    | false =>
      simp only [List.filter_cons, Bool.false_eq_true, if_false] at hown
      obtain ⟨i1, i2, i3⟩ := ih E hE hown hq'
      have hs := hq s List.mem_cons_self
      cases s with
      | setAttributes a =>
        refine ⟨i1, i2, ?_⟩
        intro s hs
        simp only [List.map_cons, Spec.recorded, List.mem_cons] at hs
        rcases hs with rfl | hs
        · simp
        · exact i3 s hs
      | addEvent n a t =>
        refine ⟨i1, i2, ?_⟩
        intro s hs
        simp only [List.map_cons, Spec.recorded, List.mem_cons] at hs
        rcases hs with rfl | hs
        · simp
        · exact i3 s hs
      | recordException x a t b =>
        refine ⟨i1, i2, ?_⟩
        intro s hs
        simp only [List.map_cons, Spec.recorded, List.mem_cons] at hs
        rcases hs with rfl | hs
        · simp
        · exact i3 s hs
      | addLink c a =>
        refine ⟨i1, i2, ?_⟩
        intro s hs'
        simp only [List.map_cons, Spec.recorded, List.mem_cons] at hs'
        rcases hs' with rfl | hs'
        · refine ⟨by simp, ?_⟩
          intro c' a' e
          cases e
          exact hs
        · exact i3 s hs'
      | _ => exact absurd hs (by simp [Quiet])

theorem lastName_quiet (n : Str) (l : List Span.Step) (h : ∀ s ∈ l, ∀ m, s ≠ .updateName m) : Spec.lastName n l = n := by
  induction l with
  | nil => rfl
  | cons s l ih =>
    have h1 := h s List.mem_cons_self
    have : Spec.lastName n (s :: l) = Spec.lastName n l := by
      cases s <;> first | rfl | exact absurd rfl (h1 _)
    rw [this]
    exact ih (fun s hs => h s (List.mem_cons_of_mem _ hs))

theorem num_eq (bs : List Nat) : num bs = (Otlp.fromBytes bs : Int) := by
  have : ∀ (bs : List Nat) (a : Nat), bs.foldl (fun (a : Int) (b : Nat) => a * 256 + (b : Int)) (a : Int) = ((bs.foldl (fun acc b => acc * 256 + b) a : Nat) : Int) := by
    intro bs
    induction bs with
    | nil => intro a; rfl
    | cons b bs ih =>
      intro a
      rw [List.foldl_cons, List.foldl_cons, ← ih]
      congr 1
  exact this bs 0

theorem inTrace_range {sites : List Site} {x : Site} {n : Int} (h : InTrace sites x n) (hd : ∀ x ∈ sites, Draws x.opts) (hx : x ∈ sites) : 0 ≤ n ∧ n < 2 ^ 128 := by
  induction h with
  | root x h => have := (hd x hx).1; constructor <;> omega
  | inner x y l n h hy hl ht ih => exact ih hy

/-- The trace of every span is the one the text says. -/
theorem trace_of (S : Sampler) (w : World) (sites evsites : List Site) (hsub : ∀ y ∈ evsites, y ∈ sites)
    (hb : ∀ i x, evsites[i]? = some x → Belongs S w evsites i x) (i : Nat) (x : Site) (hx : evsites[i]? = some x) : InTrace sites x (w.ctxOf i).traceId := by
  induction i using Nat.strongRecOn generalizing x with
  | _ i ih =>
    have h := hb i x hx
    unfold Belongs at h
    split at h
    · rename_i ha
      obtain ⟨_, _, ⟨ht, _⟩, _⟩ := h
      rw [ht]
      exact .root x ha
    · rename_i l ha
      obtain ⟨j, y, hy, hl, _, _, ⟨hj, ht, _⟩, _⟩ := h
      rw [ht]
      exact .inner x y l _ ha (hsub y (List.mem_of_getElem? hy)) hl (ih j hj y hy)

theorem mem_endNotes (l : List Span.Step) (s : Span.State) (h : ∃ d, Span.Note.ended d ∈ (l.foldl Span.step s).log) (h0 : ∀ d, Span.Note.ended d ∉ s.log) : .notifyEnd ∈ l := by
  induction l generalizing s with
  | nil => obtain ⟨d, hd⟩ := h; exact absurd hd (h0 d)
  | cons x l ih =>
    by_cases hx : x = .notifyEnd
    · subst hx; exact List.mem_cons_self
    · refine List.mem_cons_of_mem _ (ih _ h ?_)
      intro d hd
      cases x with
      | notifyEnd => exact hx rfl
      | start t => simp only [Span.step] at hd; split at hd <;> exact h0 d hd
      | notifyStart =>
        simp only [Span.step] at hd
        split at hd
        · exact h0 d hd
        · simp at hd; exact h0 d hd
      | end_ t => simp only [Span.step] at hd; split at hd <;> exact h0 d hd
      | _ => simp only [Span.step] at hd; split at hd <;> exact h0 d hd

/-- Where every span is recorded, the span of a site is a recording one, with these identifiers. -/
theorem recorded_at (S : Sampler) (hon : ∀ q, (S q).decision = .recordAndSample) (w : World) (sites : List Site)
    (hb : ∀ i x, sites[i]? = some x → Belongs S w sites i x) (i : Nat) (x : Site) (hx : sites[i]? = some x) :
    ∃ s, w.spans[i]? = some (.recording s) ∧ s.data.ctx = w.ctxOf i ∧ s.data.ctx.spanId = x.opts.spanDraw + 1 ∧ s.data.ctx.sampled = true ∧
      match x.around with
      | none => s.data.parent = none
      | some l => ∃ y ∈ sites, y.line = l ∧ ∃ c, s.data.parent = some c ∧ c.spanId = y.opts.spanDraw + 1 := by
  have key : ∀ pl, SpanAt w i ⟨pl, x.opts, S⟩ → ∃ s, w.spans[i]? = some (.recording s) ∧ s.data.ctx = w.ctxOf i ∧
      s.data.ctx.spanId = x.opts.spanDraw + 1 ∧ s.data.ctx.sampled = true ∧ w.parentOf i = some s.data.parent := by
    intro pl h
    obtain ⟨h1, -, -, q, -, -, -, -, -, h2, h3⟩ := h
    have h4 : (w.parentOf i).isSome = true := h3.2 (by show (S q).decision ≠ _; rw [hon]; simp)
    simp only [Tracer.World.parentOf] at h4
    split at h4
    · rename_i s hs
      have e : w.ctxOf i = s.data.ctx := by simp [Tracer.World.ctxOf, hs, Sampling.Started.ctx]
      refine ⟨s, hs, e.symm, e ▸ h1, ?_, by simp [Tracer.World.parentOf, hs]⟩
      have h2 : (w.ctxOf i).flags = if (S q).decision = .recordAndSample then 1 else 0 := h2
      rw [if_pos (hon q)] at h2
      rw [← e]
      simp [SpanContext.sampled, h2]
    · cases h4
  have h := hb i x hx
  unfold Belongs at h
  split at h
  · rename_i ha
    obtain ⟨s, h1, h2, h3, h4, h5⟩ := key _ h
    refine ⟨s, h1, h2, h3, h4, ?_⟩
    rw [ha]
    exact h.2.2.1.2 _ h5
  · rename_i l ha
    obtain ⟨j, y, hy, hl, h⟩ := h
    obtain ⟨s, h1, h2, h3, h4, h5⟩ := key _ h
    refine ⟨s, h1, h2, h3, h4, ?_⟩
    rw [ha]
    refine ⟨y, List.mem_of_getElem? hy, hl, _, h.2.2.1.2.2 _ h5, ?_⟩
    show (w.ctxOf j).spanId = _
    have hj := hb j y hy
    unfold Belongs at hj
    split at hj
    · exact hj.1
    · obtain ⟨_, _, _, _, hj⟩ := hj; exact hj.1

theorem status_of (o : Tracer.Opts) (e : Option UseSpan.Esc) :
    (ofCode (Spec.winningStatus (Spec.requestedStatuses (Tasks.exceptionSteps o e))).code,
      (Spec.winningStatus (Spec.requestedStatuses (Tasks.exceptionSteps o e))).desc.getD []) =
    match e with
    | some (UseSpan.Esc.exception _ text) => if o.setStatusOnException then (2, text) else (0, [])
    | _ => (0, []) := by
  cases e with
  | none => rfl
  | some e =>
    cases e with
    | exception x text =>
      cases h1 : o.recordException <;> cases h2 : o.setStatusOnException <;> cases text <;>
        simp [Tasks.exceptionSteps, h1, h2, Spec.requestedStatuses, Spec.winningStatus, ofCode, Status.make]
    | _ => rfl

theorem encodeSpan_lengths (s : Otlp.SdkSpan) (p : Otlp.PBSpan) (h : Otlp.encodeSpan s = some p) :
    Octets 16 p.traceId ∧ Octets 8 p.spanId ∧ ∀ c, s.parent = some c → Octets 8 p.parentSpanId := by
  unfold Otlp.encodeSpan at h
  split at h
  · rename_i t i par l ht hi hp hl
    injection h with h
    subst h
    refine ⟨⟨((Otlp.C45_trace_id _).2 t ht).1, ((Otlp.C45_trace_id _).2 t ht).2.1⟩, ⟨((Otlp.C45_span_id _).2 i hi).1, ((Otlp.C45_span_id _).2 i hi).2.1⟩, ?_⟩
    intro c hc
    rw [hc] at hp
    exact ⟨((Otlp.C45_span_id _).2 par hp).1, ((Otlp.C45_span_id _).2 par hp).2.1⟩
  · cases h

/-- The span of an ending block is encoded, as the text says. -/
theorem encoded (lim : SpanLimits) (sites all : List Site) (x : Site) (hx : x ∈ sites) (hd : ∀ x ∈ all, Draws x.opts) (hsub : ∀ y ∈ sites, y ∈ all)
    (he : ends? x = true) (hl : ∀ c a, some (some c, a) ∈ x.opts.links → LinkOk c) (h : List (Bool × Span.Step))
    (hown : (h.filter (fun c => c.1)).map Prod.snd = x.exit) (hq : ∀ s, (false, s) ∈ h → Quiet s)
    (sc : SpanContext) (par : Option SpanContext) (attrs : Span.RawAttrs) (s : Span.State)
    (hs : s = (.start x.opts.tStart :: .notifyStart :: h.map Prod.snd).foldl Span.step (Span.init lim x.opts.name sc par attrs [] x.opts.links))
    (hid : s.data.ctx.spanId = x.opts.spanDraw + 1) (htr : InTrace all x s.data.ctx.traceId)
    (hpar : match x.around with
      | none => s.data.parent = none
      | some l => ∃ y ∈ sites, y.line = l ∧ ∃ c, s.data.parent = some c ∧ c.spanId = y.opts.spanDraw + 1) (kind : Otlp.Kind) :
    ∃ p, Otlp.encodeSpan (readable kind s.data) = some p ∧ Describes all x p := by
  simp only [ends?, Bool.and_eq_true] at he
  obtain ⟨he1, he2⟩ := he
  obtain ⟨e, hle⟩ := Option.isSome_iff_exists.1 he1
  have hexit : x.exit = Tasks.exceptionSteps x.opts e ++ [.end_ x.opts.tEnd, .notifyEnd] := by simp [Site.exit, hle, he2]
  rw [hexit] at hown
  obtain ⟨g1, g2, g3⟩ := history _ (exception_steps x.opts e) x.opts.tEnd h hown hq
  let l := Span.Step.start x.opts.tStart :: .notifyStart :: h.map Prod.snd
  have hs' : s = Span.after lim x.opts.name sc par attrs [] x.opts.links l := hs
  have hrec : Spec.recorded false l = .start x.opts.tStart :: .notifyStart :: Spec.recorded true (h.map Prod.snd) := rfl
  have hname : s.data.name = x.opts.name := by
    rw [hs', Span.C17_name, hrec]
    show Spec.lastName _ (Spec.recorded true (h.map Prod.snd)) = _
    exact lastName_quiet _ _ fun s hs => (g3 s hs).1
  have hst : s.data.startTime = some x.opts.tStart := by rw [hs', (Span.C17_times lim x.opts.name sc par attrs [] x.opts.links l).2.1]; rfl
  have hen : s.data.endTime = some x.opts.tEnd := by rw [hs', (Span.C17_times lim x.opts.name sc par attrs [] x.opts.links l).1]; exact g1
  have hstat : s.data.status = Spec.winningStatus (Spec.requestedStatuses (Tasks.exceptionSteps x.opts e)) := by
    rw [hs', Span.C18_status, hrec]
    show Spec.winningStatus (Spec.requestedStatuses (Spec.recorded true (h.map Prod.snd))) = _
    rw [g2]
  have hlinks : ∀ y ∈ s.data.links.items, LinkOk y.ctx := by
    intro y hy
    rw [hs', (Span.C19_links lim x.opts.name sc par attrs [] x.opts.links l).1] at hy
    replace hy := Span.newest_mem _ _ _ hy
    rw [List.mem_map] at hy
    obtain ⟨⟨c, a⟩, hy, rfl⟩ := hy
    show LinkOk c
    rw [List.mem_append] at hy
    have hv : ∀ z c a, Spec.validLink z = some (c, a) → z.1 = some c := by
      intro z c a hz
      obtain ⟨z1, z2⟩ := z
      cases z1 with
      | none => cases hz
      | some z1 => simp only [Spec.validLink] at hz; split at hz <;> simp at hz; simp [hz.1]
    rcases hy with hy | hy
    · obtain ⟨z, hz, hz'⟩ := List.mem_filterMap.1 hy
      cases z with
      | none => cases hz'
      | some z =>
        have := hv z c a hz'
        obtain ⟨z1, z2⟩ := z
        simp only at this
        subst this
        exact hl c z2 hz
    · rw [hrec] at hy
      obtain ⟨z, hz, hz'⟩ := List.mem_filterMap.1 hy
      simp only [List.mem_cons] at hz
      rcases hz with rfl | rfl | hz
      · cases hz'
      · cases hz'
      · cases z with
        | addLink z1 z2 =>
          have := hv _ c a hz'
          simp only at this
          subst this
          exact (g3 _ hz).2 _ _ rfl
        | _ => cases hz'
  have hidr : ∀ y ∈ all, (0 : Int) ≤ (y.opts.spanDraw : Int) + 1 ∧ (y.opts.spanDraw : Int) + 1 < 2 ^ 64 := by
    intro y hy; have := (hd y hy).2; constructor <;> omega
  have hpr : ∀ c, s.data.parent = some c → 0 ≤ c.spanId ∧ c.spanId < 2 ^ 64 := by
    intro c hc
    cases ha : x.around with
    | none => rw [ha] at hpar; simp only at hpar; rw [hpar] at hc; cases hc
    | some l =>
      rw [ha] at hpar
      simp only at hpar
      obtain ⟨y, hy, -, c', hc', hid'⟩ := hpar
      rw [hc'] at hc
      cases hc
      rw [hid']
      exact hidr y (hsub y hy)
  have hok : (Otlp.encodeSpan (readable kind s.data)).isSome = true := by
    rw [Otlp.C45_span_encodable]
    refine ⟨inTrace_range htr hd (hsub x hx), ?_, hpr, ?_⟩
    · show 0 ≤ s.data.ctx.spanId ∧ _; rw [show (readable kind s.data).ctx.spanId = s.data.ctx.spanId from rfl, hid]; exact hidr x (hsub x hx)
    · intro y hy
      simp only [readable, List.mem_map] at hy
      obtain ⟨z, hz, rfl⟩ := hy
      exact hlinks z hz
  obtain ⟨p, hp⟩ := Option.isSome_iff_exists.1 hok
  refine ⟨p, hp, ?_⟩
  obtain ⟨c1, c2, c3, c4, c5, c6, c7, c8, c9, c10, -⟩ := Otlp.C45_span _ p hp
  have hlen := encodeSpan_lengths _ p hp
  refine ⟨⟨hlen.2.1, ?_⟩, ⟨hlen.1, ?_⟩, ?_, c5.trans hname, ?_, ?_, ?_⟩
  · rw [num_eq, c2]; exact hid
  · rw [num_eq, c1]; exact htr
  · cases ha : x.around with
    | none => rw [ha] at hpar; exact c3.2 hpar
    | some l =>
      rw [ha] at hpar
      obtain ⟨y, hy, hyl, c, hc, hid'⟩ := hpar
      refine ⟨y, hsub y hy, hyl, hlen.2.2 c hc, ?_⟩
      rw [num_eq, c4 c hc, hid']
  · rw [c7]; simp [readable, hst]
  · rw [c8]; simp [readable, hen]
  · have := status_of x.opts e
    rw [← hstat] at this
    rw [c9, c10, hle]
    refine Eq.trans this ?_
    rcases e with _ | e
    · rfl
    · cases e <;> rfl

theorem mem_ends (l : List (Nat × Span.Note)) (i : Nat) (d : Span.Data) : (i, d) ∈ ends l ↔ (i, Span.Note.ended d) ∈ l := by
  unfold ends
  rw [List.mem_filterMap]
  constructor
  · rintro ⟨⟨j, n⟩, h, e⟩
    cases n with
    | started => cases e
    | ended d' => simp at e; obtain ⟨rfl, rfl⟩ := e; exact h
  · intro h; exact ⟨_, h, rfl⟩

/-- Each span is ended once. -/
theorem ends_nodup {lim : SpanLimits} {w : World} (hg : Tracer.Genuine lim w) : ((ends w.log).map Prod.fst).Nodup := by
  rw [List.nodup_iff_count_le_one]
  intro i
  have hc : ((ends w.log).map Prod.fst).count i = ((w.log.map callKey).filter (fun c => c == (false, i))).length := by
    clear hg
    induction w.log with
    | nil => rfl
    | cons c cs ih =>
      obtain ⟨j, n⟩ := c
      cases n with
      | started =>
        have e1 : ends ((j, Span.Note.started) :: cs) = ends cs := rfl
        rw [e1, ih]
        simp [callKey]
      | ended d =>
        have e1 : ends ((j, Span.Note.ended d) :: cs) = (j, d) :: ends cs := rfl
        rw [e1, List.map_cons, List.count_cons, ih, List.map_cons, List.filter_cons]
        by_cases hj : j = i
        · subst hj; simp [callKey]
        · simp [callKey, hj]
  by_cases h : i ∈ (ends w.log).map Prod.fst
  · obtain ⟨⟨j, d⟩, hm, rfl⟩ := List.mem_map.1 h
    rw [hc, (Tracer.genuine_final hg j d ((mem_ends _ _ _).1 hm)).2]
  · rw [List.count_eq_zero_of_not_mem h]; exact Nat.zero_le _

theorem ops_of_site_exit (x : Site) (h : .notifyEnd ∈ x.exit) : ends? x = true := by
  unfold Site.exit at h
  unfold ends?
  cases hl : x.leaves with
  | none => rw [hl] at h; cases h
  | some e =>
    rw [hl] at h
    simp only [List.mem_append] at h
    rcases h with h | h
    · rcases exception_steps _ _ _ h with ⟨_, _, _, _, h⟩ | ⟨_, h⟩ <;> cases h
    · split at h
      · rename_i he; simp [he]
      · cases h

/-- The requests of the batches, taken together: one span each. -/
theorem requests (kind : Nat → Otlp.Kind) (bs : List (List Item)) (h : ∀ x ∈ bs.flatten, (Otlp.encodeSpan (readable (kind x.1) x.2)).isSome = true) :
    ∃ reqs, bs.mapM (request kind) = some reqs ∧ reqs.map (fun r => (spansOf r).length) = bs.map List.length ∧
      (reqs.flatMap spansOf).Perm (bs.flatten.filterMap fun x => Otlp.encodeSpan (readable (kind x.1) x.2)) := by
  induction bs with
  | nil => exact ⟨[], rfl, rfl, List.Perm.refl _⟩
  | cons b bs ih =>
    obtain ⟨reqs, h1, h3, h2⟩ := ih (fun x hx => h x (by simp at hx ⊢; exact .inr hx))
    have hb : (request kind b).isSome = true := by
      unfold request
      rw [Otlp.C44_encodable]
      intro x hx
      exact h x (by simp; exact .inl hx)
    obtain ⟨r, hr⟩ := Option.isSome_iff_exists.1 hb
    have e1 : (Otlp.items r).map (fun t : Unit × Unit × Otlp.PBSpan => t.2.2) = spansOf r := by
      simp [Otlp.items, spansOf, List.map_flatMap, Function.comp_def]
    refine ⟨r :: reqs, by simp [List.mapM_cons, hr, h1], ?_, ?_⟩
    · have h4 := (Otlp.C44_permutation _ _ _ b r hr).2
      rw [List.map_cons, List.map_cons, h3, ← e1, List.length_map, h4]
    rw [List.flatMap_cons, List.flatten_cons, List.filterMap_append]
    refine List.Perm.append ?_ h2
    have hp := (Otlp.C44_permutation _ _ _ b r hr).1.map (fun t : Unit × Unit × Otlp.PBSpan => t.2.2)
    rw [e1, List.map_filterMap] at hp
    refine hp.trans (List.Perm.of_eq ?_)
    congr 1
    funext x
    cases Otlp.encodeSpan (readable (kind x.1) x.2) <;> rfl

theorem forall₂_filterMap {α β γ : Type} {f : α → Option β} {g : α → Option γ} {R : β → γ → Prop} (l : List α)
    (h : ∀ x ∈ l, ∃ y z, f x = some y ∧ g x = some z ∧ R y z) : List.Forall₂ R (l.filterMap f) (l.filterMap g) := by
  induction l with
  | nil => exact .nil
  | cons x l ih =>
    obtain ⟨y, z, hy, hz, hr⟩ := h x List.mem_cons_self
    rw [List.filterMap_cons, List.filterMap_cons, hy, hz]
    exact .cons hr (ih fun x hx => h x (List.mem_cons_of_mem _ hx))

theorem filterMap_length {α β : Type} (f : α → Option β) (l : List α) (h : ∀ x ∈ l, (f x).isSome = true) : (l.filterMap f).length = l.length := by
  induction l with
  | nil => rfl
  | cons x l ih =>
    obtain ⟨y, hy⟩ := Option.isSome_iff_exists.1 (h x List.mem_cons_self)
    rw [List.filterMap_cons, hy, List.length_cons, List.length_cons, ih fun x hx => h x (List.mem_cons_of_mem _ hx)]

theorem filter_by_index {α : Type} (p : α → Bool) (l : List α) :
    ((List.range l.length).filter fun i => (l[i]?).any p).filterMap (fun i => l[i]?) = l.filter p := by
  induction l using List.reverseRecOn with
  | nil => rfl
  | append_singleton l a ih =>
    have e : ∀ i ∈ List.range l.length, (l ++ [a])[i]? = l[i]? := by
      intro i hi
      rw [List.mem_range] at hi
      exact List.getElem?_append_left hi
    rw [List.length_append, List.length_singleton, List.range_succ, List.filter_append, List.filterMap_append, List.filter_append]
    congr 1
    · rw [← ih]
      have : ((List.range l.length).filter fun i => ((l ++ [a])[i]?).any p) = (List.range l.length).filter fun i => (l[i]?).any p :=
        List.filter_congr fun i hi => by rw [e i hi]
      rw [this]
      exact List.filterMap_congr fun i hi => e i (List.mem_filter.1 hi).1
    · have ha : (l ++ [a])[l.length]? = some a := by simp
      rw [List.filter_singleton, List.filter_singleton, ha]
      cases h : p a <;> simp [h]

/-- **C94** A program whose spans are all sampled, that touches its spans only by attributes, events and links: whatever the schedule, when its threads and tasks have
finished and the processor has then been shut down, the requests sent by the OTLP exporter hold exactly one span for each block that ends its span, no more and no less, provided
there are no more of them than the queue holds; each is as the text of the program says: identifier, trace, parent, name, times, status. No request is empty or too large. -/
theorem C94_wire (S : Sampler) (lim : SpanLimits) (maxQueue maxBatch : Nat) (pos : 0 < maxBatch) (le : maxBatch ≤ maxQueue) (main : Prog) (moves rest : List Move)
    (hS : KeepsState S) (hon : ∀ q, (S q).decision = .recordAndSample)
    (hd : ∀ x ∈ sitesOf (events none main), Draws x.opts)
    (hl : ∀ x ∈ sitesOf (events none main), ∀ c a, some (some c, a) ∈ x.opts.links → LinkOk c)
    (hq : ∀ i s, Event.op i s ∈ events none main → Quiet s)
    (hf : (steps S lim (cfg maxQueue maxBatch pos le) (.init main) moves).tasks.finished)
    (hdn : (steps S lim (cfg maxQueue maxBatch pos le) (.init main) moves).batch.done = false)
    (hin : (steps S lim (cfg maxQueue maxBatch pos le) (.init main) moves).batch.inflight = [])
    (hs : Batch.Ev.shutdown ∈ (steps S lim (cfg maxQueue maxBatch pos le) (.init main) (moves ++ .proc .shutCall :: rest)).batch.log)
    (hroom : ((sitesOf (events none main)).filter ends?).length ≤ maxQueue) (kind : Nat → Otlp.Kind) :
    ∃ reqs, (batches (steps S lim (cfg maxQueue maxBatch pos le) (.init main) (moves ++ .proc .shutCall :: rest)).batch.log).mapM (request kind) = some reqs ∧
      (∀ r ∈ reqs, 1 ≤ (spansOf r).length ∧ (spansOf r).length ≤ maxBatch) ∧
      ∃ blocks, blocks.Perm ((sitesOf (events none main)).filter ends?) ∧
        List.Forall₂ (Describes (sitesOf (events none main))) blocks (reqs.flatMap spansOf) := by
  obtain ⟨⟨sched, ht, htf⟩, hperm, hsize, hev⟩ := C94_delivered S lim maxQueue maxBatch pos le main moves rest hf hdn hin hs
  generalize steps S lim (cfg maxQueue maxBatch pos le) (.init main) (moves ++ .proc .shutCall :: rest) = st at *
  rw [ht] at htf hperm hev
  have hg := Tasks.C92_genuine S lim main hS hd sched
  obtain ⟨evs, hev1, hlen, hbel, -, hhist⟩ := Tasks.C92_complete S lim main hS hd sched htf
  generalize (runs S lim main sched).world = w at *
  have hsites : (sitesOf evs).Perm (sitesOf (events none main)) := hev1.filterMap _
  have hsub : ∀ y ∈ sitesOf evs, y ∈ sitesOf (events none main) := fun y hy => hsites.mem_iff.1 hy
  have hquiet : ∀ i (h : List (Bool × Span.Step)), (∀ s, (false, s) ∈ h → Event.op i s ∈ events none main) → ∀ s, (false, s) ∈ h → Quiet s :=
    fun i h hh s hs => hq i s (hh s hs)
  -- what an ended span is
  have hD : ∀ z ∈ ends w.log, ∃ x p, (sitesOf evs)[z.1]? = some x ∧ Otlp.encodeSpan (readable (kind z.1) z.2) = some p ∧
      Describes (sitesOf (events none main)) x p ∧ ends? x = true ∧ z.2.ctx.sampled = true := by
    rintro ⟨i, d⟩ hz
    obtain ⟨⟨s, hsp, rfl, -⟩, -⟩ := Tracer.genuine_final hg i d ((mem_ends _ _ _).1 hz)
    have hi : i < (sitesOf evs).length := by rw [hlen]; exact (List.getElem?_eq_some_iff.1 hsp).1
    have hx : (sitesOf evs)[i]? = some ((sitesOf evs)[i]) := List.getElem?_eq_getElem hi
    generalize (sitesOf evs)[i] = x at hx
    have hxm := List.mem_of_getElem? hx
    obtain ⟨h, hown, hop, hst⟩ := hhist i x hx
    obtain ⟨q, par, -, hst⟩ := hst s hsp
    obtain ⟨s', r1, r2, r3, r4, r5⟩ := recorded_at S hon w (sitesOf evs) hbel i x hx
    have : s' = s := by rw [hsp] at r1; simpa using r1.symm
    subst this
    -- it was ended by its block
    have he : ends? x = true := by
      have hm : Span.Note.ended s'.data ∈ s'.log := by
        have h1 := hg.2 i
        rw [hsp] at h1
        simp only [Tracer.notes] at h1
        rw [← h1]
        exact List.mem_map.2 ⟨_, List.mem_filter.2 ⟨(mem_ends _ _ _).1 hz, by simp⟩, rfl⟩
      have hm' : .notifyEnd ∈ (Span.Step.start x.opts.tStart :: .notifyStart :: h.map Prod.snd) := by
        refine mem_endNotes _ (Span.init lim x.opts.name s'.data.ctx par (S q).attributes [] x.opts.links) ⟨s'.data, ?_⟩ ?_
        · rw [← hst]; exact hm
        · intro d hd; simp [Span.init] at hd
      simp only [List.mem_cons, List.mem_map, reduceCtorEq, false_or] at hm'
      obtain ⟨⟨b, s2⟩, hm1, rfl⟩ := hm'
      cases b with
      | false => exact absurd (hquiet i h hop _ hm1) (by simp [Quiet])
      | true =>
        apply ops_of_site_exit
        rw [← hown]
        exact List.mem_map.2 ⟨_, List.mem_filter.2 ⟨hm1, rfl⟩, rfl⟩
    obtain ⟨p, hp1, hp2⟩ := encoded lim (sitesOf evs) (sitesOf (events none main)) x hxm hd hsub he (hl x (hsub x hxm)) h hown (hquiet i h hop) _ par _ s' hst r3
      (by rw [r2]; exact trace_of S w _ (sitesOf evs) hsub hbel i x hx) r5 (kind i)
    exact ⟨x, p, hx, hp1, hp2, he, r4⟩
  -- and which are
  have hends : ((ends w.log).map Prod.fst).Perm ((List.range (sitesOf evs).length).filter fun i => ((sitesOf evs)[i]?).any ends?) := by
    rw [List.perm_ext_iff_of_nodup (ends_nodup hg) (List.nodup_range.filter _)]
    intro i
    rw [List.mem_filter, List.mem_range]
    constructor
    · intro hi
      obtain ⟨z, hz, rfl⟩ := List.mem_map.1 hi
      obtain ⟨x, p, hx, -, -, he, -⟩ := hD z hz
      exact ⟨(List.getElem?_eq_some_iff.1 hx).1, by rw [hx]; exact he⟩
    · rintro ⟨hi, he⟩
      have hx : (sitesOf evs)[i]? = some ((sitesOf evs)[i]) := List.getElem?_eq_getElem hi
      generalize (sitesOf evs)[i] = x at hx
      rw [hx] at he
      simp only [Option.any_some, ends?, Bool.and_eq_true] at he
      obtain ⟨h, hown, hop, hst⟩ := hhist i x hx
      obtain ⟨s, r1, -⟩ := recorded_at S hon w (sitesOf evs) hbel i x hx
      obtain ⟨q, par, -, hst⟩ := hst s r1
      have hsl : [Span.Step.end_ x.opts.tEnd, .notifyEnd] <+ h.map Prod.snd := by
        have e1 : (h.filter (fun c => c.1)).map Prod.snd <+ h.map Prod.snd := List.Sublist.map _ List.filter_sublist
        refine List.Sublist.trans ?_ e1
        rw [hown]
        obtain ⟨e, hle⟩ := Option.isSome_iff_exists.1 he.1
        simp only [Site.exit, hle, he.2, if_true]
        exact List.sublist_append_right _ _
      obtain ⟨d, hd'⟩ := Tasks.told_of_steps lim x.opts.name s.data.ctx par (S q).attributes x.opts.links x.opts.tStart x.opts.tEnd _ hsl
      rw [← hst] at hd'
      have hlog := hg.2 i
      rw [r1] at hlog
      simp only [Tracer.notes] at hlog
      rw [← hlog] at hd'
      obtain ⟨⟨j, n⟩, hm, hn⟩ := List.mem_map.1 hd'
      simp only at hn
      subst hn
      rw [List.mem_filter] at hm
      have : j = i := by simpa using hm.2
      subst this
      exact List.mem_map.2 ⟨(j, d), (mem_ends _ _ _).2 hm.1, rfl⟩
  have hall : ((ends w.log).filter fun x => x.2.ctx.sampled) = ends w.log :=
    List.filter_eq_self.2 fun z hz => by obtain ⟨_, _, _, _, _, _, h⟩ := hD z hz; exact h
  have hX : ((ends w.log).filterMap fun z => (sitesOf evs)[z.1]?).Perm ((sitesOf (events none main)).filter ends?) := by
    have h1 := hends.filterMap (fun i => (sitesOf evs)[i]?)
    rw [filter_by_index, List.filterMap_map] at h1
    exact h1.trans (hsites.filter _)
  have hlenD : (ends w.log).length ≤ maxQueue := by
    have h1 := hX.length_eq
    rw [filterMap_length _ _ fun z hz => by obtain ⟨x, _, hx, _⟩ := hD z hz; rw [hx]; rfl] at h1
    omega
  rw [hall] at hperm hev
  rw [hev hlenD, List.append_nil] at hperm
  have hexp : exported st.batch = (batches st.batch.log).flatten := rfl
  rw [hexp] at hperm
  obtain ⟨reqs, q1, q2, q3⟩ := requests kind (batches st.batch.log) (by
    intro z hz
    obtain ⟨_, p, _, hp, _⟩ := hD z (hperm.mem_iff.1 hz)
    rw [hp]; rfl)
  refine ⟨reqs, q1, ?_, ?_⟩
  · intro r hr
    have : (spansOf r).length ∈ (batches st.batch.log).map List.length := by rw [← q2]; exact List.mem_map.2 ⟨r, hr, rfl⟩
    obtain ⟨b, hb, he⟩ := List.mem_map.1 this
    rw [← he]
    exact hsize b hb
  · have hF : List.Forall₂ (Describes (sitesOf (events none main))) ((ends w.log).filterMap fun z => (sitesOf evs)[z.1]?)
        ((ends w.log).filterMap fun x => Otlp.encodeSpan (readable (kind x.1) x.2)) :=
      forall₂_filterMap _ fun z hz => by obtain ⟨x, p, h1, h2, h3, _⟩ := hD z hz; exact ⟨x, p, h1, h2, h3⟩
    have hP := q3.trans (hperm.filterMap _)
    obtain ⟨m, hm1, hm2⟩ := List.perm_comp_forall₂ hP hF.flip
    exact ⟨m, hm2.trans hX, hm1.flip⟩

/-! ## The contents of a span -/

/-- What an exported span carries besides its identity: kind, attributes, events, links, trace state, and the counts of what was dropped. -/
structure Carries (kind : Otlp.Kind) (d : Span.Data) (p : Otlp.PBSpan) : Prop where
  kind : Otlp.protoKind p.kind = some kind
  attrs : Sent d.attrs (Otlp.meaning p.attrs) p.droppedAttrs
  events : List.Forall₂ (fun e q => q.name = e.name ∧ q.time = e.ts.toNat ∧ Sent e.attrs (Otlp.meaning q.attrs) q.dropped) d.events.items p.events
  links : List.Forall₂ (fun l q => num q.traceId = l.ctx.traceId ∧ num q.spanId = l.ctx.spanId ∧ Sent l.attrs (Otlp.meaning q.attrs) q.dropped) d.links.items p.links
  dropped : p.droppedEvents = d.events.dropped ∧ p.droppedLinks = d.links.dropped
  ids : num p.traceId = d.ctx.traceId ∧ num p.spanId = d.ctx.spanId ∧ (∀ c, d.parent = some c → num p.parentSpanId = c.spanId) ∧ (d.parent = none → p.parentSpanId = [])
  body : p.name = d.name ∧ p.start = (d.startTime.getD 0).toNat ∧ p.finish = (d.endTime.getD 0).toNat ∧ p.description = d.status.desc.getD []
  status : (d.status.code = .unset → p.status = 0) ∧ (d.status.code = .ok → p.status = 1) ∧ (d.status.code = .error → p.status = 2)

/-- All attribute values can be expressed. -/
def AllFit (d : Span.Data) : Prop :=
  (∀ kv ∈ d.attrs.d, ValueFits kv.2) ∧ (∀ e ∈ d.events.items, ∀ kv ∈ e.attrs.d, ValueFits kv.2) ∧ ∀ l ∈ d.links.items, ∀ kv ∈ l.attrs.d, ValueFits kv.2

theorem atom_fits (a : Atom) (h : Fits a) : Otlp.Encodable false (ofAtom a) ∧ Means a (ofAtom a) := by
  cases a with
  | none => cases h
  | bool b => exact ⟨.bool b, rfl⟩
  | int i _ => exact ⟨.int i h, rfl⟩
  | float i _ => exact ⟨.float i, rfl⟩
  | str s _ => exact ⟨.str s, rfl⟩
  | bytes b _ => exact ⟨.bytes b, rfl⟩
  | other i => cases h

theorem val_fits (v : Val) (h : ValueFits v) : Otlp.Encodable false (ofVal v) ∧ ValueMeans v (ofVal v) := by
  cases v with
  | atom a => exact atom_fits a h
  | seq l =>
    refine ⟨.seq _ ?_, ?_⟩
    · intro v hv
      obtain ⟨a, ha, rfl⟩ := List.mem_map.1 hv
      exact (atom_fits a (h a ha)).1
    · show List.Forall₂ Means l (l.map ofAtom)
      rw [List.forall₂_map_right_iff, List.forall₂_same]
      exact fun a ha => (atom_fits a (h a ha)).2

theorem attrs_fit (b : BAttrs) (h : ∀ kv ∈ b.d, ValueFits kv.2) :
    (∀ kv ∈ ofAttrs b, Otlp.Encodable false kv.2) ∧ Sent b (ofAttrs b) b.dropped := by
  refine ⟨?_, rfl, ?_⟩
  · intro kv hkv
    obtain ⟨x, hx, rfl⟩ := List.mem_map.1 hkv
    exact (val_fits x.2 (h x hx)).1
  · unfold ofAttrs
    rw [List.forall₂_map_right_iff, List.forall₂_same]
    exact fun x hx => ⟨rfl, (val_fits x.2 (h x hx)).2⟩

/-- **C94** A request carries the whole contents of each span of its batch, once. -/
theorem C94_content (kind : Nat → Otlp.Kind) (batch : List Item) (req : Dict Unit (Dict Unit (List Otlp.PBSpan))) (h : request kind batch = some req)
    (hf : ∀ x ∈ batch, AllFit x.2) :
    ∃ sent, sent.Perm (spansOf req) ∧ List.Forall₂ (fun x p => Carries (kind x.1) x.2 p) batch sent := by
  have henc : ∀ x ∈ batch, (Otlp.encodeSpan (readable (kind x.1) x.2)).isSome = true := by
    rw [← Otlp.C44_encodable (fun _ => ()) (fun _ => ())]
    have : Otlp.group (fun _ => ()) (fun _ => ()) (fun x => Otlp.encodeSpan (readable (kind x.1) x.2)) batch = some req := h
    rw [this]; rfl
  obtain ⟨reqs, h1, -, h3⟩ := requests kind [batch] (by simpa using henc)
  have hreq : reqs = [req] := by simp [List.mapM_cons, h] at h1; exact h1.symm
  subst hreq
  simp only [List.flatMap_cons, List.flatMap_nil, List.append_nil, List.flatten_cons, List.flatten_nil] at h3
  refine ⟨_, h3.symm, ?_⟩
  have := forall₂_filterMap (f := fun x => some x) (g := fun x => Otlp.encodeSpan (readable (kind x.1) x.2)) (R := fun x p => Carries (kind x.1) x.2 p) batch ?_
  · rwa [List.filterMap_some] at this
  intro x hx
  obtain ⟨p, hp⟩ := Option.isSome_iff_exists.1 (henc x hx)
  refine ⟨x, p, rfl, hp, ?_⟩
  obtain ⟨f1, f2, f3⟩ := hf x hx
  obtain ⟨c1, c2, c3, c4, c5, c6, c7, c8, c9, c10, c11, c12, c13, -, -, c16, c17, c18⟩ := Otlp.C45_span _ p hp
  refine ⟨c6, ?_, ?_, ?_, ⟨c12, c13⟩, ⟨by rw [num_eq]; exact c1, by rw [num_eq]; exact c2, fun c hc => by rw [num_eq]; exact c4 c hc, c3.2⟩,
    ⟨c5, c7.trans ?_, c8.trans ?_, c10⟩, ?_⟩
  · rw [c11, c16 (attrs_fit _ f1).1]; exact (attrs_fit _ f1).2
  · simp only [readable, List.forall₂_map_left_iff] at c17
    refine List.Forall₂.imp ?_ ((List.forall₂_and_left _ _).2 ⟨fun e he => f2 e he, c17⟩)
    rintro e q ⟨g1, g2, g3, g4, g5⟩
    refine ⟨g2, g3, ?_⟩
    rw [g5 (attrs_fit _ g1).1, g4]
    exact (attrs_fit _ g1).2
  · simp only [readable, List.forall₂_map_left_iff] at c18
    refine List.Forall₂.imp ?_ ((List.forall₂_and_left _ _).2 ⟨fun e he => f3 e he, c18⟩)
    rintro e q ⟨g1, g2, g3, g4, g5, g6⟩
    refine ⟨by rw [num_eq]; exact g2, by rw [num_eq]; exact g3, ?_⟩
    rw [g6 (attrs_fit _ g1).1, g4]
    exact (attrs_fit _ g1).2
  · cases hs : x.2.startTime <;> simp [readable, hs]
  · cases hs : x.2.endTime <;> simp [readable, hs]
  · rw [c9]
    refine ⟨?_, ?_, ?_⟩ <;> intro hc <;> simp [readable, ofCode, hc]

private def o (n : Nat) (new end_ : Bool) : Tracer.Opts := ⟨['s'], 0, [], [], new, true, true, end_, n, n + 100, 1, 2, 3⟩
private def exProg : Prog :=
  .block 1 (o 1 false true) (.seq (.spawn true (.block 2 (o 2 false true) (.look 7)))
    (.seq (.spawn false (.block 3 (o 3 false true) (.look 9))) (.seq (.tryExcept (.block 4 (o 4 false true)
      (.raise (.exception ⟨['E'], [], [], []⟩ ['E']))) .skip) (.seq (.op 0 (.setAttributes [])) (.start 5 (o 5 false false))))))
private def exLim : SpanLimits := ⟨none, none, none, none, none, none, none, none⟩
private def exMoves : List Move := (List.replicate 40 [.task 0, .task 1, .task 2, .proc (.append 0), .proc .worker]).flatten
private def exRest : List Move := List.replicate 12 (.proc .worker) ++ List.replicate 3 (.proc .shutJoin)
private def exCfg : Batch.Cfg Item := cfg 4 3 (by decide) (by decide)
private def exEnd : State := steps Sampling.alwaysOn exLim exCfg (.init exProg) (exMoves ++ .proc .shutCall :: exRest)

/-- Three threads and tasks, four blocks that end their span, one span left open: the hypotheses hold and four spans arrive. -/
example : KeepsState Sampling.alwaysOn ∧ (∀ q, (Sampling.alwaysOn q).decision = .recordAndSample) ∧
    (∀ x ∈ sitesOf (events none exProg), Draws x.opts) ∧ (∀ i s, Event.op i s ∈ events none exProg → Quiet s) ∧
    (steps Sampling.alwaysOn exLim exCfg (.init exProg) exMoves).tasks.finished ∧
    (steps Sampling.alwaysOn exLim exCfg (.init exProg) exMoves).batch.done = false ∧
    (steps Sampling.alwaysOn exLim exCfg (.init exProg) exMoves).batch.inflight = [] ∧
    Batch.Ev.shutdown ∈ exEnd.batch.log ∧
    ((sitesOf (events none exProg)).filter ends?).length = 4 ∧
    (batches exEnd.batch.log).map (fun b => b.map fun x => (x.1, x.2.ctx.spanId, x.2.parent.map SpanContext.spanId)) =
      [[(1, 103, some 102), (2, 104, none), (3, 105, some 102)], [(0, 102, none)]] := by
  refine ⟨Tracer.keeps_builtin.1, fun _ => rfl, ?_, ?_, ?_, ?_, ?_, ?_, rfl, ?_⟩
  · intro x hx; simp [events, sitesOf, exProg, Tasks.raises, Tasks.thenRaises, Tasks.caught] at hx; rcases hx with rfl | rfl | rfl | rfl | rfl <;> simp [Draws, o]
  · intro i s h; simp [events, exProg, Tasks.raises, Tasks.thenRaises, Tasks.caught] at h; obtain ⟨rfl, rfl⟩ := h; trivial
  · have h : ((steps Sampling.alwaysOn exLim exCfg (.init exProg) exMoves).tasks.tasks.all fun k => match k with | ⟨.ret _, []⟩ => true | _ => false) = true := by decide +kernel
    intro k hk
    have := List.all_eq_true.1 h k hk
    obtain ⟨ctl, st⟩ := k
    cases ctl <;> cases st <;> first | exact ⟨_, rfl⟩ | cases this
  · decide +kernel
  · have h : (steps Sampling.alwaysOn exLim exCfg (.init exProg) exMoves).batch.inflight.length = 0 := by decide +kernel
    exact List.length_eq_zero_iff.1 h
  · have h : (exEnd.batch.log.any fun e => match e with | .shutdown => true | _ => false) = true := by decide +kernel
    obtain ⟨e, he, h⟩ := List.any_eq_true.1 h
    cases e with
    | shutdown => exact he
    | «export» b => cases h
  · decide +kernel

/-- Spans with attributes, events and links in the wire's range. -/
example : ∃ d, AllFit d ∧ d.attrs.d.length = 2 ∧ d.events.items.length = 1 ∧ d.links.items.length = 1 ∧ (request (fun _ => .server) [(0, d)]).isSome = true := by
  let d := (Span.after exLim ['s'] ⟨1, 2, false, 1, []⟩ none [(.str ['a'], .atom (.int 5 true)), (.str ['b'], .seq [.bool true])]
    [(['e'], [(.str ['c'], .atom (.str ['x'] true))], 7)] [some (some ⟨3, 4, true, 0, []⟩, [])] [.start 1, .end_ 2]).data
  have h : (d.attrs.d.map Prod.snd, d.events.items.map (fun e => e.attrs.d.map Prod.snd), d.links.items.map (fun e => e.attrs.d.map Prod.snd)) =
      ([.atom (.int 5 true), .seq [.bool true]], [[.atom (.str ['x'] true)]], [[]]) := by decide +kernel
  simp only [Prod.mk.injEq] at h
  obtain ⟨h1, h2, h3⟩ := h
  refine ⟨d, ⟨?_, ?_, ?_⟩, ?_, ?_, ?_, by decide +kernel⟩
  · intro kv hkv
    have : kv.2 ∈ d.attrs.d.map Prod.snd := List.mem_map.2 ⟨kv, hkv, rfl⟩
    rw [h1] at this
    simp at this
    rcases this with h | h <;> rw [h]
    · exact ⟨by omega, by omega⟩
    · intro a ha; simp at ha; subst ha; trivial
  · intro e he kv hkv
    have : e.attrs.d.map Prod.snd ∈ d.events.items.map (fun e => e.attrs.d.map Prod.snd) := List.mem_map.2 ⟨e, he, rfl⟩
    rw [h2] at this
    have h4 : kv.2 ∈ e.attrs.d.map Prod.snd := List.mem_map.2 ⟨kv, hkv, rfl⟩
    simp only [List.mem_singleton] at this
    rw [this] at h4
    simp at h4
    rw [h4]; trivial
  · intro e he kv hkv
    have : e.attrs.d.map Prod.snd ∈ d.links.items.map (fun e => e.attrs.d.map Prod.snd) := List.mem_map.2 ⟨e, he, rfl⟩
    rw [h3] at this
    have h4 : kv.2 ∈ e.attrs.d.map Prod.snd := List.mem_map.2 ⟨kv, hkv, rfl⟩
    simp only [List.mem_singleton] at this
    rw [this] at h4
    cases h4
  · have := congrArg List.length h1; simpa using this
  · have := congrArg List.length h2; simpa using this
  · have := congrArg List.length h3; simpa using this

end Traced
end Otel
