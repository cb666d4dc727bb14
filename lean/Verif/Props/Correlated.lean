import Verif.Model.Correlated
import Verif.Spec.Correlated
import Verif.Props.Traced
import Verif.Props.LoggingHandler
import Verif.Props.Context
import Verif.Props.Exemplar
/-!
# C97: logs and exemplars lead to their spans
-/
namespace Otel
namespace Correlated
open Tasks (Prog Event Site events sitesOf looksOf runs Belongs Sees)
open Tracer (KeepsState Draws World SpanAt)
open Sampling (Sampler)
open Batch (exported evicted batches)
open Traced (num InTrace Octets offers ends? spansOf)
open LoggingHandler (OtelRecord Printable)
open scoped List

/-! ## Program and processors together -/

theorem seen_grows (S : Sampler) (lim : SpanLimits) (st : Tasks.State) (t : Nat) : st.seen <+: (Tasks.step S lim st t).seen := by
  unfold Tasks.step
  split
  · exact List.prefix_rfl
  · rename_i k hk
    obtain ⟨ctl, stack⟩ := k
    cases ctl with
    | run p =>
      cases p with
      | look n => exact List.prefix_append _ _
      | _ => exact List.prefix_rfl
    | ret e =>
      cases stack with
      | nil => exact List.prefix_rfl
      | cons f r => cases f <;> exact List.prefix_rfl
    | finish i o e =>
      simp only
      split <;> exact List.prefix_rfl
    | _ => exact List.prefix_rfl

theorem seen_grows' (S : Sampler) (lim : SpanLimits) (c : Batch.Cfg Traced.Item) (st : Traced.State) (m : Traced.Move) :
    st.tasks.seen <+: (Traced.step S lim c st m).tasks.seen := by
  cases m with
  | task t => exact seen_grows S lim st.tasks t
  | proc a => cases a <;> exact List.prefix_rfl

/-- The moves of the program and the span processor. -/
def tracedMoves : List Move → List Traced.Move
  | [] => []
  | .traced m :: l => m :: tracedMoves l
  | .proc _ :: l => tracedMoves l

theorem tracedMoves_append (a b : List Move) : tracedMoves (a ++ b) = tracedMoves a ++ tracedMoves b := by
  induction a with
  | nil => rfl
  | cons x a ih => cases x <;> simp [tracedMoves, ih]

/-- A run of all is a run of each, and the records the handler passes on are the log processor's offers. -/
theorem split_run (S : Sampler) (lim : SpanLimits) (c : Batch.Cfg Traced.Item) (L : Logging) (cl : Batch.Cfg Item) (moves : List Move) (st : State) :
    (steps S lim c L cl st moves).traced = Traced.steps S lim c st.traced (tracedMoves moves) ∧
    ∃ acts : List (Batch.Act Item),
      (steps S lim c L cl st moves).logs = acts.foldl (Batch.step cl) st.logs ∧
      (steps S lim c L cl st moves).traced.tasks.seen.flatMap (emitted L) = st.traced.tasks.seen.flatMap (emitted L) ++ offers acts := by
  induction moves generalizing st with
  | nil => exact ⟨rfl, [], rfl, by simp [steps, offers]⟩
  | cons m moves ih =>
    obtain ⟨h0, acts, h1, h2⟩ := ih (step S lim c L cl st m)
    have e : steps S lim c L cl st (m :: moves) = steps S lim c L cl (step S lim c L cl st m) moves := rfl
    rw [e, h2, h1, h0]
    cases m with
    | traced m =>
      refine ⟨rfl, ?_⟩
      obtain ⟨k1, k2⟩ := Traced.foldl_offer cl (((Traced.step S lim c st.traced m).tasks.seen.drop st.traced.tasks.seen.length).flatMap (emitted L)) st.logs
      refine ⟨(((Traced.step S lim c st.traced m).tasks.seen.drop st.traced.tasks.seen.length).flatMap (emitted L)).map Batch.Act.offer ++ acts, ?_, ?_⟩
      · rw [List.foldl_append, ← k1]; rfl
      · rw [Traced.offers_append, k2, ← List.append_assoc]
        congr 1
        obtain ⟨r, hr⟩ := seen_grows' S lim c st.traced m
        show (Traced.step S lim c st.traced m).tasks.seen.flatMap (emitted L) = _
        rw [← hr, List.drop_left, List.flatMap_append]
    | proc a =>
      cases a with
      | offer x => exact ⟨rfl, acts, rfl, rfl⟩
      | append i => exact ⟨rfl, .append i :: acts, rfl, rfl⟩
      | flushCall => exact ⟨rfl, .flushCall :: acts, rfl, rfl⟩
      | flushReq i => exact ⟨rfl, .flushReq i :: acts, rfl, rfl⟩
      | flushRet i ok => exact ⟨rfl, .flushRet i ok :: acts, rfl, rfl⟩
      | shutCall => exact ⟨rfl, .shutCall :: acts, rfl, rfl⟩
      | shutJoin => exact ⟨rfl, .shutJoin :: acts, rfl, rfl⟩
      | worker => exact ⟨rfl, .worker :: acts, rfl, rfl⟩

theorem tasks_of (S : Sampler) (lim : SpanLimits) (c : Batch.Cfg Traced.Item) (L : Logging) (cl : Batch.Cfg Item) (moves : List Move) (st : State) :
    ∃ sched : List Nat, (steps S lim c L cl st moves).traced.tasks = sched.foldl (Tasks.step S lim) st.traced.tasks := by
  rw [(split_run S lim c L cl moves st).1]
  obtain ⟨_, sched, _, h, _⟩ := Traced.split_run S lim c (tracedMoves moves) st.traced
  exact ⟨sched, h⟩

/-! ## One logging call -/

/-- What the exporter sends for a logging call: the resource, the name of the logger, the identifiers of the span around it, and what the record says. -/
structure Tells (S : Sampler) (sites : List Site) (L : Logging) (said : Nat → Str) (y : Nat × Option Nat) (q : Nat × Str × Otlp.PBLog) : Prop where
  resource : q.1 = L.resource
  logger : q.2.1 = (L.record y.1).name
  ids : Identified sites y.2 q.2.2
  flags : (∀ z, (S z).decision = .recordAndSample) → q.2.2.flags = if y.2.isSome then 1 else 0
  time : q.2.2.time = (L.record y.1).createdNs.toNat
  observed : q.2.2.observed = (L.now y.1).toNat
  severity : q.2.2.severity = Severity.spec (L.record y.1).levelno
  level : ((L.record y.1).levelname ≠ "WARNING".toList → q.2.2.severityText = (L.record y.1).levelname) ∧ ((L.record y.1).levelname = "WARNING".toList → q.2.2.severityText = "WARN".toList)
  body : Otlp.decodeOpt q.2.2.body = .str (said y.1)
  /-- the attributes are those of C78 -/
  attrs : ∃ ctx s x, LoggingHandler.emit L.digits L.env L.fmt ctx (L.now y.1) (.sdk false L.resource) (L.record y.1) = some [(s, x)] ∧
    ((∀ kv ∈ x.attributes.d, Traced.ValueFits kv.2) → Traced.Sent x.attributes (Otlp.meaning q.2.2.attrs) q.2.2.dropped)

theorem encodeLog_lengths (r : Otlp.SdkLog) (p : Otlp.PBLog) (h : Otlp.encodeLog r = some p) :
    (r.spanId ≠ some 0 → Octets 8 p.spanId) ∧ (r.traceId ≠ some 0 → Octets 16 p.traceId) := by
  have hid : ∀ (len : Nat) (o : Option Int) (bs : List Nat), Otlp.encodeLogId len o = some bs → o ≠ some 0 → Octets len bs := by
    intro len o bs ho h0
    cases o with
    | none => cases ho
    | some n =>
      simp only [Otlp.encodeLogId] at ho
      split at ho
      · rename_i hn; subst hn; exact absurd rfl h0
      · exact ⟨((Otlp.toBytes_spec len n).2 bs ho).1, ((Otlp.toBytes_spec len n).2 bs ho).2.1⟩
  unfold Otlp.encodeLog at h
  split at h
  · rename_i s t f b n h1 h2 h3 h4 h5
    cases h
    exact ⟨hid 8 _ _ h1, hid 16 _ _ h2⟩
  · cases h

/-- What a look's context is. -/
theorem sees_ids {S : Sampler} {w : World} {sites all : List Site} (hsub : ∀ y ∈ sites, y ∈ all) (hd : ∀ x ∈ all, Draws x.opts)
    (hb : ∀ i x, sites[i]? = some x → Belongs S w sites i x) {x : Nat × SpanContext} {y : Nat × Option Nat} (h : Sees w sites x y) :
    match y.2 with
    | none => x.2 = SpanContext.invalid
    | some l => ∃ z ∈ all, z.line = l ∧ x.2.spanId = z.opts.spanDraw + 1 ∧ InTrace all z x.2.traceId ∧ 0 < x.2.traceId ∧
        ((∀ q, (S q).decision = .recordAndSample) → x.2.flags = 1) := by
  have h2 := h.2
  cases hy : y.2 with
  | none => rw [hy] at h2; exact h2
  | some l =>
    rw [hy] at h2
    obtain ⟨j, z, hj, hl, hc⟩ := h2
    have ht := Traced.trace_of S w all sites hsub hb j z hj
    have hz := hsub z (List.mem_of_getElem? hj)
    have hpos : ∀ {z n}, InTrace all z n → 0 < n := by
      intro z n h
      induction h with
      | root x h => omega
      | inner x y l n h hy hl ht ih => exact ih
    refine ⟨z, hz, hl, ?_, hc ▸ ht, hc ▸ hpos ht, ?_⟩
    · rw [hc]
      have hj := hb j z hj
      unfold Belongs at hj
      split at hj
      · exact hj.1
      · obtain ⟨_, _, _, _, hj⟩ := hj; exact hj.1
    · intro hon
      rw [hc]
      have key : ∀ pl, SpanAt w j ⟨pl, z.opts, S⟩ → (w.ctxOf j).flags = 1 := by
        intro pl h
        obtain ⟨-, -, -, q, -, -, -, -, -, h2, -⟩ := h
        have h2 : (w.ctxOf j).flags = if (S q).decision = .recordAndSample then 1 else 0 := h2
        rw [h2, if_pos (hon q)]
      have hj := hb j z hj
      unfold Belongs at hj
      split at hj
      · exact key _ hj
      · obtain ⟨_, _, _, _, hj⟩ := hj; exact key _ hj

theorem one (S : Sampler) (w : World) (sites all : List Site) (L : Logging) (said : Nat → Str) (hsub : ∀ y ∈ sites, y ∈ all) (hd : ∀ x ∈ all, Draws x.opts)
    (hb : ∀ i x, sites[i]? = some x → Belongs S w sites i x) (x : Nat × SpanContext) (y : Nat × Option Nat) (h : Sees w sites x y)
    (hp : Printable L.fmt (L.record y.1)) (ht : LoggingHandler.body L.fmt (L.record y.1) = some (.text (said y.1))) :
    ∃ (it : Item) (p : Otlp.PBLog), emitted L x = [it] ∧ Otlp.encodeLog (readable it.2.2) = some p ∧ Tells S all L said y (it.2.2.resource, it.2.1.name, p) := by
  have hids := sees_ids hsub hd hb h
  have hn : x.1 = y.1 := h.1
  have hcs : Ctx.currentSpan (Ctx.setSpan [] x.2) = x.2 := (Ctx.C06_current_span [] x.2).1
  obtain ⟨b, hbo, he⟩ := LoggingHandler.emit_spec L.digits L.env L.fmt (Ctx.setSpan [] x.2) (L.now y.1) L.resource (L.record y.1) hp
  obtain ⟨s, o, he', c1, -, c3, c4, c5, c6, c7, c8, c9, c10, c11, -⟩ :=
    LoggingHandler.C78_faithful L.digits L.env L.fmt (Ctx.setSpan [] x.2) (L.now y.1) L.resource (L.record y.1) hp
  have hbody : o.body = .text (said y.1) := by
    rw [he] at he'
    rw [ht] at hbo
    cases hbo
    cases he'; rfl
  rw [hcs] at c6 c7 c8
  have hr : 0 ≤ x.2.spanId ∧ x.2.spanId < 2 ^ 64 ∧ 0 ≤ x.2.traceId ∧ x.2.traceId < 2 ^ 128 := by
    cases hy : y.2 with
    | none => rw [hy] at hids; rw [hids]; decide
    | some l =>
      rw [hy] at hids
      obtain ⟨z, hz, -, h1, h2, -⟩ := hids
      have h3 := Traced.inTrace_range h2 hd hz
      have h4 := (hd z hz).2
      refine ⟨by omega, by omega, h3.1, h3.2⟩
  have henc : (Otlp.encodeLog (readable o)).isSome := by
    rw [Otlp.C68_encodable]
    refine ⟨⟨_, rfl, by rw [c7]; exact hr.1, by rw [c7]; exact hr.2.1⟩, ⟨_, rfl, by rw [c6]; exact hr.2.2.1, by rw [c6]; exact hr.2.2.2⟩, rfl, ?_, rfl⟩
    show Otlp.Encodable true (ofBody o.body)
    rw [hbody]
    exact .str _
  obtain ⟨p, hpp⟩ := Option.isSome_iff_exists.1 henc
  obtain ⟨f1, f2, f3, f4, f5, f6, f7, f8, f9, f10, f11, f12⟩ := Otlp.C68_faithful _ p hpp
  obtain ⟨g1, g2⟩ := encodeLog_lengths _ p hpp
  refine ⟨(x.1, s, o), p, ?_, hpp, ⟨c5, c1, ?_, ?_, ?_, ?_, ?_, ⟨?_, ?_⟩, ?_, ⟨_, s, o, he', ?_⟩⟩⟩
  · unfold emitted
    rw [hn, he']; rfl
  · unfold Identified
    have e1 : (Otlp.fromBytes p.spanId : Int) = x.2.spanId := by
      have : o.spanId = (Otlp.fromBytes p.spanId : Int) := by simpa [readable] using f1
      rw [← this, c7]
    have e2 : (Otlp.fromBytes p.traceId : Int) = x.2.traceId := by
      have : o.traceId = (Otlp.fromBytes p.traceId : Int) := by simpa [readable] using f2
      rw [← this, c6]
    cases hy : y.2 with
    | none =>
      rw [hy] at hids
      rw [hids] at c6 c7
      exact ⟨f4.2 (by simp [readable, c6, SpanContext.invalid]), f3.2 (by simp [readable, c7, SpanContext.invalid])⟩
    | some l =>
      rw [hy] at hids
      obtain ⟨z, hz, hl, h1, h2, h3, -⟩ := hids
      refine ⟨z, hz, hl, ⟨g1 ?_, ?_⟩, g2 ?_, ?_⟩
      · simp only [readable, c7, h1]; intro h; injection h with h; omega
      · rw [Traced.num_eq, e1, h1]
      · simp only [readable, c6]; intro h; injection h with h; omega
      · rw [Traced.num_eq, e2]; exact h2
  · intro hon
    have : p.flags = o.flags := by simpa [readable] using f5.symm
    rw [this, c8]
    cases hy : y.2 with
    | none => rw [hy] at hids; rw [hids]; rfl
    | some l => rw [hy] at hids; obtain ⟨_, _, _, _, _, _, h⟩ := hids; exact h hon
  · rw [f8]; simp [readable, c3]
  · rw [f9]; simp [readable, c4]
  · have : o.severityNumber = p.severity := by simpa [readable] using f6
    rw [← this, c9]
  · intro hw; rw [f7]; simpa [readable] using c10 hw
  · intro hw; rw [f7]; simpa [readable] using c11 hw
  · rw [f11]; simp [readable, hbody, ofBody]
  · intro hfit
    have := Traced.attrs_fit _ hfit
    rw [f12 this.1, f10]
    exact this.2

/-- All the logging calls. -/
theorem every (S : Sampler) (w : World) (sites all : List Site) (L : Logging) (said : Nat → Str) (hsub : ∀ y ∈ sites, y ∈ all) (hd : ∀ x ∈ all, Draws x.opts)
    (hb : ∀ i x, sites[i]? = some x → Belongs S w sites i x) (seen : List (Nat × SpanContext)) (looks : List (Nat × Option Nat)) (h : List.Forall₂ (Sees w sites) seen looks)
    (hp : ∀ y ∈ looks, Printable L.fmt (L.record y.1) ∧ LoggingHandler.body L.fmt (L.record y.1) = some (.text (said y.1))) :
    (seen.flatMap (emitted L)).length = looks.length ∧ (∀ it ∈ seen.flatMap (emitted L), (Otlp.encodeLog (readable it.2.2)).isSome = true) ∧
    List.Forall₂ (Tells S all L said) looks ((seen.flatMap (emitted L)).filterMap fun it => (Otlp.encodeLog (readable it.2.2)).map fun p => (it.2.2.resource, it.2.1.name, p)) := by
  induction h with
  | nil => simp
  | cons hx h ih =>
    obtain ⟨i1, i2, i3⟩ := ih fun y hy => hp y (List.mem_cons_of_mem _ hy)
    obtain ⟨q1, q2⟩ := hp _ List.mem_cons_self
    obtain ⟨it, p, h1, h2, h3⟩ := one S w sites all L said hsub hd hb _ _ hx q1 q2
    rw [List.flatMap_cons, h1]
    refine ⟨by simp [i1], ?_, ?_⟩
    · intro z hz
      rcases List.mem_cons.1 hz with rfl | hz
      · rw [h2]; rfl
      · exact i2 z hz
    · rw [List.cons_append, List.nil_append, List.filterMap_cons, h2]
      exact .cons h3 i3

/-- The requests of the batches, taken together: one item each. -/
theorem requests {τ ρ σ ε : Type} [DecidableEq ρ] [DecidableEq σ] (res : τ → ρ) (scope : τ → σ) (enc : τ → Option ε) (bs : List (List τ)) (h : ∀ x ∈ bs.flatten, (enc x).isSome = true) :
    ∃ reqs, bs.mapM (Otlp.group res scope enc) = some reqs ∧ reqs.map (fun r => (Otlp.items r).length) = bs.map List.length ∧
      (reqs.flatMap Otlp.items).Perm (bs.flatten.filterMap fun x => (enc x).map fun e => (res x, scope x, e)) := by
  induction bs with
  | nil => exact ⟨[], rfl, rfl, List.Perm.refl _⟩
  | cons b bs ih =>
    obtain ⟨reqs, h1, h3, h2⟩ := ih (fun x hx => h x (by simp at hx ⊢; exact .inr hx))
    have hb : (Otlp.group res scope enc b).isSome = true := by
      rw [Otlp.C44_encodable]
      intro x hx
      exact h x (by simp; exact .inl hx)
    obtain ⟨r, hr⟩ := Option.isSome_iff_exists.1 hb
    obtain ⟨h4, h5⟩ := Otlp.C44_permutation _ _ _ b r hr
    refine ⟨r :: reqs, by simp [List.mapM_cons, hr, h1], ?_, ?_⟩
    · rw [List.map_cons, List.map_cons, h3, h5]
    · rw [List.flatMap_cons, List.flatten_cons, List.filterMap_append]
      exact h4.append h2

/-! ## The theorems -/

/-- **C97** A program with threads and tasks that logs: whatever the schedule and the sampler, when its threads and tasks have finished and the log processor has then been shut down,
the requests sent by the OTLP log exporter hold exactly one record for each logging call the text makes, no more and no less, provided there are no more of them than the queue holds; each says
what was logged, under the name of its logger, and carries the identifiers of the span of the innermost block around the call (of the block around the place where its task was created, if
there is none inside the task), or none if there is no such block. -/
theorem C97_logs (S : Sampler) (lim : SpanLimits) (c : Batch.Cfg Traced.Item) (L : Logging) (maxQueue maxBatch : Nat) (pos : 0 < maxBatch) (le : maxBatch ≤ maxQueue) (main : Prog)
    (moves rest : List Move) (said : Nat → Str) (hS : KeepsState S) (hd : ∀ x ∈ sitesOf (events none main), Draws x.opts)
    (hp : ∀ y ∈ looksOf (events none main), Printable L.fmt (L.record y.1) ∧ LoggingHandler.body L.fmt (L.record y.1) = some (.text (said y.1)))
    (hf : (steps S lim c L (cfg maxQueue maxBatch pos le) (.init main) moves).traced.tasks.finished)
    (hdn : (steps S lim c L (cfg maxQueue maxBatch pos le) (.init main) moves).logs.done = false)
    (hin : (steps S lim c L (cfg maxQueue maxBatch pos le) (.init main) moves).logs.inflight = [])
    (hs : Batch.Ev.shutdown ∈ (steps S lim c L (cfg maxQueue maxBatch pos le) (.init main) (moves ++ .proc .shutCall :: rest)).logs.log)
    (hroom : (looksOf (events none main)).length ≤ maxQueue) :
    ∃ reqs, (batches (steps S lim c L (cfg maxQueue maxBatch pos le) (.init main) (moves ++ .proc .shutCall :: rest)).logs.log).mapM request = some reqs ∧
      (∀ r ∈ reqs, 1 ≤ (logsOf r).length ∧ (logsOf r).length ≤ maxBatch) ∧
      ∃ calls, calls.Perm (looksOf (events none main)) ∧ List.Forall₂ (Tells S (sitesOf (events none main)) L said) calls (reqs.flatMap logsOf) := by
  -- the run, split
  obtain ⟨-, acts1, b1, e1⟩ := split_run S lim c L (cfg maxQueue maxBatch pos le) moves (.init main)
  obtain ⟨sched1, t1⟩ := tasks_of S lim c L (cfg maxQueue maxBatch pos le) moves (.init main)
  generalize hm : steps S lim c L (cfg maxQueue maxBatch pos le) (.init main) moves = mid at *
  have hst : steps S lim c L (cfg maxQueue maxBatch pos le) (.init main) (moves ++ .proc .shutCall :: rest) =
      steps S lim c L (cfg maxQueue maxBatch pos le) (step S lim c L (cfg maxQueue maxBatch pos le) mid (.proc .shutCall)) rest := by
    rw [← hm]; simp only [steps, List.foldl_append, List.foldl_cons]
  rw [hst] at hs ⊢
  obtain ⟨-, acts2, b2, e2⟩ := split_run S lim c L (cfg maxQueue maxBatch pos le) rest (step S lim c L (cfg maxQueue maxBatch pos le) mid (.proc .shutCall))
  obtain ⟨sched2, t2⟩ := tasks_of S lim c L (cfg maxQueue maxBatch pos le) rest (step S lim c L (cfg maxQueue maxBatch pos le) mid (.proc .shutCall))
  generalize steps S lim c L (cfg maxQueue maxBatch pos le) (step S lim c L (cfg maxQueue maxBatch pos le) mid (.proc .shutCall)) rest = st at *
  have ht : st.traced.tasks = mid.traced.tasks := by
    rw [t2]; exact Traced.finished_steps S lim mid.traced.tasks hf sched2
  have hno : offers acts2 = [] := by
    rw [ht] at e2
    exact (List.append_cancel_left (e2.symm.trans (List.append_nil _).symm :)).symm.symm
  have hb1 : mid.logs = Batch.run (cfg maxQueue maxBatch pos le) acts1 := b1
  have hb : st.logs = Batch.run (cfg maxQueue maxBatch pos le) (acts1 ++ .shutCall :: acts2) := by
    rw [b2]
    show acts2.foldl (Batch.step (cfg maxQueue maxBatch pos le)) (Batch.step (cfg maxQueue maxBatch pos le) mid.logs .shutCall) = _
    rw [hb1]; simp [Batch.run]
  have hof : offers acts1 = mid.traced.tasks.seen.flatMap (emitted L) := by rw [e1]; rfl
  rw [hb1] at hdn hin
  rw [hb] at hs ⊢
  obtain ⟨g1, g2, g3⟩ := Traced.delivered (cfg maxQueue maxBatch pos le) acts1 acts2 hno hdn hin hs
  rw [hof, show (cfg maxQueue maxBatch pos le).sampled = fun _ => true from rfl, List.filter_true] at g1 g3
  -- the program
  have hrun : mid.traced.tasks = runs S lim main sched1 := t1
  rw [hrun] at hf g1 g3
  obtain ⟨evs, hev1, hlen, hbel, hsees, -⟩ := Tasks.C92_complete S lim main hS hd sched1 hf
  have hsites : (sitesOf evs).Perm (sitesOf (events none main)) := hev1.filterMap _
  have hlooks : (looksOf evs).Perm (looksOf (events none main)) := hev1.filterMap _
  obtain ⟨k1, k2, k3⟩ := every S (runs S lim main sched1).world (sitesOf evs) (sitesOf (events none main)) L said (fun y hy => hsites.mem_iff.1 hy) hd hbel _ _ hsees
    fun y hy => hp y (hlooks.mem_iff.1 hy)
  have hev : evicted (Batch.run (cfg maxQueue maxBatch pos le) (acts1 ++ .shutCall :: acts2)) = [] := g3 (by rw [k1, hlooks.length_eq]; exact hroom)
  rw [hev, List.append_nil] at g1
  generalize Batch.run (cfg maxQueue maxBatch pos le) (acts1 ++ .shutCall :: acts2) = B at *
  have hexp : exported B = (batches B.log).flatten := rfl
  rw [hexp] at g1
  obtain ⟨reqs, q1, q2, q3⟩ := requests (fun x : Item => x.2.2.resource) (fun x : Item => x.2.1.name) (fun x : Item => Otlp.encodeLog (readable x.2.2)) (batches B.log)
    fun z hz => k2 z (g1.mem_iff.1 hz)
  refine ⟨reqs, q1, ?_, ?_⟩
  · intro r hr
    have : (Otlp.items r).length ∈ (batches B.log).map List.length := by rw [← q2]; exact List.mem_map.2 ⟨r, hr, rfl⟩
    obtain ⟨b, hb, he⟩ := List.mem_map.1 this
    show 1 ≤ (Otlp.items r).length ∧ (Otlp.items r).length ≤ maxBatch
    rw [← he]
    exact g2 b hb
  · have hP := q3.trans (g1.filterMap _)
    obtain ⟨m, hm1, hm2⟩ := List.perm_comp_forall₂ hP k3.flip
    exact ⟨m, hm2.trans hlooks, hm1.flip⟩

/-- In a numbered text the trace of a block is determined. -/
theorem inTrace_unique {sites : List Site} (hn : Numbered sites) {x : Site} {m n : Int} (h1 : InTrace sites x m) (h2 : InTrace sites x n) : m = n := by
  induction h1 with
  | root x h =>
    cases h2 with
    | root _ _ => rfl
    | inner _ y l _ h' => rw [h] at h'; cases h'
  | inner x y l n h hy hl ht ih =>
    cases h2 with
    | root _ h' => rw [h] at h'; cases h'
    | inner _ y' l' _ h' hy' hl' ht' =>
      have : l' = l := by rw [h] at h'; exact (Option.some.inj h').symm
      subst this
      have : y' = y := List.inj_on_of_nodup_map hn hy' hy (hl'.trans hl.symm)
      subst this
      exact ih ht'

/-- Bytes are determined by the number they spell, given how many there are. -/
theorem num_inj {n : Nat} {a b : List Nat} (h1 : Octets n a) (h2 : Octets n b) (h : num a = num b) : a = b := by
  have hl : a.length = b.length := h1.1.trans h2.1.symm
  have ha := h1.2
  have hb := h2.2
  clear h1 h2
  induction a using List.reverseRecOn generalizing b with
  | nil => exact (List.length_eq_zero_iff.1 hl.symm).symm
  | append_singleton a x ih =>
    rcases List.eq_nil_or_concat b with rfl | ⟨b, y, rfl⟩
    · simp at hl
    · rw [List.concat_eq_append] at *
      simp only [num, List.foldl_append, List.foldl_cons, List.foldl_nil] at h
      have hx := ha x (by simp)
      have hy := hb y (by simp)
      change num a * 256 + _ = num b * 256 + _ at h
      have h1 : num a = num b := by omega
      have h2 : x = y := by omega
      rw [h2, ih h1 (by simpa using hl) (fun z hz => ha z (by simp [hz])) (fun z hz => hb z (by simp [hz]))]

/-- **C97** A program whose spans are all sampled, with both pipelines, whatever the schedule: once it has finished and both processors have been shut down, every log record sent for a call
inside a block that ends its span carries, byte for byte, the trace and span identifiers of a span that was sent, that of the block; if the program's span identifiers are distinct, of this one only. -/
theorem C97_joined (S : Sampler) (lim : SpanLimits) (L : Logging) (maxQueue maxBatch maxQueueL maxBatchL : Nat) (pos : 0 < maxBatch) (le : maxBatch ≤ maxQueue)
    (posL : 0 < maxBatchL) (leL : maxBatchL ≤ maxQueueL) (main : Prog)
    (all m1 r1 m2 r2 : List Move) (h1 : all = m1 ++ .traced (.proc .shutCall) :: r1) (h2 : all = m2 ++ .proc .shutCall :: r2) (said : Nat → Str) (hS : KeepsState S)
    (hon : ∀ q, (S q).decision = .recordAndSample) (hd : ∀ x ∈ sitesOf (events none main), Draws x.opts)
    (hl : ∀ x ∈ sitesOf (events none main), ∀ c a, some (some c, a) ∈ x.opts.links → Traced.LinkOk c)
    (hq : ∀ i s, Event.op i s ∈ events none main → Traced.Quiet s)
    (hp : ∀ y ∈ looksOf (events none main), Printable L.fmt (L.record y.1) ∧ LoggingHandler.body L.fmt (L.record y.1) = some (.text (said y.1)))
    (hn : Numbered (sitesOf (events none main)))
    (run : List Move → State) (hrun : run = steps S lim (Traced.cfg maxQueue maxBatch pos le) L (cfg maxQueueL maxBatchL posL leL) (.init main))
    (hf1 : (run m1).traced.tasks.finished) (hdn1 : (run m1).traced.batch.done = false) (hin1 : (run m1).traced.batch.inflight = [])
    (hf2 : (run m2).traced.tasks.finished) (hdn2 : (run m2).logs.done = false) (hin2 : (run m2).logs.inflight = [])
    (hs1 : Batch.Ev.shutdown ∈ (run all).traced.batch.log) (hs2 : Batch.Ev.shutdown ∈ (run all).logs.log)
    (hroom1 : ((sitesOf (events none main)).filter ends?).length ≤ maxQueue) (hroom2 : (looksOf (events none main)).length ≤ maxQueueL) (kind : Nat → Otlp.Kind) :
    ∃ spanReqs logReqs, (batches (run all).traced.batch.log).mapM (Traced.request kind) = some spanReqs ∧ (batches (run all).logs.log).mapM request = some logReqs ∧
      ∃ calls, calls.Perm (looksOf (events none main)) ∧
        List.Forall₂ (fun (y : Nat × Option Nat) (q : Nat × Str × Otlp.PBLog) => q.2.1 = (L.record y.1).name ∧ Otlp.decodeOpt q.2.2.body = .str (said y.1) ∧
          (y.2 = none → q.2.2.traceId = [] ∧ q.2.2.spanId = []) ∧
          ∀ x ∈ sitesOf (events none main), y.2 = some x.line → ends? x = true → q.2.2.flags = 1 ∧
            ∃ p ∈ spanReqs.flatMap spansOf, p.name = x.opts.name ∧ p.traceId = q.2.2.traceId ∧ p.spanId = q.2.2.spanId ∧
              (((sitesOf (events none main)).map fun x => x.opts.spanDraw).Nodup → ∀ p' ∈ spanReqs.flatMap spansOf, p'.spanId = q.2.2.spanId → p' = p))
          calls (logReqs.flatMap logsOf) := by
  subst hrun
  subst h2
  obtain ⟨logReqs, l1, -, calls, l2, l3⟩ := C97_logs S lim (Traced.cfg maxQueue maxBatch pos le) L maxQueueL maxBatchL posL leL main m2 r2 said hS hd hp hf2 hdn2 hin2 hs2 hroom2
  rw [h1] at hs1 l1 ⊢
  rw [(split_run S lim (Traced.cfg maxQueue maxBatch pos le) L (cfg maxQueueL maxBatchL posL leL) _ _).1] at hf1 hdn1 hin1 hs1 ⊢
  rw [tracedMoves_append] at hs1 ⊢
  obtain ⟨spanReqs, s1, -, blocks, s2, s3⟩ := Traced.C94_wire S lim maxQueue maxBatch pos le main (tracedMoves m1) (tracedMoves r1) hS hon hd hl hq hf1 hdn1 hin1 hs1 hroom1 kind
  refine ⟨spanReqs, logReqs, s1, l1, calls, l2, ?_⟩
  refine l3.imp ?_
  intro y q hT
  refine ⟨hT.logger, hT.body, ?_, ?_⟩
  · intro h0
    have := hT.ids
    rw [h0] at this
    exact this
  · intro x hx hy he
    refine ⟨by rw [hT.flags hon, hy]; rfl, ?_⟩
    have hids := hT.ids
    rw [hy] at hids
    obtain ⟨x', hx', hline, ⟨i1, i2⟩, i3, i4⟩ := hids
    have : x' = x := List.inj_on_of_nodup_map hn hx' hx hline
    subst this
    have hb : x' ∈ blocks := s2.mem_iff.2 (List.mem_filter.2 ⟨hx, he⟩)
    obtain ⟨k, hk, hkx⟩ := List.getElem_of_mem hb
    have hk' : k < (spanReqs.flatMap spansOf).length := by rw [← s3.length_eq]; exact hk
    have hD := List.Forall₂.get s3 hk hk'
    rw [List.get_eq_getElem, List.get_eq_getElem, hkx] at hD
    refine ⟨_, List.getElem_mem hk', hD.name, ?_, ?_, ?_⟩
    · exact num_inj hD.trace.1 i3 (inTrace_unique hn hD.trace.2 i4)
    · exact num_inj hD.id.1 i1 (by rw [hD.id.2, i2])
    · intro hnd p' hp' hid
      obtain ⟨k', hk2, rfl⟩ := List.getElem_of_mem hp'
      have hk3 : k' < blocks.length := by rw [s3.length_eq]; exact hk2
      have hD' := List.Forall₂.get s3 hk3 hk2
      rw [List.get_eq_getElem, List.get_eq_getElem] at hD'
      have hdr : (blocks[k'].opts.spanDraw : Int) + 1 = x'.opts.spanDraw + 1 := by rw [← hD'.id.2, hid, i2]
      have hnd' : (blocks.map fun x => x.opts.spanDraw).Nodup :=
        (s2.map _).nodup_iff.2 (hnd.sublist (List.Sublist.map _ List.filter_sublist))
      have hkk : k' = k := by
        have e : (blocks.map fun x => x.opts.spanDraw)[k']'(by simpa using hk3) = (blocks.map fun x => x.opts.spanDraw)[k]'(by simpa using hk) := by
          simp only [List.getElem_map, hkx]
          omega
        exact (List.Nodup.getElem_inj_iff hnd').1 e
      subst hkk
      rfl

theorem mem_since {α : Type} (ops : List (Exemplar.Op α)) (o : Exemplar.Offer α) (h : o ∈ Exemplar.since ops) : ∃ r, .offer o r ∈ ops := by
  have key : ∀ (ops : List (Exemplar.Op α)) (acc : List (Exemplar.Offer α)),
      o ∈ ops.foldl (fun acc op => match op with | .offer o _ => acc ++ [o] | .collect _ => []) acc → o ∈ acc ∨ ∃ r, .offer o r ∈ ops := by
    intro ops
    induction ops with
    | nil => intro acc h; exact .inl h
    | cons op ops ih =>
      intro acc h
      rw [List.foldl_cons] at h
      rcases ih _ h with h | ⟨r, h⟩
      · cases op with
        | offer o' r =>
          rcases List.mem_append.1 h with h | h
          · exact .inl h
          · rw [List.mem_singleton] at h; subst h; exact .inr ⟨r, List.mem_cons_self⟩
        | collect p => cases h
      · exact .inr ⟨r, List.mem_cons_of_mem _ h⟩
  rcases key ops [] h with h | h
  · cases h
  · exact h

/-- **C97** Measurements of a concurrent program under the trace-based filter, offered one at a time, in any order and with any number of collections in between: every exemplar collected is that of a measurement
of the text inside a block, and has the identifiers of the span of that block. -/
theorem C97_exemplars {α : Type} [Zero α] (S : Sampler) (lim : SpanLimits) (main : Prog) (hS : KeepsState S) (hd : ∀ x ∈ sitesOf (events none main), Draws x.opts) (schedule : List Nat)
    (M : Measuring α) (size : Nat) (hsize : 0 < size) (ops : List (Exemplar.Op α)) (point : Metrics.MAttrs)
    (hops : ∀ o r, .offer o r ∈ ops → ∃ x ∈ (runs S lim main schedule).seen, .offer o r ∈ Exemplar.Filter.offers .traceBased (offerOf M x) x.2.sampled r)
    (e : Exemplar.Ex α) (he : e ∈ ((Exemplar.afterSimple size ops).collect point).1) :
    ∃ y ∈ looksOf (events none main), e.value = M.value y.1 ∧ e.time = M.time y.1 ∧
      ∃ z ∈ sitesOf (events none main), y.2 = some z.line ∧ ∃ s t : Nat, e.spanId = some s ∧ e.traceId = some t ∧ (s : Int) = z.opts.spanDraw + 1 ∧ InTrace (sitesOf (events none main)) z t := by
  have hops' : ∀ o ∈ Exemplar.since ops, ∃ x ∈ (runs S lim main schedule).seen, o = offerOf M x ∧ o.span.isSome := by
    intro o ho
    obtain ⟨r, hr⟩ := mem_since ops o ho
    obtain ⟨x, hx, h⟩ := hops o r hr
    rw [Exemplar.C39_filter] at h
    split at h
    · rename_i hc
      rw [List.mem_singleton] at h
      injection h with h1
      exact ⟨x, hx, h1, h1 ▸ hc.1⟩
    · cases h
  obtain ⟨l, hl, hcol⟩ := Exemplar.C39_trace_based size hsize ops point fun o ho => by obtain ⟨_, _, _, h⟩ := hops' o ho; exact h
  rw [hcol] at he
  obtain ⟨o, ho, rfl⟩ := List.mem_map.1 he
  obtain ⟨x, hx, rfl, hsp⟩ := hops' o (hl.subset ho)
  obtain ⟨evs, hsub, -, hbel, hsees⟩ := Tasks.C92_tree S lim main hS hd schedule
  obtain ⟨k, hk, rfl⟩ := List.getElem_of_mem hx
  have hk' : k < (looksOf evs).length := by rw [← hsees.length_eq]; exact hk
  have hsee := List.Forall₂.get hsees hk hk'
  rw [List.get_eq_getElem, List.get_eq_getElem] at hsee
  have hsites : ∀ y ∈ sitesOf evs, y ∈ sitesOf (events none main) := fun y hy => by
    obtain ⟨l, hl1, hl2⟩ := hsub
    exact (hl2.filterMap _).subset ((hl1.filterMap _).mem_iff.2 hy)
  have hlooks : ∀ y ∈ looksOf evs, y ∈ looksOf (events none main) := fun y hy => by
    obtain ⟨l, hl1, hl2⟩ := hsub
    exact (hl2.filterMap _).subset ((hl1.filterMap _).mem_iff.2 hy)
  have hids := sees_ids hsites hd hbel hsee
  refine ⟨(looksOf evs)[k], hlooks _ (List.getElem_mem hk'), ?_, ?_, ?_⟩
  · show M.value _ = _; rw [hsee.1]
  · show M.time _ = _; rw [hsee.1]
  · generalize (looksOf evs)[k] = y at *
    generalize (runs S lim main schedule).seen[k] = x at *
    have hinv : x.2 ≠ SpanContext.invalid := by
      intro h
      simp [offerOf, h] at hsp
    cases hy : y.2 with
    | none => rw [hy] at hids; exact absurd hids hinv
    | some l =>
      rw [hy] at hids
      obtain ⟨z, hz, rfl, h1, h2, h3, -⟩ := hids
      refine ⟨z, hz, rfl, x.2.spanId.toNat, x.2.traceId.toNat, ?_, ?_, ?_, ?_⟩
      · simp [Exemplar.exemplarOf, offerOf, hinv]
      · simp [Exemplar.exemplarOf, offerOf, hinv]
      · rw [Int.toNat_of_nonneg (by omega), h1]
      · rw [Int.toNat_of_nonneg (by omega)]; exact h2

/-- **C97** A measurement made with a context that is not empty is attributed to that context's span, one made without to the current span. -/
theorem C97_context (current : Ctx) : measureCtx none current = current ∧ ∀ c : Ctx, c ≠ [] → measureCtx (some c) current = c := by
  refine ⟨rfl, fun c hc => ?_⟩
  cases c with
  | nil => exact absurd rfl hc
  | cons x c => rfl

/-- **C97**, refuted for the empty context: a measurement made explicitly outside any span (`context=Context()`) is attributed to the current span after all. -/
theorem C97_empty_context_violated (sc : SpanContext) (c : Ctx) : Ctx.currentSpan [] = SpanContext.invalid ∧ Ctx.currentSpan (measureCtx (some []) (Ctx.setSpan c sc)) = sc :=
  ⟨rfl, (Ctx.C06_current_span c sc).1⟩

private def o (n : Nat) (new end_ : Bool) : Tracer.Opts := ⟨['s'], 0, [], [], new, true, true, end_, n, n + 100, 1, 2, 3⟩
/-- A thread and a task; five logging calls, one of them after the block. -/
private def exProg : Prog :=
  .seq (.block 1 (o 1 false true) (.seq (.look 5) (.seq (.spawn true (.seq (.look 6) (.block 2 (o 2 false true) (.look 7))))
    (.seq (.spawn false (.look 8)) (.tryExcept (.block 4 (o 4 false true) (.seq (.look 9) (.raise (.exception ⟨['E'], [], [], []⟩ ['E'])))) .skip))))) (.look 10)
private def exLim : SpanLimits := ⟨none, none, none, none, none, none, none, none⟩
private def exLog : Logging := ⟨fun _ => none, {}, none, 3, fun n => { LoggingHandler.sample with message := some [Char.ofNat (48 + n)], excInfo := none, vars := [] }, fun n => n⟩
private def exC : Batch.Cfg Traced.Item := Traced.cfg 4 3 (by decide) (by decide)
private def exCL : Batch.Cfg Item := cfg 6 2 (by decide) (by decide)
private def exM1 : List Move := (List.replicate 40 [.traced (.task 0), .traced (.task 1), .traced (.task 2), .traced (.proc (.append 0)), .proc (.append 0), .proc .worker, .traced (.proc .worker)]).flatten
private def exTail : List Move := List.replicate 30 (.traced (.proc .worker)) ++ List.replicate 3 (.traced (.proc .shutJoin)) ++ List.replicate 30 (.proc .worker) ++ List.replicate 3 (.proc .shutJoin)
private def exAll : List Move := exM1 ++ .traced (.proc .shutCall) :: .proc .shutCall :: exTail
private def exRun (l : List Move) : State := steps Sampling.alwaysOn exLim exC exLog exCL (.init exProg) l
private def exM2 : List Move := exM1 ++ [.traced (.proc .shutCall)]

private theorem fin_of {l : List Move} (h : ((exRun l).traced.tasks.tasks.all fun k => match k with | ⟨.ret _, []⟩ => true | _ => false) = true) : (exRun l).traced.tasks.finished := by
  intro k hk
  have := List.all_eq_true.1 h k hk
  obtain ⟨ctl, st⟩ := k
  cases ctl <;> cases st <;> first | exact ⟨_, rfl⟩ | cases this

private theorem shut_of {σ : Type} {l : List (Batch.Ev σ)} (h : (l.any fun e => match e with | .shutdown => true | _ => false) = true) : Batch.Ev.shutdown ∈ l := by
  obtain ⟨e, he, h⟩ := List.any_eq_true.1 h
  cases e with
  | shutdown => exact he
  | «export» b => cases h

/-- Three blocks, a thread and a task, six logging calls, two of them in no block: the hypotheses of `C97_logs` and `C97_joined` hold; the records and the spans arrive. -/
example : KeepsState Sampling.alwaysOn ∧ (∀ q, (Sampling.alwaysOn q).decision = .recordAndSample) ∧
    (∀ x ∈ sitesOf (events none exProg), Draws x.opts) ∧ (∀ i s, Event.op i s ∈ events none exProg → Traced.Quiet s) ∧
    (∀ y ∈ looksOf (events none exProg), Printable exLog.fmt (exLog.record y.1) ∧
      LoggingHandler.body exLog.fmt (exLog.record y.1) = some (.text [Char.ofNat (48 + y.1)])) ∧ Numbered (sitesOf (events none exProg)) ∧
    exAll = exM1 ++ .traced (.proc .shutCall) :: .proc .shutCall :: exTail ∧ exAll = exM2 ++ .proc .shutCall :: exTail ∧
    (exRun exM1).traced.tasks.finished ∧ (exRun exM1).traced.batch.done = false ∧ (exRun exM1).traced.batch.inflight = [] ∧
    (exRun exM2).traced.tasks.finished ∧ (exRun exM2).logs.done = false ∧ (exRun exM2).logs.inflight = [] ∧
    Batch.Ev.shutdown ∈ (exRun exAll).traced.batch.log ∧ Batch.Ev.shutdown ∈ (exRun exAll).logs.log ∧
    ((sitesOf (events none exProg)).filter ends?).length = 3 ∧ (looksOf (events none exProg)).length = 6 ∧
    ((sitesOf (events none exProg)).map fun x => x.opts.spanDraw).Nodup ∧
    (batches (exRun exAll).logs.log).map (fun b => b.map fun x => (x.1, x.2.2.spanId, x.2.2.traceId)) =
      [[(5, 102, 2), (6, 102, 2)], [(8, 0, 0), (7, 103, 2)], [(9, 105, 2), (10, 0, 0)]] ∧
    (batches (exRun exAll).traced.batch.log).map (fun b => b.map fun x => (x.1, x.2.ctx.spanId, x.2.ctx.traceId)) = [[(1, 103, 2)], [(2, 105, 2), (0, 102, 2)]] := by
  refine ⟨Tracer.keeps_builtin.1, fun _ => rfl, ?_, ?_, ?_, ?_, rfl, ?_, fin_of (by decide +kernel), by decide +kernel, ?_, fin_of (by decide +kernel), by decide +kernel, ?_,
    shut_of (by decide +kernel), shut_of (by decide +kernel), rfl, rfl, ?_, by decide +kernel, by decide +kernel⟩
  · intro x hx; simp [events, sitesOf, exProg, Tasks.raises, Tasks.thenRaises, Tasks.caught] at hx; rcases hx with rfl | rfl | rfl <;> simp [Draws, o]
  · intro i s h; simp [events, exProg, Tasks.raises, Tasks.thenRaises, Tasks.caught] at h
  · intro y _
    have hb : LoggingHandler.body exLog.fmt (exLog.record y.1) = some (.text [Char.ofNat (48 + y.1)]) := rfl
    refine ⟨⟨fun e l h => ?_, by rw [hb]; exact fun h => by cases h⟩, hb⟩
    have h : (none : Option LoggingHandler.ExcInfo) = some e := h
    cases h
  · show (([1, 2, 4] : List Nat)).Nodup; decide
  · simp [exAll, exM2]
  · have h : (exRun exM1).traced.batch.inflight.length = 0 := by decide +kernel
    exact List.length_eq_zero_iff.1 h
  · have h : (exRun exM2).logs.inflight.length = 0 := by decide +kernel
    exact List.length_eq_zero_iff.1 h
  · show (([101, 102, 104] : List Nat)).Nodup; decide

private def exMeas : Measuring Int := ⟨fun n => n, fun n => n, fun _ => none⟩
private def exSched : List Nat := (List.replicate 40 [0, 1, 2]).flatten
/-- The same program measuring: the exemplars are of the measurements in blocks. -/
example : (((Exemplar.afterSimple 8 ((runs Sampling.alwaysOn exLim exProg exSched).seen.flatMap fun x =>
      Exemplar.Filter.offers .traceBased (offerOf exMeas x) x.2.sampled 0)).collect []).1.map fun e => (e.value, e.spanId, e.traceId)) =
    [(5, some 102, some 2), (6, some 102, some 2), (7, some 103, some 2), (9, some 105, some 2)] := by decide +kernel

end Correlated
end Otel
