import Verif.Model.OpenCensus
import Verif.Props.OpenTracing
import Mathlib.Tactic.SplitIfs
/-!
# C85: the OpenCensus shim
-/
namespace Otel
namespace OpenCensus
open UseSpan (Esc onError)
open Sampling
open Tracer (FreshRt notes)
open Span (Exc exitSteps)
open OpenTracing (RtKeeps push_pop attach_fresh Same Local startSpan_local)

/-! ## Specification: programs read lexically

No context variables: the current span is the one whose `with` block is the innermost around the code, of either API; OpenCensus's current span is that of the
innermost OpenCensus block. -/

/-- The spans, processor calls and observations (the context variables of `w` are not used), and which spans are those of the OpenCensus blocks. -/
structure Lex where
  w : Tracer.World
  own : List Nat

/-- A new span with a given parent (the invalid one for a new trace). -/
def newSpan (S : Sampler) (lim : SpanLimits) (parent : SpanContext) (tr sp : Nat) (name : Str) (kind : Nat) (attrs : Span.RawAttrs) (links : RawLinks) (ts : Int)
    (w : Tracer.World) : Tracer.World :=
  match startSpan S lim [tr + 1] [sp + 1] (Ctx.setSpan [] parent) name kind attrs links ts with
  | some s => { w with spans := w.spans ++ [s], log := w.log ++ (notes s).map fun n => (w.spans.length, n) }
  | none => w

/-- The context of the span of an OpenCensus block. -/
def Lex.ctxOf (v : Lex) (n : Option Nat) : SpanContext :=
  match n.bind (fun n => v.own[n]?) with
  | some i => v.w.ctxOf i
  | none => SpanContext.invalid

/-- The meaning of a program of blocks, inside a block whose span is `cur` (of either API), `mine` being the innermost OpenCensus block. -/
def lex (E : Env) (lim : SpanLimits) (S : Sampler) : SpanContext → Option Nat → Prog → Lex → Lex × Option Esc
  | _, _, .skip, v => (v, none)
  | cur, _, .look, v => ({ v with w := { v.w with seen := v.w.seen ++ [cur] } }, none)
  | _, mine, .ask, v => ({ v with w := { v.w with seen := v.w.seen ++ [v.ctxOf mine] } }, none)
  | _, mine, .askOc, v => ({ v with w := { v.w with seen := v.w.seen ++ [v.ctxOf mine] } }, none)
  | _, _, .op n m, v =>
    match v.own[n]?, m.steps E.offset with
    | some i, some l => ({ v with w := v.w.steps i l }, none)
    | some _, none => (v, some E.keyError)
    | none, _ => (v, none)
  | _, mine, .addAttr k x, v =>
    match mine.bind (fun n => v.own[n]?) with
    | some i => ({ v with w := v.w.steps i [.setAttributes [(k, x)]] }, none)
    | none => (v, some E.attributeError)
  | _, _, .raise e, v => (v, some e)
  | cur, mine, .seq a b, v =>
    let q := lex E lim S cur mine a v
    match q.2 with
    | none => lex E lim S cur mine b q.1
    | some e => (q.1, some e)
  | cur, mine, .tryExcept a b, v =>
    let q := lex E lim S cur mine a v
    match q.2 with
    | some (.exception _ _) => lex E lim S cur mine b q.1
    | e => (q.1, e)
  | cur, _, .block o b, v =>
    let i := v.w.spans.length
    let parent := if cur = SpanContext.invalid then (o.tracer.spanContext).getD SpanContext.invalid else cur
    let w := newSpan S lim parent o.traceDraw o.spanDraw o.name 0 [] [] o.tStart v.w
    let q := lex E lim S (w.ctxOf i) (some v.own.length) b ⟨w, v.own ++ [i]⟩
    ({ q.1 with w := q.1.w.steps i (exitSteps (q.1.w.recordingAt i) true true (q.2.map E.info) o.tExc o.tEnd) }, q.2)
  | cur, mine, .otelBlock o b, v =>
    let i := v.w.spans.length
    let w := newSpan S lim (if o.newTrace then SpanContext.invalid else cur) o.traceDraw o.spanDraw o.name o.kind o.attributes o.links o.tStart v.w
    let q := lex E lim S (w.ctxOf i) mine b ⟨w, v.own⟩
    let w := q.1.w.steps i (onError (q.1.w.recordingAt i) o.recordException o.setStatusOnException o.tExc q.2)
    ({ q.1 with w := if o.endOnExit then w.steps i [.end_ o.tEnd, .notifyEnd] else w }, q.2)
  | _, _, .start _, v => (v, none)
  | _, _, .endSpan _, v => (v, none)

/-- Programs made of blocks. -/
def Blocks : Prog → Prop
  | .start _ | .endSpan _ => False
  | .seq a b | .tryExcept a b => Blocks a ∧ Blocks b
  | .block _ b | .otelBlock _ b => Blocks b
  | _ => True

/-! ## Contexts are restored -/

/-- What nested code does: nothing to the context variables of either library. -/
structure Keeps (w w' : World) : Prop where
  rt : RtKeeps w.base.rt w'.base.rt
  oc : ∀ u, w'.oc u = w.oc u
  len : w.shims.length ≤ w'.shims.length
  shims : ∀ n, n < w.shims.length → w'.shims[n]? = w.shims[n]?

theorem Keeps.refl {w : World} (h : FreshRt w.base.rt) : Keeps w w := ⟨RtKeeps.refl h, fun _ => rfl, Nat.le_refl _, fun _ _ => rfl⟩

theorem Keeps.trans {a b c : World} (h : Keeps a b) (h' : Keeps b c) : Keeps a c :=
  ⟨h.rt.trans h'.rt, fun u => (h'.oc u).trans (h.oc u), Nat.le_trans h.len h'.len,
    fun n hn => (h'.shims n (Nat.lt_of_lt_of_le hn h.len)).trans (h.shims n hn)⟩

theorem Keeps.ofBase {w : World} (v : Tracer.World) (h : FreshRt w.base.rt) (hrt : v.rt = w.base.rt) : Keeps w { w with base := v } :=
  ⟨by show RtKeeps _ v.rt; rw [hrt]; exact RtKeeps.refl h, fun _ => rfl, Nat.le_refl _, fun _ _ => rfl⟩

theorem Keeps.cur {w w' : World} (k : Keeps w w') (t : Nat) : w'.cur t = w.cur t := by simp only [World.cur, Runtime.getCurrent, k.rt.value t]

theorem Keeps.current {w w' : World} (k : Keeps w w') (t : Nat) : current w' t = current w t := by simp only [OpenCensus.current, k.cur t]

/-- OpenCensus's own context agrees with the shim's. -/
def Mirror (w : World) (t : Nat) : Prop := w.oc t = current w t

/-- The context attached by `start_span`. -/
def inner (w : World) (t : Nat) (sc : SpanContext) : Ctx := ((w.cur t).setSpan sc).setValue shimKey (.other w.shims.length)

theorem start_eq (S : Sampler) (lim : SpanLimits) (t : Nat) (o : Opts) (w : World) :
    ∃ s, startSpan S lim [o.traceDraw + 1] [o.spanDraw + 1] (parentCtx (w.cur t) o.tracer) o.name 0 [] [] o.tStart = some s ∧
      start S lim t o w =
        { base := { w.base with
            spans := w.base.spans ++ [s], log := w.base.log ++ (notes s).map fun n => (w.base.spans.length, n)
            rt := (w.base.rt.attach t (inner w t s.ctx)).1 }
          shims := w.shims ++ [⟨w.base.spans.length, (w.base.rt.attach t (inner w t s.ctx)).2⟩]
          oc := fun u => if u = t then some w.shims.length else w.oc u } := by
  have : ∃ s, startSpan S lim [o.traceDraw + 1] [o.spanDraw + 1] (parentCtx (w.cur t) o.tracer) o.name 0 [] [] o.tStart = some s := by
    generalize parentCtx (w.cur t) o.tracer = cx
    unfold startSpan
    dsimp only
    cases hv : (Ctx.currentSpan cx).isValid
    · simp only [Bool.false_eq_true, if_false, genId, Option.map_some, Option.bind_some]; split <;> exact ⟨_, rfl⟩
    · simp only [if_true, genId, Option.bind_some]; split <;> exact ⟨_, rfl⟩
  obtain ⟨s, hs⟩ := this
  refine ⟨s, hs, ?_⟩
  unfold start
  rw [hs]
  rfl

theorem inner_span (w : World) (t : Nat) (sc : SpanContext) : (inner w t sc).currentSpan = sc := by
  simp only [inner, Ctx.currentSpan, Ctx.getValue, Ctx.setValue, Ctx.setSpan]
  rw [Dict.get?_set, if_neg (by decide), Dict.get?_set, if_pos rfl]

theorem attached (r : Runtime) (t : Nat) (c : Ctx) : (r.attach t c).1.getCurrent t = c := by
  simp only [Runtime.attach, Runtime.getCurrent, if_true, Option.getD_some]

/-- After `start_span`: the new span is current everywhere. -/
theorem start_cur (S : Sampler) (lim : SpanLimits) (t : Nat) (o : Opts) (w : World) :
    ((start S lim t o w).cur t).currentSpan = (start S lim t o w).base.ctxOf w.base.spans.length ∧
    current (start S lim t o w) t = some w.shims.length ∧ (start S lim t o w).oc t = some w.shims.length := by
  obtain ⟨s, -, he⟩ := start_eq S lim t o w
  rw [he]
  refine ⟨?_, ?_, ?_⟩
  · simp only [World.cur, attached, inner_span, Tracer.World.ctxOf, List.getElem?_concat_length]
  · simp only [current, World.cur, attached, inner, Ctx.getValue, Ctx.setValue]
    rw [Dict.get?_set, if_pos rfl]
  · simp only [if_true]

/-- A block: `start_span`, code that keeps the contexts, and `__exit__` or `end_span`. -/
theorem leave_keeps (S : Sampler) (lim : SpanLimits) (t : Nat) (o : Opts) (w w1 : World) (h : FreshRt w.base.rt) (hm : Mirror w t)
    (hk : Keeps (start S lim t o w) w1) : Keeps w (leave t w.shims.length w1) := by
  obtain ⟨s, -, he⟩ := start_eq S lim t o w
  rw [he] at hk
  obtain ⟨k1, k2, k3, k4⟩ := hk
  dsimp only at k1 k2 k3 k4
  have hsc : w1.shims[w.shims.length]? = some ⟨w.base.spans.length, (w.base.rt.attach t (inner w t s.ctx)).2⟩ := by
    rw [k4 _ (by simp)]; simp
  have hr := push_pop w.base.rt _ t _ h k1
  unfold leave
  rw [hsc]
  dsimp only
  generalize w1.base.rt.detach t (w.base.rt.attach t (inner w t s.ctx)).2 = r at hr
  have hc : current { w1 with base := { w1.base with rt := r } } t = current w t := by
    simp only [current, World.cur, Runtime.getCurrent, hr.value t]
  refine ⟨hr, ?_, ?_, ?_⟩
  · intro u
    dsimp only
    rw [hc]
    by_cases hu : u = t
    · rw [if_pos hu, hu, hm]
    · rw [if_neg hu, k2 u, if_neg hu]
  · simp at k3 ⊢; omega
  · intro n hn
    dsimp only
    rw [k4 n (by simp; omega), List.getElem?_append_left hn]

theorem Keeps.steps {w w' : World} (k : Keeps w w') (i : Nat) (l : List Span.Step) : Keeps w { w' with base := w'.base.steps i l } :=
  k.trans (Keeps.ofBase _ k.rt.fresh (Tracer.steps_ext _ _ _).2.2.1)

theorem exit_eq (t n : Nat) (exc : Option (Exc × Str)) (a b : Int) (w : World) (s : ShimSpan) (h : w.shims[n]? = some s) :
    exitBlock t n exc a b w = leave t n { w with base := w.base.steps s.span (exitSteps (w.base.recordingAt s.span) true true exc a b) } := by
  simp only [exitBlock, h]

theorem start_shim (S : Sampler) (lim : SpanLimits) (t : Nat) (o : Opts) (w w1 : World) (hk : Keeps (start S lim t o w) w1) :
    ∃ s, w1.shims[w.shims.length]? = some s ∧ s.span = w.base.spans.length := by
  obtain ⟨s, -, he⟩ := start_eq S lim t o w
  rw [he] at hk
  rw [hk.shims _ (by simp)]
  exact ⟨_, by simp only [List.getElem?_concat_length]; rfl, rfl⟩

theorem block_keeps (S : Sampler) (lim : SpanLimits) (t : Nat) (o : Opts) (w w1 : World) (exc : Option (Exc × Str)) (h : FreshRt w.base.rt) (hm : Mirror w t)
    (hk : Keeps (start S lim t o w) w1) : Keeps w (exitBlock t w.shims.length exc o.tExc o.tEnd w1) := by
  obtain ⟨s, h1, -⟩ := start_shim S lim t o w w1 hk
  rw [exit_eq t _ exc _ _ w1 s h1]
  exact leave_keeps S lim t o w _ h hm (hk.steps _ _)

theorem start_fresh (S : Sampler) (lim : SpanLimits) (t : Nat) (o : Opts) (w : World) (h : FreshRt w.base.rt) : FreshRt (start S lim t o w).base.rt := by
  obtain ⟨s, -, he⟩ := start_eq S lim t o w
  rw [he]
  exact attach_fresh _ _ _ h

/-- Entering an OpenTelemetry block leaves OpenCensus's current span. -/
theorem otel_current (w : World) (v : Tracer.World) (t : Nat) (sc : SpanContext) (hv : v.rt = w.base.rt) :
    current { w with base := { v with rt := (v.rt.attach t (Ctx.setSpan (v.rt.getCurrent t) sc)).1 } } t = current w t := by
  simp only [current, World.cur, attached, Ctx.getValue, Ctx.setValue, Ctx.setSpan]
  rw [Dict.get?_set, if_neg (by decide), hv]

theorem run_keeps (E : Env) (lim : SpanLimits) (S : Sampler) (t : Nat) (p : Prog) (w : World) (hp : Blocks p) (h : FreshRt w.base.rt) (hm : Mirror w t) :
    Keeps w (run E lim S t p w).1 := by
  induction p generalizing w with
  | skip => exact Keeps.refl h
  | look => exact Keeps.ofBase _ h rfl
  | ask => exact Keeps.ofBase _ h rfl
  | askOc => exact Keeps.ofBase _ h rfl
  | op n m =>
    simp only [run]
    split
    · exact (Keeps.refl h).steps _ _
    · exact Keeps.refl h
    · exact Keeps.refl h
  | addAttr k v =>
    simp only [run]
    split
    · exact (Keeps.refl h).steps _ _
    · exact Keeps.refl h
  | raise e => exact Keeps.refl h
  | seq a b iha ihb =>
    have ka := iha w hp.1 h hm
    simp only [run]
    split
    · exact ka.trans (ihb _ hp.2 ka.rt.fresh (by unfold Mirror; rw [ka.oc, ka.current, hm]))
    · exact ka
  | tryExcept a b iha ihb =>
    have ka := iha w hp.1 h hm
    simp only [run]
    split
    · exact ka.trans (ihb _ hp.2 ka.rt.fresh (by unfold Mirror; rw [ka.oc, ka.current, hm]))
    · exact ka
  | start o => exact hp.elim
  | endSpan e => exact hp.elim
  | block o b ih =>
    simp only [run]
    obtain ⟨-, c2, c3⟩ := start_cur S lim t o w
    exact block_keeps S lim t o w _ _ h hm (ih _ hp (start_fresh S lim t o w h) (by unfold Mirror; rw [c2, c3]))
  | otelBlock o b ih =>
    simp only [run]
    obtain ⟨s1, -⟩ := OpenTracing.startIn_keeps S lim t o w.base
    generalize hv : Tracer.startIn S lim t o w.base = v at s1
    have hfv : FreshRt v.rt := by rw [s1]; exact h
    have hcur := otel_current w v t (v.ctxOf w.base.spans.length) s1
    generalize ha : v.rt.attach t (Ctx.setSpan (v.rt.getCurrent t) (v.ctxOf w.base.spans.length)) = a at hcur
    have hfa : FreshRt a.1 := by rw [← ha]; exact attach_fresh _ _ _ hfv
    obtain ⟨k1, k2, k3, k4⟩ := ih { w with base := { v with rt := a.1 } } hp hfa (by unfold Mirror; rw [hcur]; exact hm)
    dsimp only at k1 k2 k3 k4
    generalize run E lim S t b { w with base := { v with rt := a.1 } } = q at k1 k2 k3 k4
    have hpop : RtKeeps w.base.rt (q.1.base.rt.detach t a.2) := by
      rw [← s1, ← ha]; rw [← ha] at k1; exact push_pop v.rt _ t _ hfv k1
    refine ⟨?_, k2, k3, k4⟩
    dsimp only
    split
    · rw [(Tracer.steps_ext _ _ _).2.2.1, (Tracer.steps_ext _ _ _).2.2.1]; exact hpop
    · rw [(Tracer.steps_ext _ _ _).2.2.1]; exact hpop

/-- **C85 (blocks nest).** Whatever a program does with `with tracer.span(...)` blocks, OpenTelemetry blocks and methods of spans, and however it ends, afterwards
every thread's OpenTelemetry context is what it was, and so are OpenCensus's current spans, in the shim and in OpenCensus's own execution context. -/
theorem C85_restores (E : Env) (lim : SpanLimits) (S : Sampler) (t : Nat) (p : Prog) (w : World) (hp : Blocks p) (h : FreshRt w.base.rt)
    (hm : w.oc t = current w t) (u : Nat) :
    (run E lim S t p w).1.cur u = w.cur u ∧ current (run E lim S t p w).1 u = current w u ∧ (run E lim S t p w).1.oc u = w.oc u := by
  have k := run_keeps E lim S t p w hp h hm
  exact ⟨k.cur u, k.current u, k.oc u⟩

/-! ## Programs of blocks mean what they say -/

/-- In step. -/
structure Sim (t : Nat) (cur : SpanContext) (mine : Option Nat) (w : World) (v : Lex) : Prop where
  same : Same w.base v.w
  own : v.own = w.shims.map ShimSpan.span
  span : (w.cur t).currentSpan = cur
  shim : current w t = mine
  oc : w.oc t = mine
  fresh : FreshRt w.base.rt

theorem Sim.after {t : Nat} {cur : SpanContext} {mine : Option Nat} {w w' : World} {v v' : Lex} (h : Sim t cur mine w v) (k : Keeps w w') (hs : Same w'.base v'.w)
    (ho : v'.own = w'.shims.map ShimSpan.span) : Sim t cur mine w' v' :=
  ⟨hs, ho, by rw [k.cur, h.span], by rw [k.current, h.shim], by rw [k.oc, h.oc], k.rt.fresh⟩

theorem newSpan_eq (S : Sampler) (lim : SpanLimits) (parent : SpanContext) (tr sp : Nat) (name : Str) (kind : Nat) (attrs : Span.RawAttrs) (links : RawLinks)
    (ts : Int) (w : Tracer.World) (s : Started)
    (h : startSpan S lim [tr + 1] [sp + 1] (Ctx.setSpan [] parent) name kind attrs links ts = some s) :
    newSpan S lim parent tr sp name kind attrs links ts w =
      { w with spans := w.spans ++ [s], log := w.log ++ (notes s).map fun n => (w.spans.length, n) } := by
  unfold newSpan
  rw [h]

theorem single_cur (sc : SpanContext) : (Ctx.setSpan [] sc).currentSpan = sc := by
  simp only [Ctx.currentSpan, Ctx.getValue, Ctx.setValue, Ctx.setSpan]
  rw [Dict.get?_set, if_pos rfl]

theorem parentCtx_cur (c : Ctx) (tr : OcCtx) :
    (parentCtx c tr).currentSpan = if c.currentSpan = SpanContext.invalid then (tr.spanContext).getD SpanContext.invalid else c.currentSpan := by
  unfold parentCtx
  split
  · rename_i h
    cases tr.spanContext with
    | none => exact h
    | some sc =>
      simp only [Ctx.currentSpan, Ctx.getValue, Ctx.setValue, Ctx.setSpan, Option.getD_some]
      rw [Dict.get?_set, if_pos rfl]
  · rfl

theorem ownAt {w : World} {v : Lex} (h : v.own = w.shims.map ShimSpan.span) (n : Nat) : v.own[n]? = (w.shims[n]?).map ShimSpan.span := by
  rw [h, List.getElem?_map]

theorem ctxOf_same {w : World} {v : Lex} (hs : Same w.base v.w) (ho : v.own = w.shims.map ShimSpan.span) (n : Option Nat) : ctxOfShim w n = v.ctxOf n := by
  unfold ctxOfShim Lex.ctxOf
  cases n with
  | none => rfl
  | some n =>
    simp only [Option.bind_some]
    rw [ownAt ho n]
    cases w.shims[n]? with
    | none => rfl
    | some s => exact hs.ctxOf _

theorem see {w : World} {v : Lex} (hs : Same w.base v.w) (x y : SpanContext) (h : x = y) :
    Same { w.base with seen := w.base.seen ++ [x] } { v.w with seen := v.w.seen ++ [y] } :=
  ⟨hs.spans, hs.log, by simp only [hs.seen, h]⟩

theorem leave_base (t n : Nat) (w : World) : Same (leave t n w).base w.base ∧ (leave t n w).shims = w.shims := by
  unfold leave
  split
  · exact ⟨⟨rfl, rfl, rfl⟩, rfl⟩
  · exact ⟨⟨rfl, rfl, rfl⟩, rfl⟩

theorem Same.symm' {a b : Tracer.World} (h : Same a b) : Same b a := ⟨h.spans.symm, h.log.symm, h.seen.symm⟩
theorem Same.trans' {a b c : Tracer.World} (h : Same a b) (h' : Same b c) : Same a c := ⟨h.spans.trans h'.spans, h.log.trans h'.log, h.seen.trans h'.seen⟩

theorem run_sim (E : Env) (lim : SpanLimits) (S : Sampler) (hS : Local S) (t : Nat) (p : Prog) (hp : Blocks p) (cur : SpanContext) (mine : Option Nat) (w : World)
    (v : Lex) (h : Sim t cur mine w v) :
    Same (run E lim S t p w).1.base (lex E lim S cur mine p v).1.w ∧
    (lex E lim S cur mine p v).1.own = (run E lim S t p w).1.shims.map ShimSpan.span ∧
    (run E lim S t p w).2 = (lex E lim S cur mine p v).2 := by
  induction p generalizing cur mine w v with
  | skip => exact ⟨h.same, h.own, rfl⟩
  | look => exact ⟨see h.same _ _ h.span, h.own, rfl⟩
  | ask => exact ⟨see h.same _ _ (by rw [h.shim, ctxOf_same h.same h.own]), h.own, rfl⟩
  | askOc => exact ⟨see h.same _ _ (by rw [h.oc, ctxOf_same h.same h.own]), h.own, rfl⟩
  | op n m =>
    simp only [run, lex]
    rw [ownAt h.own n]
    cases w.shims[n]? with
    | none => exact ⟨h.same, h.own, rfl⟩
    | some s =>
      cases m.steps E.offset with
      | none => exact ⟨h.same, h.own, rfl⟩
      | some l => exact ⟨h.same.steps _ _, h.own, rfl⟩
  | addAttr k x =>
    simp only [run, lex]
    rw [h.shim]
    cases mine with
    | none => exact ⟨h.same, h.own, rfl⟩
    | some n =>
      simp only [Option.bind_some]
      rw [ownAt h.own n]
      cases w.shims[n]? with
      | none => exact ⟨h.same, h.own, rfl⟩
      | some s => exact ⟨h.same.steps _ _, h.own, rfl⟩
  | raise e => exact ⟨h.same, h.own, rfl⟩
  | seq a b iha ihb =>
    obtain ⟨s1, s2, s3⟩ := iha hp.1 cur mine w v h
    have ka := run_keeps E lim S t a w hp.1 h.fresh (by unfold Mirror; rw [h.oc, h.shim])
    simp only [run, lex]
    rw [← s3]
    cases he : (run E lim S t a w).2 with
    | none => exact ihb hp.2 cur mine _ _ (h.after ka s1 s2)
    | some e => exact ⟨s1, s2, rfl⟩
  | tryExcept a b iha ihb =>
    obtain ⟨s1, s2, s3⟩ := iha hp.1 cur mine w v h
    have ka := run_keeps E lim S t a w hp.1 h.fresh (by unfold Mirror; rw [h.oc, h.shim])
    simp only [run, lex]
    rw [← s3]
    cases he : (run E lim S t a w).2 with
    | none => exact ⟨s1, s2, rfl⟩
    | some e =>
      cases e with
      | exception x y => exact ihb hp.2 cur mine _ _ (h.after ka s1 s2)
      | base n => exact ⟨s1, s2, rfl⟩
  | start o => exact hp.elim
  | endSpan e => exact hp.elim
  | block o b ih =>
    simp only [run, lex]
    obtain ⟨s, hs, he⟩ := start_eq S lim t o w
    obtain ⟨c1, c2, c3⟩ := start_cur S lim t o w
    have hs' := hs
    rw [startSpan_local S hS lim _ _ _ (Ctx.setSpan [] (if cur = SpanContext.invalid then (o.tracer.spanContext).getD SpanContext.invalid else cur)) _ _ _ _ _
      (by rw [parentCtx_cur, single_cur, h.span])] at hs'
    rw [newSpan_eq _ _ _ _ _ _ _ _ _ _ _ s hs']
    have hsame : Same (start S lim t o w).base
        { v.w with spans := v.w.spans ++ [s], log := v.w.log ++ (notes s).map fun n => (v.w.spans.length, n) } := by
      rw [he]
      exact ⟨by simp only [h.same.spans], by simp only [h.same.log, h.same.spans], h.same.seen⟩
    have hlen : v.own.length = w.shims.length := by rw [h.own, List.length_map]
    have hi : v.w.spans.length = w.base.spans.length := by rw [h.same.spans]
    have sim2 : Sim t ((start S lim t o w).base.ctxOf w.base.spans.length) (some w.shims.length) (start S lim t o w)
        ⟨{ v.w with spans := v.w.spans ++ [s], log := v.w.log ++ (notes s).map fun n => (v.w.spans.length, n) }, v.own ++ [v.w.spans.length]⟩ := by
      refine ⟨hsame, ?_, c1, c2, c3, start_fresh S lim t o w h.fresh⟩
      rw [he]
      simp only [List.map_append, List.map_cons, List.map_nil, h.own, hi]
    have hc : Tracer.World.ctxOf { v.w with spans := v.w.spans ++ [s], log := v.w.log ++ (notes s).map fun n => (v.w.spans.length, n) } v.w.spans.length =
        (start S lim t o w).base.ctxOf w.base.spans.length := by rw [hsame.ctxOf, hi]
    rw [hc, hlen]
    obtain ⟨s1, s2, s3⟩ := ih hp _ _ _ _ sim2
    have kb := run_keeps E lim S t b _ hp (start_fresh S lim t o w h.fresh) (by unfold Mirror; rw [c2, c3])
    obtain ⟨sh, g1, g2⟩ := start_shim S lim t o w _ kb
    generalize run E lim S t b (start S lim t o w) = q at s1 s2 s3 g1
    generalize lex E lim S _ _ b _ = r at s1 s2 s3
    rw [exit_eq t _ _ _ _ q.1 sh g1, g2, hi, ← s3]
    obtain ⟨l1, l2⟩ := leave_base t w.shims.length
      { q.1 with base := q.1.base.steps w.base.spans.length (exitSteps (q.1.base.recordingAt w.base.spans.length) true true (q.2.map E.info) o.tExc o.tEnd) }
    refine ⟨Same.trans' l1 ?_, ?_, rfl⟩
    · dsimp only
      rw [s1.recordingAt]
      exact s1.steps _ _
    · rw [l2]; exact s2
  | otelBlock o b ih =>
    simp only [run, lex]
    obtain ⟨s, hs, he⟩ := Tracer.startIn_eq S lim t o w.base
    obtain ⟨r0, -⟩ := OpenTracing.startIn_keeps S lim t o w.base
    have hs' := hs
    rw [startSpan_local S hS lim _ _ _ (Ctx.setSpan [] (if o.newTrace then SpanContext.invalid else cur)) _ _ _ _ _
      (by rw [single_cur]; split; rfl; exact h.span)] at hs'
    rw [newSpan_eq _ _ _ _ _ _ _ _ _ _ _ s hs']
    have hst : Same (Tracer.startIn S lim t o w.base)
        { v.w with spans := v.w.spans ++ [s], log := v.w.log ++ (notes s).map fun n => (v.w.spans.length, n) } := by
      rw [he]
      exact ⟨by simp only [h.same.spans], by simp only [h.same.log, h.same.spans], h.same.seen⟩
    have hi : v.w.spans.length = w.base.spans.length := by rw [h.same.spans]
    have hcur := otel_current w (Tracer.startIn S lim t o w.base) t ((Tracer.startIn S lim t o w.base).ctxOf w.base.spans.length) r0
    generalize Tracer.startIn S lim t o w.base = w1 at hst r0 hcur
    generalize hv1 : ({ v.w with spans := v.w.spans ++ [s], log := v.w.log ++ (notes s).map fun n => (v.w.spans.length, n) } : Tracer.World) = v1 at hst
    rw [hi]
    generalize w.base.spans.length = i at hcur
    have hfw1 : FreshRt w1.rt := by rw [r0]; exact h.fresh
    have sim2 : Sim t (v1.ctxOf i) mine { w with base := { w1 with rt := (w1.rt.attach t (Ctx.setSpan (w1.rt.getCurrent t) (w1.ctxOf i))).1 } } ⟨v1, v.own⟩ := by
      refine ⟨⟨hst.spans, hst.log, hst.seen⟩, h.own, ?_, by rw [hcur]; exact h.shim, h.oc, attach_fresh _ _ _ hfw1⟩
      simp only [World.cur, attached, Ctx.currentSpan, Ctx.setSpan, Ctx.getValue, Ctx.setValue, Dict.get?_set, if_true]
      exact hst.ctxOf i
    obtain ⟨s1, s2, s3⟩ := ih hp _ _ _ _ sim2
    generalize run E lim S t b _ = q at s1 s2 s3
    generalize lex E lim S _ _ b _ = r at s1 s2 s3
    refine ⟨?_, s2, s3⟩
    rw [← s3]
    generalize q.1.base.rt.detach t (w1.rt.attach t (Ctx.setSpan (w1.rt.getCurrent t) (w1.ctxOf i))).2 = ra
    have f1 : Same { q.1.base with rt := ra } r.1.w := ⟨s1.spans, s1.log, s1.seen⟩
    have f2 := f1.steps i (onError (Tracer.World.recordingAt { q.1.base with rt := ra } i) o.recordException o.setStatusOnException o.tExc q.2)
    rw [f1.recordingAt i] at f2
    rw [f1.recordingAt i]
    cases o.endOnExit with
    | true => simp only [if_true]; exact f2.steps _ _
    | false => simp only [Bool.false_eq_true, if_false]; exact f2

/-- **C85 (the same traces).** For every program of `with tracer.span(...)` blocks, OpenTelemetry blocks, methods of spans, questions for the current span of either
library, exceptions raised and caught: the spans started, their ids, parents, attributes, events, status and times, the calls of the span processors, the answers
and the exception are those of the program read lexically — a span's parent is the span of the innermost block around it, of either API, and outside all blocks
the span context given to the OpenCensus tracer, if it has a span id. -/
theorem C85_same_traces (E : Env) (lim : SpanLimits) (S : Sampler) (hS : Local S) (t : Nat) (p : Prog) (hp : Blocks p) :
    (run E lim S t p World.init).1.base.spans = (lex E lim S SpanContext.invalid none p ⟨Tracer.World.init, []⟩).1.w.spans ∧
    (run E lim S t p World.init).1.base.log = (lex E lim S SpanContext.invalid none p ⟨Tracer.World.init, []⟩).1.w.log ∧
    (run E lim S t p World.init).1.base.seen = (lex E lim S SpanContext.invalid none p ⟨Tracer.World.init, []⟩).1.w.seen ∧
    (run E lim S t p World.init).2 = (lex E lim S SpanContext.invalid none p ⟨Tracer.World.init, []⟩).2 := by
  have h : Sim t SpanContext.invalid none World.init ⟨Tracer.World.init, []⟩ := ⟨⟨rfl, rfl, rfl⟩, rfl, rfl, rfl, rfl, Tracer.init_fresh⟩
  obtain ⟨h1, h2, h3⟩ := run_sim E lim S hS t p hp _ _ _ _ h
  exact ⟨h1.spans, h1.log, h1.seen, h3⟩

/-- **C85 (`start_span` and `end_span`).** Called around a program of blocks that ends normally, they do exactly what `with tracer.span(...)` does. -/
theorem C85_start_end (E : Env) (lim : SpanLimits) (S : Sampler) (t : Nat) (o : Opts) (b : Prog) (w : World) (hb : Blocks b) (h : FreshRt w.base.rt)
    (hn : (run E lim S t b (start S lim t o w)).2 = none) :
    run E lim S t (.seq (.start o) (.seq b (.endSpan o.tEnd))) w = run E lim S t (.block o b) w := by
  obtain ⟨-, c2, c3⟩ := start_cur S lim t o w
  have kb := run_keeps E lim S t b _ hb (start_fresh S lim t o w h) (by unfold Mirror; rw [c2, c3])
  obtain ⟨sh, g1, g2⟩ := start_shim S lim t o w _ kb
  have hc : current (run E lim S t b (start S lim t o w)).1 t = some w.shims.length := by rw [kb.current, c2]
  simp only [run, hn]
  generalize run E lim S t b (start S lim t o w) = q at g1 hc
  refine Prod.ext ?_ rfl
  rw [exit_eq t _ _ _ _ q.1 sh g1]
  simp only [endSpan, hc, g1, Option.map_none]
  rfl

/-- **C85 (the parent).** A span started by the shim continues the trace of the current span, whichever API made it current; without one, the trace of the OpenCensus
tracer's span context, if that is valid; else it is a root. -/
theorem C85_parent (S : Sampler) (lim : SpanLimits) (t : Nat) (o : Opts) (w : World) (cur : SpanContext)
    (hcur : cur = if (w.cur t).currentSpan = SpanContext.invalid then (o.tracer.spanContext).getD SpanContext.invalid else (w.cur t).currentSpan) :
    ∃ s, (start S lim t o w).base.spans = w.base.spans ++ [s] ∧
      s.ctx.spanId = (o.spanDraw : Int) + 1 ∧ s.ctx.isRemote = false ∧
      (cur.isValid = true → s.ctx.traceId = cur.traceId ∧ ∀ x, s = .recording x → x.data.parent = some cur) ∧
      (cur.isValid = false → s.ctx.traceId = (o.traceDraw : Int) + 1 ∧ ∀ x, s = .recording x → x.data.parent = none) := by
  obtain ⟨s, h1, h2⟩ := start_eq S lim t o w
  refine ⟨s, by rw [h2], ?_⟩
  rw [hcur, ← parentCtx_cur]
  generalize parentCtx (w.cur t) o.tracer = c at h1
  refine ⟨?_, ?_, fun hv => C23_child _ _ _ _ _ _ _ _ _ _ _ h1 hv, fun hv => ?_⟩
  · obtain ⟨tr, sid, rest, g1, -, -, g4⟩ := startSpan_spec _ _ _ _ _ _ _ _ _ _ _ h1
    dsimp only at g4
    rw [g4, started_ctx]
    simp only [genId, Option.some.injEq, Prod.mk.injEq] at g1
    rw [← g1.1]; rfl
  · obtain ⟨tr, sid, rest, g1, -, -, g4⟩ := startSpan_spec _ _ _ _ _ _ _ _ _ _ _ h1
    dsimp only at g4
    rw [g4, started_ctx]
  · obtain ⟨⟨z, n, r, h3, h4, h5⟩, h6⟩ := C23_root _ _ _ _ _ _ _ _ _ _ _ h1 hv
    refine ⟨?_, h6⟩
    rw [h5]
    cases z with
    | zero => simp only [List.replicate_zero, List.nil_append, List.cons.injEq] at h3; rw [← h3.1]; simp
    | succ z => simp [List.replicate_succ] at h3

/-- **C85 (the tracer's context).** What the OpenCensus span context becomes: the numbers its ids denote, whether it came from a header, the sampled flag, and the
entries of its trace state. -/
theorem C85_tracer_context (c : OcCtx) (s : Str) (h : c.spanId = some s) :
    ∃ sc, c.spanContext = some sc ∧ sc.traceId = hexVal c.traceId ∧ sc.spanId = hexVal s ∧ sc.isRemote = c.fromHeader ∧ sc.sampled = c.enabled ∧
      (c.tracestate = none → sc.traceState = []) ∧ (∀ l, c.tracestate = some l → sc.traceState = TraceState.mk l) := by
  unfold OcCtx.spanContext
  rw [h]
  refine ⟨_, rfl, rfl, rfl, rfl, ?_, ?_, ?_⟩
  · cases c.enabled <;> rfl
  · intro hn; simp only [hn]
  · intro l hl; simp only [hl]

theorem hexDigit_inj (a b : Char) (ha : TraceContext.isLowerHex a = true) (hb : TraceContext.isLowerHex b = true) (h : hexDigitVal a = hexDigitVal b) : a = b := by
  have hn : a.toNat = b.toNat := by
    simp only [TraceContext.isLowerHex, isDig, inRange, Bool.or_eq_true, Bool.and_eq_true, decide_eq_true_eq] at ha hb
    simp only [hexDigitVal, isDig, inRange, Bool.and_eq_true, decide_eq_true_eq] at h
    split_ifs at h <;> omega
  exact Char.ext (UInt32.ext hn)

theorem hexVal_inj (a b : Str) (hl : a.length = b.length) (ha : ∀ c ∈ a, TraceContext.isLowerHex c = true) (hb : ∀ c ∈ b, TraceContext.isLowerHex c = true)
    (h : hexVal a = hexVal b) : a = b := by
  induction a generalizing b with
  | nil => cases b with
    | nil => rfl
    | cons => simp at hl
  | cons x a ih =>
    cases b with
    | nil => simp at hl
    | cons y b =>
      have hl' : a.length = b.length := by simpa using hl
      have e : ∀ (c : Char) (s : Str), hexVal (c :: s) = hexDigitVal c * 16 ^ s.length + hexVal s := by
        intro c s; rw [show c :: s = [c] ++ s from rfl, hexVal_append, hexVal_singleton]
      rw [e, e, hl'] at h
      have l1 := hexVal_lt a
      have l2 := hexVal_lt b
      rw [hl'] at l1
      have hd : hexDigitVal x = hexDigitVal y := by
        rcases Nat.lt_trichotomy (hexDigitVal x) (hexDigitVal y) with hlt | heq | hgt
        · have := Nat.mul_le_mul_right (16 ^ b.length) (Nat.succ_le_of_lt hlt)
          rw [Nat.succ_mul] at this; omega
        · exact heq
        · have := Nat.mul_le_mul_right (16 ^ b.length) (Nat.succ_le_of_lt hgt)
          rw [Nat.succ_mul] at this; omega
      rw [hexDigit_inj x y (ha x (by simp)) (hb y (by simp)) hd, ih b hl' (fun c hc => ha c (by simp [hc])) (fun c hc => hb c (by simp [hc]))
        (by rw [hd] at h; omega)]

theorem hexFmt_hexVal (n : Nat) (s : Str) (hn : 0 < n) (hs : s.length = n) (h : s.all TraceContext.isLowerHex = true) : hexFmt n (hexVal s : Nat) = s := by
  have hlt := hexVal_lt s
  rw [hs] at hlt
  obtain ⟨h1, h2, h3⟩ := hexFmt_spec n (hexVal s) hn hlt
  exact hexVal_inj _ _ (by rw [h2, hs]) h3 (by simpa using h) h1

/-- **C85 (ids).** Formatting the ids of that context gives back the text of the OpenCensus ids. -/
theorem C85_ids (c : OcCtx) (s : Str) (h : c.spanId = some s) (h1 : c.traceId.length = 32) (h2 : s.length = 16) (h3 : c.traceId.all TraceContext.isLowerHex = true)
    (h4 : s.all TraceContext.isLowerHex = true) :
    ∃ sc, c.spanContext = some sc ∧ formatTraceId sc.traceId = c.traceId ∧ formatSpanId sc.spanId = s := by
  obtain ⟨sc, g1, g2, g3, -⟩ := C85_tracer_context c s h
  refine ⟨sc, g1, ?_, ?_⟩
  · rw [g2]; exact hexFmt_hexVal 32 _ (by decide) h1 h3
  · rw [g3]; exact hexFmt_hexVal 16 _ (by decide) h2 h4

/-- **C85 (methods).** On a span that is being recorded, `add_attribute` sets the attribute, `add_annotation` adds an event of that name, `add_message_event` adds
an event with the type and the sizes as attributes, `set_status` sets ok for code 0 and error for every other code (unless the status is ok already), `finish`
ends the span and has it exported; links and kinds are ignored. -/
theorem C85_methods (offset : Int) (s : Span.State) (h1 : s.data.startTime.isSome = true) (h2 : s.data.endTime = none) :
    (∀ k v, ((Method.addAttribute k v).steps offset).map (·.foldl Span.step s) =
      some { s with data := { s.data with attrs := s.data.attrs.setCore k v } }) ∧
    (∀ d a ts, ((Method.addAnnotation d a ts).steps offset).map (·.foldl Span.step s) =
      some { s with data := { s.data with events := s.data.events.append (Span.mkEvent s.lim d a ts) } }) ∧
    (∀ d, ((Method.setStatus 0 d).steps offset).map (·.foldl Span.step s) =
      some { s with data := { s.data with status := if s.data.status.code = .ok then s.data.status else Status.make .ok d } }) ∧
    (∀ c d, c ≠ 0 → ((Method.setStatus c d).steps offset).map (·.foldl Span.step s) =
      some { s with data := { s.data with status := if s.data.status.code = .ok then s.data.status else Status.make .error d } }) ∧
    (∀ t, s.owedEnd = 0 → ((Method.finish t).steps offset).map (·.foldl Span.step s) =
      some { s with data := { s.data with endTime := some t }, log := s.log ++ [.ended { s.data with endTime := some t }] }) ∧
    ((Method.addLink.steps offset).map (·.foldl Span.step s) = some s) ∧ ((Method.setKind.steps offset).map (·.foldl Span.step s) = some s) := by
  have hs : s.data.endTime.isSome = false := by rw [h2]; rfl
  refine ⟨?_, ?_, ?_, ?_, ?_, rfl, rfl⟩
  · intro k v; simp [Method.steps, Span.step, Span.mutate, hs]
  · intro d a ts; simp [Method.steps, Span.step, Span.mutate, hs]
  · intro d; simp [Method.steps, Span.step, Span.mutate, hs, Span.newStatus]
  · intro c d hc; simp [Method.steps, Span.step, Span.mutate, hs, Span.newStatus, hc]
  · intro t ho
    have : s.data.startTime ≠ none := by intro e; rw [e] at h1; cases h1
    simp [Method.steps, Span.step, this, h2, ho]

/-- **C85 (message events).** -/
theorem C85_message_event (offset : Int) (id : Str) (ty : Int) (u c : Option Int) (us : Int) :
    (ty ≠ 0 ∧ ty ≠ 1 ∧ ty ≠ 2 ↔ (Method.addMessageEvent id ty u c us).steps offset = none) ∧
    ∀ l, (Method.addMessageEvent id ty u c us).steps offset = some l → ∃ attrs ts, l = [.addEvent id attrs ts] ∧
      Dict.get? attrs (.str "message.event.type".toList) =
        some (.atom (.str (if ty = 0 then "TYPE_UNSPECIFIED".toList else if ty = 1 then "SENT".toList else "RECEIVED".toList) true)) ∧
      Dict.get? attrs (.str "message.event.size.uncompressed".toList) = u.map (fun n => .atom (.int n true)) ∧
      Dict.get? attrs (.str "message.event.size.compressed".toList) = c.map (fun n => .atom (.int n true)) ∧
      (offset = 0 → ts = us * 1000) := by
  have key : ∀ x, messageType ty = some x → (Method.addMessageEvent id ty u c us).steps offset = some [.addEvent id (messageAttrs x u c) (timeToNanos offset us)] := by
    intro x hx; simp only [Method.steps, hx, Option.map_some]
  have attrs : ∀ x, Dict.get? (messageAttrs x u c) (.str "message.event.type".toList) = some (.atom (.str x true)) ∧
      Dict.get? (messageAttrs x u c) (.str "message.event.size.uncompressed".toList) = u.map (fun n => .atom (.int n true)) ∧
      Dict.get? (messageAttrs x u c) (.str "message.event.size.compressed".toList) = c.map (fun n => .atom (.int n true)) := by
    intro x
    cases u <;> cases c <;> refine ⟨rfl, rfl, rfl⟩
  have ht : offset = 0 → timeToNanos offset us = us * 1000 := by rintro rfl; simp [timeToNanos]
  by_cases h0 : ty = 0
  · subst h0
    refine ⟨⟨fun h => absurd rfl h.1, fun h => by rw [key _ rfl] at h; cases h⟩, fun l hl => ?_⟩
    rw [key _ rfl] at hl; cases hl
    exact ⟨_, _, rfl, (attrs _).1, (attrs _).2.1, (attrs _).2.2, ht⟩
  by_cases h1 : ty = 1
  · subst h1
    refine ⟨⟨fun h => absurd rfl h.2.1, fun h => by rw [key _ rfl] at h; cases h⟩, fun l hl => ?_⟩
    rw [key _ rfl] at hl; cases hl
    exact ⟨_, _, rfl, (attrs _).1, (attrs _).2.1, (attrs _).2.2, ht⟩
  by_cases h2 : ty = 2
  · subst h2
    refine ⟨⟨fun h => absurd rfl h.2.2, fun h => by rw [key _ rfl] at h; cases h⟩, fun l hl => ?_⟩
    rw [key _ rfl] at hl; cases hl
    exact ⟨_, _, rfl, (attrs _).1, (attrs _).2.1, (attrs _).2.2, ht⟩
  have hn : messageType ty = none := by
    unfold messageType; split <;> simp_all
  have : (Method.addMessageEvent id ty u c us).steps offset = none := by simp only [Method.steps, hn, Option.map_none]
  exact ⟨⟨fun _ => this, fun _ => ⟨h0, h1, h2⟩⟩, fun l hl => by rw [this] at hl; cases hl⟩

/-- **C85 (message events), violated:** the time of a message event is wrong by the offset of the local time zone. -/
theorem C85_message_time_violated (offset : Int) (ho : offset ≠ 0) (id : Str) (ty us : Int) (h : ty = 0 ∨ ty = 1 ∨ ty = 2) :
    ∃ attrs ts, (Method.addMessageEvent id ty none none us).steps offset = some [.addEvent id attrs ts] ∧
      ts = us * 1000 - offset * 1000000000 ∧ ts ≠ us * 1000 := by
  have ht : timeToNanos offset us = us * 1000 - offset * 1000000000 ∧ timeToNanos offset us ≠ us * 1000 := by unfold timeToNanos; omega
  rcases h with rfl | rfl | rfl <;> exact ⟨_, _, rfl, ht⟩

/-! ## What is false -/

/-- A tracer without a span context. -/
def noCtx : OcCtx := ⟨[], none, false, true, none⟩
def exEnv (offset : Int) : Env := ⟨offset, fun _ => (⟨[], [], [], []⟩, []), .base 0, .base 1⟩
def ex (n : Nat) : Opts := ⟨noCtx, "op".toList, n, n, 0, 0, 1⟩
/-- Span ids and parents. -/
def tree (p : Prog) : List (Int × Option Int) :=
  (run (exEnv 0) OpenTracing.noLimits alwaysOn 0 p World.init).1.base.spans.map fun s =>
    (s.ctx.spanId, match s with
      | .recording x => x.data.parent.map SpanContext.spanId
      | _ => none)
def exOtel (n : Nat) : Tracer.Opts := ⟨"otel".toList, 0, [], [], false, true, true, true, n, n, 0, 0, 1⟩

/-- Blocks of both APIs nested: a tree. -/
example : tree (.block (ex 0) (.seq (.otelBlock (exOtel 1) (.block (ex 2) .skip)) (.block (ex 3) (.raise (.base 7))))) =
    [(1, none), (2, some 1), (3, some 2), (4, some 1)] := by decide

/-- A span context from a request: the first span continues its trace; spans inside it do not look at it again. -/
example : tree (.block { ex 0 with tracer := ⟨"000000000000000000000000000000aa".toList, some "00000000000000ff".toList, true, true, none⟩ }
    (.block { ex 1 with tracer := ⟨"000000000000000000000000000000bb".toList, some "00000000000000ee".toList, true, true, none⟩ } .skip)) =
    [(1, some 255), (2, some 1)] := by decide

/-- The ids seen. -/
def looks (p : Prog) : List Int := (run (exEnv 0) OpenTracing.noLimits alwaysOn 0 p World.init).1.base.seen.map SpanContext.spanId

/-- `C85_start_end` at work. -/
example : (run (exEnv 0) OpenTracing.noLimits alwaysOn 0 (.block (ex 1) .askOc) (start alwaysOn OpenTracing.noLimits 0 (ex 0) World.init)).2 = none ∧
    looks (.seq (.start (ex 0)) (.seq (.block (ex 1) .askOc) (.seq .ask (.seq (.endSpan 5) .look)))) = [2, 1, 0] := by decide

/-- **C85, violated:** inside an OpenTelemetry block the shim's current span is the outer OpenCensus span, not the current one, so attributes go to the wrong span. -/
theorem C85_current_span_violated : looks (.block (ex 0) (.otelBlock (exOtel 1) (.seq .look .ask))) = [2, 1] := by decide

/-- **C85, violated:** there, `end_span` ends that outer span and puts the context of before it in force, although the OpenTelemetry block goes on: the next span is
a new root. After the block, OpenCensus's own context and the shim disagree. -/
theorem C85_end_span_violated :
    tree (.seq (.start (ex 0)) (.otelBlock (exOtel 1) (.seq (.endSpan 5) (.block (ex 2) .skip)))) = [(1, none), (2, some 1), (3, none)] ∧
    looks (.seq (.start (ex 0)) (.seq (.otelBlock (exOtel 1) (.endSpan 5)) (.seq .ask .askOc))) = [1, 0] := by decide

/-- **C85, violated:** `finish` leaves the span current, so later spans become children of a finished span. -/
theorem C85_finish_violated :
    tree (.seq (.start (ex 0)) (.seq (.op 0 (.finish 3)) (.block (ex 1) .skip))) = [(1, none), (2, some 1)] := by decide

end OpenCensus
end Otel
