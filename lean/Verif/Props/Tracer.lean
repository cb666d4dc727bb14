import Verif.Spec.Tracer
import Verif.Props.Sampling
import Verif.Props.UseSpan
import Verif.Props.TraceContext
/-!
# C73, C74: traces of whole programs
-/
namespace Otel
namespace Tracer
open UseSpan (Esc onError)
open Sampling

/-! ## Observations -/

/-- The recorded parent of the `i`-th span, if it is a recording span. -/
def World.parentOf (w : World) (i : Nat) : Option (Option SpanContext) :=
  match w.spans[i]? with
  | some (.recording s) => some s.data.parent
  | _ => none

/-- The span context seen at a place. -/
def placeCtx (w : World) : Place → SpanContext
  | none => SpanContext.invalid
  | some (j, r) => { w.ctxOf j with isRemote := r }

/-- The `i`-th span is where the text of the program puts it. -/
def SpanAt (w : World) (i : Nat) (x : Placed) : Prop :=
  (w.ctxOf i).spanId = x.opts.spanDraw + 1 ∧ (w.ctxOf i).isRemote = false ∧
  (match x.place with
    | none => (w.ctxOf i).traceId = x.opts.traceDraw + 1 ∧ ∀ p, w.parentOf i = some p → p = none
    | some (j, r) => j < i ∧ (w.ctxOf i).traceId = (w.ctxOf j).traceId ∧
        ∀ p, w.parentOf i = some p → p = some { w.ctxOf j with isRemote := r }) ∧
  ∃ q : Query, q.ctx.currentSpan = placeCtx w x.place ∧ q.traceId = (w.ctxOf i).traceId ∧ q.name = x.opts.name ∧
    q.attributes = x.opts.attributes ∧ q.links = x.opts.links ∧
    (w.ctxOf i).flags = (if (x.sampler q).decision = .recordAndSample then 1 else 0) ∧
    ((w.parentOf i).isSome ↔ (x.sampler q).decision ≠ .drop)

/-- Identifiers drawn have the right number of bits. -/
def Draws (o : Opts) : Prop := o.traceDraw + 1 < 2 ^ 128 ∧ o.spanDraw + 1 < 2 ^ 64

/-- The sampler makes up no malformed trace state. -/
def KeepsState (S : Sampler) : Prop :=
  ∀ q : Query, TraceState.Reachable q.ctx.currentSpan.traceState → TraceState.Reachable ((S q).traceState.getD [])

/-- All identifiers and samplers of a program are in order. -/
def Ok : Prog → Prop
  | .seq a b | .tryExcept a b => Ok a ∧ Ok b
  | .start o => Draws o
  | .block o b => Draws o ∧ Ok b
  | .remote S b => KeepsState S ∧ Ok b
  | _ => True

/-- What every span context made here satisfies. -/
def Wire (sc : SpanContext) : Prop := sc.isValid = true ∧ sc.flags < 256 ∧ TraceState.Reachable sc.traceState

/-! ## Steps on spans -/

theorem step_parent (s : Span.State) (x : Span.Step) : (Span.step s x).data.parent = s.data.parent := by
  cases x <;> simp only [Span.step] <;> (try split) <;> (try rfl)
  rename_i c a _
  cases c with
  | none => rfl
  | some c => simp only [Span.mutate]; split <;> rfl

theorem steps_parent (l : List Span.Step) (s : Span.State) : (l.foldl Span.step s).data.parent = s.data.parent := by
  induction l generalizing s with
  | nil => rfl
  | cons x l ih => rw [List.foldl_cons, ih, step_parent]

theorem stepsOn_ctx (l : List Span.Step) (s : Started) : (stepsOn l s).ctx = s.ctx := by
  cases s with
  | recording s => exact (UseSpan.steps_fixed l s).1
  | nonRecording sc => rfl

/-- What the invariants see of the spans: they only grow, and contexts and parents stay. -/
structure Ext (w w' : World) : Prop where
  len : w.spans.length ≤ w'.spans.length
  ctx : ∀ i, i < w.spans.length → w'.ctxOf i = w.ctxOf i
  parent : ∀ i, i < w.spans.length → w'.parentOf i = w.parentOf i

theorem Ext.refl (w : World) : Ext w w := ⟨Nat.le_refl _, fun _ _ => rfl, fun _ _ => rfl⟩

theorem Ext.trans {a b c : World} (h : Ext a b) (h' : Ext b c) : Ext a c :=
  ⟨Nat.le_trans h.len h'.len, fun i hi => (h'.ctx i (Nat.lt_of_lt_of_le hi h.len)).trans (h.ctx i hi),
    fun i hi => (h'.parent i (Nat.lt_of_lt_of_le hi h.len)).trans (h.parent i hi)⟩

theorem Ext.congr {w w' : World} (h : w'.spans = w.spans) : Ext w w' := by
  refine ⟨by rw [h], fun i _ => ?_, fun i _ => ?_⟩
  · simp only [World.ctxOf, h]
  · simp only [World.parentOf, h]

theorem steps_ext (w : World) (i : Nat) (l : List Span.Step) :
    Ext w (w.steps i l) ∧ (w.steps i l).spans.length = w.spans.length ∧ (w.steps i l).rt = w.rt ∧ (w.steps i l).seen = w.seen := by
  unfold World.steps
  split
  · exact ⟨Ext.refl w, rfl, rfl, rfl⟩
  · rename_i s hs
    refine ⟨⟨by simp, ?_, ?_⟩, by simp, rfl, rfl⟩
    · intro j _
      simp only [World.ctxOf, List.getElem?_set]
      by_cases hj : i = j
      · subst hj
        have hlt : i < w.spans.length := (List.getElem?_eq_some_iff.1 hs).1
        rw [hs]; simp [hlt, stepsOn_ctx]
      · simp [hj]
    · intro j _
      simp only [World.parentOf, List.getElem?_set]
      by_cases hj : i = j
      · subst hj
        have hlt : i < w.spans.length := (List.getElem?_eq_some_iff.1 hs).1
        rw [hs]
        simp only [if_true, hlt]
        cases s with
        | recording s => simp [stepsOn, steps_parent]
        | nonRecording sc => simp [stepsOn]
      · simp [hj]

/-! ## Starting a span -/

/-- `start_span` never fails, and appends one span. -/
theorem startIn_eq (S : Sampler) (lim : SpanLimits) (t : Nat) (o : Opts) (w : World) :
    ∃ s, startSpan S lim [o.traceDraw + 1] [o.spanDraw + 1] (if o.newTrace then [] else w.rt.getCurrent t) o.name o.kind o.attributes o.links o.tStart = some s ∧
      startIn S lim t o w = { w with spans := w.spans ++ [s], log := w.log ++ (notes s).map fun n => (w.spans.length, n) } := by
  have : ∃ s, startSpan S lim [o.traceDraw + 1] [o.spanDraw + 1] (if o.newTrace then [] else w.rt.getCurrent t) o.name o.kind o.attributes o.links o.tStart = some s := by
    generalize (if o.newTrace then [] else w.rt.getCurrent t) = cx
    unfold startSpan
    dsimp only
    cases hv : (Ctx.currentSpan cx).isValid
    · simp only [Bool.false_eq_true, if_false, genId, Option.map_some, Option.bind_some]; split <;> exact ⟨_, rfl⟩
    · simp only [if_true, genId, Option.bind_some]; split <;> exact ⟨_, rfl⟩
  obtain ⟨s, hs⟩ := this
  refine ⟨s, hs, ?_⟩
  simp only [startIn, hs]

/-- The current span of thread `t` is that of the place. -/
def CurIs (w : World) (t : Nat) (cur : Place) : Prop :=
  Ctx.currentSpan (w.rt.getCurrent t) = placeCtx w cur ∧ ∀ p, cur = some p → p.1 < w.spans.length

theorem placeCtx_ext {w w' : World} (h : Ext w w') (cur : Place) (hc : ∀ p, cur = some p → p.1 < w.spans.length) : placeCtx w' cur = placeCtx w cur := by
  cases cur with
  | none => rfl
  | some p => simp only [placeCtx]; rw [h.ctx p.1 (hc p rfl)]

theorem SpanAt.ext {w w' : World} (h : Ext w w') (i : Nat) (hi : i < w.spans.length) (x : Placed) (hx : SpanAt w i x) : SpanAt w' i x := by
  have hpl : placeCtx w' x.place = placeCtx w x.place := by
    cases hp : x.place with
    | none => rfl
    | some p =>
      have := hx.2.2.1
      rw [hp] at this
      exact placeCtx_ext h _ (fun q hq => by cases hq; exact Nat.lt_trans this.1 hi)
  unfold SpanAt
  rw [h.ctx i hi, h.parent i hi, hpl]
  refine ⟨hx.1, hx.2.1, ?_, hx.2.2.2⟩
  have h3 := hx.2.2.1
  cases hp : x.place with
  | none => rw [hp] at h3; exact h3
  | some p =>
    rw [hp] at h3
    simp only at h3 ⊢
    rw [h.ctx p.1 (Nat.lt_trans h3.1 hi)]
    exact h3

theorem emptyCtx : Ctx.currentSpan [] = SpanContext.invalid := rfl

/-- All spans so far are fit for the wire. -/
def AllWire (w : World) : Prop := ∀ i, i < w.spans.length → Wire (w.ctxOf i)

theorem placeCtx_wire (w : World) (hw : AllWire w) (cur : Place) (hc : ∀ p, cur = some p → p.1 < w.spans.length) :
    (cur = none ∧ placeCtx w cur = SpanContext.invalid) ∨ ∃ p, cur = some p ∧ Wire (placeCtx w cur) := by
  cases cur with
  | none => exact .inl ⟨rfl, rfl⟩
  | some p =>
    obtain ⟨h1, h2, h3⟩ := hw p.1 (hc p rfl)
    exact .inr ⟨p, rfl, h1, h2, h3⟩

theorem startIn_spec (S : Sampler) (lim : SpanLimits) (t : Nat) (o : Opts) (w : World) (cur : Place) (hd : Draws o) (hS : KeepsState S)
    (hw : AllWire w) (hc : CurIs w t cur) :
    Ext w (startIn S lim t o w) ∧ (startIn S lim t o w).spans.length = w.spans.length + 1 ∧ (startIn S lim t o w).rt = w.rt ∧
    (startIn S lim t o w).seen = w.seen ∧ AllWire (startIn S lim t o w) ∧
    SpanAt (startIn S lim t o w) w.spans.length ⟨if o.newTrace then none else cur, o, S⟩ := by
  obtain ⟨s, hs, he⟩ := startIn_eq S lim t o w
  have hext : Ext w (startIn S lim t o w) := by
    rw [he]
    refine ⟨by simp, ?_, ?_⟩
    · intro i hi; simp only [World.ctxOf, List.getElem?_append_left hi]
    · intro i hi; simp only [World.parentOf, List.getElem?_append_left hi]
  have hlast : (startIn S lim t o w).spans[w.spans.length]? = some s := by rw [he]; simp
  have hctx : (startIn S lim t o w).ctxOf w.spans.length = s.ctx := by simp only [World.ctxOf, hlast]
  -- the context in which the span is started
  generalize hcx : (if o.newTrace then [] else w.rt.getCurrent t) = cx at hs
  have hpl : ∃ pl : Place, pl = (if o.newTrace then none else cur) ∧ Ctx.currentSpan cx = placeCtx w pl ∧ ∀ p, pl = some p → p.1 < w.spans.length := by
    refine ⟨_, rfl, ?_, ?_⟩
    · cases hn : o.newTrace with
      | true => rw [hn] at hcx; simp only [if_true] at hcx ⊢; rw [← hcx]; rfl
      | false => rw [hn] at hcx; simp only [Bool.false_eq_true, if_false] at hcx ⊢; rw [← hcx]; exact hc.1
    · cases hn : o.newTrace with
      | true => simp
      | false => simpa using hc.2
  obtain ⟨pl, hple, hcur, hlt⟩ := hpl
  rw [← hple]
  have hvalid := C23_valid _ _ _ _ _ _ _ _ _ _ _ (fun n hn => by rw [List.mem_singleton.1 hn]; exact hd.1)
    (fun n hn => by rw [List.mem_singleton.1 hn]; exact hd.2) hs
  have hres := C23_sampler_result _ _ _ _ _ _ _ _ _ _ _ hs
  dsimp only at hres
  have hsid : s.ctx.spanId = o.spanDraw + 1 := by
    obtain ⟨z, n, r, h1, h2, h3⟩ := hvalid.2.2
    rw [h3]
    cases z with
    | zero => simp only [List.replicate_zero, List.nil_append, List.cons.injEq] at h1; rw [← h1.1]; simp
    | succ z => simp [List.replicate_succ] at h1
  have hpw := placeCtx_wire w hw pl hlt
  have hreach : TraceState.Reachable (Ctx.currentSpan cx).traceState := by
    rw [hcur]
    rcases hpw with ⟨_, h⟩ | ⟨p, _, h⟩
    · rw [h]; exact ⟨.ctor [], [], rfl⟩
    · exact h.2.2
  have hwire : Wire s.ctx := by
    refine ⟨hvalid.1, ?_, ?_⟩
    · rw [hres.1]; split <;> decide
    · rw [hres.2.1]; exact hS _ hreach
  refine ⟨hext, by rw [he]; simp, by rw [he], by rw [he], ?_, ?_⟩
  · intro i hi
    by_cases h : i < w.spans.length
    · rw [hext.ctx i h]; exact hw i h
    · have : i = w.spans.length := by rw [he] at hi; simp at hi; omega
      subst this; rw [hctx]; exact hwire
  · have hpl' : placeCtx (startIn S lim t o w) pl = placeCtx w pl := placeCtx_ext hext pl hlt
    refine ⟨by rw [hctx]; exact hsid, by rw [hctx]; exact hvalid.2.1, ?_, ?_⟩
    · rcases hpw with ⟨h0, h⟩ | ⟨p, h0, h⟩
      · subst h0
        have hv : (Ctx.currentSpan cx).isValid = false := by rw [hcur]; rfl
        obtain ⟨⟨z, n, r, h1, h2, h3⟩, h4⟩ := C23_root _ _ _ _ _ _ _ _ _ _ _ hs hv
        refine ⟨?_, ?_⟩
        · rw [hctx, h3]
          cases z with
          | zero => simp only [List.replicate_zero, List.nil_append, List.cons.injEq] at h1; rw [← h1.1]; simp
          | succ z => simp [List.replicate_succ] at h1
        · intro q hq
          unfold World.parentOf at hq
          rw [hlast] at hq
          cases hs' : s with
          | recording st => rw [hs'] at hq; simp only [Option.some.injEq] at hq; rw [← hq]; exact h4 st hs'
          | nonRecording sc => rw [hs'] at hq; simp at hq
      · subst h0
        have hv : (Ctx.currentSpan cx).isValid = true := by rw [hcur]; exact h.1
        obtain ⟨h1, h2⟩ := C23_child _ _ _ _ _ _ _ _ _ _ _ hs hv
        have hlt := hlt p rfl
        refine ⟨hlt, ?_, ?_⟩
        · rw [hctx, h1, hcur, hext.ctx _ hlt]; rfl
        · intro q hq
          unfold World.parentOf at hq
          rw [hlast] at hq
          cases hs' : s with
          | recording st =>
            rw [hs'] at hq; simp only [Option.some.injEq] at hq; rw [← hq, h2 st hs', hcur, hext.ctx _ hlt]; rfl
          | nonRecording sc => rw [hs'] at hq; simp at hq
    · refine ⟨⟨cx, s.ctx.traceId, o.name, o.kind, o.attributes, o.links⟩, by rw [hpl']; exact hcur, by rw [hctx], rfl, rfl, rfl, by rw [hctx]; exact hres.1, ?_⟩
      have h3 := hres.2.2
      unfold World.parentOf
      rw [hlast]
      cases hs' : s with
      | recording st => rw [hs'] at h3; simp only [Option.isSome_some, true_iff]; exact h3.1
      | nonRecording sc => rw [hs'] at h3; simp only at h3; simp only [Option.isSome_none, Bool.false_eq_true, false_iff, not_not]; exact h3

/-! ## The context variable -/

/-- Used tokens are from the past. -/
def FreshRt (r : Runtime) : Prop := ∀ u ∈ r.used, u < r.nextUid

/-- Whatever the program does, it leaves every thread's context as it was. -/
theorem run_rt (lim : SpanLimits) (S : Sampler) (t : Nat) (p : Prog) (w : World) (h : FreshRt w.rt) :
    FreshRt (run lim S t p w).1.rt ∧ w.rt.nextUid ≤ (run lim S t p w).1.rt.nextUid ∧
    (∀ u, u < w.rt.nextUid → u ∈ (run lim S t p w).1.rt.used → u ∈ w.rt.used) ∧
    ∀ u, (run lim S t p w).1.rt.value u = w.rt.value u := by
  have hsteps : ∀ (w : World) i l, (w.steps i l).rt = w.rt := fun w i l => (steps_ext w i l).2.2.1
  have hstart : ∀ S t o (w : World), (startIn S lim t o w).rt = w.rt := by
    intro S t o w
    obtain ⟨s, _, he⟩ := startIn_eq S lim t o w
    rw [he]
  induction p generalizing S t w with
  | skip => exact ⟨h, Nat.le_refl _, fun _ _ h => h, fun _ => rfl⟩
  | look => exact ⟨h, Nat.le_refl _, fun _ _ h => h, fun _ => rfl⟩
  | op i s =>
    simp only [run, hsteps]
    exact ⟨h, Nat.le_refl _, fun _ _ h => h, fun _ => trivial⟩
  | raise e => exact ⟨h, Nat.le_refl _, fun _ _ h => h, fun _ => rfl⟩
  | seq a b iha ihb =>
    obtain ⟨a1, a2, a3, a4⟩ := iha S t w h
    simp only [run]
    split
    · obtain ⟨b1, b2, b3, b4⟩ := ihb S t _ a1
      exact ⟨b1, Nat.le_trans a2 b2, fun u hu hm => a3 u hu (b3 u (Nat.lt_of_lt_of_le hu a2) hm), fun u => (b4 u).trans (a4 u)⟩
    · exact ⟨a1, a2, a3, a4⟩
  | tryExcept a b iha ihb =>
    obtain ⟨a1, a2, a3, a4⟩ := iha S t w h
    simp only [run]
    split
    · obtain ⟨b1, b2, b3, b4⟩ := ihb S t _ a1
      exact ⟨b1, Nat.le_trans a2 b2, fun u hu hm => a3 u hu (b3 u (Nat.lt_of_lt_of_le hu a2) hm), fun u => (b4 u).trans (a4 u)⟩
    · exact ⟨a1, a2, a3, a4⟩
  | start o =>
    simp only [run, hstart]
    exact ⟨h, Nat.le_refl _, fun _ _ h => h, fun _ => trivial⟩
  | block o b ih =>
    simp only [run]
    generalize hw1 : startIn S lim t o w = w1
    have hrt : w1.rt = w.rt := by rw [← hw1]; exact hstart S t o w
    generalize hc : Ctx.setSpan (w1.rt.getCurrent t) (w1.ctxOf w.spans.length) = c
    have hf : FreshRt ({ w1 with rt := (w1.rt.attach t c).1 } : World).rt := by
      intro u hu
      simp only [Runtime.attach, hrt] at hu ⊢
      exact Nat.lt_succ_of_lt (h u hu)
    obtain ⟨b1, b2, b3, b4⟩ := ih S t { w1 with rt := (w1.rt.attach t c).1 } hf
    generalize hq : run lim S t b { w1 with rt := (w1.rt.attach t c).1 } = q at b1 b2 b3 b4
    have hn : w.rt.nextUid + 1 ≤ q.1.rt.nextUid := by simp only [Runtime.attach, hrt] at b2; exact b2
    have hnot : w.rt.nextUid ∉ q.1.rt.used := by
      intro hm
      have := b3 w.rt.nextUid (by simp only [Runtime.attach, hrt]; omega) hm
      simp only [Runtime.attach, hrt] at this
      exact Nat.lt_irrefl _ (h _ this)
    have hdet : q.1.rt.detach t (w1.rt.attach t c).2 =
        { q.1.rt with value := fun u => if u = t then w.rt.value t else q.1.rt.value u, used := w.rt.nextUid :: q.1.rt.used } := by
      unfold Runtime.detach
      simp only [Runtime.attach, hrt]
      rw [if_pos ⟨trivial, hnot⟩]
    have hfin : ∀ w2 : World, w2.rt = q.1.rt.detach t (w1.rt.attach t c).2 →
        FreshRt w2.rt ∧ w.rt.nextUid ≤ w2.rt.nextUid ∧ (∀ u, u < w.rt.nextUid → u ∈ w2.rt.used → u ∈ w.rt.used) ∧ ∀ u, w2.rt.value u = w.rt.value u := by
      intro w2 h2
      rw [h2, hdet]
      refine ⟨?_, by simp only; omega, ?_, ?_⟩
      · intro u hu
        simp only [List.mem_cons] at hu ⊢
        rcases hu with rfl | hu
        · omega
        · exact b1 u hu
      · intro u hu hm
        simp only [List.mem_cons] at hm
        rcases hm with rfl | hm
        · omega
        · have := b3 u (by simp only [Runtime.attach, hrt]; omega) hm
          simpa only [Runtime.attach, hrt] using this
      · intro u
        simp only
        by_cases hu : u = t
        · rw [if_pos hu, hu]
        · rw [if_neg hu, b4 u]
          simp only [Runtime.attach, hrt, if_neg hu]
    split
    · apply hfin; rw [hsteps, hsteps]
    · apply hfin; rw [hsteps]
  | remote S' b ih =>
    simp only [run]
    exact ⟨h, Nat.le_refl _, fun _ _ h => h, fun _ => trivial⟩

/-! ## The tree -/

/-- What a run with the shape `sh` adds to a world. -/
structure Adds (w w' : World) (sh : Shape) : Prop where
  ext : Ext w w'
  len : w'.spans.length = w.spans.length + sh.spans.length
  spans : ∀ k x, sh.spans[k]? = some x → SpanAt w' (w.spans.length + k) x
  seen : w'.seen = w.seen ++ sh.looks.map (placeCtx w')
  looks : ∀ pl ∈ sh.looks, ∀ p, pl = some p → p.1 < w'.spans.length
  wire : AllWire w'

theorem Adds.trans {a b c : World} {s s' : Shape} (h : Adds a b s) (h' : Adds b c s') (e : List (Bool × Nat)) (x : Option Esc) :
    Adds a c ⟨s.spans ++ s'.spans, s.looks ++ s'.looks, e, x⟩ := by
  refine ⟨h.ext.trans h'.ext, ?_, ?_, ?_, ?_, h'.wire⟩
  · rw [h'.len, h.len, List.length_append, Nat.add_assoc]
  · intro k y hy
    simp only [List.getElem?_append] at hy
    split at hy
    · rename_i hk
      exact (h.spans k y hy).ext h'.ext _ (by rw [h.len]; omega)
    · rename_i hk
      have := h'.spans _ y hy
      rw [h.len] at this
      rwa [show a.spans.length + s.spans.length + (k - s.spans.length) = a.spans.length + k by omega] at this
  · rw [h'.seen, h.seen, List.append_assoc, List.map_append]
    congr 2
    apply List.map_congr_left
    intro pl hpl
    exact (placeCtx_ext h'.ext pl (h.looks pl hpl)).symm
  · intro pl hpl p hp
    rcases List.mem_append.1 hpl with hpl | hpl
    · exact Nat.lt_of_lt_of_le (h.looks pl hpl p hp) h'.ext.len
    · exact h'.looks pl hpl p hp

theorem Adds.nothing {w w' : World} (hs : w'.spans = w.spans) (hseen : w'.seen = w.seen) (hw : AllWire w) (e : List (Bool × Nat)) (x : Option Esc) :
    Adds w w' ⟨[], [], e, x⟩ := by
  refine ⟨Ext.congr hs, by rw [hs]; rfl, by simp, by simp [hseen], by simp, ?_⟩
  intro i hi
  rw [hs] at hi
  rw [(Ext.congr hs).ctx i hi]
  exact hw i hi

theorem Adds.esc {w w' : World} {s : Shape} (h : Adds w w' s) (e : List (Bool × Nat)) (x : Option Esc) : Adds w w' ⟨s.spans, s.looks, e, x⟩ :=
  ⟨h.ext, h.len, h.spans, h.seen, h.looks, h.wire⟩

/-- Later steps on spans keep all this. -/
theorem Adds.later {w w' w'' : World} {s : Shape} (h : Adds w w' s) (he : Ext w' w'') (hl : w''.spans.length = w'.spans.length) (hs : w''.seen = w'.seen) :
    Adds w w'' s := by
  refine ⟨h.ext.trans he, by rw [hl, h.len], ?_, ?_, ?_, ?_⟩
  · intro k x hx
    have hk : k < s.spans.length := (List.getElem?_eq_some_iff.1 hx).1
    exact (h.spans k x hx).ext he _ (by rw [h.len]; omega)
  · rw [hs, h.seen]
    congr 1
    apply List.map_congr_left
    intro pl hpl
    exact (placeCtx_ext he pl (h.looks pl hpl)).symm
  · intro pl hpl p hp; rw [hl]; exact h.looks pl hpl p hp
  · intro i hi
    rw [hl] at hi
    rw [he.ctx i hi]; exact h.wire i hi

theorem CurIs.later {w w' : World} {t : Nat} {cur : Place} (h : CurIs w t cur) (he : Ext w w') (hrt : w'.rt.getCurrent t = w.rt.getCurrent t) :
    CurIs w' t cur := by
  refine ⟨?_, fun p hp => Nat.lt_of_lt_of_le (h.2 p hp) he.len⟩
  rw [hrt, h.1, placeCtx_ext he cur h.2]

/-- The remote side starts where the caller is. -/
theorem remote_cur (w : World) (t : Nat) (cur : Place) (hw : AllWire w) (h : CurIs w t cur) :
    CurIs { w with rt := (Runtime.init.attach 0 (TraceContext.extract (TraceContext.inject [] (w.rt.getCurrent t)) (Runtime.init.getCurrent 0))).1 } 0
      (cur.map fun p => (p.1, true)) := by
  refine ⟨?_, ?_⟩
  · simp only [Runtime.attach, Runtime.getCurrent, if_true, Option.getD_some]
    rcases placeCtx_wire w hw cur h.2 with ⟨h0, h1⟩ | ⟨p, h0, h1⟩
    · subst h0
      have : Ctx.currentSpan (w.rt.getCurrent t) = SpanContext.invalid := h.1
      have hi : TraceContext.inject [] ((w.rt.value t).getD []) = [] := TraceContext.C04_invalid_not_injected [] _ this
      rw [hi]
      rfl
    · subst h0
      have hcur := h.1
      have := TraceContext.C04_inject_extract_roundtrip [] (w.rt.getCurrent t) [] _ rfl (by rw [hcur]; exact h1.1) (by rw [hcur]; exact h1.2.1)
        (by rw [hcur]; exact h1.2.2) (.inr rfl)
      have e : Runtime.init.value 0 = none := rfl
      rw [e]
      simp only [Option.getD_none]
      rw [show ((w.rt.value t).getD []) = w.rt.getCurrent t from rfl, this, (Ctx.C06_current_span _ _).1, hcur]
      rfl
  · intro p hp
    cases cur with
    | none => simp at hp
    | some q => simp only [Option.map_some, Option.some.injEq] at hp; subst hp; exact h.2 q rfl

theorem run_adds (lim : SpanLimits) (S : Sampler) (t : Nat) (p : Prog) (w : World) (cur : Place) (hS : KeepsState S) (hp : Ok p) (hf : FreshRt w.rt)
    (hw : AllWire w) (hc : CurIs w t cur) :
    Adds w (run lim S t p w).1 (shape S cur w.spans.length p) ∧ (run lim S t p w).2 = (shape S cur w.spans.length p).esc := by
  induction p generalizing S t w cur with
  | skip => exact ⟨Adds.nothing rfl rfl hw [] none, rfl⟩
  | look =>
    refine ⟨⟨Ext.congr rfl, rfl, by simp [shape], ?_, ?_, ?_⟩, rfl⟩
    · simp only [run, shape, List.map_cons, List.map_nil]
      rw [hc.1]; rfl
    · intro pl hpl p hp
      simp only [shape, List.mem_singleton] at hpl
      subst hpl
      exact hc.2 p hp
    · intro i hi; exact hw i hi
  | op i s =>
    obtain ⟨e1, e2, e3, e4⟩ := steps_ext w i [s]
    exact ⟨(Adds.nothing rfl rfl hw [] none).later e1 e2 e4, rfl⟩
  | raise e => exact ⟨Adds.nothing rfl rfl hw [] _, rfl⟩
  | seq a b iha ihb =>
    obtain ⟨a1, a2⟩ := iha S t w cur hS hp.1 hf hw hc
    have hrt := run_rt lim S t a w hf
    simp only [run, shape, ← a2]
    cases hq : (run lim S t a w).2 with
    | some e => simp only; exact ⟨a1, by rw [← a2, hq]⟩
    | none =>
      simp only
      obtain ⟨b1, b2⟩ := ihb S t (run lim S t a w).1 cur hS hp.2 hrt.1 a1.wire (hc.later a1.ext (by simp only [Runtime.getCurrent, hrt.2.2.2]))
      rw [a1.len] at b1 b2
      exact ⟨a1.trans b1 _ _, b2⟩
  | tryExcept a b iha ihb =>
    obtain ⟨a1, a2⟩ := iha S t w cur hS hp.1 hf hw hc
    have hrt := run_rt lim S t a w hf
    simp only [run, shape, ← a2]
    cases hq : (run lim S t a w).2 with
    | none => simp only; exact ⟨a1, by rw [← a2, hq]⟩
    | some e =>
      cases e with
      | base n => simp only; exact ⟨a1, by rw [← a2, hq]⟩
      | exception x y =>
        simp only
        obtain ⟨b1, b2⟩ := ihb S t (run lim S t a w).1 cur hS hp.2 hrt.1 a1.wire (hc.later a1.ext (by simp only [Runtime.getCurrent, hrt.2.2.2]))
        rw [a1.len] at b1 b2
        exact ⟨a1.trans b1 _ _, b2⟩
  | start o =>
    obtain ⟨e1, e2, e3, e4, e5, e6⟩ := startIn_spec S lim t o w cur hp hS hw hc
    refine ⟨⟨e1, by simp only [run, shape]; rw [e2]; rfl, ?_, by simp [run, shape, e4], by simp [shape], e5⟩, rfl⟩
    intro k x hx
    simp only [shape] at hx
    cases k with
    | zero => simp only [List.getElem?_cons_zero, Option.some.injEq] at hx; subst hx; exact e6
    | succ k => simp at hx
  | block o b ih =>
    obtain ⟨e1, e2, e3, e4, e5, e6⟩ := startIn_spec S lim t o w cur hp.1 hS hw hc
    simp only [run, shape]
    generalize startIn S lim t o w = w1 at e1 e2 e3 e4 e5 e6
    generalize hcx : Ctx.setSpan (w1.rt.getCurrent t) (w1.ctxOf w.spans.length) = c
    generalize hw2 : ({ w1 with rt := (w1.rt.attach t c).1 } : World) = w2
    have hs2 : w2.spans = w1.spans := by rw [← hw2]
    have hseen2 : w2.seen = w1.seen := by rw [← hw2]
    have hext2 : Ext w1 w2 := Ext.congr hs2
    have hlen2 : w2.spans.length = w.spans.length + 1 := by rw [hs2, e2]
    have hlt : w.spans.length < w1.spans.length := by omega
    have hf2 : FreshRt w2.rt := by
      rw [← hw2]
      intro u hu
      simp only [Runtime.attach, e3] at hu ⊢
      exact Nat.lt_succ_of_lt (hf u hu)
    have hcur2 : CurIs w2 t (some (w.spans.length, false)) := by
      refine ⟨?_, fun p hp => by cases hp; simp only; omega⟩
      have h1 : Ctx.currentSpan (w2.rt.getCurrent t) = w1.ctxOf w.spans.length := by
        rw [← hw2]
        simp only [Runtime.attach, Runtime.getCurrent, if_true, Option.getD_some]
        rw [← hcx]; exact (Ctx.C06_current_span _ _).1
      rw [h1]
      simp only [placeCtx]
      rw [hext2.ctx _ hlt]
      have := e6.2.1
      generalize w1.ctxOf w.spans.length = sc at this
      cases sc; simp only at this; subst this; rfl
    have hw2' : AllWire w2 := by
      intro i hi
      rw [hs2] at hi
      rw [hext2.ctx i hi]; exact e5 i hi
    obtain ⟨b1, b2⟩ := ih S t w2 (some (w.spans.length, false)) hS hp.2 hf2 hw2' hcur2
    rw [hlen2] at b1 b2
    have hA : Adds w (run lim S t b w2).1 ⟨⟨if o.newTrace then none else cur, o, S⟩ :: (shape S (some (w.spans.length, false)) (w.spans.length + 1) b).spans,
        (shape S (some (w.spans.length, false)) (w.spans.length + 1) b).looks, (true, w.spans.length) :: (shape S (some (w.spans.length, false)) (w.spans.length + 1) b).events ++
          (if o.endOnExit then [(false, w.spans.length)] else []), (shape S (some (w.spans.length, false)) (w.spans.length + 1) b).esc⟩ := by
      have h1 : Adds w w1 ⟨[⟨if o.newTrace then none else cur, o, S⟩], [], [], none⟩ := by
        refine ⟨e1, by rw [e2]; rfl, ?_, by simp [e4], by simp, e5⟩
        intro k x hx
        cases k with
        | zero => simp only [List.getElem?_cons_zero, Option.some.injEq] at hx; subst hx; exact e6
        | succ k => simp at hx
      exact (h1.later hext2 (by rw [hs2]) hseen2).trans b1 _ _
    refine ⟨?_, b2⟩
    generalize run lim S t b w2 = q at hA
    have key : ∀ w3 : World, w3.spans = q.1.spans → w3.seen = q.1.seen → ∀ l l', Adds w (if o.endOnExit = true then (w3.steps w.spans.length l).steps w.spans.length l'
        else w3.steps w.spans.length l) ⟨⟨if o.newTrace then none else cur, o, S⟩ :: (shape S (some (w.spans.length, false)) (w.spans.length + 1) b).spans,
        (shape S (some (w.spans.length, false)) (w.spans.length + 1) b).looks, (true, w.spans.length) :: (shape S (some (w.spans.length, false)) (w.spans.length + 1) b).events ++
          (if o.endOnExit then [(false, w.spans.length)] else []), (shape S (some (w.spans.length, false)) (w.spans.length + 1) b).esc⟩ := by
      intro w3 h1 h2 l l'
      have a3 := hA.later (Ext.congr h1) (by rw [h1]) h2
      obtain ⟨s1, s2, s3, s4⟩ := steps_ext w3 w.spans.length l
      have a4 := a3.later s1 s2 s4
      split
      · obtain ⟨r1, r2, r3, r4⟩ := steps_ext (w3.steps w.spans.length l) w.spans.length l'
        exact (a4.later r1 r2 r4).esc _ _
      · exact a4.esc _ _
    exact key { q.1 with rt := q.1.rt.detach t (w1.rt.attach t c).2 } rfl rfl _ _
  | remote S' b ih =>
    simp only [run, shape]
    have hcur := remote_cur w t cur hw hc
    have hf0 : FreshRt (Runtime.init.attach 0 (TraceContext.extract (TraceContext.inject [] (w.rt.getCurrent t)) (Runtime.init.getCurrent 0))).1 := by
      intro u hu; cases hu
    generalize (Runtime.init.attach 0 (TraceContext.extract (TraceContext.inject [] (w.rt.getCurrent t)) (Runtime.init.getCurrent 0))).1 = rt0 at hcur hf0
    obtain ⟨b1, b2⟩ := ih S' 0 { w with rt := rt0 } _ hp.1 hp.2 hf0 (fun i hi => hw i hi) hcur
    refine ⟨?_, trivial⟩
    have b3 := b1.later (w'' := { (run lim S' 0 b { w with rt := rt0 }).1 with rt := w.rt }) (Ext.congr rfl) rfl rfl
    exact ⟨(Ext.congr (w := w) (w' := { w with rt := rt0 }) rfl).trans b3.ext, b3.len, b3.spans, b3.seen, b3.looks, b3.wire⟩

theorem init_cur (t : Nat) : CurIs World.init t none := ⟨rfl, by simp⟩

theorem init_wire : AllWire World.init := by intro i hi; exact absurd hi (Nat.not_lt_zero _)

theorem init_fresh : FreshRt World.init.rt := by intro u hu; cases hu

/-- **C73** For every program of nested blocks, exceptions, span methods and requests to other services: it starts exactly the spans of its text,
in order; each span's parent is the span of the innermost block around it (with the remote flag exactly if a request lies between), with which it
shares the trace id; a span without a block around it, or started with a new context, has no parent and its own drawn trace id; its span id is
the one drawn for it; its sampler was asked with that parent as the current span. -/
theorem C73_tree (lim : SpanLimits) (S : Sampler) (t : Nat) (p : Prog) (hS : KeepsState S) (hp : Ok p) :
    (run lim S t p World.init).1.spans.length = (shape S none 0 p).spans.length ∧
    ∀ i x, (shape S none 0 p).spans[i]? = some x → SpanAt (run lim S t p World.init).1 i x := by
  obtain ⟨h, -⟩ := run_adds lim S t p World.init none hS hp init_fresh init_wire (init_cur t)
  refine ⟨by rw [h.len]; simp [World.init], fun i x hx => ?_⟩
  have := h.spans i x hx
  simpa [World.init] using this

/-- **C73** At every moment the current span is that of the innermost block (none outside all blocks), and exceptions propagate as if there
were no blocks. -/
theorem C73_current (lim : SpanLimits) (S : Sampler) (t : Nat) (p : Prog) (hS : KeepsState S) (hp : Ok p) :
    (run lim S t p World.init).1.seen = (shape S none 0 p).looks.map (placeCtx (run lim S t p World.init).1) ∧
    (run lim S t p World.init).2 = (shape S none 0 p).esc := by
  obtain ⟨h, he⟩ := run_adds lim S t p World.init none hS hp init_fresh init_wire (init_cur t)
  exact ⟨by rw [h.seen]; simp [World.init], he⟩

/-- **C73** All contexts are valid, local, and survive the wire. -/
theorem C73_valid (lim : SpanLimits) (S : Sampler) (t : Nat) (p : Prog) (hS : KeepsState S) (hp : Ok p) (i : Nat)
    (hi : i < (run lim S t p World.init).1.spans.length) :
    ((run lim S t p World.init).1.ctxOf i).isValid = true ∧ ((run lim S t p World.init).1.ctxOf i).isRemote = false := by
  obtain ⟨h, -⟩ := run_adds lim S t p World.init none hS hp init_fresh init_wire (init_cur t)
  refine ⟨(h.wire i hi).1, ?_⟩
  have hlen := h.len
  simp only [World.init, List.length_nil, Nat.zero_add] at hlen
  obtain ⟨x, hx⟩ : ∃ x, (shape S none 0 p).spans[i]? = some x := ⟨_, List.getElem?_eq_getElem (by rw [← hlen]; exact hi)⟩
  exact ((C73_tree lim S t p hS hp).2 i x hx).2.1

/-- **C73** A program leaves the context of every thread of its process as it found it. -/
theorem C73_restores (lim : SpanLimits) (S : Sampler) (t : Nat) (p : Prog) (w : World) (hf : FreshRt w.rt) (u : Nat) :
    (run lim S t p w).1.rt.getCurrent u = w.rt.getCurrent u := by
  simp only [Runtime.getCurrent, (run_rt lim S t p w hf).2.2.2 u]

/-- The parent-based samplers of the SDK keep trace states, whatever the root sampler makes up within the format. -/
theorem keeps_builtin : KeepsState alwaysOn ∧ KeepsState alwaysOff ∧ (∀ f R, ratio f = some R → KeepsState R) ∧
    (∀ R, KeepsState R → KeepsState (parentBasedDefault R)) := by
  have hp : ∀ c : Ctx, TraceState.Reachable c.currentSpan.traceState → TraceState.Reachable ((parentTraceState c).getD []) := by
    intro c h
    unfold parentTraceState
    split
    · exact h
    · exact ⟨.ctor [], [], rfl⟩
  have h1 : KeepsState alwaysOn := fun q h => hp q.ctx h
  have h2 : KeepsState alwaysOff := fun q h => hp q.ctx h
  refine ⟨h1, h2, ?_, ?_⟩
  · intro f R hR q h
    cases f with
    | nan => simp [ratio] at hR
    | inf n => simp [ratio] at hR
    | fin r =>
      simp only [ratio] at hR
      split at hR
      · cases hR
      · cases hR; exact hp q.ctx h
  · intro R hR q h
    simp only [parentBasedDefault, parentBased]
    split
    · split <;> split
      · exact h1 q h
      · exact h2 q h
      · exact h1 q h
      · exact h2 q h
    · exact hR q h

/-- Every sampler of the program is parent-based with the default delegates. -/
def ParentBasedAll : Prog → Prop
  | .seq a b | .tryExcept a b => ParentBasedAll a ∧ ParentBasedAll b
  | .block _ b => ParentBasedAll b
  | .remote S b => (∃ R, S = parentBasedDefault R) ∧ ParentBasedAll b
  | _ => True

theorem shape_samplers (S : Sampler) (cur : Place) (n : Nat) (p : Prog) (hS : ∃ R, S = parentBasedDefault R) (hp : ParentBasedAll p) :
    ∀ x ∈ (shape S cur n p).spans, ∃ R, x.sampler = parentBasedDefault R := by
  induction p generalizing S cur n with
  | skip => simp [shape]
  | look => simp [shape]
  | op i s => simp [shape]
  | raise e => simp [shape]
  | seq a b iha ihb =>
    simp only [shape]
    split
    · intro x hx
      rcases List.mem_append.1 hx with hx | hx
      · exact iha S cur n hS hp.1 x hx
      · exact ihb S cur _ hS hp.2 x hx
    · exact iha S cur n hS hp.1
  | tryExcept a b iha ihb =>
    simp only [shape]
    split
    · intro x hx
      rcases List.mem_append.1 hx with hx | hx
      · exact iha S cur n hS hp.1 x hx
      · exact ihb S cur _ hS hp.2 x hx
    · exact iha S cur n hS hp.1
  | start o => intro x hx; simp only [shape, List.mem_singleton] at hx; subst hx; exact hS
  | block o b ih =>
    intro x hx
    simp only [shape, List.mem_cons] at hx
    rcases hx with rfl | hx
    · exact hS
    · exact ih S _ _ hS hp x hx
  | remote S' b ih => intro x hx; exact ih S' _ _ hp.1 hp.2 x hx

/-- **C73** With parent-based samplers in every service (the default configuration, whatever the root samplers), a span is sampled exactly if the
span of the block around it is: a trace is sampled everywhere or nowhere, across services. -/
theorem C73_sampled_alike (lim : SpanLimits) (S : Sampler) (t : Nat) (p : Prog) (hS : KeepsState S) (hp : Ok p)
    (hb : ∃ R, S = parentBasedDefault R) (hbp : ParentBasedAll p) (i j : Nat) (r : Bool) (x : Placed)
    (hx : (shape S none 0 p).spans[i]? = some x) (hpl : x.place = some (j, r)) :
    ((run lim S t p World.init).1.ctxOf i).sampled = ((run lim S t p World.init).1.ctxOf j).sampled ∧
    ((run lim S t p World.init).1.parentOf i).isSome = ((run lim S t p World.init).1.ctxOf j).sampled := by
  obtain ⟨hlen, hat⟩ := C73_tree lim S t p hS hp
  obtain ⟨_, _, h3, q, h4, h5, -, -, -, h6, h7⟩ := hat i x hx
  rw [hpl] at h3 h4
  obtain ⟨R, hR⟩ := shape_samplers S none 0 p hb hbp x (List.mem_of_getElem? hx)
  have hi : i < (run lim S t p World.init).1.spans.length := by rw [hlen]; exact (List.getElem?_eq_some_iff.1 hx).1
  have hvj := (C73_valid lim S t p hS hp j (Nat.lt_trans h3.1 hi)).1
  have hcv : q.ctx.currentSpan.isValid = true := by rw [h4]; exact hvj
  have hdec := C22_default_follows_parent R q hcv
  rw [hR, hdec, h4] at h6
  rw [hR, hdec, h4] at h7
  have hs : (placeCtx (run lim S t p World.init).1 (some (j, r))).sampled = ((run lim S t p World.init).1.ctxOf j).sampled := rfl
  rw [hs] at h6 h7
  cases hsj : ((run lim S t p World.init).1.ctxOf j).sampled with
  | true =>
    rw [hsj] at h6 h7
    refine ⟨?_, ?_⟩
    · simp only [SpanContext.sampled, h6]; rfl
    · simpa using h7
  | false =>
    rw [hsj] at h6 h7
    refine ⟨?_, ?_⟩
    · simp only [SpanContext.sampled, h6]; rfl
    · simpa using h7

/-! ## Starts and ends -/

/-- Methods that neither start nor end a span. -/
def isMut : Span.Step → Bool
  | .start _ | .notifyStart | .end_ _ | .notifyEnd => false
  | _ => true

/-- Programs that end spans only by leaving their blocks. -/
def Quiet : Prog → Prop
  | .op _ s => isMut s = true
  | .seq a b | .tryExcept a b => Quiet a ∧ Quiet b
  | .block _ b => Quiet b
  | .remote _ b => Quiet b
  | _ => True

/-- The life of a span: when it started and ended, and what the processors were told. -/
def life : Started → Option (Option Int × Option Int × Nat × Nat × List Span.Note)
  | .recording s => some (s.data.startTime, s.data.endTime, s.owedStart, s.owedEnd, s.log)
  | .nonRecording _ => none

theorem step_life (s : Span.State) (x : Span.Step) (h : isMut x = true) : life (.recording (Span.step s x)) = life (.recording s) := by
  cases x <;> simp only [isMut, Bool.false_eq_true] at h <;> simp only [life, Span.step] <;> split <;>
    (try simp only [(UseSpan.mutate_times _ _ _).1, (UseSpan.mutate_times _ _ _).2])

theorem steps_life (l : List Span.Step) (s : Started) (h : ∀ x ∈ l, isMut x = true) : life (stepsOn l s) = life s := by
  cases s with
  | nonRecording sc => rfl
  | recording s =>
    simp only [stepsOn]
    induction l generalizing s with
    | nil => rfl
    | cons x l ih =>
      rw [List.foldl_cons, ih (fun y hy => h y (List.mem_cons_of_mem _ hy)) (Span.step s x)]
      exact step_life s x (h x List.mem_cons_self)

theorem onError_mut (r re se : Bool) (ts : Int) (e : Option Esc) : ∀ x ∈ onError r re se ts e, isMut x = true := by
  intro x hx
  unfold onError at hx
  split at hx
  · split at hx
    · rcases List.mem_append.1 hx with hx | hx
      · split at hx
        · rw [List.mem_singleton] at hx; subst hx; rfl
        · cases hx
      · split at hx
        · rw [List.mem_singleton] at hx; subst hx; rfl
        · cases hx
    · cases hx
  · cases hx

theorem notes_life (s s' : Started) (h : life s' = life s) : notes s' = notes s := by
  cases s <;> cases s' <;> simp_all [life, notes]

/-- Is this the span object that records? -/
def isRec : Started → Bool
  | .recording _ => true
  | .nonRecording _ => false

def lifeAt (w : World) (i : Nat) := (w.spans[i]?).map life

/-- Steps that change no life change no log. -/
theorem steps_mut (w : World) (i : Nat) (l : List Span.Step) (h : ∀ x ∈ l, isMut x = true) :
    (w.steps i l).log = w.log ∧ ∀ j, lifeAt (w.steps i l) j = lifeAt w j := by
  unfold World.steps
  split
  · exact ⟨rfl, fun _ => rfl⟩
  · rename_i s hs
    have hl := steps_life l s h
    refine ⟨?_, ?_⟩
    · simp [notes_life _ _ hl]
    · intro j
      simp only [lifeAt, List.getElem?_set]
      by_cases hj : i = j
      · subst hj
        have hlt : i < w.spans.length := (List.getElem?_eq_some_iff.1 hs).1
        rw [hs]; simp [hlt, hl]
      · simp [hj]

/-- A life between start and end, with nothing owed. -/
def Alive (x : Option (Option (Option Int × Option Int × Nat × Nat × List Span.Note))) : Prop :=
  ∀ a, x = some (some a) → a.1.isSome = true ∧ a.2.1 = none ∧ a.2.2.1 = 0 ∧ a.2.2.2.1 = 0

/-- Is the `i`-th span a recording one? -/
def World.records (w : World) (i : Nat) : Bool := (w.parentOf i).isSome

/-- (start?, span) of a processor call. -/
def callKey (c : Nat × Span.Note) : Bool × Nat := (match c.2 with | .started => true | .ended _ => false, c.1)

/-- Ending an open span makes one call. -/
theorem steps_end (w : World) (i : Nat) (te : Int) (hl : Alive (lifeAt w i)) (hi : i < w.spans.length) :
    (w.steps i [.end_ te, .notifyEnd]).log.map callKey = w.log.map callKey ++ (if w.records i then [(false, i)] else []) ∧
    ∀ j, j ≠ i → lifeAt (w.steps i [.end_ te, .notifyEnd]) j = lifeAt w j := by
  obtain ⟨s, hs⟩ : ∃ s, w.spans[i]? = some s := ⟨_, List.getElem?_eq_getElem hi⟩
  unfold World.steps
  rw [hs]
  simp only
  refine ⟨?_, ?_⟩
  · cases s with
    | nonRecording sc => simp [stepsOn, notes, World.records, World.parentOf, hs]
    | recording s =>
      have hA := hl (s.data.startTime, s.data.endTime, s.owedStart, s.owedEnd, s.log) (by simp [lifeAt, hs, life])
      obtain ⟨h1, h2, -, h4⟩ := hA
      simp only at h1 h2 h4
      obtain ⟨t0, ht0⟩ := Option.isSome_iff_exists.1 h1
      simp [stepsOn, notes, World.records, World.parentOf, hs, Span.step, ht0, h2, h4, callKey]
  · intro j hj
    simp only [lifeAt, List.getElem?_set]
    simp [Ne.symm hj]

theorem startIn_life (S : Sampler) (lim : SpanLimits) (t : Nat) (o : Opts) (w : World) :
    (startIn S lim t o w).log.map callKey = w.log.map callKey ++ (if (startIn S lim t o w).records w.spans.length then [(true, w.spans.length)] else []) ∧
    (∀ j, j < w.spans.length → lifeAt (startIn S lim t o w) j = lifeAt w j) ∧ Alive (lifeAt (startIn S lim t o w) w.spans.length) := by
  obtain ⟨s, hs, he⟩ := startIn_eq S lim t o w
  have hlast : (startIn S lim t o w).spans[w.spans.length]? = some s := by rw [he]; simp
  generalize (if o.newTrace then [] else w.rt.getCurrent t) = cx at hs
  have hspec := startSpan_spec _ _ _ _ _ _ _ _ _ _ _ hs
  obtain ⟨tid, sid, rest, -, -, -, h4⟩ := hspec
  dsimp only at h4
  refine ⟨?_, ?_, ?_⟩
  · have hr : (startIn S lim t o w).records w.spans.length = isRec s := by
      simp only [World.records, World.parentOf, hlast]; cases s <;> rfl
    rw [hr, he]
    simp only [List.map_append, List.map_map]
    congr 1
    split at h4
    · subst h4; rfl
    · subst h4; rfl
  · intro j hj
    rw [he]
    simp only [lifeAt, List.getElem?_append_left hj]
  · intro a ha
    simp only [lifeAt, hlast, Option.map_some, Option.some.injEq] at ha
    split at h4
    · subst h4
      simp only [life, Option.some.injEq] at ha
      subst ha
      exact ⟨rfl, rfl, rfl, rfl⟩
    · subst h4; simp [life] at ha

theorem shape_bounds (S : Sampler) (cur : Place) (n : Nat) (p : Prog) : ∀ e ∈ (shape S cur n p).events, n ≤ e.2 ∧ e.2 < n + (shape S cur n p).spans.length := by
  induction p generalizing S cur n with
  | skip => simp [shape]
  | look => simp [shape]
  | op i s => simp [shape]
  | raise e => simp [shape]
  | seq a b iha ihb =>
    simp only [shape]
    split
    · intro e he
      simp only [List.length_append]
      rcases List.mem_append.1 he with he | he
      · have := iha S cur n e he; omega
      · have := ihb S cur _ e he; omega
    · exact iha S cur n
  | tryExcept a b iha ihb =>
    simp only [shape]
    split
    · intro e he
      simp only [List.length_append]
      rcases List.mem_append.1 he with he | he
      · have := iha S cur n e he; omega
      · have := ihb S cur _ e he; omega
    · exact iha S cur n
  | start o => intro e he; simp only [shape, List.mem_singleton] at he; subst he; simp [shape]
  | block o b ih =>
    intro e he
    simp only [shape, List.cons_append, List.mem_cons, List.mem_append] at he
    simp only [shape, List.length_cons]
    rcases he with rfl | he | he
    · simp
    · have := ih S (some (n, false)) (n + 1) e he; omega
    · split at he
      · simp only [List.mem_singleton] at he; subst he; simp
      · cases he
  | remote S' b ih => exact ih S' _ n

theorem filter_records {w w' : World} (h : Ext w w') (l : List (Bool × Nat)) (hl : ∀ e ∈ l, e.2 < w.spans.length) :
    l.filter (fun e => w'.records e.2) = l.filter (fun e => w.records e.2) := by
  apply List.filter_congr
  intro e he
  simp only [World.records, h.parent e.2 (hl e he)]

theorem run_log (lim : SpanLimits) (S : Sampler) (t : Nat) (p : Prog) (w : World) (cur : Place) (hS : KeepsState S) (hp : Ok p) (hf : FreshRt w.rt)
    (hw : AllWire w) (hc : CurIs w t cur) (hq : Quiet p) :
    (run lim S t p w).1.log.map callKey = w.log.map callKey ++ (shape S cur w.spans.length p).events.filter (fun e => (run lim S t p w).1.records e.2) ∧
    ∀ j, j < w.spans.length → lifeAt (run lim S t p w).1 j = lifeAt w j := by
  induction p generalizing S t w cur with
  | skip => simp [run, shape]
  | look => exact ⟨by simp [run, shape], fun _ _ => rfl⟩
  | op i s =>
    obtain ⟨h1, h2⟩ := steps_mut w i [s] (by intro x hx; rw [List.mem_singleton] at hx; subst hx; exact hq)
    exact ⟨by simp only [run, shape, h1]; simp, fun j _ => h2 j⟩
  | raise e => simp [run, shape]
  | seq a b iha ihb =>
    obtain ⟨a1, a2⟩ := run_adds lim S t a w cur hS hp.1 hf hw hc
    have hrt := run_rt lim S t a w hf
    obtain ⟨l1, l2⟩ := iha S t w cur hS hp.1 hf hw hc hq.1
    simp only [run, shape, ← a2]
    cases hqq : (run lim S t a w).2 with
    | some e => simp only; exact ⟨l1, l2⟩
    | none =>
      simp only
      have hc' := hc.later a1.ext (by simp only [Runtime.getCurrent, hrt.2.2.2])
      obtain ⟨b1, b2⟩ := run_adds lim S t b (run lim S t a w).1 cur hS hp.2 hrt.1 a1.wire hc'
      obtain ⟨m1, m2⟩ := ihb S t (run lim S t a w).1 cur hS hp.2 hrt.1 a1.wire hc' hq.2
      rw [a1.len] at m1 m2
      refine ⟨?_, fun j hj => (m2 j (by omega)).trans (l2 j hj)⟩
      rw [m1, l1, List.filter_append, List.append_assoc, filter_records b1.ext (shape S cur w.spans.length a).events
        (by intro e he; rw [a1.len]; exact (shape_bounds _ _ _ _ e he).2)]
  | tryExcept a b iha ihb =>
    obtain ⟨a1, a2⟩ := run_adds lim S t a w cur hS hp.1 hf hw hc
    have hrt := run_rt lim S t a w hf
    obtain ⟨l1, l2⟩ := iha S t w cur hS hp.1 hf hw hc hq.1
    simp only [run, shape, ← a2]
    cases hqq : (run lim S t a w).2 with
    | none => simp only; exact ⟨l1, l2⟩
    | some e =>
      cases e with
      | base n => simp only; exact ⟨l1, l2⟩
      | exception x y =>
        simp only
        have hc' := hc.later a1.ext (by simp only [Runtime.getCurrent, hrt.2.2.2])
        obtain ⟨b1, b2⟩ := run_adds lim S t b (run lim S t a w).1 cur hS hp.2 hrt.1 a1.wire hc'
        obtain ⟨m1, m2⟩ := ihb S t (run lim S t a w).1 cur hS hp.2 hrt.1 a1.wire hc' hq.2
        rw [a1.len] at m1 m2
        refine ⟨?_, fun j hj => (m2 j (by omega)).trans (l2 j hj)⟩
        rw [m1, l1, List.filter_append, List.append_assoc, filter_records b1.ext (shape S cur w.spans.length a).events
          (by intro e he; rw [a1.len]; exact (shape_bounds _ _ _ _ e he).2)]
  | start o =>
    obtain ⟨h1, h2, h3⟩ := startIn_life S lim t o w
    refine ⟨?_, h2⟩
    simp only [run, shape]
    rw [h1]
    simp only [List.filter_cons, List.filter_nil]
  | block o b ih =>
    obtain ⟨e1, e2, e3, e4, e5, e6⟩ := startIn_spec S lim t o w cur hp.1 hS hw hc
    obtain ⟨s1, s2, s3⟩ := startIn_life S lim t o w
    simp only [run, shape]
    generalize startIn S lim t o w = w1 at e1 e2 e3 e4 e5 e6 s1 s2 s3
    generalize hcx : Ctx.setSpan (w1.rt.getCurrent t) (w1.ctxOf w.spans.length) = c
    generalize hw2 : ({ w1 with rt := (w1.rt.attach t c).1 } : World) = w2
    have hs2 : w2.spans = w1.spans := by rw [← hw2]
    have hlog2 : w2.log = w1.log := by rw [← hw2]
    have hext2 : Ext w1 w2 := Ext.congr hs2
    have hlen2 : w2.spans.length = w.spans.length + 1 := by rw [hs2, e2]
    have hlt : w.spans.length < w1.spans.length := by omega
    have hf2 : FreshRt w2.rt := by
      rw [← hw2]
      intro u hu
      simp only [Runtime.attach, e3] at hu ⊢
      exact Nat.lt_succ_of_lt (hf u hu)
    have hcur2 : CurIs w2 t (some (w.spans.length, false)) := by
      refine ⟨?_, fun p hp => by cases hp; simp only; omega⟩
      have h1 : Ctx.currentSpan (w2.rt.getCurrent t) = w1.ctxOf w.spans.length := by
        rw [← hw2]
        simp only [Runtime.attach, Runtime.getCurrent, if_true, Option.getD_some]
        rw [← hcx]; exact (Ctx.C06_current_span _ _).1
      rw [h1]
      simp only [placeCtx]
      rw [hext2.ctx _ hlt]
      have := e6.2.1
      generalize w1.ctxOf w.spans.length = sc at this
      cases sc; simp only at this; subst this; rfl
    have hw2' : AllWire w2 := by
      intro i hi
      rw [hs2] at hi
      rw [hext2.ctx i hi]; exact e5 i hi
    obtain ⟨b1, b2⟩ := run_adds lim S t b w2 (some (w.spans.length, false)) hS hp.2 hf2 hw2' hcur2
    obtain ⟨m1, m2⟩ := ih S t w2 (some (w.spans.length, false)) hS hp.2 hf2 hw2' hcur2 hq
    rw [hlen2] at b1 b2 m1 m2
    have hextb : Ext w1 (run lim S t b w2).1 := hext2.trans b1.ext
    generalize run lim S t b w2 = q at b1 b2 m1 m2 hextb
    have hlife2 : ∀ j, lifeAt w2 j = lifeAt w1 j := by intro j; simp only [lifeAt, hs2]
    generalize hw3 : ({ q.1 with rt := q.1.rt.detach t (w1.rt.attach t c).2 } : World) = w3
    have hs3 : w3.spans = q.1.spans := by rw [← hw3]
    have hlog3 : w3.log = q.1.log := by rw [← hw3]
    have hm := steps_mut w3 w.spans.length _ (onError_mut (w3.recordingAt w.spans.length) o.recordException o.setStatusOnException o.tExc q.2)
    obtain ⟨x1, x2, -, -⟩ := steps_ext w3 w.spans.length (onError (w3.recordingAt w.spans.length) o.recordException o.setStatusOnException o.tExc q.2)
    generalize w3.steps w.spans.length (onError (w3.recordingAt w.spans.length) o.recordException o.setStatusOnException o.tExc q.2) = w4 at hm x1 x2
    have hlife4 : ∀ j, j < w.spans.length + 1 → lifeAt w4 j = lifeAt w1 j := by
      intro j hj
      rw [hm.2 j, show lifeAt w3 j = lifeAt q.1 j by simp only [lifeAt, hs3], m2 j hj, hlife2 j]
    have hext4 : Ext q.1 w4 := (Ext.congr hs3).trans x1
    have hlenq : q.1.spans.length = w.spans.length + 1 + (shape S (some (w.spans.length, false)) (w.spans.length + 1) b).spans.length := by
      rw [b1.len, hlen2]
    have hn4 : w.spans.length < w4.spans.length := by rw [x2, hs3, hlenq]; omega
    have hev : ∀ e ∈ (shape S (some (w.spans.length, false)) (w.spans.length + 1) b).events, e.2 < q.1.spans.length := by
      intro e he; rw [hlenq]; exact (shape_bounds _ _ _ _ e he).2
    have hlog4 : w4.log.map callKey = w.log.map callKey ++ (if w1.records w.spans.length then [(true, w.spans.length)] else []) ++
        (shape S (some (w.spans.length, false)) (w.spans.length + 1) b).events.filter (fun e => q.1.records e.2) := by
      rw [hm.1, hlog3, m1, hlog2, s1]
    have hfin : ∀ w5 : World, Ext w4 w5 → ((true, w.spans.length) :: (shape S (some (w.spans.length, false)) (w.spans.length + 1) b).events).filter (fun e => w5.records e.2) =
        (if w1.records w.spans.length then [(true, w.spans.length)] else []) ++
        (shape S (some (w.spans.length, false)) (w.spans.length + 1) b).events.filter (fun e => q.1.records e.2) := by
      intro w5 h5
      have hr : w5.records w.spans.length = w1.records w.spans.length := by
        simp only [World.records]
        rw [h5.parent _ hn4, hext4.parent _ (by rw [hlenq]; omega), hextb.parent _ hlt]
      rw [List.filter_cons, filter_records (hext4.trans h5) _ hev]
      simp only [hr]
      split <;> rfl
    cases o.endOnExit with
    | false =>
      simp only [Bool.false_eq_true, if_false, List.append_nil]
      refine ⟨?_, fun j hj => ?_⟩
      · rw [hlog4, hfin w4 (Ext.refl _), List.append_assoc]
      · rw [hlife4 j (by omega), s2 j hj]
    | true =>
      simp only [if_true]
      obtain ⟨z1, z2⟩ := steps_end w4 w.spans.length o.tEnd (by rw [hlife4 _ (by omega)]; exact s3) hn4
      obtain ⟨y1, y2, -, -⟩ := steps_ext w4 w.spans.length [.end_ o.tEnd, .notifyEnd]
      refine ⟨?_, fun j hj => ?_⟩
      · rw [z1, List.filter_append, hfin _ y1, hlog4]
        have hr : (w4.steps w.spans.length [.end_ o.tEnd, .notifyEnd]).records w.spans.length = w4.records w.spans.length := by
          simp only [World.records]; rw [y1.parent _ hn4]
        simp only [List.filter_cons, List.filter_nil, hr, List.append_assoc]
      · rw [z2 j (by omega), hlife4 j (by omega), s2 j hj]
  | remote S' b ih =>
    simp only [run, shape]
    have hcur := remote_cur w t cur hw hc
    have hf0 : FreshRt (Runtime.init.attach 0 (TraceContext.extract (TraceContext.inject [] (w.rt.getCurrent t)) (Runtime.init.getCurrent 0))).1 := by
      intro u hu; cases hu
    generalize (Runtime.init.attach 0 (TraceContext.extract (TraceContext.inject [] (w.rt.getCurrent t)) (Runtime.init.getCurrent 0))).1 = rt0 at hcur hf0
    obtain ⟨b1, b2⟩ := ih S' 0 { w with rt := rt0 } _ hp.1 hp.2 hf0 (fun i hi => hw i hi) hcur hq
    exact ⟨b1, b2⟩

/-- **C74** In a program that ends spans only by leaving their blocks, the span processors are called in exactly the order of the program's text —
`on_start` when a span is started, `on_end` when its block is left, by whatever way — for the recording spans and no others. So every recording
span of a block is ended exactly once, after all spans of the blocks inside it. -/
theorem C74_processor_calls (lim : SpanLimits) (S : Sampler) (t : Nat) (p : Prog) (hS : KeepsState S) (hp : Ok p) (hq : Quiet p) :
    (run lim S t p World.init).1.log.map callKey = (shape S none 0 p).events.filter (fun e => (run lim S t p World.init).1.records e.2) := by
  have := (run_log lim S t p World.init none hS hp init_fresh init_wire (init_cur t) hq).1
  simpa [World.init] using this

/-! ## Every span is a span -/

/-- Every recording span of a program is an SDK span of its name, parent and links after some steps, beginning with its start: all theorems
about single spans (C17–C19) apply to it. The calls made to the processors for it are those of that span. -/
def Genuine (lim : SpanLimits) (w : World) : Prop :=
  (∀ (i : Nat) (s : Span.State), w.spans[i]? = some (Started.recording s) → ∃ (name : Str) (sc : SpanContext) (parent : Option SpanContext) (attrs : Span.RawAttrs)
    (links : RawLinks) (t0 : Int) (l : List Span.Step), s = (.start t0 :: .notifyStart :: l).foldl Span.step (Span.init lim name sc parent attrs [] links)) ∧
  ∀ i : Nat, (w.log.filter (fun c => c.1 == i)).map Prod.snd = (match w.spans[i]? with | some s => notes s | none => [])

theorem step_log (s : Span.State) (x : Span.Step) : s.log <+: (Span.step s x).log := by
  cases x <;> simp only [Span.step] <;> (try split) <;> (try exact List.prefix_refl _)
  all_goals exact List.prefix_append _ _

theorem steps_log (l : List Span.Step) (s : Span.State) : s.log <+: (l.foldl Span.step s).log := by
  induction l generalizing s with
  | nil => exact List.prefix_refl _
  | cons x l ih => exact (step_log s x).trans (ih _)

theorem genuine_steps (lim : SpanLimits) (w : World) (i : Nat) (l : List Span.Step) (h : Genuine lim w) : Genuine lim (w.steps i l) := by
  unfold World.steps
  split
  · exact h
  · rename_i s hs
    have hlt : i < w.spans.length := (List.getElem?_eq_some_iff.1 hs).1
    refine ⟨?_, ?_⟩
    · intro j st hst
      simp only [List.getElem?_set] at hst
      by_cases hj : i = j
      · subst hj
        simp only [if_true, hlt, Option.some.injEq] at hst
        cases s with
        | nonRecording sc => simp [stepsOn] at hst
        | recording s0 =>
          simp only [stepsOn, Started.recording.injEq] at hst
          obtain ⟨name, sc, par, at_, ln, t0, l0, rfl⟩ := h.1 i s0 hs
          refine ⟨name, sc, par, at_, ln, t0, l0 ++ l, ?_⟩
          rw [← hst, ← List.foldl_append]; rfl
      · rw [if_neg hj] at hst
        exact h.1 j st hst
    · intro j
      simp only [List.filter_append, List.map_append, h.2 j, List.getElem?_set]
      by_cases hj : i = j
      · subst hj
        simp only [if_true, hlt, hs]
        have hf : (((notes (stepsOn l s)).drop (notes s).length).map fun n => (i, n)).filter (fun c => c.1 == i) =
            ((notes (stepsOn l s)).drop (notes s).length).map fun n => (i, n) := by
          rw [List.filter_eq_self]; intro c hc; obtain ⟨n, _, rfl⟩ := List.mem_map.1 hc; simp
        rw [hf, List.map_map]
        have hid : (Prod.snd ∘ fun n : Span.Note => (i, n)) = id := rfl
        rw [hid, List.map_id]
        have hpre : notes s <+: notes (stepsOn l s) := by
          cases s with
          | nonRecording sc => exact List.prefix_refl _
          | recording s0 => exact steps_log l s0
        obtain ⟨r, hr⟩ := hpre
        rw [← hr]; simp
      · have hf : (((notes (stepsOn l s)).drop (notes s).length).map fun n => (i, n)).filter (fun c => c.1 == j) = [] := by
          rw [List.filter_eq_nil_iff]; intro c hc; obtain ⟨n, _, rfl⟩ := List.mem_map.1 hc; simpa using hj
        rw [hf]; simp [hj]

theorem genuine_start (lim : SpanLimits) (S : Sampler) (t : Nat) (o : Opts) (w : World) (h : Genuine lim w) : Genuine lim (startIn S lim t o w) := by
  obtain ⟨s, hs, he⟩ := startIn_eq S lim t o w
  generalize (if o.newTrace then [] else w.rt.getCurrent t) = cx at hs
  obtain ⟨tid, sid, rest, -, -, -, h4⟩ := startSpan_spec _ _ _ _ _ _ _ _ _ _ _ hs
  dsimp only at h4
  rw [he]
  refine ⟨?_, ?_⟩
  · intro j st hst
    simp only [List.getElem?_append] at hst
    split at hst
    · exact h.1 j st hst
    · rw [List.getElem?_singleton] at hst
      split at hst
      · simp only [Option.some.injEq] at hst
        split at h4
        · rw [h4] at hst; simp only [Started.recording.injEq] at hst
          exact ⟨_, _, _, _, _, _, [], hst.symm⟩
        · rw [h4] at hst; cases hst
      · cases hst
  · intro j
    simp only [List.filter_append, List.map_append, h.2 j, List.getElem?_append]
    by_cases hj : j < w.spans.length
    · have hf : ((notes s).map fun n => (w.spans.length, n)).filter (fun c => c.1 == j) = [] := by
        rw [List.filter_eq_nil_iff]; intro c hc; obtain ⟨n, _, rfl⟩ := List.mem_map.1 hc; simp; omega
      rw [hf]; simp [hj]
    · rw [if_neg hj, List.getElem?_eq_none (Nat.le_of_not_lt hj)]
      by_cases hj2 : j = w.spans.length
      · subst hj2
        have hf : ((notes s).map fun n => (w.spans.length, n)).filter (fun c => c.1 == w.spans.length) = (notes s).map fun n => (w.spans.length, n) := by
          rw [List.filter_eq_self]; intro c hc; obtain ⟨n, _, rfl⟩ := List.mem_map.1 hc; simp
        rw [hf, List.map_map, show (Prod.snd ∘ fun n : Span.Note => (w.spans.length, n)) = id from rfl, List.map_id]
        simp
      · have hf : ((notes s).map fun n => (w.spans.length, n)).filter (fun c => c.1 == j) = [] := by
          rw [List.filter_eq_nil_iff]; intro c hc; obtain ⟨n, _, rfl⟩ := List.mem_map.1 hc; simp; omega
        rw [hf, List.getElem?_eq_none (by simp; omega)]; rfl

theorem run_genuine (lim : SpanLimits) (S : Sampler) (t : Nat) (p : Prog) (w : World) (h : Genuine lim w) : Genuine lim (run lim S t p w).1 := by
  induction p generalizing S t w with
  | skip => exact h
  | look => exact h
  | op i s => exact genuine_steps lim w i [s] h
  | raise e => exact h
  | seq a b iha ihb =>
    simp only [run]
    split
    · exact ihb _ _ _ (iha _ _ _ h)
    · exact iha _ _ _ h
  | tryExcept a b iha ihb =>
    simp only [run]
    split
    · exact ihb _ _ _ (iha _ _ _ h)
    · exact iha _ _ _ h
  | start o => exact genuine_start lim S t o w h
  | block o b ih =>
    simp only [run]
    have h1 := genuine_start lim S t o w h
    generalize startIn S lim t o w = w1 at h1
    have h2 := ih S t { w1 with rt := (w1.rt.attach t (Ctx.setSpan (w1.rt.getCurrent t) (w1.ctxOf w.spans.length))).1 } h1
    have h3 : ∀ l, Genuine lim (World.steps { (run lim S t b { w1 with rt := (w1.rt.attach t (Ctx.setSpan (w1.rt.getCurrent t) (w1.ctxOf w.spans.length))).1 }).1 with
        rt := (run lim S t b { w1 with rt := (w1.rt.attach t (Ctx.setSpan (w1.rt.getCurrent t) (w1.ctxOf w.spans.length))).1 }).1.rt.detach t
          (w1.rt.attach t (Ctx.setSpan (w1.rt.getCurrent t) (w1.ctxOf w.spans.length))).2 } w.spans.length l) :=
      fun l => genuine_steps lim _ _ l h2
    split
    · exact genuine_steps lim _ _ _ (h3 _)
    · exact h3 _
  | remote S' b ih =>
    simp only [run]
    exact ih S' 0 { w with rt := _ } h

/-- **C74** For every program, quiet or not, each recording span is a genuine SDK span, and the processors were called for it exactly as that span
says. -/
theorem C74_genuine (lim : SpanLimits) (S : Sampler) (t : Nat) (p : Prog) : Genuine lim (run lim S t p World.init).1 :=
  run_genuine lim S t p World.init ⟨by intro i s h; simp [World.init] at h, by intro i; simp [World.init]⟩

/-- What a processor is given of a genuine span. -/
theorem genuine_final {lim : SpanLimits} {w : World} (hg : Genuine lim w) (i : Nat) (d : Span.Data) (h : (i, Span.Note.ended d) ∈ w.log) :
    (∃ s, w.spans[i]? = some (.recording s) ∧ s.data = d ∧ d.endTime.isSome = true) ∧
    ((w.log.map callKey).filter (fun c => c == (false, i))).length = 1 := by
  obtain ⟨g1, g2⟩ := hg
  have g3 := g2 i
  have hmem : Span.Note.ended d ∈ (w.log.filter (fun c => c.1 == i)).map Prod.snd :=
    List.mem_map.2 ⟨_, List.mem_filter.2 ⟨h, by simp⟩, rfl⟩
  rw [g3] at hmem
  cases hs : w.spans[i]? with
  | none => rw [hs] at hmem; cases hmem
  | some s =>
    cases s with
    | nonRecording sc => rw [hs] at hmem; cases hmem
    | recording s =>
      rw [hs] at hmem g3
      simp only [notes] at hmem g3
      obtain ⟨name, sc, par, at_, ln, t0, l, rfl⟩ := g1 i s hs
      have hd : d ∈ Span.endNotes (Span.after lim name sc par at_ [] ln (.start t0 :: .notifyStart :: l)).log := by
        simp only [Span.endNotes, List.mem_filterMap]
        exact ⟨_, hmem, rfl⟩
      obtain ⟨f1, f2, f3⟩ := Span.C17_snapshot_final lim name sc par at_ [] ln (.start t0 :: .notifyStart :: l) [] d hd
      rw [List.append_nil] at f1
      refine ⟨⟨_, rfl, f1.symm, f3⟩, ?_⟩
      have hone := (Span.C17_notified_once lim name sc par at_ [] ln (.start t0 :: .notifyStart :: l)).1
      have hle : (Span.endNotes (Span.after lim name sc par at_ [] ln (.start t0 :: .notifyStart :: l)).log).length ≤ 1 := by
        split at hone <;> omega
      have hpos := List.length_pos_of_mem hd
      have hcount : ((w.log.map callKey).filter (fun c => c == (false, i))).length =
          (Span.endNotes ((w.log.filter (fun c => c.1 == i)).map Prod.snd)).length := by
        clear * -
        induction w.log with
        | nil => rfl
        | cons c cs ih =>
          obtain ⟨j, n⟩ := c
          simp only [List.map_cons, List.filter_cons, Span.endNotes] at ih ⊢
          by_cases hj : j = i
          · subst hj
            cases n with
            | started => simpa [callKey] using ih
            | ended d => simp [callKey]; simpa using ih
          · cases n with
            | started => simpa [callKey, hj] using ih
            | ended d => simpa [callKey, hj] using ih
      rw [hcount, g3]
      have e : Span.after lim name sc par at_ [] ln (.start t0 :: .notifyStart :: l) = (.start t0 :: .notifyStart :: l).foldl Span.step (Span.init lim name sc par at_ [] ln) := rfl
      rw [e] at hle hpos
      omega

/-- **C74** What a processor is given at `on_end` is the final state of the span, whatever the program does to the span afterwards; and it is
given each span at most once. -/
theorem C74_final (lim : SpanLimits) (S : Sampler) (t : Nat) (p : Prog) (i : Nat) (d : Span.Data)
    (h : (i, Span.Note.ended d) ∈ (run lim S t p World.init).1.log) :
    (∃ s, (run lim S t p World.init).1.spans[i]? = some (.recording s) ∧ s.data = d ∧ d.endTime.isSome = true) ∧
    (((run lim S t p World.init).1.log.map callKey).filter (fun c => c == (false, i))).length = 1 :=
  genuine_final (C74_genuine lim S t p) i d h

private def o (n : Nat) (new end_ : Bool) : Opts := ⟨['s'], 0, [], [], new, true, true, end_, n, n + 100, 1, 2, 3⟩
private def exProg : Prog :=
  .seq .look (.seq (.tryExcept (.block (o 1 false true) (.seq (.remote alwaysOn (.block (o 2 false true) (.seq .look (.op 0 (.updateName ['x'])))))
    (.seq (.start (o 3 true false)) (.seq (.block (o 4 false true) (.raise (.exception ⟨[], ['E'], [], []⟩ ['E']))) .look)))) .skip) (.block (o 5 false false) .look))

/-- The program above: five spans; the second in another service, the third in a trace of its own, the fourth left by an exception. -/
example : Ok exProg ∧ Quiet exProg ∧ KeepsState alwaysOn ∧
    (shape alwaysOn none 0 exProg).spans.map Placed.place = [none, some (0, true), none, some (0, false), none] ∧
    (shape alwaysOn none 0 exProg).events = [(true, 0), (true, 1), (false, 1), (true, 2), (true, 3), (false, 3), (false, 0), (true, 4)] ∧
    (shape alwaysOn none 0 exProg).looks = [none, some (1, false), some (4, false)] := by
  refine ⟨?_, ?_, keeps_builtin.1, by decide +kernel, by decide +kernel, by decide +kernel⟩
  · simp [Ok, exProg, Draws, o, keeps_builtin.1]
  · simp [Quiet, exProg, isMut]

end Tracer
end Otel
