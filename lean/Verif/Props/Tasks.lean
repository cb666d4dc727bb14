import Verif.Spec.Tasks
import Verif.Props.Tracer
import Mathlib.Algebra.Order.Group.Multiset
import Mathlib.Tactic.Abel
import Mathlib.Data.List.Forall2
/-!
# C92: traces of programs with several threads and tasks
-/
namespace Otel
namespace Tasks
open UseSpan (Esc onError)
open Sampling (Sampler Started Query)
open Tracer
open scoped List

/-! ## The invariant -/

/-- The span in which a task with this stack is. -/
def curOf (base : Option Nat) : List Frame → Option Nat
  | [] => base
  | .leave i _ _ :: _ => some i
  | .seq _ :: r => curOf base r
  | .handler _ :: r => curOf base r

def lineOf (done : List Site) (pl : Option Nat) : Option Nat := pl.bind fun i => (done[i]?).map Site.line

/-- What the code of a task is going to raise. -/
def raisesCtl : Ctl → Option Esc
  | .run p => raises p
  | .enter _ _ b => raises b
  | .ret e | .error _ _ e | .finish _ _ e | .notify _ e => e

/-- What is left to do of the text. -/
def pendCtl (done : List Site) (cur : Option Nat) : Ctl → List Event
  | .run p => events (lineOf done cur) p
  | .enter i _ b => events (lineOf done (some i)) b
  | _ => []

def pendFrames (done : List Site) (base : Option Nat) : Option Esc → List Frame → List Event
  | _, [] => []
  | e, .seq b :: r => (if e.isNone then events (lineOf done (curOf base r)) b else []) ++ pendFrames done base (thenRaises e (raises b)) r
  | e, .handler b :: r => (if caught e then events (lineOf done (curOf base r)) b else []) ++ pendFrames done base (if caught e then raises b else e) r
  | e, .leave _ _ _ :: r => pendFrames done base e r

/-- A task with the span and the context it began with. -/
abbrev Ghost := Task × Option Nat × Option Ctx

def pend (done : List Site) (x : Ghost) : List Event :=
  pendCtl done (curOf x.2.1 x.1.stack) x.1.ctl ++ pendFrames done x.2.1 (raisesCtl x.1.ctl) x.1.stack

def At (w : World) (pl : Option Nat) (v : Option Ctx) : Prop :=
  Ctx.currentSpan (v.getD []) = placeCtx w (pl.map fun j => (j, false)) ∧ ∀ j, pl = some j → j < w.spans.length

/-- The context of a task, and those its tokens restore, are those of the blocks around. -/
def Chain (w : World) (t : Nat) (base : Option Nat) (ini : Option Ctx) : List Frame → Option Ctx → Prop
  | [], v => v = ini ∧ At w base v
  | .leave i _ tok :: r, v => At w (some i) v ∧ tok.thread = t ∧ Chain w t base ini r tok.old
  | .seq _ :: r, v => Chain w t base ini r v
  | .handler _ :: r, v => Chain w t base ini r v

def uidsOf : List Frame → List Nat
  | [] => []
  | .leave _ _ tok :: r => tok.uid :: uidsOf r
  | .seq _ :: r => uidsOf r
  | .handler _ :: r => uidsOf r

/-- Steps made on a span, each by its block (`true`) or by a method call. -/
abbrev Hist := List (Bool × Span.Step)

def own (h : Hist) : List Span.Step := (h.filter fun x => x.1).map Prod.snd

/-- The spans whose blocks a task is in. -/
def ownsCtl : Ctl → List Nat
  | .enter i _ _ | .error i _ _ | .finish i _ _ | .notify i _ => [i]
  | _ => []

def ownsFrames : List Frame → List Nat
  | [] => []
  | .leave i _ _ :: r => i :: ownsFrames r
  | .seq _ :: r => ownsFrames r
  | .handler _ :: r => ownsFrames r

def owns (x : Ghost) : List Nat := ownsCtl x.1.ctl ++ ownsFrames x.1.stack

/-- The `i`-th span is that of a block with these arguments, which `e` is going to leave and whose exit has made these steps. -/
def Phase (done : List Site) (hist : Nat → Hist) (i : Nat) (o : Opts) (e : Option Esc) (l : List Span.Step) : Prop :=
  ∃ x, done[i]? = some x ∧ x.opts = o ∧ x.leaves = some e ∧ own (hist i) = l

def phaseCtl (done : List Site) (hist : Nat → Hist) : Ctl → Prop
  | .enter i o b => Phase done hist i o (raises b) []
  | .error i o e => Phase done hist i o e []
  | .finish i o e => Phase done hist i o e (exceptionSteps o e)
  | .notify i e => ∃ o, o.endOnExit = true ∧ Phase done hist i o e (exceptionSteps o e ++ [.end_ o.tEnd])
  | _ => True

def phaseFrames (done : List Site) (hist : Nat → Hist) : Option Esc → List Frame → Prop
  | _, [] => True
  | e, .seq b :: r => phaseFrames done hist (thenRaises e (raises b)) r
  | e, .handler b :: r => phaseFrames done hist (if caught e then raises b else e) r
  | e, .leave i o _ :: r => Phase done hist i o e [] ∧ phaseFrames done hist e r

/-- Where the span of a site is. -/
def SiteAt (S : Sampler) (w : World) (done : List Site) (i : Nat) (x : Site) : Prop :=
  ∃ pl : Option Nat, lineOf done pl = x.around ∧ (∀ j, pl = some j → j < done.length) ∧ SpanAt w i ⟨pl.map fun j => (j, false), x.opts, S⟩

/-- If the `i`-th span records, it is the span made with the arguments of its site (and the sampler's attributes) after these steps. -/
def HistAt (S : Sampler) (lim : SpanLimits) (w : World) (i : Nat) (o : Opts) (l : List Span.Step) : Prop :=
  ∀ s, w.spans[i]? = some (.recording s) → ∃ (q : Query) (parent : Option SpanContext), q.name = o.name ∧ q.kind = o.kind ∧ q.attributes = o.attributes ∧
    q.links = o.links ∧ q.traceId = (w.ctxOf i).traceId ∧
    s = (.start o.tStart :: .notifyStart :: l).foldl Span.step (Span.init lim o.name (w.ctxOf i) parent (S q).attributes [] o.links)

/-- What was seen is the span of the block around. -/
def SeenAt (w : World) (done : List Site) (x : Nat × SpanContext) (y : Nat × Option Nat) : Prop :=
  x.1 = y.1 ∧ ∃ pl : Option Nat, lineOf done pl = y.2 ∧ (∀ j, pl = some j → j < done.length) ∧ x.2 = placeCtx w (pl.map fun j => (j, false))

structure Inv (S : Sampler) (lim : SpanLimits) (main : Prog) (st : State) (ts : List Ghost) (evs : List Event) (hist : Nat → Hist) : Prop where
  tasks : st.tasks = ts.map (·.1)
  len : (sitesOf evs).length = st.world.spans.length
  wire : AllWire st.world
  genuine : Genuine lim st.world
  perm : evs ++ ts.flatMap (pend (sitesOf evs)) ~ events none main
  seen : List.Forall₂ (SeenAt st.world (sitesOf evs)) st.seen (looksOf evs)
  spans : ∀ (i : Nat) (x : Site), (sitesOf evs)[i]? = some x → SiteAt S st.world (sitesOf evs) i x
  uids : (ts.flatMap fun x => uidsOf x.1.stack).Nodup
  fresh : ∀ u ∈ ts.flatMap (fun x => uidsOf x.1.stack), u < st.world.rt.nextUid ∧ u ∉ st.world.rt.used
  used : FreshRt st.world.rt
  chain : ∀ (t : Nat) (x : Ghost), ts[t]? = some x → Chain st.world t x.2.1 x.2.2 x.1.stack (st.world.rt.value t)
  phase : ∀ (t : Nat) (x : Ghost), ts[t]? = some x → phaseCtl (sitesOf evs) hist x.1.ctl ∧ phaseFrames (sitesOf evs) hist (raisesCtl x.1.ctl) x.1.stack
  owners : (ts.flatMap owns).Nodup
  history : ∀ (i : Nat) (x : Site), (sitesOf evs)[i]? = some x → HistAt S lim st.world i x.opts ((hist i).map Prod.snd) ∧
    ∀ s, (false, s) ∈ hist i → .op i s ∈ events none main
  closed : ∀ (i : Nat) (x : Site), (sitesOf evs)[i]? = some x → i ∉ ts.flatMap owns → own (hist i) = x.exit

/-! ## Lemmas on its parts -/

theorem At.ext {w w' : World} (h : Ext w w') {pl : Option Nat} {v : Option Ctx} (ha : At w pl v) : At w' pl v := by
  refine ⟨?_, fun j hj => Nat.lt_of_lt_of_le (ha.2 j hj) h.len⟩
  rw [ha.1, placeCtx_ext h]
  intro p hp
  cases pl with
  | none => simp at hp
  | some j => simp only [Option.map_some, Option.some.injEq] at hp; subst hp; exact ha.2 j rfl

theorem Chain.ext {w w' : World} (h : Ext w w') {t : Nat} {base : Option Nat} {ini : Option Ctx} {s : List Frame} {v : Option Ctx}
    (hc : Chain w t base ini s v) : Chain w' t base ini s v := by
  induction s generalizing v with
  | nil => exact ⟨hc.1, hc.2.ext h⟩
  | cons f r ih =>
    cases f with
    | seq b => exact ih hc
    | handler b => exact ih hc
    | leave i o tok => exact ⟨hc.1.ext h, hc.2.1, ih hc.2.2⟩

theorem Chain.cur {w : World} {t : Nat} {base : Option Nat} {ini : Option Ctx} {s : List Frame} {v : Option Ctx} (hc : Chain w t base ini s v) :
    At w (curOf base s) v := by
  induction s generalizing v with
  | nil => exact hc.2
  | cons f r ih =>
    cases f with
    | seq b => exact ih hc
    | handler b => exact ih hc
    | leave i o tok => exact hc.1

theorem lineOf_append (done new : List Site) (pl : Option Nat) (h : ∀ j, pl = some j → j < done.length) : lineOf (done ++ new) pl = lineOf done pl := by
  cases pl with
  | none => rfl
  | some j => simp only [lineOf, Option.bind_some]; rw [List.getElem?_append_left (h j rfl)]

theorem pendFrames_append (done new : List Site) {w : World} (hl : done.length = w.spans.length) {t : Nat}
    {base : Option Nat} {ini : Option Ctx} {s : List Frame} {v : Option Ctx} (hc : Chain w t base ini s v) (e : Option Esc) :
    pendFrames (done ++ new) base e s = pendFrames done base e s := by
  induction s generalizing v e with
  | nil => rfl
  | cons fr r ih =>
    cases fr with
    | seq b =>
      have hc' : Chain w t base ini r v := hc
      simp only [pendFrames]
      rw [lineOf_append _ _ _ (fun j hj => by rw [hl]; exact hc'.cur.2 j hj), ih hc']
    | handler b =>
      have hc' : Chain w t base ini r v := hc
      simp only [pendFrames]
      rw [lineOf_append _ _ _ (fun j hj => by rw [hl]; exact hc'.cur.2 j hj), ih hc']
    | leave i o tok => exact ih hc.2.2 e

theorem Phase.lt {done : List Site} {hist : Nat → Hist} {i : Nat} {o : Opts} {e : Option Esc} {l : List Span.Step} (h : Phase done hist i o e l) :
    i < done.length := by
  obtain ⟨x, hx, -⟩ := h
  exact (List.getElem?_eq_some_iff.1 hx).1

theorem pend_append (done new : List Site) {w : World} (hl : done.length = w.spans.length) {t : Nat}
    (x : Ghost) {v : Option Ctx} (hc : Chain w t x.2.1 x.2.2 x.1.stack v) {hist : Nat → Hist} (hk : phaseCtl done hist x.1.ctl) :
    pend (done ++ new) x = pend done x := by
  unfold pend
  rw [pendFrames_append done new hl hc]
  congr 1
  cases hx : x.1.ctl with
  | run p => simp only [pendCtl]; rw [lineOf_append _ _ _ (fun j hj => by rw [hl]; exact hc.cur.2 j hj)]
  | enter i o b =>
    rw [hx] at hk
    simp only [pendCtl]
    rw [lineOf_append _ _ _ (fun j hj => by cases hj; exact Phase.lt hk)]
  | ret e => rfl
  | error i o e => rfl
  | finish i o e => rfl
  | notify i e => rfl

theorem Phase.later {done : List Site} {hist : Nat → Hist} {i : Nat} {o : Opts} {e : Option Esc} {l : List Span.Step} (h : Phase done hist i o e l)
    (new : List Site) (hist' : Nat → Hist) (hh : own (hist' i) = own (hist i)) : Phase (done ++ new) hist' i o e l := by
  have hlt := h.lt
  obtain ⟨x, h1, h2, h3, h4⟩ := h
  exact ⟨x, by rw [List.getElem?_append_left hlt]; exact h1, h2, h3, by rw [hh]; exact h4⟩

theorem phaseCtl_later {done : List Site} {hist : Nat → Hist} {c : Ctl} (h : phaseCtl done hist c) (new : List Site) (hist' : Nat → Hist)
    (hh : ∀ i ∈ ownsCtl c, own (hist' i) = own (hist i)) : phaseCtl (done ++ new) hist' c := by
  cases c with
  | run p => trivial
  | ret e => trivial
  | enter i o b => exact Phase.later h new hist' (hh i (List.mem_singleton.2 rfl))
  | error i o e => exact Phase.later h new hist' (hh i (List.mem_singleton.2 rfl))
  | finish i o e => exact Phase.later h new hist' (hh i (List.mem_singleton.2 rfl))
  | notify i e =>
    obtain ⟨o, ho, h⟩ := h
    exact ⟨o, ho, h.later new hist' (hh i (List.mem_singleton.2 rfl))⟩

theorem phaseFrames_later {done : List Site} {hist : Nat → Hist} {e : Option Esc} {s : List Frame} (h : phaseFrames done hist e s) (new : List Site)
    (hist' : Nat → Hist) (hh : ∀ i ∈ ownsFrames s, own (hist' i) = own (hist i)) : phaseFrames (done ++ new) hist' e s := by
  induction s generalizing e with
  | nil => trivial
  | cons f r ih =>
    cases f with
    | seq b => exact ih (e := thenRaises e (raises b)) h hh
    | handler b => exact ih (e := if caught e then raises b else e) h hh
    | leave i o tok => exact ⟨h.1.later new hist' (hh i List.mem_cons_self), ih h.2 (fun j hj => hh j (List.mem_cons_of_mem _ hj))⟩

theorem flatMap_set {α β} (f : α → List β) (l : List α) (t : Nat) (x y : α) (h : l[t]? = some x) :
    ∃ a b, l.flatMap f = a ++ f x ++ b ∧ (l.set t y).flatMap f = a ++ f y ++ b := by
  induction l generalizing t with
  | nil => simp at h
  | cons z l ih =>
    cases t with
    | zero =>
      simp only [List.getElem?_cons_zero, Option.some.injEq] at h
      subst h
      exact ⟨[], l.flatMap f, by simp, by simp⟩
    | succ t =>
      obtain ⟨a, b, h1, h2⟩ := ih t h
      exact ⟨f z ++ a, b, by simp [h1], by simp [h2]⟩

theorem perm_replace {α} (d new a b p p' q : List α) (h : new ++ p' ++ q ~ p) : (d ++ new) ++ (a ++ p' ++ b ++ q) ~ d ++ (a ++ p ++ b) := by
  rw [← Multiset.coe_eq_coe] at h ⊢
  simp only [← Multiset.coe_add] at h ⊢
  rw [← h]
  abel

theorem getElem?_set_append {α} (l xs : List α) (t u : Nat) (y z : α) (h : (l.set t y ++ xs)[u]? = some z) :
    (u = t ∧ t < l.length ∧ z = y) ∨ (u ≠ t ∧ l[u]? = some z) ∨ ∃ m, u = l.length + m ∧ xs[m]? = some z := by
  rw [List.getElem?_append] at h
  split at h
  · rename_i hu
    rw [List.length_set] at hu
    rw [List.getElem?_set] at h
    by_cases hut : t = u
    · subst hut
      simp only [if_true, hu, Option.some.injEq] at h
      exact .inl ⟨rfl, hu, h.symm⟩
    · rw [if_neg hut] at h
      exact .inr (.inl ⟨Ne.symm hut, h⟩)
  · rename_i hu
    rw [List.length_set] at hu h
    exact .inr (.inr ⟨u - l.length, by omega, h⟩)

theorem sitesOf_append (a b : List Event) : sitesOf (a ++ b) = sitesOf a ++ sitesOf b := List.filterMap_append

theorem looksOf_append (a b : List Event) : looksOf (a ++ b) = looksOf a ++ looksOf b := List.filterMap_append

theorem SeenAt.later {w w' : World} {done : List Site} {x : Nat × SpanContext} {y : Nat × Option Nat} (h : SeenAt w done x y) (hl : done.length = w.spans.length)
    (he : Ext w w') (new : List Site) : SeenAt w' (done ++ new) x y := by
  obtain ⟨h0, pl, p1, p2, p3⟩ := h
  refine ⟨h0, pl, by rw [lineOf_append _ _ _ p2]; exact p1, fun j hj => by rw [List.length_append]; exact Nat.lt_add_right _ (p2 j hj), ?_⟩
  rw [p3]
  refine (placeCtx_ext he _ ?_).symm
  intro p hp
  cases pl with
  | none => simp at hp
  | some j => simp only [Option.map_some, Option.some.injEq] at hp; subst hp; rw [← hl]; exact p2 j rfl

/-! ## Histories -/

theorem HistAt.same {S : Sampler} {lim : SpanLimits} {w w' : World} {i : Nat} {o : Opts} {l : List Span.Step} (h : HistAt S lim w i o l)
    (hs : w'.spans[i]? = w.spans[i]?) : HistAt S lim w' i o l := by
  have hc : w'.ctxOf i = w.ctxOf i := by simp only [World.ctxOf, hs]
  intro s hw
  rw [hs] at hw
  rw [hc]
  exact h s hw

theorem HistAt.steps {S : Sampler} {lim : SpanLimits} {w : World} {i : Nat} {o : Opts} {l : List Span.Step} (h : HistAt S lim w i o l) (l' : List Span.Step) :
    HistAt S lim (w.steps i l') i o (l ++ l') := by
  by_cases hi : i < w.spans.length
  · have hc := (steps_ext w i l').1.ctx i hi
    intro s hs
    rw [hc]
    obtain ⟨s0, hs0⟩ : ∃ s0, w.spans[i]? = some s0 := ⟨_, List.getElem?_eq_getElem hi⟩
    simp only [World.steps, hs0, List.getElem?_set, if_true, hi, Option.some.injEq] at hs
    cases s0 with
    | nonRecording sc => simp [stepsOn] at hs
    | recording s0 =>
      simp only [stepsOn, Started.recording.injEq] at hs
      obtain ⟨q, par, h1, h2, h3, h4, h5, h6⟩ := h s0 hs0
      refine ⟨q, par, h1, h2, h3, h4, h5, ?_⟩
      rw [← hs, h6, ← List.foldl_append]; rfl
  · intro s hs
    have hlt : i < (w.steps i l').spans.length := (List.getElem?_eq_some_iff.1 hs).1
    rw [(steps_ext w i l').2.1] at hlt
    exact absurd hlt hi

theorem steps_other (w : World) (i j : Nat) (l : List Span.Step) (h : j ≠ i) : (w.steps i l).spans[j]? = w.spans[j]? := by
  unfold World.steps
  split
  · rfl
  · simp only [List.getElem?_set]
    rw [if_neg (Ne.symm h)]

/-- Ended spans ignore exceptions, so nobody need ask whether they record. -/
theorem exception_ended (o : Opts) (e : Option Esc) (s : Span.State) (h : Span.isRecording s = false) : (exceptionSteps o e).foldl Span.step s = s := by
  have hend : s.data.endTime.isSome = true := by
    unfold Span.isRecording at h
    cases hx : s.data.endTime <;> simp_all
  have h1 : ∀ x y z v, Span.step s (.recordException x y z v) = s := by intro x y z v; simp [Span.step, hend]
  have h2 : ∀ x, Span.step s (.setStatus x) = s := by intro x; simp [Span.step, hend]
  cases e with
  | none => rfl
  | some e =>
    cases e with
    | base n => rfl
    | exception x y =>
      simp only [exceptionSteps]
      split <;> split <;> simp [h1, h2]

theorem onError_eq (o : Opts) (e : Option Esc) : onError true o.recordException o.setStatusOnException o.tExc e = exceptionSteps o e := by
  cases e with
  | none => rfl
  | some e => cases e <;> simp [onError, exceptionSteps]

theorem HistAt.exception {S : Sampler} {lim : SpanLimits} {w : World} {i : Nat} {o : Opts} {l : List Span.Step} (h : HistAt S lim w i o l) (e : Option Esc) :
    HistAt S lim (w.steps i (onError (w.recordingAt i) o.recordException o.setStatusOnException o.tExc e)) i o (l ++ exceptionSteps o e) := by
  cases hr : w.recordingAt i with
  | true => rw [onError_eq]; exact h.steps _
  | false =>
    have hnil : onError false o.recordException o.setStatusOnException o.tExc e = [] := by
      cases e with
      | none => rfl
      | some e => cases e <;> simp [onError]
    rw [hnil]
    have h' := h.steps []
    rw [List.append_nil] at h'
    have hsame : (w.steps i []).spans[i]? = w.spans[i]? := by
      unfold World.steps
      split
      · rfl
      · rename_i s0 hs0
        have : stepsOn [] s0 = s0 := by cases s0 <;> rfl
        simp only [this, List.getElem?_set, if_true]
        rw [if_pos (List.getElem?_eq_some_iff.1 hs0).1, hs0]
    intro s hs
    obtain ⟨q, par, h1, h2, h3, h4, h5, h6⟩ := h' s hs
    refine ⟨q, par, h1, h2, h3, h4, h5, ?_⟩
    rw [hsame] at hs
    simp only [World.recordingAt, hs, recording] at hr
    rw [← List.cons_append, ← List.cons_append, List.foldl_append, ← h6, exception_ended o e s hr]

theorem HistAt.start (S : Sampler) (lim : SpanLimits) (t : Nat) (o : Opts) (w : World) : HistAt S lim (startIn S lim t o w) w.spans.length o [] := by
  obtain ⟨s, hs, he⟩ := startIn_eq S lim t o w
  have hlast : (startIn S lim t o w).spans[w.spans.length]? = some s := by rw [he]; simp
  generalize (if o.newTrace then [] else w.rt.getCurrent t) = cx at hs
  obtain ⟨tid, sid, rest, -, -, -, h4⟩ := Sampling.startSpan_spec _ _ _ _ _ _ _ _ _ _ _ hs
  dsimp only at h4
  intro st hst
  have hctx : (startIn S lim t o w).ctxOf w.spans.length = s.ctx := by simp only [World.ctxOf, hlast]
  rw [hlast] at hst
  simp only [Option.some.injEq] at hst
  rw [hctx]
  split at h4
  · rw [h4] at hst
    simp only [Started.recording.injEq] at hst
    refine ⟨⟨cx, tid, o.name, o.kind, o.attributes, o.links⟩, (if (Ctx.currentSpan cx).isValid then some (Ctx.currentSpan cx) else none), rfl, rfl, rfl, rfl, ?_, ?_⟩
    · rw [h4]; rfl
    · rw [← hst, h4]; rfl
  · rw [h4] at hst; cases hst

/-! ## One step -/

/-- A state reached from one with these tasks. -/
def Good (S : Sampler) (lim : SpanLimits) (main : Prog) (ts : List Ghost) (st : State) : Prop :=
  ∃ ts' evs hist, Inv S lim main st ts' evs hist ∧ ∀ (t : Nat) (x : Ghost), ts[t]? = some x → ∃ x' : Ghost, ts'[t]? = some x' ∧ x'.2 = x.2

theorem keep_set (ts xs : List Ghost) (t : Nat) (k k' : Task) (b : Option Nat) (ini : Option Ctx) (ht : ts[t]? = some (k, b, ini)) (u : Nat) (x : Ghost)
    (hx : ts[u]? = some x) : ∃ x' : Ghost, (ts.set t (k', b, ini) ++ xs)[u]? = some x' ∧ x'.2 = x.2 := by
  have hu : u < ts.length := (List.getElem?_eq_some_iff.1 hx).1
  rw [List.getElem?_append_left (by rw [List.length_set]; exact hu), List.getElem?_set]
  by_cases h : t = u
  · subst h
    rw [hx] at ht
    simp only [Option.some.injEq] at ht
    subst ht
    exact ⟨(k', b, ini), by simp [hu], rfl⟩
  · exact ⟨x, by rw [if_neg h]; exact hx, rfl⟩

theorem owns_lt {done : List Site} {hist : Nat → Hist} {x : Ghost} (h1 : phaseCtl done hist x.1.ctl) (h2 : phaseFrames done hist (raisesCtl x.1.ctl) x.1.stack) :
    ∀ i ∈ owns x, i < done.length := by
  have hf : ∀ (s : List Frame) (e : Option Esc), phaseFrames done hist e s → ∀ i ∈ ownsFrames s, i < done.length := by
    intro s
    induction s with
    | nil => intro e _ i hi; cases hi
    | cons f r ih =>
      intro e h i hi
      cases f with
      | seq b => exact ih _ h i hi
      | handler b => exact ih _ h i hi
      | leave j o tok =>
        rcases List.mem_cons.1 hi with rfl | hi
        · exact h.1.lt
        · exact ih _ h.2 i hi
  intro i hi
  rcases List.mem_append.1 hi with hi | hi
  · cases hc : x.1.ctl with
    | run p => rw [hc] at hi; cases hi
    | ret e => rw [hc] at hi; cases hi
    | enter j o b => rw [hc] at hi h1; rw [List.mem_singleton.1 hi]; exact Phase.lt h1
    | error j o b => rw [hc] at hi h1; rw [List.mem_singleton.1 hi]; exact Phase.lt h1
    | finish j o b => rw [hc] at hi h1; rw [List.mem_singleton.1 hi]; exact Phase.lt h1
    | notify j b =>
      rw [hc] at hi h1
      obtain ⟨o, -, h1⟩ := h1
      rw [List.mem_singleton.1 hi]; exact Phase.lt h1
  · exact hf _ _ h2 i hi

/-- A step of one task, in general: it may start spans and tasks, and see. -/
theorem Inv.update {S : Sampler} {lim : SpanLimits} {main : Prog} {st : State} {ts : List Ghost} {evs : List Event} {hist : Nat → Hist}
    (h : Inv S lim main st ts evs hist)
    {t : Nat} {k : Task} {b : Option Nat} {ini : Option Ctx} (ht : ts[t]? = some (k, b, ini)) (k' : Task) (w' : World) (ne : List Event)
    (nseen : List (Nat × SpanContext)) (xs : List Ghost) (hist' : Nat → Hist)
    (hl : Ext st.world w') (hlen : w'.spans.length = st.world.spans.length + (sitesOf ne).length) (hwire : AllWire w') (hgen : Genuine lim w')
    (hv : ∀ u, u < ts.length → u ≠ t → w'.rt.value u = st.world.rt.value u)
    (hpend : ne ++ pend (sitesOf (evs ++ ne)) (k', b, ini) ++ xs.flatMap (pend (sitesOf (evs ++ ne))) ~ pend (sitesOf evs) (k, b, ini))
    (hseen : List.Forall₂ (SeenAt w' (sitesOf (evs ++ ne))) nseen (looksOf ne))
    (hnew : ∀ m x, (sitesOf ne)[m]? = some x → SiteAt S w' (sitesOf (evs ++ ne)) ((sitesOf evs).length + m) x)
    (hu : uidsOf k'.stack <+ st.world.rt.nextUid :: uidsOf k.stack) (hn : st.world.rt.nextUid ≤ w'.rt.nextUid)
    (hfr : ∀ u ∈ uidsOf k'.stack, u < w'.rt.nextUid ∧ u ∉ w'.rt.used)
    (hus : ∀ u, u < st.world.rt.nextUid → u ∉ st.world.rt.used → u ∉ uidsOf k.stack → u ∉ w'.rt.used)
    (husd : FreshRt w'.rt)
    (hch : Chain w' t b ini k'.stack (w'.rt.value t))
    (hph : phaseCtl (sitesOf (evs ++ ne)) hist' k'.ctl ∧ phaseFrames (sitesOf (evs ++ ne)) hist' (raisesCtl k'.ctl) k'.stack)
    (hxs : ∀ m x, xs[m]? = some x → x.1.stack = [] ∧ (∃ p, x.1.ctl = .run p) ∧ Chain w' (ts.length + m) x.2.1 x.2.2 [] (w'.rt.value (ts.length + m)))
    (hown : owns (k', b, ini) <+ (sitesOf evs).length :: owns (k, b, ini))
    (hoth : ∀ i, i < (sitesOf evs).length → i ∉ owns (k, b, ini) → own (hist' i) = own (hist i))
    (hhist : ∀ (i : Nat) (x : Site), (sitesOf (evs ++ ne))[i]? = some x → HistAt S lim w' i x.opts ((hist' i).map Prod.snd) ∧
      ∀ s, (false, s) ∈ hist' i → .op i s ∈ events none main)
    (hcl : ∀ (i : Nat) (x : Site), (sitesOf (evs ++ ne))[i]? = some x → (i ∈ owns (k, b, ini) ∨ (sitesOf evs).length ≤ i) → i ∉ owns (k', b, ini) →
      own (hist' i) = x.exit) :
    Inv S lim main ⟨w', st.tasks.set t k' ++ xs.map (·.1), st.seen ++ nseen⟩ (ts.set t (k', b, ini) ++ xs) (evs ++ ne) hist' ∧
    Good S lim main ts ⟨w', st.tasks.set t k' ++ xs.map (·.1), st.seen ++ nseen⟩ := by
  suffices hinv : Inv S lim main ⟨w', st.tasks.set t k' ++ xs.map (·.1), st.seen ++ nseen⟩ (ts.set t (k', b, ini) ++ xs) (evs ++ ne) hist' from
    ⟨hinv, _, _, _, hinv, keep_set ts xs t k k' b ini ht⟩
  have hlt : t < ts.length := (List.getElem?_eq_some_iff.1 ht).1
  have hsites := sitesOf_append evs ne
  -- the other tasks' texts
  have hsame : ts.flatMap (pend (sitesOf (evs ++ ne))) = ts.flatMap (pend (sitesOf evs)) := by
    apply List.flatMap_congr
    intro x hx
    obtain ⟨u, hu⟩ := List.getElem?_of_mem hx
    rw [hsites]
    exact pend_append _ _ h.len x (h.chain u x hu) (h.phase u x hu).1
  have hk : pend (sitesOf (evs ++ ne)) (k, b, ini) = pend (sitesOf evs) (k, b, ini) := by
    rw [hsites]
    exact pend_append _ _ h.len (k, b, ini) (h.chain t _ ht) (h.phase t _ ht).1
  obtain ⟨a, c, e1, e2⟩ := flatMap_set (pend (sitesOf (evs ++ ne))) ts t (k, b, ini) (k', b, ini) ht
  obtain ⟨a2, c2, g1, g2⟩ := flatMap_set (fun x : Ghost => uidsOf x.1.stack) ts t (k, b, ini) (k', b, ini) ht
  obtain ⟨a3, c3, o1, o2⟩ := flatMap_set owns ts t (k, b, ini) (k', b, ini) ht
  rw [hsame, hk] at e1
  have hxu : xs.flatMap (fun x : Ghost => uidsOf x.1.stack) = [] := by
    rw [List.flatMap_eq_nil_iff]
    intro x hx
    obtain ⟨m, hm⟩ := List.getElem?_of_mem hx
    rw [(hxs m x hm).1]; rfl
  have hxo : xs.flatMap owns = [] := by
    rw [List.flatMap_eq_nil_iff]
    intro x hx
    obtain ⟨m, hm⟩ := List.getElem?_of_mem hx
    obtain ⟨h1, ⟨p, h2⟩, -⟩ := hxs m x hm
    unfold owns
    rw [h1, h2]; rfl
  have hfresh := h.fresh
  have huids := h.uids
  rw [g1] at hfresh huids
  simp only at hfresh huids g2
  have howners := h.owners
  rw [o1] at howners
  have hdis : ∀ {l1 l2 l3 : List Nat}, (l1 ++ l2 ++ l3).Nodup → ∀ u, u ∈ l1 ∨ u ∈ l3 → u ∉ l2 := by
    intro l1 l2 l3 hnd u hm hk'
    rw [List.append_assoc, List.nodup_append] at hnd
    obtain ⟨-, h2, h3⟩ := hnd
    rcases hm with hm | hm
    · exact h3 u hm u (List.mem_append.2 (.inl hk')) rfl
    · rw [List.nodup_append] at h2
      exact h2.2.2 u hk' u hm rfl
  have hnodup : ∀ {l1 l2 l2' l3 : List Nat} {n : Nat}, (l1 ++ l2 ++ l3).Nodup → l2' <+ n :: l2 → n ∉ l1 ++ l2 ++ l3 → (l1 ++ l2' ++ l3).Nodup := by
    intro l1 l2 l2' l3 n hnd hs hn
    have hsub : l1 ++ l2' ++ l3 <+ l1 ++ (n :: l2) ++ l3 := ((List.Sublist.refl l1).append hs).append (List.Sublist.refl l3)
    refine hsub.nodup ?_
    have hp : l1 ++ (n :: l2) ++ l3 ~ n :: (l1 ++ l2 ++ l3) := by
      rw [List.append_assoc, List.append_assoc, List.cons_append]
      exact List.perm_middle
    rw [hp.nodup_iff, List.nodup_cons]
    exact ⟨hn, hnd⟩
  have howl : ∀ i ∈ ts.flatMap owns, i < (sitesOf evs).length := by
    intro i hi
    obtain ⟨x, hx, hi⟩ := List.mem_flatMap.1 hi
    obtain ⟨u, hu⟩ := List.getElem?_of_mem hx
    exact owns_lt (h.phase u x hu).1 (h.phase u x hu).2 i hi
  refine ⟨?_, ?_, hwire, hgen, ?_, ?_, ?_, ?_, ?_, husd, ?_, ?_, ?_, hhist, ?_⟩
  · rw [List.map_append, List.map_set, ← h.tasks]
  · rw [hsites, List.length_append, h.len, hlen]
  · refine List.Perm.trans ?_ h.perm
    rw [List.flatMap_append, e2, e1]
    exact perm_replace _ _ _ _ _ _ _ hpend
  · rw [looksOf_append]
    refine List.rel_append ?_ hseen
    exact h.seen.imp (fun x y hxy => by rw [hsites]; exact hxy.later h.len hl _)
  · intro i x hx
    by_cases hi : i < (sitesOf evs).length
    · rw [hsites, List.getElem?_append_left hi] at hx
      obtain ⟨pl, p1, p2, p3⟩ := h.spans i x hx
      rw [hsites]
      exact ⟨pl, by rw [lineOf_append _ _ _ p2]; exact p1, fun j hj => by rw [List.length_append]; exact Nat.lt_add_right _ (p2 j hj),
        p3.ext hl i (by rw [← h.len]; exact hi)⟩
    · rw [hsites, List.getElem?_append_right (by omega)] at hx
      have := hnew _ x hx
      rwa [show (sitesOf evs).length + (i - (sitesOf evs).length) = i by omega] at this
  · rw [List.flatMap_append, hxu, List.append_nil, g2]
    exact hnodup huids hu (fun hm => absurd (hfresh _ hm).1 (Nat.lt_irrefl _))
  · rw [List.flatMap_append, hxu, List.append_nil, g2]
    intro u hm
    simp only [List.mem_append] at hm
    have hoth : u ∈ a2 ∨ u ∈ c2 → u < w'.rt.nextUid ∧ u ∉ w'.rt.used := by
      intro hm'
      have := hfresh u (by simp only [List.mem_append]; tauto)
      exact ⟨Nat.lt_of_lt_of_le this.1 hn, hus u this.1 this.2 (hdis huids u hm')⟩
    rcases hm with (hm | hm) | hm
    · exact hoth (.inl hm)
    · exact hfr u hm
    · exact hoth (.inr hm)
  · intro u x hx
    rcases getElem?_set_append ts xs t u _ x hx with ⟨rfl, -, rfl⟩ | ⟨hne, hx⟩ | ⟨m, rfl, hx'⟩
    · exact hch
    · simp only
      rw [hv u (List.getElem?_eq_some_iff.1 hx).1 hne]
      exact (h.chain u x hx).ext hl
    · obtain ⟨s1, -, s3⟩ := hxs m x hx'
      rw [s1]; exact s3
  · intro u x hx
    rcases getElem?_set_append ts xs t u _ x hx with ⟨rfl, -, rfl⟩ | ⟨hne, hx⟩ | ⟨m, rfl, hx'⟩
    · exact hph
    · obtain ⟨p1, p2⟩ := h.phase u x hx
      have hno : ∀ i ∈ owns x, own (hist' i) = own (hist i) := by
        intro i hi
        refine hoth i (owns_lt p1 p2 i hi) ?_
        intro hmem
        -- two tasks cannot own one span
        have hpw : ∀ (l : List Ghost) (t u : Nat) (x y : Ghost) (i : Nat), (l.flatMap owns).Nodup → l[t]? = some x → l[u]? = some y → t ≠ u → i ∈ owns x → i ∉ owns y := by
          clear * -
          intro l
          induction l with
          | nil => intro t u x y i _ h; simp at h
          | cons z l ih =>
            intro t u x y i hnd hx hy hne hi hi'
            rw [List.flatMap_cons, List.nodup_append] at hnd
            cases t with
            | zero =>
              cases u with
              | zero => exact hne rfl
              | succ u =>
                simp only [List.getElem?_cons_zero, Option.some.injEq, List.getElem?_cons_succ] at hx hy
                subst hx
                exact hnd.2.2 i hi i (List.mem_flatMap.2 ⟨y, List.mem_of_getElem? hy, hi'⟩) rfl
            | succ t =>
              cases u with
              | zero =>
                simp only [List.getElem?_cons_zero, Option.some.injEq, List.getElem?_cons_succ] at hx hy
                subst hy
                exact hnd.2.2 i hi' i (List.mem_flatMap.2 ⟨x, List.mem_of_getElem? hx, hi⟩) rfl
              | succ u => exact ih t u x y i hnd.2.1 hx hy (by omega) hi hi'
        exact hpw ts u t x _ i h.owners hx ht hne hi hmem
      rw [hsites]
      exact ⟨phaseCtl_later p1 _ hist' (fun i hi => hno i (List.mem_append_left _ hi)), phaseFrames_later p2 _ hist' (fun i hi => hno i (List.mem_append_right _ hi))⟩
    · obtain ⟨h1, ⟨p, h2⟩, -⟩ := hxs m x hx'
      rw [h1, h2]
      exact ⟨trivial, trivial⟩
  · rw [List.flatMap_append, hxo, List.append_nil, o2]
    exact hnodup howners hown (fun hm => by rw [← o1] at hm; exact absurd (howl _ hm) (Nat.lt_irrefl _))
  · intro i x hx hnot
    rw [List.flatMap_append, hxo, List.append_nil, o2] at hnot
    simp only [List.mem_append, not_or] at hnot
    obtain ⟨⟨n1, n2⟩, n3⟩ := hnot
    by_cases hi : i ∈ owns (k, b, ini) ∨ (sitesOf evs).length ≤ i
    · exact hcl i x hx hi n2
    · simp only [not_or, Nat.not_le] at hi
      rw [hoth i hi.2 hi.1]
      rw [hsites, List.getElem?_append_left hi.2] at hx
      refine h.closed i x hx ?_
      rw [o1]
      simp only [List.mem_append, not_or]
      exact ⟨⟨n1, hi.1⟩, n3⟩

theorem chain_at {w : World} {t : Nat} {base : Option Nat} {ini : Option Ctx} {s : List Frame} (hc : Chain w t base ini s (w.rt.value t)) :
    CurIs w t ((curOf base s).map fun j => (j, false)) := by
  refine ⟨hc.cur.1, ?_⟩
  intro p hp
  cases hb : curOf base s with
  | none => rw [hb] at hp; simp at hp
  | some j => rw [hb] at hp; simp only [Option.map_some, Option.some.injEq] at hp; subst hp; exact hc.cur.2 j hb

theorem own_append (a b : Hist) : own (a ++ b) = own a ++ own b := by simp [own]

/-- A step that starts nothing, leaves the context variables alone, and may make steps on one span. -/
theorem Inv.touch {S : Sampler} {lim : SpanLimits} {main : Prog} {st : State} {ts : List Ghost} {evs : List Event} {hist : Nat → Hist}
    (h : Inv S lim main st ts evs hist) {t : Nat} {c : Ctl} {s : List Frame} {b : Option Nat} {ini : Option Ctx} (ht : ts[t]? = some (⟨c, s⟩, b, ini)) (c' : Ctl)
    (i : Nat) (l : List Span.Step) (extra : Hist) (ne : List Event) (hne : sitesOf ne = [] ∧ looksOf ne = [])
    (hp : ne ++ pendCtl (sitesOf evs) (curOf b s) c' = pendCtl (sitesOf evs) (curOf b s) c) (hr : raisesCtl c' = raisesCtl c)
    (hH : ∀ x, (sitesOf evs)[i]? = some x → HistAt S lim (st.world.steps i l) i x.opts ((hist i ++ extra).map Prod.snd))
    (hops : ∀ s, (false, s) ∈ extra → .op i s ∈ events none main)
    (hphc : phaseCtl (sitesOf evs) (fun j => if j = i then hist i ++ extra else hist j) c')
    (howc : ownsCtl c' <+ ownsCtl c) (hex : own extra = [] ∨ i ∈ ownsCtl c)
    (hcl : ∀ j x, (sitesOf evs)[j]? = some x → j ∈ ownsCtl c → j ∉ ownsCtl c' → j = i ∧ own (hist i ++ extra) = x.exit) :
    Good S lim main ts ⟨st.world.steps i l, st.tasks.set t ⟨c', s⟩, st.seen⟩ := by
  obtain ⟨e1, e2, e3, e4⟩ := steps_ext st.world i l
  have hsites : sitesOf (evs ++ ne) = sitesOf evs := by rw [sitesOf_append, hne.1, List.append_nil]
  have hch := h.chain t _ ht
  obtain ⟨hp1, hp2⟩ := h.phase t _ ht
  have hnd : (ownsCtl c ++ ownsFrames s).Nodup := by
    obtain ⟨a, d, g1, -⟩ := flatMap_set owns ts t _ (⟨.ret none, []⟩, b, ini) ht
    have := h.owners
    rw [g1, List.append_assoc, List.nodup_append] at this
    have := this.2.1
    rw [List.nodup_append] at this
    exact this.1
  have hown : ∀ j, j ∉ ownsCtl c → own ((fun j => if j = i then hist i ++ extra else hist j) j) = own (hist j) := by
    intro j hj
    by_cases hji : j = i
    · subst hji
      simp only [if_true]
      rcases hex with hex | hex
      · rw [own_append, hex, List.append_nil]
      · exact absurd hex hj
    · simp only [hji, if_false]
  have hwire : AllWire (st.world.steps i l) := by
    intro j hj
    rw [e2] at hj
    rw [e1.ctx j hj]; exact h.wire j hj
  have key := h.update ht ⟨c', s⟩ (st.world.steps i l) ne [] [] (fun j => if j = i then hist i ++ extra else hist j) e1 (by rw [e2, hne.1]; rfl) hwire
    (genuine_steps lim _ _ _ h.genuine) (fun u _ _ => by rw [e3]) ?_ (by rw [hne.2]; exact .nil) (by rw [hne.1]; simp) (List.sublist_cons_self _ _) (by rw [e3]) ?_
    (fun u _ h2 _ => by rw [e3]; exact h2) (by rw [e3]; exact h.used) (by rw [e3]; exact hch.ext e1) ?_ (by simp) ?_ ?_ ?_ ?_
  · simpa using key.2
  · rw [hsites, List.flatMap_nil, List.append_nil]
    unfold pend
    simp only
    rw [hr, ← List.append_assoc, hp]
  · intro u hm
    rw [e3]
    exact h.fresh u (List.mem_flatMap.2 ⟨_, List.mem_of_getElem? ht, hm⟩)
  · rw [hsites]
    refine ⟨hphc, ?_⟩
    simp only
    rw [hr]
    have := phaseFrames_later hp2 [] (fun j => if j = i then hist i ++ extra else hist j) (fun j hj => hown j (fun hj' => by
      rw [List.nodup_append] at hnd
      exact hnd.2.2 j hj' j hj rfl))
    rwa [List.append_nil] at this
  · exact (howc.append (List.Sublist.refl _)).trans (List.sublist_cons_self _ _)
  · intro j hj hnot
    exact hown j (fun hj' => hnot (List.mem_append_left _ hj'))
  · intro j x hx
    rw [hsites] at hx
    obtain ⟨h1, h2⟩ := h.history j x hx
    by_cases hji : j = i
    · subst hji
      simp only [if_true]
      refine ⟨hH x hx, fun s hs => ?_⟩
      rcases List.mem_append.1 hs with hs | hs
      · exact h2 s hs
      · exact hops s hs
    · simp only [hji, if_false]
      exact ⟨h1.same (steps_other _ _ _ _ hji), h2⟩
  · intro j x hx hj hnot
    rw [hsites] at hx
    have hlt : j < (sitesOf evs).length := (List.getElem?_eq_some_iff.1 hx).1
    simp only [owns, List.mem_append, not_or] at hj hnot
    rcases hj with (hj | hj) | hj
    · obtain ⟨rfl, h2⟩ := hcl j x hx hj hnot.1
      simp only [if_true]; exact h2
    · exact absurd hj hnot.2
    · omega

/-- A step that changes only where the task is. -/
theorem Inv.quiet {S : Sampler} {lim : SpanLimits} {main : Prog} {st : State} {ts : List Ghost} {evs : List Event} {hist : Nat → Hist}
    (h : Inv S lim main st ts evs hist)
    {t : Nat} {k : Task} {b : Option Nat} {ini : Option Ctx} (ht : ts[t]? = some (k, b, ini)) (k' : Task)
    (ne : List Event) (nseen : List (Nat × SpanContext)) (hne : sitesOf ne = []) (hseen : List.Forall₂ (SeenAt st.world (sitesOf evs)) nseen (looksOf ne))
    (hpend : ne ++ pend (sitesOf evs) (k', b, ini) = pend (sitesOf evs) (k, b, ini))
    (hu : uidsOf k'.stack = uidsOf k.stack)
    (hch : Chain st.world t b ini k'.stack (st.world.rt.value t))
    (hph : phaseCtl (sitesOf evs) hist k'.ctl ∧ phaseFrames (sitesOf evs) hist (raisesCtl k'.ctl) k'.stack)
    (hown : owns (k', b, ini) = owns (k, b, ini)) :
    Good S lim main ts ⟨st.world, st.tasks.set t k', st.seen ++ nseen⟩ := by
  have hsites : sitesOf (evs ++ ne) = sitesOf evs := by rw [sitesOf_append, hne, List.append_nil]
  have key := h.update ht k' st.world ne nseen [] hist (Ext.refl _) (by rw [hne]; rfl) h.wire h.genuine (fun u _ _ => rfl) ?_ (by rw [hsites]; exact hseen)
    (by rw [hne]; simp) (by rw [hu]; exact List.sublist_cons_self _ _) (Nat.le_refl _) ?_ (fun u _ h2 _ => h2) h.used hch (by rw [hsites]; exact hph) (by simp)
    (by rw [hown]; exact List.sublist_cons_self _ _) (fun _ _ _ => rfl) (by rw [hsites]; exact h.history) ?_
  · simpa using key.2
  · rw [hsites, List.flatMap_nil, List.append_nil, hpend]
  · intro u hm
    refine h.fresh u ?_
    rw [hu] at hm
    exact List.mem_flatMap.2 ⟨_, List.mem_of_getElem? ht, hm⟩
  · intro i x hx hi hnot
    rw [hsites] at hx
    have hlt : i < (sitesOf evs).length := (List.getElem?_eq_some_iff.1 hx).1
    rw [hown] at hnot
    rcases hi with hi | hi
    · exact absurd hi hnot
    · omega

theorem lineOf_last (done : List Site) (x : Site) : lineOf (done ++ [x]) (some done.length) = some x.line := by
  simp [lineOf]

/-- Starting a span. -/
theorem Inv.starts {S : Sampler} {lim : SpanLimits} {main : Prog} (hS : KeepsState S) {st : State} {ts : List Ghost}
    {evs : List Event} {hist : Nat → Hist} (h : Inv S lim main st ts evs hist) {t : Nat} {c c' : Ctl} {s : List Frame} {b : Option Nat} {ini : Option Ctx}
    (ht : ts[t]? = some (⟨c, s⟩, b, ini)) (l : Nat) (o : Opts) (leaves : Option (Option Esc)) (hd : Draws o)
    (hpend : .span ⟨l, o, leaves, if o.newTrace then none else lineOf (sitesOf evs) (curOf b s)⟩ ::
      pendCtl (sitesOf evs ++ [⟨l, o, leaves, if o.newTrace then none else lineOf (sitesOf evs) (curOf b s)⟩]) (curOf b s) c' = pendCtl (sitesOf evs) (curOf b s) c)
    (hr : raisesCtl c' = raisesCtl c) (hc : ownsCtl c = [])
    (hph : (leaves = none ∧ ownsCtl c' = [] ∧ ∃ e, c' = .ret e) ∨ ∃ p, leaves = some (raises p) ∧ c' = .enter st.world.spans.length o p) :
    Good S lim main ts ⟨startIn S lim t o st.world, st.tasks.set t ⟨c', s⟩, st.seen⟩ := by
  have hch := h.chain t _ ht
  obtain ⟨hp1, hp2⟩ := h.phase t _ ht
  obtain ⟨e1, e2, e3, e4, e5, e6⟩ := startIn_spec S lim t o st.world _ hd hS h.wire (chain_at hch)
  obtain ⟨sp, -, he⟩ := startIn_eq S lim t o st.world
  let x : Site := ⟨l, o, leaves, if o.newTrace then none else lineOf (sitesOf evs) (curOf b s)⟩
  have hsites : sitesOf (evs ++ [.span x]) = sitesOf evs ++ [x] := by rw [sitesOf_append]; rfl
  have hnolt : ∀ i ∈ owns (⟨c, s⟩, b, ini), i < (sitesOf evs).length := owns_lt hp1 hp2
  let hist' : Nat → Hist := fun j => if j = (sitesOf evs).length then [] else hist j
  have hold : ∀ j, j < (sitesOf evs).length → hist' j = hist j := by
    intro j hj; simp only [hist']; rw [if_neg (by omega)]
  have hnewh : hist' (sitesOf evs).length = [] := by simp [hist']
  have key := h.update ht ⟨c', s⟩ (startIn S lim t o st.world) [.span x] [] [] hist' e1 (by rw [e2]; rfl) e5 (genuine_start lim S t o _ h.genuine) (fun u _ _ => by rw [e3])
    ?_ .nil ?_ (List.sublist_cons_self _ _) (by rw [e3]) ?_ (fun u _ h2 _ => by rw [e3]; exact h2) (by rw [e3]; exact h.used) (by rw [e3]; exact hch.ext e1) ?_ (by simp)
    ?_ (fun j hj _ => by rw [hold j hj]) ?_ ?_
  · simpa using key.2
  · rw [hsites, List.flatMap_nil, List.append_nil]
    unfold pend
    simp only
    rw [hr, pendFrames_append _ _ h.len hch, ← List.append_assoc, List.singleton_append]
    rw [show Event.span x :: pendCtl (sitesOf evs ++ [x]) (curOf b s) c' = pendCtl (sitesOf evs) (curOf b s) c from hpend]
  · intro m y hy
    cases m with
    | succ m => simp [sitesOf] at hy
    | zero =>
      have : y = x := by simpa [sitesOf] using hy.symm
      subst this
      rw [hsites]
      refine ⟨if o.newTrace then none else curOf b s, ?_, ?_, ?_⟩
      · rw [lineOf_append]
        · simp only [x]; split <;> rfl
        · intro j hj
          rw [h.len]
          split at hj
          · cases hj
          · exact hch.cur.2 j hj
      · intro j hj
        rw [List.length_append, h.len]
        split at hj
        · cases hj
        · exact Nat.lt_add_right _ (hch.cur.2 j hj)
      · rw [Nat.add_zero, h.len]
        convert e6 using 2
        split <;> rfl
  · intro u hm
    rw [e3]
    exact h.fresh u (List.mem_flatMap.2 ⟨_, List.mem_of_getElem? ht, hm⟩)
  · rw [hsites]
    refine ⟨?_, ?_⟩
    · rcases hph with ⟨-, -, e, rfl⟩ | ⟨p, hl, rfl⟩
      · trivial
      · refine ⟨x, ?_, rfl, hl, ?_⟩
        · rw [← h.len]; simp
        · rw [← h.len, hnewh]; rfl
    · simp only
      rw [hr]
      exact phaseFrames_later hp2 _ hist' (fun j hj => by rw [hold j (hnolt j (List.mem_append_right _ hj))])
  · simp only [owns, hc, List.nil_append]
    rcases hph with ⟨-, h2, -⟩ | ⟨p, hl, rfl⟩
    · rw [h2]; exact List.sublist_cons_self _ _
    · simp only [ownsCtl, List.singleton_append]; rw [h.len]
  · intro i y hy
    rw [hsites] at hy
    by_cases hi : i < (sitesOf evs).length
    · rw [List.getElem?_append_left hi] at hy
      rw [hold i hi]
      obtain ⟨h1, h2⟩ := h.history i y hy
      refine ⟨h1.same ?_, h2⟩
      rw [he]
      simp only
      rw [List.getElem?_append_left (by rw [← h.len]; exact hi)]
    · have hi' : i = (sitesOf evs).length := by
        have := (List.getElem?_eq_some_iff.1 hy).1
        simp at this; omega
      subst hi'
      have : y = x := by simpa using hy.symm
      subst this
      rw [hnewh]
      refine ⟨?_, by simp⟩
      rw [h.len]
      exact HistAt.start S lim t o st.world
  · intro i y hy hi hnot
    rw [hsites] at hy
    simp only [owns, hc, List.nil_append, List.mem_append, not_or] at hi hnot
    rcases hi with hi | hi
    · exact absurd hi hnot.2
    · have hi' : i = (sitesOf evs).length := by
        have := (List.getElem?_eq_some_iff.1 hy).1
        simp at this; omega
      subst hi'
      have : y = x := by simpa using hy.symm
      subst this
      rw [hnewh]
      rcases hph with ⟨h1, -⟩ | ⟨p, hl, rfl⟩
      · simp only [Site.exit, x, h1]; rfl
      · exact absurd (List.mem_singleton.2 h.len) hnot.1

theorem Inv.step {S : Sampler} {lim : SpanLimits} {main : Prog} (hS : KeepsState S) (hd : ∀ x ∈ sitesOf (events none main), Draws x.opts) {st : State} {ts : List Ghost}
    {evs : List Event} {hist : Nat → Hist} (h : Inv S lim main st ts evs hist) (t : Nat) : Good S lim main ts (Tasks.step S lim st t) := by
  have hrefl : Good S lim main ts st := ⟨ts, evs, hist, h, fun t x hx => ⟨x, hx, rfl⟩⟩
  unfold Tasks.step
  cases hk : st.tasks[t]? with
  | none => exact hrefl
  | some k =>
    obtain ⟨b, ini, ht⟩ : ∃ b ini, ts[t]? = some (k, b, ini) := by
      rw [h.tasks, List.getElem?_map] at hk
      cases hx : ts[t]? with
      | none => rw [hx] at hk; cases hk
      | some x =>
        rw [hx] at hk
        simp only [Option.map_some, Option.some.injEq] at hk
        subst hk
        exact ⟨x.2.1, x.2.2, rfl⟩
    obtain ⟨ctl, stack⟩ := k
    have hch := h.chain t _ ht
    have hph := h.phase t _ ht
    simp only at hch hph
    -- the text of this task is part of the program
    have hev : ∀ x, x ∈ pend (sitesOf evs) (⟨ctl, stack⟩, b, ini) → x ∈ events none main := by
      intro x hx
      refine h.perm.subset ?_
      exact List.mem_append_right _ (List.mem_flatMap.2 ⟨_, List.mem_of_getElem? ht, hx⟩)
    have hdraw : ∀ x, .span x ∈ pend (sitesOf evs) (⟨ctl, stack⟩, b, ini) → Draws x.opts := by
      intro x hx
      apply hd
      exact List.mem_filterMap.2 ⟨_, hev _ hx, rfl⟩
    simp only
    cases ctl with
    | run p =>
      cases p with
      | skip => simpa using h.quiet ht ⟨.ret none, stack⟩ [] [] rfl .nil rfl rfl hch ⟨trivial, hph.2⟩ rfl
      | look n =>
        refine h.quiet ht ⟨.ret none, stack⟩ [.look n (lineOf (sitesOf evs) (curOf b stack))] [(n, Ctx.currentSpan (st.world.rt.getCurrent t))] rfl ?_ rfl rfl hch
          ⟨trivial, hph.2⟩ rfl
        refine .cons ⟨rfl, curOf b stack, rfl, fun j hj => ?_, hch.cur.1⟩ .nil
        rw [h.len]; exact hch.cur.2 j hj
      | raise e => simpa using h.quiet ht ⟨.ret (some e), stack⟩ [] [] rfl .nil rfl rfl hch ⟨trivial, hph.2⟩ rfl
      | seq p q =>
        have := h.quiet ht ⟨.run p, .seq q :: stack⟩ [] [] rfl .nil (by
          simp only [pend, pendCtl, pendFrames, events, curOf, raisesCtl, raises, List.append_assoc, List.nil_append]; rfl) rfl hch ⟨trivial, hph.2⟩ rfl
        simpa using this
      | tryExcept p q =>
        have := h.quiet ht ⟨.run p, .handler q :: stack⟩ [] [] rfl .nil (by
          simp only [pend, pendCtl, pendFrames, events, curOf, raisesCtl, raises, List.append_assoc, List.nil_append]; rfl) rfl hch ⟨trivial, hph.2⟩ rfl
        simpa using this
      | op i s =>
        refine h.touch ht (.ret none) i [s] [(false, s)] [.op i s] ⟨rfl, rfl⟩ rfl rfl ?_ ?_ trivial (List.Sublist.refl _) (.inl rfl) (by intro j x _ hj; cases hj)
        · intro x hx
          rw [List.map_append]
          exact (h.history i x hx).1.steps [s]
        · intro s' hs'
          rw [List.mem_singleton] at hs'
          simp only [Prod.mk.injEq, true_and] at hs'
          subst hs'
          exact hev _ (List.mem_append_left _ (List.mem_singleton.2 rfl))
      | start l o =>
        exact h.starts hS ht l o none (hdraw ⟨l, o, none, if o.newTrace then none else lineOf (sitesOf evs) (curOf b stack)⟩
          (List.mem_append_left _ (List.mem_singleton.2 rfl))) rfl rfl rfl (.inl ⟨rfl, rfl, none, rfl⟩)
      | block l o p =>
        refine h.starts hS ht l o (some (raises p)) (hdraw ⟨l, o, some (raises p), if o.newTrace then none else lineOf (sitesOf evs) (curOf b stack)⟩
          (List.mem_append_left _ (by simp [pendCtl, events]))) ?_ rfl rfl (.inr ⟨p, rfl, rfl⟩)
        simp only [pendCtl, events]
        rw [← h.len, lineOf_last]
      | spawn copy p =>
        have hlt : t < ts.length := (List.getElem?_eq_some_iff.1 ht).1
        have hlen : st.tasks.length = ts.length := by rw [h.tasks, List.length_map]
        let w' : World := { st.world with rt := { st.world.rt with value := fun u => if u = st.tasks.length then (if copy then st.world.rt.value t else none) else st.world.rt.value u } }
        have hLw : Ext st.world w' := Ext.congr rfl
        have key := h.update ht ⟨.ret none, stack⟩ w' [] [] [(⟨.run p, []⟩, if copy then curOf b stack else none, if copy then st.world.rt.value t else none)] hist
          hLw rfl (fun i hi => h.wire i hi) h.genuine (fun u hu _ => by simp only [w']; rw [if_neg (by omega)]) ?_ .nil (by simp [sitesOf])
          (List.sublist_cons_self _ _) (Nat.le_refl _) ?_ (fun u _ h2 _ => h2) h.used ?_ (by rw [List.append_nil]; exact ⟨trivial, hph.2⟩) ?_
          (List.sublist_cons_self _ _) (fun _ _ _ => rfl) ?_ ?_
        · simpa [w'] using key.2
        · rw [List.append_nil, List.nil_append]
          have e : lineOf (sitesOf evs) (if copy then curOf b stack else none) = if copy then lineOf (sitesOf evs) (curOf b stack) else none := by split <;> rfl
          simp only [pend, pendCtl, pendFrames, events, List.nil_append, List.flatMap_cons, List.flatMap_nil, List.append_nil, curOf, raisesCtl, raises]
          rw [e]
          exact List.perm_append_comm
        · intro u hm
          exact h.fresh u (List.mem_flatMap.2 ⟨_, List.mem_of_getElem? ht, hm⟩)
        · have : w'.rt.value t = st.world.rt.value t := by simp only [w']; rw [if_neg (by omega)]
          rw [this]
          exact hch.ext hLw
        · intro m x hx
          cases m with
          | succ m => simp at hx
          | zero =>
            simp only [List.getElem?_cons_zero, Option.some.injEq] at hx
            subst hx
            refine ⟨rfl, ⟨p, rfl⟩, ?_⟩
            simp only [Nat.add_zero, Chain]
            refine ⟨by simp only [w']; rw [if_pos hlen.symm], ?_⟩
            have e : w'.rt.value ts.length = if copy then st.world.rt.value t else none := by simp only [w']; rw [if_pos hlen.symm]
            rw [e]
            cases copy with
            | true => exact hch.cur.ext hLw
            | false => exact ⟨rfl, by simp⟩
        · intro i x hx
          rw [List.append_nil] at hx
          obtain ⟨h1, h2⟩ := h.history i x hx
          exact ⟨h1.same rfl, h2⟩
        · intro i x hx hi hnot
          rw [List.append_nil] at hx
          have := (List.getElem?_eq_some_iff.1 hx).1
          rcases hi with hi | hi
          · exact absurd hi hnot
          · omega
    | enter i o p =>
      obtain ⟨hpc, hpf⟩ := hph
      have hi : i < st.world.spans.length := by rw [← h.len]; exact Phase.lt hpc
      have hloc : (st.world.ctxOf i).isRemote = false := by
        obtain ⟨x, hx⟩ : ∃ x, (sitesOf evs)[i]? = some x := ⟨_, List.getElem?_eq_getElem (by rw [h.len]; exact hi)⟩
        obtain ⟨pl, -, -, p3⟩ := h.spans i x hx
        exact p3.2.1
      let c := Ctx.setSpan (st.world.rt.getCurrent t) (st.world.ctxOf i)
      let w' : World := { st.world with rt := (st.world.rt.attach t c).1 }
      have hLw : Ext st.world w' := Ext.congr rfl
      have hat : At w' (some i) (some c) := by
        refine ⟨?_, fun j hj => by cases hj; exact hi⟩
        simp only [Option.getD_some, Option.map_some, placeCtx]
        rw [show Ctx.currentSpan c = st.world.ctxOf i from (Ctx.C06_current_span _ _).1, show w'.ctxOf i = st.world.ctxOf i from hLw.ctx i hi]
        generalize st.world.ctxOf i = sc at hloc
        cases sc; simp only at hloc; subst hloc; rfl
      have key := h.update ht ⟨.run p, .leave i o (st.world.rt.attach t c).2 :: stack⟩ w' [] [] [] hist hLw rfl (fun i hi => h.wire i hi) h.genuine
        (fun u _ hu => by simp only [w', Runtime.attach]; rw [if_neg hu]) ?_ .nil (by simp [sitesOf]) ?_ (by simp [w', Runtime.attach]) ?_ (fun u _ h2 _ => h2) ?_ ?_
        (by rw [List.append_nil]; exact ⟨trivial, hpc, hpf⟩) (by simp) (List.sublist_cons_self _ _) (fun _ _ _ => rfl) ?_ ?_
      · simpa [w', c] using key.2
      · simp only [pend, pendCtl, pendFrames, curOf, List.append_nil, List.nil_append, List.flatMap_nil, raisesCtl]; exact List.Perm.refl _
      · simp [uidsOf, Runtime.attach]
      · intro u hm
        simp only [uidsOf, List.mem_cons] at hm
        simp only [w', Runtime.attach]
        rcases hm with rfl | hm
        · simp only [Runtime.attach]
          exact ⟨Nat.lt_succ_self _, fun hm => absurd (h.used _ hm) (Nat.lt_irrefl _)⟩
        · have := h.fresh u (List.mem_flatMap.2 ⟨_, List.mem_of_getElem? ht, hm⟩)
          exact ⟨Nat.lt_succ_of_lt this.1, this.2⟩
      · intro u hu
        exact Nat.lt_succ_of_lt (h.used u hu)
      · refine ⟨?_, rfl, ?_⟩
        · simp only [w', Runtime.attach, if_true]; exact hat
        · exact hch.ext hLw
      · intro i x hx
        rw [List.append_nil] at hx
        obtain ⟨h1, h2⟩ := h.history i x hx
        exact ⟨h1.same rfl, h2⟩
      · intro j x hx hj hnot
        rw [List.append_nil] at hx
        have := (List.getElem?_eq_some_iff.1 hx).1
        rcases hj with hj | hj
        · exact absurd hj hnot
        · omega
    | ret e =>
      cases stack with
      | nil => exact hrefl
      | cons f r =>
        cases f with
        | seq q =>
          cases e with
          | none => simpa using h.quiet ht ⟨.run q, r⟩ [] [] rfl .nil rfl rfl hch ⟨trivial, hph.2⟩ rfl
          | some e => simpa using h.quiet ht ⟨.ret (some e), r⟩ [] [] rfl .nil rfl rfl hch ⟨trivial, hph.2⟩ rfl
        | handler q =>
          cases e with
          | none => simpa using h.quiet ht ⟨.ret none, r⟩ [] [] rfl .nil rfl rfl hch ⟨trivial, hph.2⟩ rfl
          | some e =>
            cases e with
            | base n => simpa using h.quiet ht ⟨.ret (some (.base n)), r⟩ [] [] rfl .nil rfl rfl hch ⟨trivial, hph.2⟩ rfl
            | exception x y => simpa using h.quiet ht ⟨.run q, r⟩ [] [] rfl .nil rfl rfl hch ⟨trivial, hph.2⟩ rfl
        | leave i o tok =>
          obtain ⟨c1, c2, c3⟩ := hch
          obtain ⟨-, hpl, hpf⟩ := hph
          have hi : i < st.world.spans.length := c1.2 i rfl
          have hmem : tok.uid ∈ ts.flatMap (fun x => uidsOf x.1.stack) := List.mem_flatMap.2 ⟨_, List.mem_of_getElem? ht, List.mem_cons_self⟩
          have hfr := h.fresh _ hmem
          have hdet : st.world.rt.detach t tok =
              { st.world.rt with value := fun u => if u = t then tok.old else st.world.rt.value u, used := tok.uid :: st.world.rt.used } := by
            unfold Runtime.detach
            rw [if_pos ⟨c2, hfr.2⟩]
          have hnd : (tok.uid :: uidsOf r).Nodup := by
            obtain ⟨a, c, g1, -⟩ := flatMap_set (fun x : Ghost => uidsOf x.1.stack) ts t _ (⟨.ret e, r⟩, b, ini) ht
            have := h.uids
            rw [g1, List.append_assoc, List.nodup_append] at this
            have := this.2.1
            rw [List.nodup_append] at this
            exact this.1
          let w' : World := { st.world with rt := st.world.rt.detach t tok }
          have hLw : Ext st.world w' := Ext.congr rfl
          have key := h.update ht ⟨.error i o e, r⟩ w' [] [] [] hist hLw rfl (fun i hi => h.wire i hi) h.genuine
            (fun u _ hu => by simp only [w', hdet]; rw [if_neg hu]) ?_ .nil (by simp [sitesOf])
            (by simp only [uidsOf]; exact ((List.sublist_cons_self _ _).trans (List.sublist_cons_self _ _))) (by simp [w', hdet]) ?_ ?_ ?_ ?_
            (by rw [List.append_nil]; exact ⟨hpl, hpf⟩) (by simp) (List.sublist_cons_self _ _) (fun _ _ _ => rfl) ?_ ?_
          · simpa [w'] using key.2
          · simp only [pend, pendCtl, pendFrames, List.append_nil, List.nil_append, List.flatMap_nil, raisesCtl]; exact List.Perm.refl _
          · intro u hm
            have := h.fresh u (List.mem_flatMap.2 ⟨_, List.mem_of_getElem? ht, List.mem_cons_of_mem _ hm⟩)
            simp only [w', hdet, List.mem_cons, not_or]
            refine ⟨this.1, ?_, this.2⟩
            rintro rfl
            exact (List.nodup_cons.1 hnd).1 hm
          · intro u h1 h2 h3
            simp only [uidsOf, List.mem_cons, not_or] at h3
            simp only [w', hdet, List.mem_cons, not_or]
            exact ⟨h3.1, h2⟩
          · intro u hu
            simp only [w', hdet, List.mem_cons] at hu ⊢
            rcases hu with rfl | hu
            · exact hfr.1
            · exact h.used u hu
          · have c4 : Chain w' t b ini r tok.old := c3.ext hLw
            simp only [w', hdet, if_true]
            simpa only [w', hdet] using c4
          · intro i x hx
            rw [List.append_nil] at hx
            obtain ⟨h1, h2⟩ := h.history i x hx
            exact ⟨h1.same rfl, h2⟩
          · intro j x hx hj hnot
            rw [List.append_nil] at hx
            have := (List.getElem?_eq_some_iff.1 hx).1
            rcases hj with hj | hj
            · exact absurd hj hnot
            · omega
    | error i o e =>
      obtain ⟨x0, q1, q2, q3, q4⟩ := hph.1
      have htag : own (exceptionSteps o e |>.map fun s => (true, s)) = exceptionSteps o e := by
        generalize exceptionSteps o e = l
        induction l with
        | nil => rfl
        | cons s l ih => simp only [own, List.map_cons, List.filter_cons, if_true] at ih ⊢; rw [ih]
      refine h.touch ht (.finish i o e) i _ ((exceptionSteps o e).map fun s => (true, s)) [] ⟨rfl, rfl⟩ rfl rfl ?_ ?_ ?_ (List.Sublist.refl _)
        (.inr (List.mem_singleton.2 rfl)) (fun j x _ hj hj' => absurd hj hj')
      · intro x hx
        have : x = x0 := by rw [hx] at q1; exact Option.some.inj q1
        subst this
        rw [List.map_append, List.map_map, show (Prod.snd ∘ fun s : Span.Step => (true, s)) = id from rfl, List.map_id]
        have := (h.history i x hx).1.exception e
        rw [q2] at this ⊢
        exact this
      · intro s hs; simp at hs
      · refine ⟨x0, q1, q2, q3, ?_⟩
        simp only [if_true]
        rw [own_append, q4, htag]; rfl
    | finish i o e =>
      obtain ⟨x0, q1, q2, q3, q4⟩ := hph.1
      cases ho : o.endOnExit with
      | true =>
        simp only [ho, if_true]
        refine h.touch ht (.notify i e) i [.end_ o.tEnd] [(true, .end_ o.tEnd)] [] ⟨rfl, rfl⟩ rfl rfl ?_ ?_ ?_ (List.Sublist.refl _)
          (.inr (List.mem_singleton.2 rfl)) (fun j x _ hj hj' => absurd hj hj')
        · intro x hx
          rw [List.map_append]
          exact (h.history i x hx).1.steps _
        · intro s hs; simp at hs
        · refine ⟨o, ho, x0, q1, q2, q3, ?_⟩
          simp only [if_true]
          rw [own_append, q4]; rfl
      | false =>
        simp only [ho, Bool.false_eq_true, if_false]
        have hst : st.world.steps i [] = st.world := by
          unfold World.steps
          split
          · rfl
          · rename_i s0 hs0
            have e1 : stepsOn [] s0 = s0 := by cases s0 <;> rfl
            rw [e1]
            simp only [List.drop_length, List.map_nil, List.append_nil]
            have : st.world.spans.set i s0 = st.world.spans := by
              have hlt := (List.getElem?_eq_some_iff.1 hs0)
              obtain ⟨hlt, heq⟩ := hlt
              rw [← heq]; exact List.set_getElem_self hlt
            rw [this]
        have key := h.touch ht (.ret e) i [] [] [] ⟨rfl, rfl⟩ rfl rfl ?_ ?_ trivial (List.nil_sublist _) (.inl rfl) ?_
        · rw [hst] at key; exact key
        · intro x hx
          rw [List.append_nil, hst]; exact (h.history i x hx).1
        · intro s hs; cases hs
        · intro j x hx hj _
          have hj : j = i := List.mem_singleton.1 hj
          subst hj
          refine ⟨rfl, ?_⟩
          have : x = x0 := by rw [hx] at q1; exact Option.some.inj q1
          subst this
          rw [List.append_nil, q4]
          simp only [Site.exit, q3, q2, ho, Bool.false_eq_true, if_false, List.append_nil]
    | notify i e =>
      obtain ⟨o, ho, x0, q1, q2, q3, q4⟩ := hph.1
      refine h.touch ht (.ret e) i [.notifyEnd] [(true, .notifyEnd)] [] ⟨rfl, rfl⟩ rfl rfl ?_ ?_ trivial (List.nil_sublist _)
        (.inr (List.mem_singleton.2 rfl)) ?_
      · intro x hx
        rw [List.map_append]
        exact (h.history i x hx).1.steps _
      · intro s hs; simp at hs
      · intro j x hx hj _
        have hj : j = i := List.mem_singleton.1 hj
        subst hj
        refine ⟨rfl, ?_⟩
        have : x = x0 := by rw [hx] at q1; exact Option.some.inj q1
        subst this
        rw [own_append, q4]
        simp only [Site.exit, q3, q2, ho, if_true]
        simp [own]

/-! ## Runs -/

theorem Inv.init (S : Sampler) (lim : SpanLimits) (main : Prog) :
    Inv S lim main (State.init main) [(⟨.run main, []⟩, none, none)] [] (fun _ => []) := by
  have hone : ∀ {t : Nat} {x : Ghost}, [((⟨.run main, []⟩ : Task), (none : Option Nat), (none : Option Ctx))][t]? = some x → t = 0 ∧ x = (⟨.run main, []⟩, none, none) := by
    intro t x hx
    cases t with
    | zero => simp only [List.getElem?_cons_zero, Option.some.injEq] at hx; exact ⟨rfl, hx.symm⟩
    | succ t => simp at hx
  refine ⟨rfl, rfl, init_wire, ⟨by intro i s h; simp [State.init, World.init] at h, by intro i; simp [State.init, World.init]⟩, ?_, .nil, by simp [sitesOf], by simp [uidsOf],
    by simp [uidsOf], init_fresh, ?_, ?_, by simp [owns, ownsCtl, ownsFrames], by simp [sitesOf], by simp [sitesOf]⟩
  · simp only [List.nil_append, List.flatMap_cons, List.flatMap_nil, List.append_nil, pend, pendCtl, pendFrames, curOf, lineOf, Option.bind_none]
    exact List.Perm.refl _
  · intro t x hx
    obtain ⟨rfl, rfl⟩ := hone hx
    exact ⟨rfl, rfl, by simp⟩
  · intro t x hx
    obtain ⟨rfl, rfl⟩ := hone hx
    exact ⟨trivial, trivial⟩

theorem runs_inv {S : Sampler} {lim : SpanLimits} {main : Prog} (hS : KeepsState S) (hd : ∀ x ∈ sitesOf (events none main), Draws x.opts) (schedule : List Nat) :
    ∃ ts evs hist, Inv S lim main (runs S lim main schedule) ts evs hist := by
  unfold runs
  induction schedule using List.reverseRecOn with
  | nil => exact ⟨_, _, _, Inv.init S lim main⟩
  | append_singleton l t ih =>
    obtain ⟨ts, evs, hist, h⟩ := ih
    rw [List.foldl_append]
    obtain ⟨ts', evs', hist', h', -⟩ := h.step hS hd t
    exact ⟨ts', evs', hist', h'⟩

/-! ## The theorems -/

/-- Where a span belongs: it has the arguments of its site; its parent is a span of the block around the site, or it has none. -/
def Belongs (S : Sampler) (w : World) (done : List Site) (i : Nat) (x : Site) : Prop :=
  match x.around with
  | none => SpanAt w i ⟨none, x.opts, S⟩
  | some l => ∃ j y, done[j]? = some y ∧ y.line = l ∧ SpanAt w i ⟨some (j, false), x.opts, S⟩

/-- What a look sees: the span of the block around, or the invalid span. -/
def Sees (w : World) (done : List Site) (x : Nat × SpanContext) (y : Nat × Option Nat) : Prop :=
  x.1 = y.1 ∧ match y.2 with
    | none => x.2 = SpanContext.invalid
    | some l => ∃ j z, done[j]? = some z ∧ z.line = l ∧ x.2 = w.ctxOf j

theorem SiteAt.belongs {S : Sampler} {w : World} {done : List Site} {i : Nat} {x : Site} (h : SiteAt S w done i x) : Belongs S w done i x := by
  obtain ⟨pl, h1, h2, h3⟩ := h
  unfold Belongs
  cases pl with
  | none =>
    have : x.around = none := h1.symm
    rw [this]; exact h3
  | some j =>
    obtain ⟨y, hy⟩ : ∃ y, done[j]? = some y := ⟨_, List.getElem?_eq_getElem (h2 j rfl)⟩
    have : x.around = some y.line := by rw [← h1]; simp [lineOf, hy]
    rw [this]
    exact ⟨j, y, hy, rfl, h3⟩

theorem Inv.sees {S : Sampler} {lim : SpanLimits} {main : Prog} {st : State} {ts : List Ghost} {evs : List Event} {hist : Nat → Hist}
    (h : Inv S lim main st ts evs hist) : List.Forall₂ (Sees st.world (sitesOf evs)) st.seen (looksOf evs) := by
  refine h.seen.imp ?_
  rintro x y ⟨h0, pl, h1, h2, h3⟩
  refine ⟨h0, ?_⟩
  cases pl with
  | none =>
    have : y.2 = none := h1.symm
    rw [this]; exact h3
  | some j =>
    obtain ⟨z, hz⟩ : ∃ z, (sitesOf evs)[j]? = some z := ⟨_, List.getElem?_eq_getElem (h2 j rfl)⟩
    have : y.2 = some z.line := by rw [← h1]; simp [lineOf, hz]
    rw [this]
    refine ⟨j, z, hz, rfl, ?_⟩
    refine Eq.trans h3 ?_
    simp only [Option.map_some, placeCtx]
    obtain ⟨_, -, -, p3⟩ := h.spans j z hz
    have := p3.2.1
    generalize st.world.ctxOf j = sc at this
    cases sc; simp only at this; subst this; rfl

/-- **C92** Whatever the schedule, at any moment: what has been done is part of what the text says, each place once. Each span is a child of the span of the block around
its place (of the block around the place where its task was created, if there is none inside the task), in the same trace; a span with no block around it,
in a new thread, or started with an empty context, begins a trace. No span becomes a child of what another thread or task happens to be doing, and none is seen there. -/
theorem C92_tree (S : Sampler) (lim : SpanLimits) (main : Prog) (hS : KeepsState S) (hd : ∀ x ∈ sitesOf (events none main), Draws x.opts) (schedule : List Nat) :
    ∃ evs : List Event, List.Subperm evs (events none main) ∧ (sitesOf evs).length = (runs S lim main schedule).world.spans.length ∧
      (∀ i x, (sitesOf evs)[i]? = some x → Belongs S (runs S lim main schedule).world (sitesOf evs) i x) ∧
      List.Forall₂ (Sees (runs S lim main schedule).world (sitesOf evs)) (runs S lim main schedule).seen (looksOf evs) := by
  obtain ⟨ts, evs, hist, h⟩ := runs_inv (lim := lim) hS hd schedule
  exact ⟨evs, (List.sublist_append_left _ _).subperm.trans h.perm.subperm, h.len, fun i x hx => (h.spans i x hx).belongs, h.sees⟩

theorem Inv.done {S : Sampler} {lim : SpanLimits} {main : Prog} {st : State} {ts : List Ghost} {evs : List Event} {hist : Nat → Hist}
    (h : Inv S lim main st ts evs hist) (hf : st.finished) : evs ~ events none main ∧ ∀ i x, (sitesOf evs)[i]? = some x → own (hist i) = x.exit := by
  have hno : ∀ {α : Type} {f : Ghost → List α}, (∀ x : Ghost, (∃ e, x.1 = ⟨.ret e, []⟩) → f x = []) → ts.flatMap f = [] := by
    intro α f hf0
    rw [List.flatMap_eq_nil_iff]
    intro x hx
    exact hf0 x (hf x.1 (by rw [h.tasks]; exact List.mem_map.2 ⟨x, hx, rfl⟩))
  refine ⟨?_, ?_⟩
  · have hp := h.perm
    rwa [hno (by rintro x ⟨e, he⟩; unfold pend; rw [he]; rfl), List.append_nil] at hp
  · intro i x hx
    refine h.closed i x hx ?_
    rw [hno (by rintro x ⟨e, he⟩; unfold owns; rw [he]; rfl)]
    exact List.not_mem_nil

/-- **C92** When all threads and tasks are done, whatever the schedule was: exactly what the text says has been done (also if there were exceptions); every recording span is the one
its place makes, after the method calls of the text on it and what leaving its block does, in this order: the exception, the end. -/
theorem C92_complete (S : Sampler) (lim : SpanLimits) (main : Prog) (hS : KeepsState S) (hd : ∀ x ∈ sitesOf (events none main), Draws x.opts) (schedule : List Nat)
    (hf : (runs S lim main schedule).finished) :
    ∃ evs : List Event, List.Perm evs (events none main) ∧ (sitesOf evs).length = (runs S lim main schedule).world.spans.length ∧
      (∀ i x, (sitesOf evs)[i]? = some x → Belongs S (runs S lim main schedule).world (sitesOf evs) i x) ∧
      List.Forall₂ (Sees (runs S lim main schedule).world (sitesOf evs)) (runs S lim main schedule).seen (looksOf evs) ∧
      ∀ i x, (sitesOf evs)[i]? = some x → ∃ h : List (Bool × Span.Step),
        (h.filter (fun c => c.1)).map Prod.snd = x.exit ∧ (∀ s, (false, s) ∈ h → .op i s ∈ events none main) ∧
        ∀ s, (runs S lim main schedule).world.spans[i]? = some (.recording s) → ∃ (q : Query) (parent : Option SpanContext),
          (q.name, q.kind, q.attributes, q.links, q.traceId) = (x.opts.name, x.opts.kind, x.opts.attributes, x.opts.links, s.data.ctx.traceId) ∧
          s = (.start x.opts.tStart :: .notifyStart :: h.map Prod.snd).foldl Span.step (Span.init lim x.opts.name s.data.ctx parent (S q).attributes [] x.opts.links) := by
  obtain ⟨ts, evs, hist, h⟩ := runs_inv (lim := lim) hS hd schedule
  obtain ⟨h1, h2⟩ := h.done hf
  refine ⟨evs, h1, h.len, fun i x hx => (h.spans i x hx).belongs, h.sees, fun i x hx => ⟨hist i, h2 i x hx, (h.history i x hx).2, ?_⟩⟩
  intro s hs
  obtain ⟨q, par, e1, e2, e3, e4, e5, e6⟩ := (h.history i x hx).1 s hs
  have hctx : (runs S lim main schedule).world.ctxOf i = s.data.ctx := by simp only [World.ctxOf, hs, Started.ctx]
  rw [hctx] at e5 e6
  exact ⟨q, par, by rw [e1, e2, e3, e4, e5], e6⟩

/-! ## Ends -/

theorem step_ended (s : Span.State) (x : Span.Step) (h : s.data.endTime.isSome = true) : (Span.step s x).data.endTime.isSome = true := by
  cases x <;> simp only [Span.step] <;> (try split) <;> simp_all

theorem steps_ended (l : List Span.Step) (s : Span.State) (h : s.data.endTime.isSome = true) : (l.foldl Span.step s).data.endTime.isSome = true := by
  induction l generalizing s with
  | nil => exact h
  | cons x l ih => exact ih _ (step_ended s x h)

theorem step_started (s : Span.State) (x : Span.Step) (h : s.data.startTime.isSome = true) : (Span.step s x).data.startTime.isSome = true := by
  cases x <;> simp only [Span.step] <;> (try split) <;> (try simp_all) <;> (try (simp only [(UseSpan.mutate_times _ _ _).1]; exact h))

theorem steps_started (l : List Span.Step) (s : Span.State) (h : s.data.startTime.isSome = true) : (l.foldl Span.step s).data.startTime.isSome = true := by
  induction l generalizing s with
  | nil => exact h
  | cons x l ih => exact ih _ (step_started s x h)

/-- A started span with an end and, later, a call of the processors among its steps: they have been told. -/
theorem told_of_steps (lim : SpanLimits) (name : Str) (sc : SpanContext) (par : Option SpanContext) (at_ : Span.RawAttrs)
    (ln : List (Option (Option SpanContext × Span.RawAttrs))) (t0 te : Int) (l : List Span.Step) (h : [.end_ te, .notifyEnd] <+ l) :
    ∃ d, Span.Note.ended d ∈ ((.start t0 :: .notifyStart :: l).foldl Span.step (Span.init lim name sc par at_ [] ln)).log := by
  obtain ⟨l1, l2, rfl, h1, h2⟩ := List.cons_sublist_iff.1 h
  rw [List.singleton_sublist] at h2
  obtain ⟨l3, l4, rfl⟩ := List.append_of_mem h2
  obtain ⟨l5, l6, rfl⟩ := List.append_of_mem h1
  let init := Span.init lim name sc par at_ [] ln
  have e : (Span.Step.start t0 :: .notifyStart :: (l5 ++ .end_ te :: l6 ++ (l3 ++ .notifyEnd :: l4))).foldl Span.step init =
      l4.foldl Span.step (Span.step ((.start t0 :: .notifyStart :: (l5 ++ .end_ te :: l6 ++ l3)).foldl Span.step init) .notifyEnd) := by
    simp only [List.foldl_cons, List.foldl_append]
  rw [e]
  have hend : ((Span.Step.start t0 :: .notifyStart :: (l5 ++ .end_ te :: l6 ++ l3)).foldl Span.step init).data.endTime.isSome = true := by
    simp only [List.foldl_cons, List.foldl_append]
    refine steps_ended _ _ (steps_ended _ _ ?_)
    have hst : (l5.foldl Span.step (Span.step (Span.step init (.start t0)) .notifyStart)).data.startTime.isSome = true := steps_started _ _ rfl
    generalize l5.foldl Span.step (Span.step (Span.step init (.start t0)) .notifyStart) = s0 at hst
    simp only [Span.step]
    split
    · rename_i h1
      rcases h1 with h1 | h1
      · rw [h1] at hst; cases hst
      · exact h1
    · rfl
  have hinv := Span.inv_run _ (.start t0 :: .notifyStart :: (l5 ++ .end_ te :: l6 ++ l3)) (Span.inv_init lim name sc par at_ [] ln)
  change Span.Inv ((Span.Step.start t0 :: .notifyStart :: (l5 ++ .end_ te :: l6 ++ l3)).foldl Span.step init) at hinv
  generalize (Span.Step.start t0 :: .notifyStart :: (l5 ++ .end_ te :: l6 ++ l3)).foldl Span.step init = s at hend hinv
  have hk : ∃ d, Span.Note.ended d ∈ (Span.step s .notifyEnd).log := by
    simp only [Span.step]
    split
    · rename_i h1
      have h2 := hinv.1
      rw [hend] at h2
      simp only [if_true] at h2
      rw [h1, Nat.add_zero] at h2
      obtain ⟨d, hd⟩ := List.exists_mem_of_length_pos (by rw [h2]; exact Nat.one_pos)
      simp only [Span.endNotes, List.mem_filterMap] at hd
      obtain ⟨n, hn, hnd⟩ := hd
      cases n with
      | started => simp at hnd
      | ended d' => exact ⟨d', hn⟩
    · exact ⟨s.data, by simp⟩
  obtain ⟨d, hd⟩ := hk
  exact ⟨d, (steps_log l4 _).subset hd⟩

/-- **C92** When all threads and tasks are done, every recording span of a block that ends its span has been ended, and the processors have been told; they were given it exactly
once, in its final state. -/
theorem C92_ended (S : Sampler) (lim : SpanLimits) (main : Prog) (hS : KeepsState S) (hd : ∀ x ∈ sitesOf (events none main), Draws x.opts) (schedule : List Nat)
    (hf : (runs S lim main schedule).finished) :
    ∃ evs : List Event, List.Perm evs (events none main) ∧ (sitesOf evs).length = (runs S lim main schedule).world.spans.length ∧
      (∀ i x, (sitesOf evs)[i]? = some x → Belongs S (runs S lim main schedule).world (sitesOf evs) i x) ∧
      ∀ i x, (sitesOf evs)[i]? = some x → x.leaves.isSome = true → x.opts.endOnExit = true → (runs S lim main schedule).world.records i = true →
        ∃ d, (i, Span.Note.ended d) ∈ (runs S lim main schedule).world.log ∧
          (∃ s, (runs S lim main schedule).world.spans[i]? = some (.recording s) ∧ s.data = d ∧ d.endTime.isSome = true) ∧
          (((runs S lim main schedule).world.log.map callKey).filter (fun c => c == (false, i))).length = 1 := by
  obtain ⟨ts, evs, hist, h⟩ := runs_inv (lim := lim) hS hd schedule
  obtain ⟨h1, h2⟩ := h.done hf
  refine ⟨evs, h1, h.len, fun i x hx => (h.spans i x hx).belongs, ?_⟩
  intro i x hx hb he hr
  have hgen := h.genuine
  have hh := (h.history i x hx).1
  have hown := h2 i x hx
  generalize (runs S lim main schedule).world = w at *
  obtain ⟨s, hs⟩ : ∃ s, w.spans[i]? = some (.recording s) := by
    simp only [World.records, World.parentOf] at hr
    split at hr
    · rename_i s hs; exact ⟨s, hs⟩
    · cases hr
  obtain ⟨q, par, -, -, -, -, -, e6⟩ := hh s hs
  have hsub : [Span.Step.end_ x.opts.tEnd, .notifyEnd] <+ (hist i).map Prod.snd := by
    have e1 : own (hist i) <+ (hist i).map Prod.snd := List.Sublist.map _ List.filter_sublist
    refine List.Sublist.trans ?_ e1
    rw [hown]
    cases hl : x.leaves with
    | none => rw [hl] at hb; cases hb
    | some e => simp only [Site.exit, hl, he, if_true]; exact List.sublist_append_right _ _
  obtain ⟨d, hd'⟩ := told_of_steps lim x.opts.name (w.ctxOf i) par (S q).attributes x.opts.links x.opts.tStart x.opts.tEnd _ hsub
  rw [← e6] at hd'
  have hlog := hgen.2 i
  rw [hs] at hlog
  simp only [notes] at hlog
  rw [← hlog] at hd'
  obtain ⟨⟨j, n⟩, hm, rfl⟩ := List.mem_map.1 hd'
  rw [List.mem_filter] at hm
  have : j = i := by simpa using hm.2
  subst this
  exact ⟨d, hm.1, genuine_final hgen j d hm.1⟩

/-- **C92** At every moment, each recording span is a genuine SDK span (so C17–C19 apply to it), and the processors have been called for it exactly as
that span says. -/
theorem C92_genuine (S : Sampler) (lim : SpanLimits) (main : Prog) (hS : KeepsState S) (hd : ∀ x ∈ sitesOf (events none main), Draws x.opts) (schedule : List Nat) :
    Genuine lim (runs S lim main schedule).world := by
  obtain ⟨ts, evs, hist, h⟩ := runs_inv (lim := lim) hS hd schedule
  exact h.genuine

/-- **C92** Whenever a thread or task is outside its blocks, its context is the one it had whenever it was outside them before, in particular the one it began
with; that of the main thread is empty. -/
theorem C92_restored (S : Sampler) (lim : SpanLimits) (main : Prog) (hS : KeepsState S) (hd : ∀ x ∈ sitesOf (events none main), Draws x.opts) (schedule later : List Nat)
    (t : Nat) (c c' : Ctl) (h1 : (runs S lim main schedule).tasks[t]? = some ⟨c, []⟩) (h2 : (runs S lim main (schedule ++ later)).tasks[t]? = some ⟨c', []⟩) :
    (runs S lim main (schedule ++ later)).world.rt.getCurrent t = (runs S lim main schedule).world.rt.getCurrent t ∧
    (t = 0 → (runs S lim main schedule).world.rt.getCurrent t = []) := by
  have key : ∀ (l : List Nat) (st : State) (ts : List Ghost) (evs : List Event) (hist : Nat → Hist), Inv S lim main st ts evs hist →
      Good S lim main ts (l.foldl (Tasks.step S lim) st) := by
    intro l
    induction l with
    | nil => intro st ts evs hist h; exact ⟨ts, evs, hist, h, fun t x hx => ⟨x, hx, rfl⟩⟩
    | cons u l ih =>
      intro st ts evs hist h
      obtain ⟨ts', evs', hist', h', k1⟩ := h.step hS hd u
      obtain ⟨ts'', evs'', hist'', h'', k2⟩ := ih _ ts' evs' hist' h'
      refine ⟨ts'', evs'', hist'', h'', fun t x hx => ?_⟩
      obtain ⟨x', hx', e1⟩ := k1 t x hx
      obtain ⟨x'', hx'', e2⟩ := k2 t x' hx'
      exact ⟨x'', hx'', e2.trans e1⟩
  obtain ⟨ts, evs, hist, h, k0⟩ := key schedule _ _ _ _ (Inv.init S lim main)
  obtain ⟨ts', evs', hist', h', k1⟩ := key later _ ts evs hist h
  rw [show later.foldl (Tasks.step S lim) (schedule.foldl (Tasks.step S lim) (State.init main)) = runs S lim main (schedule ++ later) by
    rw [runs, List.foldl_append]] at h'
  rw [show schedule.foldl (Tasks.step S lim) (State.init main) = runs S lim main schedule from rfl] at h
  have get : ∀ {st : State} {ts : List Ghost} {evs : List Event} {hist : Nat → Hist} {c : Ctl}, Inv S lim main st ts evs hist → st.tasks[t]? = some ⟨c, []⟩ →
      ∃ x : Ghost, ts[t]? = some x ∧ st.world.rt.value t = x.2.2 := by
    intro st ts evs hist c h hk
    rw [h.tasks, List.getElem?_map] at hk
    cases hx : ts[t]? with
    | none => rw [hx] at hk; cases hk
    | some x =>
      rw [hx] at hk
      simp only [Option.map_some, Option.some.injEq] at hk
      have := h.chain t x hx
      rw [hk] at this
      exact ⟨x, rfl, this.1⟩
  obtain ⟨x, hx, e1⟩ := get h h1
  obtain ⟨x', hx', e2⟩ := get h' h2
  obtain ⟨x'', hx'', e3⟩ := k1 t x hx
  rw [hx'] at hx''
  simp only [Option.some.injEq] at hx''
  subst hx''
  refine ⟨by simp only [Runtime.getCurrent]; rw [e1, e2, e3], ?_⟩
  rintro rfl
  obtain ⟨y, hy, e4⟩ := k0 0 _ rfl
  rw [hx] at hy
  simp only [Option.some.injEq] at hy
  subst hy
  simp only [Runtime.getCurrent]
  rw [e1, e4]
  rfl

/-! ## Decorated functions -/

/-- **C92** Everything the body of a decorated function or coroutine does has around it the block of that call (or one inside it), and the call makes one span of
its own, left with what leaves the body; for functions with `yield`, decorated in the same way, this is false: see `C92_generator_violated`. -/
theorem C92_decorated (k : FuncKind) (hk : k = .plain ∨ k = .coroutine) (line : Nat) (o : Opts) (body : Prog) (cur : Option Nat) :
    events cur (decorated k line o body) = .span ⟨line, o, some (raises body), if o.newTrace then none else cur⟩ :: events (some line) body ∧
    raises (decorated k line o body) = raises body := by
  rcases hk with rfl | rfl <;> exact ⟨rfl, rfl⟩

/-- A generator's body runs outside the span of its call: nothing it starts or sees is in that span, what it raises is not recorded in it, and it has ended before the body begins. -/
theorem C92_generator_violated (k : FuncKind) (hk : k = .generator ∨ k = .asyncGenerator) (line : Nat) (o : Opts) (body : Prog) (cur : Option Nat) :
    events cur (decorated k line o body) = .span ⟨line, o, some none, if o.newTrace then none else cur⟩ :: events cur body ∧
    raises (decorated k line o body) = raises body := by
  rcases hk with rfl | rfl <;> exact ⟨rfl, by simp [decorated, raises, thenRaises]⟩

/-- Two generators in one thread, each with a block around its `yield`s, iterated alternately (as `zip` does): a block that is left second, though entered second, puts back
the context of the block that was left first, so that the thread goes on in the context of a span that has ended. -/
theorem C92_interleaved_generators_violated (t : Nat) (a b : Ctx) (r : Runtime) (hf : FreshRt r) :
    let r1 := r.attach t a
    let r2 := r1.1.attach t b
    ((r2.1.detach t r1.2).detach t r2.2).getCurrent t = a := by
  have h1 : r.nextUid ∉ r.used := fun h => absurd (hf _ h) (Nat.lt_irrefl _)
  have h2 : r.nextUid + 1 ∉ r.used := fun h => absurd (hf _ h) (by omega)
  simp [Runtime.attach, Runtime.detach, Runtime.getCurrent, h1, h2]

private def o (n : Nat) (new end_ : Bool) : Opts := ⟨['s'], 0, [], [], new, true, true, end_, n, n + 100, 1, 2, 3⟩
private def exErr : Esc := .exception ⟨['E'], [], [], []⟩ ['E']
private def exProg : Prog :=
  .block 1 (o 1 false true) (.seq (.spawn true (.seq (.block 2 (o 2 false true) (.look 7)) (.look 8)))
    (.seq (.spawn false (.block 3 (o 3 false true) (.look 9))) (.seq (.tryExcept (.block 4 (o 4 false true) (.seq (.look 10) (.seq (.start 5 (o 5 true false))
      (.seq (.raise exErr) (.start 6 (o 6 true false)))))) .skip) (.op 0 (.updateName ['n'])))))

/-- Three tasks taking turns. -/
private def exSchedule : List Nat := ((List.replicate 60 [0, 1, 2]).flatten)

private def exLim : SpanLimits := ⟨none, none, none, none, none, none, none, none⟩

private def parentLines (w : World) : List (Option Int) := w.spans.map fun s => match s with | .recording s => s.data.parent.map SpanContext.spanId | _ => none

private def eventCounts (w : World) : List Nat := w.spans.map fun s => match s with | .recording s => s.data.events.items.length | _ => 0

/-- The first span's block is around the second (in a task) and the fourth, not around the third (in a thread) or the fifth (new trace); an exception leaves the fourth, before line 6. -/
example : KeepsState Sampling.alwaysOn ∧ (∀ x ∈ sitesOf (events none exProg), Draws x.opts) ∧
    (sitesOf (events none exProg)).map (fun x => (x.line, x.around)) = [(1, none), (2, some 1), (3, none), (4, some 1), (5, none)] ∧
    (sitesOf (events none exProg)).map (fun x => x.leaves) = [some none, some none, some none, some (some exErr), none] ∧
    (runs Sampling.alwaysOn exLim exProg exSchedule).finished ∧
    (runs Sampling.alwaysOn exLim exProg exSchedule).seen.map (fun x => (x.1, x.2.spanId)) = [(7, 103), (9, 104), (8, 102), (10, 105)] ∧
    parentLines (runs Sampling.alwaysOn exLim exProg exSchedule).world = [none, some 102, none, some 102, none] ∧
    eventCounts (runs Sampling.alwaysOn exLim exProg exSchedule).world = [0, 0, 0, 1, 0] := by
  refine ⟨keeps_builtin.1, ?_, rfl, rfl, ?_, ?_, ?_, ?_⟩
  · intro x hx; simp [events, sitesOf, exProg, raises, thenRaises, caught, exErr] at hx; rcases hx with rfl | rfl | rfl | rfl | rfl <;> simp [Draws, o]
  · have h : ((runs Sampling.alwaysOn exLim exProg exSchedule).tasks.all fun k => match k with | ⟨.ret _, []⟩ => true | _ => false) = true := by decide +kernel
    intro k hk
    have := List.all_eq_true.1 h k hk
    obtain ⟨ctl, st⟩ := k
    cases ctl <;> cases st <;> first | exact ⟨_, rfl⟩ | cases this
  · decide +kernel
  · decide +kernel
  · decide +kernel

end Tasks
end Otel
