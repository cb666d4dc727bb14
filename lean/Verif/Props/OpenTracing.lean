import Verif.Model.OpenTracing
import Verif.Props.Tracer
import Verif.Props.Propagate
/-!
# C83, C84: the OpenTracing shim
-/
namespace Otel
namespace OpenTracing
open UseSpan (Esc onError)
open Sampling
open Tracer (FreshRt Ext notes stepsOn)

/-! ## Contexts are restored -/

/-- What nested code does to the context variables: nothing. -/
structure RtKeeps (r r' : Runtime) : Prop where
  fresh : FreshRt r'
  next : r.nextUid ≤ r'.nextUid
  used : ∀ u, u < r.nextUid → u ∈ r'.used → u ∈ r.used
  value : ∀ u, r'.value u = r.value u

theorem RtKeeps.refl {r : Runtime} (h : FreshRt r) : RtKeeps r r := ⟨h, Nat.le_refl _, fun _ _ h => h, fun _ => rfl⟩

theorem RtKeeps.trans {a b c : Runtime} (h : RtKeeps a b) (h' : RtKeeps b c) : RtKeeps a c :=
  ⟨h'.fresh, Nat.le_trans h.next h'.next, fun u hu hm => h.used u hu (h'.used u (Nat.lt_of_lt_of_le hu h.next) hm),
    fun u => (h'.value u).trans (h.value u)⟩

theorem attach_fresh (r : Runtime) (t : Nat) (c : Ctx) (h : FreshRt r) : FreshRt (r.attach t c).1 := by
  intro u hu
  simp only [Runtime.attach] at hu ⊢
  exact Nat.lt_succ_of_lt (h u hu)

/-- A value attached, nested code, and the value detached. -/
theorem push_pop (r r1 : Runtime) (t : Nat) (c : Ctx) (h : FreshRt r) (hk : RtKeeps (r.attach t c).1 r1) :
    RtKeeps r (r1.detach t (r.attach t c).2) := by
  obtain ⟨b1, b2, b3, b4⟩ := hk
  have hn : r.nextUid + 1 ≤ r1.nextUid := b2
  have hnot : r.nextUid ∉ r1.used := by
    intro hm
    have := b3 r.nextUid (by simp only [Runtime.attach]; omega) hm
    exact Nat.lt_irrefl _ (h _ this)
  have hdet : r1.detach t (r.attach t c).2 =
      { r1 with value := fun u => if u = t then r.value t else r1.value u, used := r.nextUid :: r1.used } := by
    unfold Runtime.detach
    simp only [Runtime.attach]
    rw [if_pos ⟨trivial, hnot⟩]
  rw [hdet]
  refine ⟨?_, by simp only; omega, ?_, ?_⟩
  · intro u hu
    simp only [List.mem_cons] at hu ⊢
    rcases hu with rfl | hu
    · omega
    · exact b1 u hu
  · intro u hu hm
    simp only [List.mem_cons] at hm
    rcases hm with rfl | hm
    · omega
    · exact b3 u (by simp only [Runtime.attach]; omega) hm
  · intro u
    simp only
    by_cases hu : u = t
    · rw [if_pos hu, hu]
    · rw [if_neg hu, b4 u]
      simp only [Runtime.attach, if_neg hu]

/-- What nested code does to the world: contexts stay, spans keep their identity, and open scopes stay open. -/
structure Keeps (w w' : World) : Prop where
  rt : RtKeeps w.base.rt w'.base.rt
  ext : Ext w.base w'.base
  len : w.scopes.length ≤ w'.scopes.length
  scopes : ∀ n, n < w.scopes.length → w'.scopes[n]? = w.scopes[n]?

theorem Keeps.refl {w : World} (h : FreshRt w.base.rt) : Keeps w w := ⟨RtKeeps.refl h, Ext.refl _, Nat.le_refl _, fun _ _ => rfl⟩

theorem Keeps.trans {a b c : World} (h : Keeps a b) (h' : Keeps b c) : Keeps a c :=
  ⟨h.rt.trans h'.rt, h.ext.trans h'.ext, Nat.le_trans h.len h'.len,
    fun n hn => (h'.scopes n (Nat.lt_of_lt_of_le hn h.len)).trans (h.scopes n hn)⟩

/-- A change of the tracer's state which leaves the context alone. -/
theorem Keeps.ofBase {w : World} (v : Tracer.World) (h : FreshRt w.base.rt) (hrt : v.rt = w.base.rt) (he : Ext w.base v) : Keeps w { w with base := v } :=
  ⟨by show RtKeeps _ v.rt; rw [hrt]; exact RtKeeps.refl h, he, Nat.le_refl _, fun _ _ => rfl⟩

theorem start_eq (S : Sampler) (lim : SpanLimits) (t : Nat) (o : Opts) (w : World) :
    ∃ s, startSpan S lim [o.traceDraw + 1] [o.spanDraw + 1] (setParent (w.cur t) (parent w t o)) o.name 0 o.tags
        ((validLinks o.references).map fun sc => some (some sc, [])) o.tStart = some s ∧
      start S lim t o w = { w with
        base := { w.base with spans := w.base.spans ++ [s], log := w.base.log ++ (notes s).map fun n => (w.base.spans.length, n) }
        shims := w.shims ++ [⟨w.base.spans.length, []⟩] } := by
  have : ∃ s, startSpan S lim [o.traceDraw + 1] [o.spanDraw + 1] (setParent (w.cur t) (parent w t o)) o.name 0 o.tags
        ((validLinks o.references).map fun sc => some (some sc, [])) o.tStart = some s := by
    generalize setParent (w.cur t) (parent w t o) = cx
    unfold startSpan
    dsimp only
    cases hv : (Ctx.currentSpan cx).isValid
    · simp only [Bool.false_eq_true, if_false, genId, Option.map_some, Option.bind_some]; split <;> exact ⟨_, rfl⟩
    · simp only [if_true, genId, Option.bind_some]; split <;> exact ⟨_, rfl⟩
  obtain ⟨s, hs⟩ := this
  refine ⟨s, hs, ?_⟩
  unfold start
  dsimp only
  rw [hs]

theorem append_ext (v : Tracer.World) (s : Started) (l : List (Nat × Span.Note)) : Ext v { v with spans := v.spans ++ [s], log := l } := by
  refine ⟨by simp, ?_, ?_⟩
  · intro i hi
    simp only [Tracer.World.ctxOf, List.getElem?_append_left hi]
  · intro i hi
    simp only [Tracer.World.parentOf, List.getElem?_append_left hi]

theorem start_keeps (S : Sampler) (lim : SpanLimits) (t : Nat) (o : Opts) (w : World) (h : FreshRt w.base.rt) : Keeps w (start S lim t o w) := by
  obtain ⟨s, -, he⟩ := start_eq S lim t o w
  rw [he]
  exact ⟨RtKeeps.refl h, append_ext _ _ _, Nat.le_refl _, fun _ _ => rfl⟩

theorem startIn_keeps (S : Sampler) (lim : SpanLimits) (t : Nat) (o : Tracer.Opts) (v : Tracer.World) :
    (Tracer.startIn S lim t o v).rt = v.rt ∧ Ext v (Tracer.startIn S lim t o v) := by
  obtain ⟨s, _, he⟩ := Tracer.startIn_eq S lim t o v
  rw [he]
  exact ⟨rfl, append_ext _ _ _⟩

theorem setBaggage_keeps (n : Nat) (k v : Str) (w : World) (h : FreshRt w.base.rt) : Keeps w (setBaggage n k v w) := by
  unfold setBaggage
  split
  · exact Keeps.refl h
  · exact ⟨RtKeeps.refl h, Ext.refl _, Nat.le_refl _, fun _ _ => rfl⟩

theorem ext_rt (v : Tracer.World) (r : Runtime) : Ext v { v with rt := r } := Ext.congr rfl

/-- Spans change through steps only. -/
theorem endScope_base (t n : Nat) (exc : Option Esc) (tExc tEnd : Int) (w : World) : Ext w.base (endScope t n exc tExc tEnd w).base := by
  unfold endScope
  split
  · exact Ext.refl _
  · dsimp only
    split
    · exact Ext.congr rfl
    · split
      · exact (ext_rt w.base _).trans ((Tracer.steps_ext _ _ _).1.trans (Tracer.steps_ext _ _ _).1)
      · exact (ext_rt w.base _).trans (Tracer.steps_ext _ _ _).1

/-- A scope opened, nested code, and the scope closed: everything as before. -/
theorem scope_keeps (t i : Nat) (finish : Bool) (exc : Option Esc) (tExc tEnd : Int) (w w1 : World) (h : FreshRt w.base.rt)
    (hk : FreshRt (activate t i finish w).base.rt → Keeps (activate t i finish w) w1) :
    Keeps w (endScope t w.scopes.length exc tExc tEnd w1) := by
  generalize ha : w.base.rt.attach t (Ctx.setSpan (w.cur t) (w.base.ctxOf i)) = a at *
  have hfa : FreshRt a.1 := by rw [← ha]; exact attach_fresh _ _ _ h
  generalize hb : a.1.attach t (Ctx.setValue (a.1.getCurrent t) scopeKey (.other w.scopes.length)) = b at *
  have hfb : FreshRt b.1 := by rw [← hb]; exact attach_fresh _ _ _ hfa
  have hact : activate t i finish w = { w with
      base := { w.base with rt := b.1 }, shims := w.shims ++ [⟨i, []⟩], scopes := w.scopes ++ [⟨w.shims.length, b.2, i, finish, a.2, false⟩] } := by
    unfold activate
    rw [ha]
    dsimp only
    rw [hb]
  rw [hact] at hk
  obtain ⟨k1, k2, k3, k4⟩ := hk hfb
  dsimp only at k1 k2 k3 k4
  have hsc : w1.scopes[w.scopes.length]? = some ⟨w.shims.length, b.2, i, finish, a.2, false⟩ := by
    rw [k4 _ (by simp)]; simp
  have h1 : RtKeeps a.1 (w1.base.rt.detach t b.2) := by
    rw [← hb]; rw [← hb] at k1; exact push_pop a.1 w1.base.rt t _ hfa k1
  have h2 : RtKeeps w.base.rt ((w1.base.rt.detach t b.2).detach t a.2) := by
    rw [← ha]; rw [← ha] at h1; exact push_pop w.base.rt _ t _ h h1
  refine ⟨?_, ?_, ?_, ?_⟩
  · have : (endScope t w.scopes.length exc tExc tEnd w1).base.rt = (w1.base.rt.detach t b.2).detach t a.2 := by
      unfold endScope
      rw [hsc]
      dsimp only
      rw [if_neg (by simp)]
      dsimp only
      split
      · rw [(Tracer.steps_ext _ _ _).2.2.1, (Tracer.steps_ext _ _ _).2.2.1]
      · rw [(Tracer.steps_ext _ _ _).2.2.1]
    rw [this]
    exact h2
  · exact (ext_rt w.base b.1).trans (k2.trans (endScope_base _ _ _ _ _ _))
  · have : (endScope t w.scopes.length exc tExc tEnd w1).scopes.length = w1.scopes.length := by
      unfold endScope
      rw [hsc]
      dsimp only
      rw [if_neg (by simp)]
      simp
    rw [this]
    have := k3
    simp at this
    omega
  · intro n hn
    have : (endScope t w.scopes.length exc tExc tEnd w1).scopes[n]? = w1.scopes[n]? := by
      unfold endScope
      rw [hsc]
      dsimp only
      rw [if_neg (by simp)]
      dsimp only
      rw [List.getElem?_set_ne (by omega)]
    rw [this, k4 n (by simp; omega), List.getElem?_append_left hn]

/-- The program leaves scopes to their `with` statements. -/
def NoClose : Prog → Prop
  | .close _ _ => False
  | .seq a b | .tryExcept a b => NoClose a ∧ NoClose b
  | .startActive _ _ b | .activate _ _ _ _ b | .otelBlock _ b => NoClose b
  | _ => True

theorem run_keeps (lim : SpanLimits) (S : Sampler) (t : Nat) (p : Prog) (w : World) (hp : NoClose p) (h : FreshRt w.base.rt) :
    Keeps w (run lim S t p w).1 := by
  induction p generalizing w with
  | skip => exact Keeps.refl h
  | look => exact Keeps.ofBase _ h rfl (Ext.congr rfl)
  | ask => exact Keeps.ofBase _ h rfl (Ext.congr rfl)
  | op i m => exact Keeps.ofBase _ h (Tracer.steps_ext _ _ _).2.2.1 (Tracer.steps_ext _ _ _).1
  | setBaggage n k v => exact setBaggage_keeps n k v w h
  | raise e => exact Keeps.refl h
  | seq a b iha ihb =>
    have ka := iha w hp.1 h
    simp only [run]
    split
    · exact ka.trans (ihb _ hp.2 ka.rt.fresh)
    · exact ka
  | tryExcept a b iha ihb =>
    have ka := iha w hp.1 h
    simp only [run]
    split
    · exact ka.trans (ihb _ hp.2 ka.rt.fresh)
    · exact ka
  | start o => exact start_keeps S lim t o w h
  | startActive o finish b ih =>
    simp only [run]
    have k0 := start_keeps S lim t (childArg w t o) w h
    have hl : (start S lim t (childArg w t o) w).scopes.length = w.scopes.length := by
      obtain ⟨s, -, he⟩ := start_eq S lim t (childArg w t o) w
      rw [he]
    rw [← hl]
    exact k0.trans (scope_keeps t _ finish _ _ _ _ _ k0.rt.fresh (fun hf => ih _ hp hf))
  | activate i finish tExc tEnd b ih =>
    simp only [run]
    exact scope_keeps t i finish _ _ _ w _ h (fun hf => ih _ hp hf)
  | close n tEnd => exact absurd hp (by simp [NoClose])
  | otelBlock o b ih =>
    simp only [run]
    obtain ⟨s1, s2⟩ := startIn_keeps S lim t o w.base
    generalize hv : Tracer.startIn S lim t o w.base = v at s1 s2
    have hfv : FreshRt v.rt := by rw [s1]; exact h
    generalize ha : v.rt.attach t (Ctx.setSpan (v.rt.getCurrent t) (v.ctxOf w.base.spans.length)) = a
    have hfa : FreshRt a.1 := by rw [← ha]; exact attach_fresh _ _ _ hfv
    obtain ⟨k1, k2, k3, k4⟩ := ih { w with base := { v with rt := a.1 } } hp hfa
    dsimp only at k1 k2 k3 k4
    generalize run lim S t b { w with base := { v with rt := a.1 } } = q at k1 k2 k3 k4
    have hpop : RtKeeps w.base.rt (q.1.base.rt.detach t a.2) := by
      rw [← s1, ← ha]; rw [← ha] at k1; exact push_pop v.rt _ t _ hfv k1
    refine ⟨?_, ?_, k3, k4⟩
    · dsimp only
      split
      · rw [(Tracer.steps_ext _ _ _).2.2.1, (Tracer.steps_ext _ _ _).2.2.1]; exact hpop
      · rw [(Tracer.steps_ext _ _ _).2.2.1]; exact hpop
    · have e0 : Ext w.base q.1.base := s2.trans ((ext_rt v a.1).trans k2)
      have e1 : Ext w.base { q.1.base with rt := q.1.base.rt.detach t a.2 } := e0.trans (Ext.congr rfl)
      dsimp only
      split
      · exact e1.trans ((Tracer.steps_ext _ _ _).1.trans (Tracer.steps_ext _ _ _).1)
      · exact e1.trans (Tracer.steps_ext _ _ _).1

/-- **C83 (scopes nest).** Whatever a program does with OpenTracing scopes and OpenTelemetry blocks — as long as it leaves closing scopes to `with` — and however
it ends, afterwards every thread's context is what it was: the same current span, the same active scope. -/
theorem C83_restores (lim : SpanLimits) (S : Sampler) (t : Nat) (p : Prog) (w : World) (hp : NoClose p) (h : FreshRt w.base.rt) (u : Nat) :
    (run lim S t p w).1.cur u = w.cur u ∧ active (run lim S t p w).1 u = active w u ∧
    ((∀ n, active w u = some n → n < w.scopes.length) → activeSpan (run lim S t p w).1 u = activeSpan w u) := by
  obtain ⟨k1, k2, k3, k4⟩ := run_keeps lim S t p w hp h
  have e : (run lim S t p w).1.cur u = w.cur u := by simp only [World.cur, Runtime.getCurrent, k1.value u]
  have e2 : active (run lim S t p w).1 u = active w u := by simp only [active, e]
  refine ⟨e, e2, fun hn => ?_⟩
  simp only [activeSpan, e2]
  cases ha : active w u with
  | none => rfl
  | some n => simp only [Option.bind_some]; rw [k4 n (hn n ha)]

/-- **C83 (activation).** Activating a span makes it the current span (for OpenTelemetry) and the active span (for OpenTracing). -/
theorem C83_activate (t i : Nat) (finish : Bool) (w : World) :
    ((activate t i finish w).cur t).currentSpan = w.base.ctxOf i ∧
    (w.base.ctxOf i ≠ SpanContext.invalid → activeSpan (activate t i finish w) t = some i) ∧
    ∀ u, u ≠ t → (activate t i finish w).cur u = w.cur u := by
  have hc : ((activate t i finish w).cur t).currentSpan = w.base.ctxOf i := by
    simp only [activate, World.cur, Runtime.attach, Runtime.getCurrent, if_true, Option.getD_some, Ctx.currentSpan, Ctx.getValue, Ctx.setValue, Ctx.setSpan]
    rw [Dict.get?_set, if_neg (by decide), Dict.get?_set, if_pos rfl]
  refine ⟨hc, fun hne => ?_, ?_⟩
  · have ha : active (activate t i finish w) t = some w.scopes.length := by
      unfold active
      rw [if_neg (by rw [hc]; exact hne)]
      simp only [activate, World.cur, Runtime.attach, Runtime.getCurrent, if_true, Option.getD_some, Ctx.getValue, Ctx.setValue, Ctx.setSpan]
      rw [Dict.get?_set, if_pos rfl]
    simp only [activeSpan, ha, Option.bind_some]
    simp [activate]
  · intro u hu
    simp only [activate, World.cur, Runtime.attach, Runtime.getCurrent, if_neg hu]

theorem detach_twice (r : Runtime) (t : Nat) (k k' : Token) : ((r.detach t k).detach t k').detach t k = (r.detach t k).detach t k' := by
  have hu : k.thread = t → k.uid ∈ ((r.detach t k).detach t k').used := by
    intro ht
    have h1 : k.uid ∈ (r.detach t k).used := by
      unfold Runtime.detach
      by_cases h : k.uid ∈ r.used
      · rw [if_neg (by simp [h])]; exact h
      · rw [if_pos ⟨ht, h⟩]; simp
    generalize r.detach t k = r1 at h1
    unfold Runtime.detach
    split
    · simp [h1]
    · exact h1
  generalize (r.detach t k).detach t k' = r2 at hu
  unfold Runtime.detach
  rw [if_neg]
  rintro ⟨h1, h2⟩
  exact h2 (hu h1)

theorem detach_once (r : Runtime) (t : Nat) (k : Token) : (r.detach t k).detach t k = r.detach t k := by
  unfold Runtime.detach
  by_cases h : k.thread = t ∧ k.uid ∉ r.used
  · rw [if_pos h]; simp
  · rw [if_neg h, if_neg h]

/-- **C83 (closing twice).** Closing a scope that is closed already (for instance with `close()` in its `with` block) changes nothing. -/
theorem C83_close_twice (t n : Nat) (e e' : Option Esc) (a b a' b' : Int) (w : World) :
    endScope t n e' a' b' (endScope t n e a b w) = endScope t n e a b w := by
  cases hs : w.scopes[n]? with
  | none => simp only [endScope, hs]
  | some sc =>
    have hn : n < w.scopes.length := (List.getElem?_eq_some_iff.mp hs).1
    cases hx : sc.exited with
    | true =>
      have h1 : endScope t n e a b w = { w with base := { w.base with rt := w.base.rt.detach t sc.token } } := by
        simp only [endScope, hs, hx, if_true]
      rw [h1]
      simp only [endScope, hs, hx, if_true, detach_once]
    | false =>
      obtain ⟨v, h1, h2⟩ : ∃ v : Tracer.World, v.rt = (w.base.rt.detach t sc.token).detach t sc.spanToken ∧
          endScope t n e a b w = { w with base := v, scopes := w.scopes.set n { sc with exited := true } } := by
        refine ⟨_, ?_, by simp only [endScope, hs, hx, Bool.false_eq_true, if_false]; rfl⟩
        split
        · rw [(Tracer.steps_ext _ _ _).2.2.1, (Tracer.steps_ext _ _ _).2.2.1]
        · rw [(Tracer.steps_ext _ _ _).2.2.1]
      rw [h2]
      simp only [endScope, List.getElem?_set_self hn, if_true, h1, detach_twice]
      rw [← h1]

/-! ## OpenTracing programs are OpenTelemetry programs -/

/-- The arguments of `start_as_current_span` that say the same. -/
def otelOpts (o : Opts) (finish : Bool) : Tracer.Opts :=
  { name := o.name, kind := 0, attributes := o.tags, links := [], newTrace := o.ignoreActive, recordException := true, setStatusOnException := true,
    endOnExit := finish, traceDraw := o.traceDraw, spanDraw := o.spanDraw, tStart := o.tStart, tExc := o.tExc, tEnd := o.tEnd }

/-- Several calls of methods of a span. -/
def calls (i : Nat) : List Span.Step → Tracer.Prog
  | [] => .skip
  | x :: l => .seq (.op i x) (calls i l)

/-- The program written with the OpenTelemetry API: `set_operation_name` is `update_name`, `set_tag` is `set_attribute`, `log_kv` is `add_event`, `finish` is
`end`, `start_span` is `start_span`, `start_active_span` is `start_as_current_span`, `tracer.active_span` is `get_current_span`. -/
def otel : Prog → Tracer.Prog
  | .skip => .skip
  | .look => .look
  | .ask => .look
  | .op i (.setOperationName n) => calls i [.updateName n]
  | .op i (.setTag k v) => calls i [.setAttributes [(k, v)]]
  | .op i (.logKv none others ts) => calls i [.addEvent "log".toList others ts]
  | .op i (.logKv (some e) others ts) => calls i [.addEvent e ((.str "event".toList, .atom (.str e true)) :: others) ts]
  | .op i (.finish t) => calls i [.end_ t, .notifyEnd]
  | .setBaggage _ _ _ => .skip
  | .raise e => .raise e
  | .seq a b => .seq (otel a) (otel b)
  | .tryExcept a b => .tryExcept (otel a) (otel b)
  | .start o => .start (otelOpts o false)
  | .startActive o finish b => .block (otelOpts o finish) (otel b)
  | .otelBlock o b => .block o (otel b)
  | .activate _ _ _ _ _ => .skip
  | .close _ _ => .skip

/-- The programs covered: no explicit parents, `start_span` and `active_span` not directly inside an OpenTelemetry block (`otelInside`), and
`ignore_active_span` only with `start_span` — see the refutations below for why. -/
def Plain : Bool → Prog → Prop
  | _, .activate _ _ _ _ _ => False
  | _, .close _ _ => False
  | inside, .ask => inside = false
  | inside, .seq a b => Plain inside a ∧ Plain inside b
  | inside, .tryExcept a b => Plain inside a ∧ Plain inside b
  | inside, .start o => (inside = false ∨ o.ignoreActive = true) ∧ o.childOf = none ∧ o.references = []
  | _, .startActive o _ b => o.childOf = none ∧ o.references = [] ∧ o.ignoreActive = false ∧ Plain false b
  | _, .otelBlock _ b => Plain true b
  | _, _ => True

/-- The sampler looks at nothing in the context but the current span (all samplers of the SDK). -/
def Local (S : Sampler) : Prop := ∀ (q : Query) (c : Ctx), c.currentSpan = q.ctx.currentSpan → S { q with ctx := c } = S q

theorem plain_noClose (i : Bool) (p : Prog) (h : Plain i p) : NoClose p := by
  induction p generalizing i with
  | seq a b iha ihb => exact ⟨iha _ h.1, ihb _ h.2⟩
  | tryExcept a b iha ihb => exact ⟨iha _ h.1, ihb _ h.2⟩
  | startActive o f b ih => exact ih _ h.2.2.2
  | activate => exact h.elim
  | close => exact h.elim
  | otelBlock o b ih => exact ih _ h
  | _ => trivial

/-- The same spans, calls of processors and observations. -/
structure Same (a b : Tracer.World) : Prop where
  spans : a.spans = b.spans
  log : a.log = b.log
  seen : a.seen = b.seen

theorem Same.ctxOf {a b : Tracer.World} (h : Same a b) (i : Nat) : a.ctxOf i = b.ctxOf i := by simp only [Tracer.World.ctxOf, h.spans]

theorem Same.recordingAt {a b : Tracer.World} (h : Same a b) (i : Nat) : a.recordingAt i = b.recordingAt i := by
  simp only [Tracer.World.recordingAt, h.spans]

theorem Same.steps {a b : Tracer.World} (h : Same a b) (i : Nat) (l : List Span.Step) : Same (a.steps i l) (b.steps i l) := by
  unfold Tracer.World.steps
  rw [h.spans]
  split
  · exact h
  · exact ⟨rfl, by simp only [h.log], h.seen⟩

theorem Same.rt {a b : Tracer.World} (h : Same a b) (r r' : Runtime) : Same { a with rt := r } { b with rt := r' } := ⟨h.spans, h.log, h.seen⟩

theorem stepsOn_append (l l' : List Span.Step) (s : Started) : stepsOn (l ++ l') s = stepsOn l' (stepsOn l s) := by
  cases s with
  | recording s => simp only [stepsOn, List.foldl_append]
  | nonRecording sc => rfl

theorem notes_prefix (l : List Span.Step) (s : Started) : notes s <+: notes (stepsOn l s) := by
  cases s with
  | recording s => exact Tracer.steps_log l s
  | nonRecording sc => exact List.prefix_refl _

theorem steps_append (w : Tracer.World) (i : Nat) (l l' : List Span.Step) : w.steps i (l ++ l') = (w.steps i l).steps i l' := by
  unfold Tracer.World.steps
  cases hs : w.spans[i]? with
  | none => simp only [hs]
  | some s =>
    have hi : i < w.spans.length := (List.getElem?_eq_some_iff.mp hs).1
    simp only [List.getElem?_set_self hi, List.set_set, stepsOn_append, List.append_assoc, ← List.map_append]
    congr 3
    obtain ⟨x, hx⟩ := notes_prefix l s
    obtain ⟨y, hy⟩ := notes_prefix l' (stepsOn l s)
    rw [← hy, ← hx]
    simp

theorem run_calls (lim : SpanLimits) (S : Sampler) (t i : Nat) (l : List Span.Step) (w : Tracer.World) :
    Tracer.run lim S t (calls i l) w = (w.steps i l, none) := by
  induction l generalizing w with
  | nil =>
    simp only [calls, Tracer.run, Tracer.World.steps]
    cases hs : w.spans[i]? with
    | none => rfl
    | some s =>
      have h1 : stepsOn [] s = s := by cases s <;> rfl
      simp only [h1, List.drop_length, List.map_nil, List.append_nil]
      have : w.spans.set i s = w.spans := by
        obtain ⟨hi, he⟩ := List.getElem?_eq_some_iff.mp hs
        rw [← he]; exact List.set_getElem_self hi
      rw [this]
  | cons x l ih =>
    simp only [calls, Tracer.run]
    rw [ih, ← steps_append]
    rfl

theorem otel_op (lim : SpanLimits) (S : Sampler) (t i : Nat) (m : Method) (w : Tracer.World) :
    Tracer.run lim S t (otel (.op i m)) w = (w.steps i m.steps, none) := by
  cases m with
  | logKv e o ts => cases e <;> exact run_calls lim S t i _ w
  | _ => exact run_calls lim S t i _ w

theorem setParent_cur (c : Ctx) (p : Option SpanContext) : (setParent c p).currentSpan = p.getD SpanContext.invalid := by
  cases p with
  | none =>
    simp only [setParent, Ctx.currentSpan, Ctx.getValue, Ctx.setValue, Dict.get?_set, if_true, Option.getD_none]
  | some sc => simp only [setParent, Ctx.currentSpan, Ctx.setSpan, Ctx.getValue, Ctx.setValue, Dict.get?_set, if_true, Option.getD_some]

theorem startSpan_local (S : Sampler) (hS : Local S) (lim : SpanLimits) (td sd : List Nat) (c c' : Ctx) (n : Str) (k : Nat) (a : Span.RawAttrs) (l : RawLinks)
    (ts : Int) (h : c.currentSpan = c'.currentSpan) : startSpan S lim td sd c n k a l ts = startSpan S lim td sd c' n k a l ts := by
  have : ∀ tr, S ⟨c, tr, n, k, a, l⟩ = S ⟨c', tr, n, k, a, l⟩ := fun tr => hS ⟨c', tr, n, k, a, l⟩ c h
  unfold startSpan
  simp only [h, this]

/-- In step: the same spans, the same current span, and — unless directly inside an OpenTelemetry block — OpenTracing's active span is the current one. -/
structure Sim (t : Nat) (inside : Bool) (w : World) (v : Tracer.World) : Prop where
  same : Same w.base v
  cur : (w.cur t).currentSpan = (v.rt.getCurrent t).currentSpan
  fw : FreshRt w.base.rt
  fv : FreshRt v.rt
  agree : inside = false → (w.cur t).currentSpan ≠ SpanContext.invalid →
    ∃ i, i < w.base.spans.length ∧ activeSpan w t = some i ∧ w.base.ctxOf i = (w.cur t).currentSpan

theorem activeSpan_keeps {w w' : World} (t : Nat) (i : Nat) (k : Keeps w w') (h : activeSpan w t = some i) : activeSpan w' t = some i := by
  have e : w'.cur t = w.cur t := by simp only [World.cur, Runtime.getCurrent, k.rt.value t]
  have e2 : active w' t = active w t := by simp only [active, e]
  unfold activeSpan at h ⊢
  rw [e2]
  cases ha : active w t with
  | none => rw [ha] at h; cases h
  | some n =>
    rw [ha] at h
    simp only [Option.bind_some] at h ⊢
    cases hs : w.scopes[n]? with
    | none => rw [hs] at h; cases h
    | some sc => rw [k.scopes n (List.getElem?_eq_some_iff.mp hs).1]; exact h

theorem Sim.after {t : Nat} {inside : Bool} {w w' : World} {v v' : Tracer.World} (h : Sim t inside w v) (k : Keeps w w') (kv : RtKeeps v.rt v'.rt)
    (hs : Same w'.base v') : Sim t inside w' v' := by
  have e : w'.cur t = w.cur t := by simp only [World.cur, Runtime.getCurrent, k.rt.value t]
  have e' : v'.rt.getCurrent t = v.rt.getCurrent t := by simp only [Runtime.getCurrent, kv.value t]
  refine ⟨hs, by rw [e, e', h.cur], k.rt.fresh, kv.fresh, fun hi hne => ?_⟩
  rw [e] at hne ⊢
  obtain ⟨i, h0, h1, h2⟩ := h.agree hi hne
  exact ⟨i, Nat.lt_of_lt_of_le h0 k.ext.len, activeSpan_keeps t i k h1, by rw [k.ext.ctx i h0, h2]⟩

theorem rt_keeps (lim : SpanLimits) (S : Sampler) (t : Nat) (p : Tracer.Prog) (w : Tracer.World) (h : FreshRt w.rt) : RtKeeps w.rt (Tracer.run lim S t p w).1.rt := by
  obtain ⟨h1, h2, h3, h4⟩ := Tracer.run_rt lim S t p w h
  exact ⟨h1, h2, h3, h4⟩

/-- The span started is the same. -/
theorem start_same (S : Sampler) (hS : Local S) (lim : SpanLimits) (t : Nat) (o : Opts) (o' : Tracer.Opts) (w : World) (v : Tracer.World) (h : Same w.base v)
    (hc : ((parent w t o).getD SpanContext.invalid) = (if o'.newTrace then [] else v.rt.getCurrent t : Ctx).currentSpan)
    (hr : o.references = []) (ho : o' = otelOpts o o'.endOnExit) : Same (start S lim t o w).base (Tracer.startIn S lim t o' v) := by
  obtain ⟨s, h1, h2⟩ := start_eq S lim t o w
  obtain ⟨s', h3, h4⟩ := Tracer.startIn_eq S lim t o' v
  have : s = s' := by
    rw [startSpan_local S hS lim _ _ _ (if o'.newTrace then [] else v.rt.getCurrent t) _ _ _ _ _ (by rw [setParent_cur, hc])] at h1
    rw [ho] at h3
    rw [ho] at h1
    rw [hr] at h1
    have : some s = some s' := h1.symm.trans h3
    injection this
  subst this
  rw [h2, h4]
  exact ⟨by simp only [h.spans], by simp only [h.log, h.spans], h.seen⟩

theorem ctx_ne (S : Sampler) (lim : SpanLimits) (t : Nat) (o : Opts) (w : World) :
    (start S lim t o w).base.ctxOf w.base.spans.length ≠ SpanContext.invalid := by
  obtain ⟨s, h1, h2⟩ := start_eq S lim t o w
  rw [h2]
  simp only [Tracer.World.ctxOf, List.getElem?_concat_length]
  intro e
  obtain ⟨tr, sid, rest, g1, -, -, g4⟩ := startSpan_spec _ _ _ _ _ _ _ _ _ _ _ h1
  dsimp only at g4
  have : s.ctx.spanId = (o.spanDraw + 1 : Nat) := by
    rw [g4, started_ctx]
    simp only [genId, Option.some.injEq, Prod.mk.injEq] at g1
    rw [g1.1]
  rw [e] at this
  simp [SpanContext.invalid] at this
  omega

theorem run_sim (lim : SpanLimits) (S : Sampler) (hS : Local S) (t : Nat) (inside : Bool) (p : Prog) (hp : Plain inside p) (w : World) (v : Tracer.World)
    (h : Sim t inside w v) : Same (run lim S t p w).1.base (Tracer.run lim S t (otel p) v).1 ∧ (run lim S t p w).2 = (Tracer.run lim S t (otel p) v).2 := by
  induction p generalizing inside w v with
  | skip => exact ⟨h.same, rfl⟩
  | look => exact ⟨⟨h.same.spans, h.same.log, by simp only [run, otel, Tracer.run, h.same.seen, h.cur]⟩, rfl⟩
  | ask =>
    refine ⟨⟨h.same.spans, h.same.log, ?_⟩, rfl⟩
    simp only [run, otel, Tracer.run, h.same.seen]
    congr 2
    by_cases hc : (w.cur t).currentSpan = SpanContext.invalid
    · have : activeSpan w t = none := by simp only [activeSpan, active, if_pos hc, Option.bind_none]
      rw [this, ← h.cur, hc]
    · obtain ⟨i, -, h1, h2⟩ := h.agree hp hc
      rw [h1]
      dsimp only
      rw [h2, h.cur]
  | op i m => rw [otel_op]; exact ⟨h.same.steps _ _, rfl⟩
  | setBaggage n k x =>
    refine ⟨?_, rfl⟩
    simp only [run, otel, Tracer.run, setBaggage]
    split <;> exact h.same
  | raise e => exact ⟨h.same, rfl⟩
  | seq a b iha ihb =>
    obtain ⟨s1, s2⟩ := iha inside hp.1 w v h
    have ka := run_keeps lim S t a w (plain_noClose _ _ hp.1) h.fw
    have kv := rt_keeps lim S t (otel a) v h.fv
    simp only [run, otel, Tracer.run]
    rw [← s2]
    cases he : (run lim S t a w).2 with
    | none => exact ihb inside hp.2 _ _ (h.after ka kv s1)
    | some e => exact ⟨s1, rfl⟩
  | tryExcept a b iha ihb =>
    obtain ⟨s1, s2⟩ := iha inside hp.1 w v h
    have ka := run_keeps lim S t a w (plain_noClose _ _ hp.1) h.fw
    have kv := rt_keeps lim S t (otel a) v h.fv
    simp only [run, otel, Tracer.run]
    rw [← s2]
    cases he : (run lim S t a w).2 with
    | none => exact ⟨s1, rfl⟩
    | some e =>
      cases e with
      | exception x y => exact ihb inside hp.2 _ _ (h.after ka kv s1)
      | base n => exact ⟨s1, rfl⟩
  | start o =>
    obtain ⟨p1, p2, p3⟩ := hp
    refine ⟨?_, rfl⟩
    apply start_same S hS lim t o (otelOpts o false) w v h.same _ p3 rfl
    show _ = (if o.ignoreActive then [] else v.rt.getCurrent t : Ctx).currentSpan
    unfold parent child
    rw [p2, p3]
    simp only [Option.isSome_none, Bool.false_eq_true, if_false]
    by_cases hi : o.ignoreActive = true
    · simp [hi, validLinks, Tracer.emptyCtx]
    · have hin : inside = false := by rcases p1 with p1 | p1; exact p1; exact absurd p1 hi
      simp only [if_neg hi]
      by_cases hc : (w.cur t).currentSpan = SpanContext.invalid
      · have : activeSpan w t = none := by simp only [activeSpan, active, if_pos hc, Option.bind_none]
        rw [this, ← h.cur, hc]; rfl
      · obtain ⟨i, -, h1, h2⟩ := h.agree hin hc
        rw [h1, ← h.cur, ← h2]; rfl
  | startActive o finish b ih =>
    obtain ⟨p1, p2, p3, p4⟩ := hp
    simp only [run, otel, Tracer.run]
    have hst : Same (start S lim t (childArg w t o) w).base (Tracer.startIn S lim t (otelOpts o finish) v) := by
      apply start_same S hS lim t (childArg w t o) (otelOpts o finish) w v h.same
      · simp only [otelOpts, p3, Bool.false_eq_true, if_false]
        unfold childArg
        rw [p1]
        dsimp only
        split
        · rename_i hc
          have : activeSpan w t = none := by simp only [activeSpan, active, if_pos hc, Option.bind_none]
          unfold parent child
          rw [p1, p2, this, ← h.cur, hc]; simp [validLinks]
        · rw [← h.cur]; rfl
      · unfold childArg; rw [p1]; dsimp only; split <;> exact p2
      · unfold childArg; rw [p1]; dsimp only; split <;> rfl
    have k0 := start_keeps S lim t (childArg w t o) w h.fw
    have hne := ctx_ne S lim t (childArg w t o) w
    obtain ⟨r1, -⟩ := startIn_keeps S lim t (otelOpts o finish) v
    have hlen : w.base.spans.length < (start S lim t (childArg w t o) w).base.spans.length := by
      obtain ⟨s, -, he⟩ := start_eq S lim t (childArg w t o) w
      rw [he]; simp
    have hsl : (start S lim t (childArg w t o) w).scopes.length = w.scopes.length := by
      obtain ⟨s, -, he⟩ := start_eq S lim t (childArg w t o) w
      rw [he]
    generalize start S lim t (childArg w t o) w = w1 at hst k0 hne hlen hsl
    generalize Tracer.startIn S lim t (otelOpts o finish) v = v1 at hst r1
    rw [show v.spans.length = w.base.spans.length from by rw [h.same.spans]]
    generalize w.base.spans.length = i at hne hlen
    have hfv1 : FreshRt v1.rt := by rw [r1]; exact h.fv
    obtain ⟨c1, c2, -⟩ := C83_activate t i finish w1
    have hfw2 : FreshRt (activate t i finish w1).base.rt := attach_fresh _ _ _ (attach_fresh _ _ _ k0.rt.fresh)
    have sim2 : Sim t false (activate t i finish w1) { v1 with rt := (v1.rt.attach t (Ctx.setSpan (v1.rt.getCurrent t) (v1.ctxOf i))).1 } := by
      refine ⟨hst.rt _ _, ?_, hfw2, attach_fresh _ _ _ hfv1, fun _ _ => ⟨i, hlen, c2 hne, c1.symm⟩⟩
      rw [c1]
      simp only [Runtime.attach, Runtime.getCurrent, if_true, Option.getD_some, Ctx.currentSpan, Ctx.setSpan, Ctx.getValue, Ctx.setValue, Dict.get?_set]
      exact hst.ctxOf i
    obtain ⟨s1, s2⟩ := ih false p4 _ _ sim2
    have k2 := run_keeps lim S t b _ (plain_noClose _ _ p4) hfw2
    generalize run lim S t b (activate t i finish w1) = q at s1 s2 k2
    generalize Tracer.run lim S t (otel b) { v1 with rt := (v1.rt.attach t (Ctx.setSpan (v1.rt.getCurrent t) (v1.ctxOf i))).1 } = r at s1 s2
    refine ⟨?_, s2⟩
    rw [← s2]
    have hsc : ∃ sc : Scope, q.1.scopes[w.scopes.length]? = some sc ∧ sc.exited = false ∧ sc.span = i ∧ sc.finish = finish := by
      rw [k2.scopes _ (by simp [activate, hsl])]
      rw [← hsl]
      exact ⟨_, by simp only [activate]; rw [List.getElem?_concat_length], rfl, rfl, rfl⟩
    obtain ⟨sc, g1, g2, g3, g4⟩ := hsc
    have hb : (endScope t w.scopes.length q.2 o.tExc o.tEnd q.1).base =
        (let b : Tracer.World := { q.1.base with rt := (q.1.base.rt.detach t sc.token).detach t sc.spanToken }
         let b := b.steps i (onError (b.recordingAt i) true true o.tExc q.2)
         if finish then b.steps i [.end_ o.tEnd, .notifyEnd] else b) := by
      simp only [endScope, g1, g2, g3, g4, Bool.false_eq_true, if_false]
    rw [hb]
    simp only [otelOpts]
    have f1 := s1.rt ((q.1.base.rt.detach t sc.token).detach t sc.spanToken) (r.1.rt.detach t (v1.rt.attach t (Ctx.setSpan (v1.rt.getCurrent t) (v1.ctxOf i))).2)
    have f2 := f1.steps i (onError (Tracer.World.recordingAt { q.1.base with rt := (q.1.base.rt.detach t sc.token).detach t sc.spanToken } i) true true o.tExc q.2)
    rw [f1.recordingAt i] at f2 ⊢
    cases finish with
    | true => simp only [if_true]; exact f2.steps _ _
    | false => simp only [Bool.false_eq_true, if_false]; exact f2
  | activate i f a b p ih => exact hp.elim
  | close n e => exact hp.elim
  | otelBlock o b ih =>
    simp only [run, otel, Tracer.run]
    have hst : Same (Tracer.startIn S lim t o w.base) (Tracer.startIn S lim t o v) := by
      obtain ⟨s, h1, h2⟩ := Tracer.startIn_eq S lim t o w.base
      obtain ⟨s', h3, h4⟩ := Tracer.startIn_eq S lim t o v
      have : s = s' := by
        rw [startSpan_local S hS lim _ _ _ (if o.newTrace then [] else v.rt.getCurrent t) _ _ _ _ _ (by split; rfl; exact h.cur)] at h1
        have : some s = some s' := h1.symm.trans h3
        injection this
      subst this
      rw [h2, h4]
      exact ⟨by simp only [h.same.spans], by simp only [h.same.log, h.same.spans], h.same.seen⟩
    obtain ⟨r0, -⟩ := startIn_keeps S lim t o w.base
    obtain ⟨r1, -⟩ := startIn_keeps S lim t o v
    generalize Tracer.startIn S lim t o w.base = w1 at hst r0
    generalize Tracer.startIn S lim t o v = v1 at hst r1
    rw [show v.spans.length = w.base.spans.length from by rw [h.same.spans]]
    generalize w.base.spans.length = i
    have hfw1 : FreshRt w1.rt := by rw [r0]; exact h.fw
    have hfv1 : FreshRt v1.rt := by rw [r1]; exact h.fv
    have sim2 : Sim t true { w with base := { w1 with rt := (w1.rt.attach t (Ctx.setSpan (w1.rt.getCurrent t) (w1.ctxOf i))).1 } }
        { v1 with rt := (v1.rt.attach t (Ctx.setSpan (v1.rt.getCurrent t) (v1.ctxOf i))).1 } := by
      refine ⟨hst.rt _ _, ?_, attach_fresh _ _ _ hfw1, attach_fresh _ _ _ hfv1, fun hf => by cases hf⟩
      simp only [World.cur, Runtime.attach, Runtime.getCurrent, if_true, Option.getD_some, Ctx.currentSpan, Ctx.setSpan, Ctx.getValue, Ctx.setValue, Dict.get?_set]
      exact hst.ctxOf i
    obtain ⟨s1, s2⟩ := ih true hp _ _ sim2
    generalize run lim S t b _ = q at s1 s2
    generalize Tracer.run lim S t (otel b) _ = r at s1 s2
    refine ⟨?_, s2⟩
    rw [← s2]
    have f1 := s1.rt (q.1.base.rt.detach t (w1.rt.attach t (Ctx.setSpan (w1.rt.getCurrent t) (w1.ctxOf i))).2)
      (r.1.rt.detach t (v1.rt.attach t (Ctx.setSpan (v1.rt.getCurrent t) (v1.ctxOf i))).2)
    generalize q.1.base.rt.detach t (w1.rt.attach t (Ctx.setSpan (w1.rt.getCurrent t) (w1.ctxOf i))).2 = ra at f1
    have f2 := f1.steps i (onError (Tracer.World.recordingAt { q.1.base with rt := ra } i) o.recordException o.setStatusOnException o.tExc q.2)
    rw [f1.recordingAt i] at f2
    rw [f1.recordingAt i]
    cases o.endOnExit with
    | true => simp only [if_true]; exact f2.steps _ _
    | false => simp only [Bool.false_eq_true, if_false]; exact f2

/-- **C83 (the same traces).** For every program written with the OpenTracing API — blocks of `start_active_span`, spans of `start_span`, methods of spans,
exceptions raised and caught, blocks of the OpenTelemetry API in between — the shim starts, changes and ends exactly the spans (ids, parents, names, attributes,
events, status, times), in the same order of processor calls, with the same observations and exceptions, as the program written with the OpenTelemetry API. So
everything proved about those (C73, C74) holds for OpenTracing programs. -/
theorem C83_same_traces (lim : SpanLimits) (S : Sampler) (hS : Local S) (t : Nat) (p : Prog) (hp : Plain false p) :
    (run lim S t p World.init).1.base.spans = (Tracer.run lim S t (otel p) Tracer.World.init).1.spans ∧
    (run lim S t p World.init).1.base.log = (Tracer.run lim S t (otel p) Tracer.World.init).1.log ∧
    (run lim S t p World.init).1.base.seen = (Tracer.run lim S t (otel p) Tracer.World.init).1.seen ∧
    (run lim S t p World.init).2 = (Tracer.run lim S t (otel p) Tracer.World.init).2 := by
  have h : Sim t false World.init Tracer.World.init :=
    ⟨⟨rfl, rfl, rfl⟩, rfl, Tracer.init_fresh, Tracer.init_fresh, fun _ hne => absurd rfl hne⟩
  obtain ⟨h1, h2⟩ := run_sim lim S hS t false p hp _ _ h
  exact ⟨h1.spans, h1.log, h1.seen, h2⟩

/-- The samplers of the SDK look at nothing but the current span. -/
theorem local_builtin : Local alwaysOn ∧ Local alwaysOff ∧ (∀ f R, ratio f = some R → Local R) ∧ (∀ R, Local R → Local (parentBasedDefault R)) := by
  have hp : ∀ c c' : Ctx, c.currentSpan = c'.currentSpan → parentTraceState c = parentTraceState c' := by
    intro c c' h; simp only [parentTraceState, h]
  have hstat : ∀ d, Local (static d) := fun d q c h => by simp only [static, hp c q.ctx h]
  have hrat : ∀ b, Local (ratioWithBound b) := fun b q c h => by simp only [ratioWithBound, hp c q.ctx h]
  refine ⟨hstat _, hstat _, ?_, ?_⟩
  · intro f R hR
    cases f with
    | nan => cases hR
    | inf b => cases hR
    | fin x =>
      simp only [ratio] at hR
      split at hR
      · cases hR
      · injection hR with hR; subst hR; exact hrat _
  · intro R hR q c h
    simp only [parentBasedDefault, parentBased, h, hR q c h, alwaysOn, alwaysOff, hstat _ q c h]

/-! ## Parents -/

/-- **C83 (parents).** `start_span`: the parent is `child_of` if given; else the active span, unless `ignore_active_span`; else the first reference to a valid
context. With a valid parent the new span continues its trace and records it as parent, otherwise it begins a new trace with the trace id drawn. In
`start_active_span`, the current span of OpenTelemetry takes the place of the active span. -/
theorem C83_parent (S : Sampler) (lim : SpanLimits) (t : Nat) (o : Opts) (w : World) :
    ∃ s, (start S lim t o w).base.spans = w.base.spans ++ [s] ∧ s.ctx.spanId = (o.spanDraw : Int) + 1 ∧
      (∀ r, o.childOf = some r → parent w t o = some (r.unwrap w)) ∧
      (o.childOf = none → o.ignoreActive = false → ∀ i, activeSpan w t = some i → parent w t o = some (w.base.ctxOf i)) ∧
      (o.childOf = none → (o.ignoreActive = true ∨ activeSpan w t = none) →
        parent w t o = (o.references.filter fun sc => sc ≠ SpanContext.invalid).head?) ∧
      (∀ p, parent w t o = some p → p.isValid = true → s.ctx.traceId = p.traceId ∧ ∀ st, s = .recording st → st.data.parent = some p) ∧
      ((∀ p, parent w t o = some p → p.isValid = false) → s.ctx.traceId = (o.traceDraw : Int) + 1 ∧ ∀ st, s = .recording st → st.data.parent = none) := by
  obtain ⟨s, h1, h2⟩ := start_eq S lim t o w
  refine ⟨s, by rw [h2], ?_, ?_, ?_, ?_, ?_, ?_⟩
  · obtain ⟨tr, sid, rest, g1, -, -, g4⟩ := startSpan_spec _ _ _ _ _ _ _ _ _ _ _ h1
    dsimp only at g4
    rw [g4, started_ctx]
    simp only [genId, Option.some.injEq, Prod.mk.injEq] at g1
    rw [← g1.1]; rfl
  · intro r hr; simp [parent, child, hr]
  · intro hc hi i ha; simp [parent, child, hc, hi, ha, Ref.unwrap]
  · intro hc h
    have : child w t o = none := by
      rcases h with h | h <;> simp [child, hc, h]
    simp only [parent, this, validLinks]
  · intro p hp hv
    have hcur : (setParent (w.cur t) (parent w t o)).currentSpan = p := by rw [setParent_cur, hp]; rfl
    have := C23_child _ _ _ _ _ _ _ _ _ _ _ h1 (by rw [hcur]; exact hv)
    rw [hcur] at this
    exact this
  · intro h
    have hcur : (setParent (w.cur t) (parent w t o)).currentSpan.isValid = false := by
      rw [setParent_cur]
      cases hp : parent w t o with
      | none => rfl
      | some p => exact h p hp
    obtain ⟨⟨z, n, r, h3, h4, h5⟩, h6⟩ := C23_root _ _ _ _ _ _ _ _ _ _ _ h1 hcur
    refine ⟨?_, h6⟩
    rw [h5]
    cases z with
    | zero => simp only [List.replicate_zero, List.nil_append, List.cons.injEq] at h3; rw [← h3.1]; simp
    | succ z => simp [List.replicate_succ] at h3

/-- **C83** `start_active_span` without `child_of`: the parent is the current span, whoever made it current. -/
theorem C83_active_parent (t : Nat) (o : Opts) (w : World) (hc : o.childOf = none) (hne : (w.cur t).currentSpan ≠ SpanContext.invalid) :
    parent w t (childArg w t o) = some (w.cur t).currentSpan := by
  simp [childArg, hc, hne, parent, child, Ref.unwrap]

/-- **C83 (references).** Every reference to a valid context becomes a link (within the span's limit), in order; other references do not. -/
theorem C83_links (S : Sampler) (lim : SpanLimits) (t : Nat) (o : Opts) (w : World) (st : Span.State)
    (h : (start S lim t o w).base.spans = w.base.spans ++ [.recording st]) :
    st.data.links = BList.fromSeq lim.maxLinks ((o.references.filter fun sc => sc.isValid || !sc.traceState.isEmpty).map fun sc => Span.mkLink lim sc []) := by
  obtain ⟨s, h1, h2⟩ := start_eq S lim t o w
  rw [h2] at h
  have hs : s = .recording st := by simpa using h
  subst hs
  obtain ⟨tr, sid, rest, -, -, -, g4⟩ := startSpan_spec _ _ _ _ _ _ _ _ _ _ _ h1
  dsimp only at g4
  split at g4
  · injection g4 with g4
    rw [g4]
    simp only [List.foldl_cons, List.foldl_nil, Span.step, Span.init]
    simp only [Option.isSome_none, Bool.false_eq_true, if_false, Nat.zero_add, Nat.one_ne_zero]
    congr 1
    unfold validLinks
    generalize o.references = l
    induction l with
    | nil => rfl
    | cons a l ih =>
      by_cases ha : a = SpanContext.invalid
      · subst ha
        rw [List.filter_cons_of_neg (by simp), List.filter_cons_of_neg (by decide)]
        exact ih
      · rw [List.filter_cons_of_pos (by simpa using ha), List.map_cons, List.filterMap_cons]
        cases hv : (a.isValid || !a.traceState.isEmpty) with
        | true =>
          rw [List.filter_cons_of_pos (by simpa using hv), List.map_cons]
          have : Span.isValidLink (some a) [] = true := by simpa [Span.isValidLink] using hv
          simp only [this, if_true]
          rw [ih]
        | false =>
          rw [List.filter_cons_of_neg (by simpa using hv)]
          have : Span.isValidLink (some a) [] = false := by simpa [Span.isValidLink] using hv
          simp only [this, Bool.false_eq_true, if_false]
          rw [ih]
  · cases g4

/-! ## Examples and refutations -/

/-- No limits. -/
def noLimits : SpanLimits := ⟨none, none, none, none, none, none, none, none⟩

/-- Arguments of a span with these drawn identifiers. -/
def ex (n : Nat) : Opts := ⟨"op".toList, none, [], [], false, n, n, 0, 0, 1⟩

/-- The trace ids of the spans of a program, and the span ids of their recorded parents. -/
def tree (p : Prog) : List (Int × Option Int) :=
  (run noLimits alwaysOn 0 p World.init).1.base.spans.map fun s =>
    (s.ctx.traceId, match s with | .recording st => st.data.parent.map SpanContext.spanId | .nonRecording _ => none)

/-- OpenTelemetry arguments. -/
def exOtel (n : Nat) : Tracer.Opts := ⟨"otel".toList, 0, [], [], false, true, true, true, n, n, 0, 0, 1⟩

/-- A program covered by `C83_same_traces`: nested scopes, an OpenTelemetry block, a span, baggage, an exception. -/
example : Plain false (.startActive (ex 1) true (.seq (.start (ex 2)) (.seq (.otelBlock (exOtel 3) (.startActive (ex 4) false .ask)) (.raise (.base 0))))) ∧
    tree (.startActive (ex 1) true (.seq (.start (ex 2)) (.seq (.otelBlock (exOtel 3) (.startActive (ex 4) false .ask)) (.raise (.base 0))))) =
      [(2, none), (2, some 2), (2, some 2), (2, some 4)] := by
  refine ⟨?_, by decide⟩
  simp [Plain, ex]

/-- **C83** violated: `start_active_span(..., ignore_active_span=True)` does not ignore the active span — the new span is its child, in its trace. -/
theorem C83_ignore_active_violated :
    tree (.startActive (ex 1) true (.startActive { ex 2 with ignoreActive := true } true .skip)) = [(2, none), (2, some 2)] ∧
    tree (.startActive (ex 1) true (.start { ex 2 with ignoreActive := true })) = [(2, none), (3, none)] := by decide

/-- **C83** violated: `start_span` in a span made current with the OpenTelemetry API begins a new trace, where `start_active_span` continues it. -/
theorem C83_otel_parent_violated :
    tree (.otelBlock (exOtel 1) (.start (ex 2))) = [(2, none), (3, none)] ∧
    tree (.otelBlock (exOtel 1) (.startActive (ex 2) true .skip)) = [(2, none), (2, some 2)] := by decide

/-- **C83** violated: with an OpenTracing scope around it, the parent is the span of that scope, not the current span. -/
theorem C83_outer_parent_violated :
    tree (.startActive (ex 1) true (.otelBlock (exOtel 2) (.start (ex 3)))) = [(2, none), (2, some 2), (2, some 2)] := by decide

/-- Scopes closed in the order they were opened: the first span stays current although both scopes are closed (as in OpenTracing's own contract, scopes must nest). -/
theorem C83_not_nested_violated :
    let w := start alwaysOn noLimits 0 (ex 2) (start alwaysOn noLimits 0 (ex 1) World.init)
    let w := activate 0 1 true (activate 0 0 true w)
    ((endScope 0 1 none 0 1 (endScope 0 0 none 0 1 w)).cur 0).currentSpan = w.base.ctxOf 0 := by decide

/-! ## Baggage items -/

/-- **C84 (baggage of a span).** `get_baggage_item` answers what was last set on that `SpanShim`, for every key; nothing else in the world changes. -/
theorem C84_baggage_item (n m : Nat) (k k' v : Str) (w : World) (hn : n < w.shims.length) :
    getBaggage m k' (setBaggage n k v w) = (if m = n ∧ k' = k then some v else getBaggage m k' w) ∧
    (setBaggage n k v w).base = w.base ∧ (setBaggage n k v w).scopes = w.scopes := by
  obtain ⟨s, hs⟩ : ∃ s, w.shims[n]? = some s := ⟨_, List.getElem?_eq_getElem hn⟩
  simp only [setBaggage, hs]
  refine ⟨?_, trivial, trivial⟩
  unfold getBaggage
  by_cases hm : m = n
  · subst hm
    simp only [List.getElem?_set_self hn, Option.bind_some, hs, true_and]
    unfold Baggage.get
    have : Baggage.getAll (Baggage.set s.baggage k v) = Dict.set (Baggage.getAll s.baggage) k v := by
      simp only [Baggage.set, Baggage.getAll, Ctx.getValue, Ctx.setValue, Dict.get?_set, if_true]
    rw [this, Dict.get?_set]
    by_cases hk : k' = k
    · simp [hk]
    · simp [hk, Ne.symm hk]
  · simp only [List.getElem?_set_ne (Ne.symm hm), hm, false_and, if_false]

/-- **C84** violated: baggage does not reach child spans, nor even the `SpanShim` of the scope that activates the span. -/
theorem C84_baggage_inherited_violated :
    let w := setBaggage 0 "k".toList "v".toList (start alwaysOn noLimits 0 (ex 1) World.init)
    let w' := start alwaysOn noLimits 0 (ex 2) (activate 0 0 true w)
    getBaggage 0 "k".toList w' = some "v".toList ∧ w'.shims.map Shim.span = [0, 0, 1] ∧ getBaggage 1 "k".toList w' = none ∧ getBaggage 2 "k".toList w' = none := by decide

/-! ## Carriers -/

/-- **C84 (round trip).** Whatever is current on either side: if client and server have a format in common, the context a server extracts from a client's
injected headers has the client's trace id, span id and sampling decision, and is remote; a span started as its child (`C83_parent`) continues the trace. -/
theorem C84_round_trip (U : DigitTable) (ps qs : List Propagate.Builtin) (client server : Ctx) (sc : SpanContext) (hv : sc.isValid = true)
    (hf : sc.flags < 256) (hts : TraceState.Reachable sc.traceState) (hshare : ∃ p ∈ ps, ∃ q ∈ qs, Propagate.understands q p = true) :
    ∃ sc', extract U qs server (inject U ps client (some sc) []) = some sc' ∧ sc'.traceId = sc.traceId ∧ sc'.spanId = sc.spanId ∧
      sc'.sampled = sc.sampled ∧ sc'.isRemote = true := by
  unfold extract inject Propagate.extractDefault
  obtain ⟨c, h1, h2⟩ := Propagate.C82_trace_continues U 0 ps qs (setParent client (some sc)) sc (by rw [setParent_cur]; rfl) hv hf hts
    (Propagate.startCtx server qs) hshare
  exact ⟨c.currentSpan, by rw [h1]; rfl, h2⟩

/-- **C84** Injecting no context writes nothing of a trace, even if a span is current. -/
theorem C84_inject_none (U : DigitTable) (current : Ctx) (b : Propagate.Builtin) (hb : b ≠ .baggage) : inject U [b] current none [] = [] := by
  have hc : (setParent current none).currentSpan = SpanContext.invalid := by rw [setParent_cur]; rfl
  cases b with
  | baggage => exact absurd rfl hb
  | tracecontext => simp [inject, Propagate.inject, Composite.inject, Propagate.Builtin.prop, TraceContext.inject, hc]
  | b3 => simp [inject, Propagate.inject, Composite.inject, Propagate.Builtin.prop, B3.injectSingle, hc]
  | b3multi => simp [inject, Propagate.inject, Composite.inject, Propagate.Builtin.prop, B3.injectMulti, hc]
  | jaeger => simp [inject, Propagate.inject, Composite.inject, Propagate.Builtin.prop, Jaeger.inject, hc]

/-- **C84** Extracting from an empty carrier: the invalid context (not `None`, as the documentation of `extract` says), if the first propagator is not `baggage`. -/
theorem C84_extract_nothing (U : DigitTable) (current : Ctx) (ps : List Propagate.Builtin) (hne : ps ≠ []) (hb : ps.head? ≠ some .baggage) :
    extract U ps current [] = some SpanContext.invalid := by
  have h : Propagate.extract U ps [] [] = some [] := by
    unfold Propagate.extract Composite.extract
    clear hne hb
    induction ps with
    | nil => rfl
    | cons p ps ih =>
      rw [List.map_cons, List.foldlM_cons]
      have : (p.prop U 0).extract [] [] = some [] := by cases p <;> rfl
      rw [this]
      exact ih
  unfold extract Propagate.extractDefault
  cases ps with
  | nil => exact absurd rfl hne
  | cons p ps =>
    have : p.start current = [] := by cases p <;> first | rfl | exact absurd rfl hb
    simp only [Propagate.startCtx, this, h, Option.map_some]
    rfl

/-- **C84** violated: with `baggage` first, extracting from an empty carrier answers the span that happens to be current, as if it had been received. -/
theorem C84_extract_current_violated (U : DigitTable) (sc : SpanContext) :
    extract U [.baggage, .tracecontext] (Ctx.setSpan [] sc) [] = some sc := by rfl

/-- **C84** violated: a span's OpenTracing baggage does not travel; the current OpenTelemetry baggage does. -/
theorem C84_baggage_travels_violated (U : DigitTable) :
    let w := setBaggage 0 "k".toList "v".toList (start alwaysOn noLimits 0 (ex 1) World.init)
    (inject U [.tracecontext, .baggage] (w.cur 0) (some (w.base.ctxOf 0)) []).get "baggage".toList = none ∧
    (inject U [.tracecontext, .baggage] (Baggage.set [] "k".toList "v".toList) (some (w.base.ctxOf 0)) []).get "baggage".toList = some ["k=v".toList] := by
  refine ⟨rfl, ?_⟩
  rfl

end OpenTracing
end Otel
