import Verif.Model.Context
import Verif.Lemmas.Dict
/-!
# C06: contexts are persistent maps; attach/detach behaves as a stack per thread
-/
namespace Otel
namespace Ctx

/-- **C06 (set_value).** The new context answers the new value for the key and the old answers for
every other key. (The old context is a value and is not changed.) -/
theorem C06_set_value (c : Ctx) (k k' : CtxKey) (v : Obj) :
    (c.setValue k v).getValue k' = if k' = k then some v else c.getValue k' := by
  simp only [setValue, getValue, Dict.get?_set, eq_comm]

/-- **C06 (current span).** Installing a span makes it current; without a span (or with something else
under the key) the current span is the invalid one. -/
theorem C06_current_span (c : Ctx) (sc : SpanContext) :
    (c.setSpan sc).currentSpan = sc ∧ ((∀ s, c.getValue .span ≠ some (.span s)) → c.currentSpan = SpanContext.invalid) := by
  constructor
  · simp [currentSpan, setSpan, setValue, getValue]
  · intro h
    unfold currentSpan
    split
    · rename_i s hs; exact absurd hs (h s)
    · rfl

end Ctx

namespace Runtime

/-- What threads do with tokens they hold: attach a context; detach their most recent token; try to
detach a token that is not theirs or was already used (`stale`, by any thread). -/
inductive Ev where
  | attach (t : Nat) (c : Ctx)
  | detach (t : Nat)
  | detachForeign (t owner : Nat)
  | detachUsed (t : Nat) (i : Nat)

/-- The runtime together with the tokens each thread still holds (most recent first) and the tokens
already used. -/
structure World where
  rt : Runtime
  held : Nat → List Token
  spent : List Token

/-- Initially nobody holds a token. -/
def World.init : World := ⟨Runtime.init, fun _ => [], []⟩

/-- One event on the concrete runtime. -/
def World.step (w : World) : Ev → World
  | .attach t c =>
    let r := w.rt.attach t c
    { w with rt := r.1, held := fun u => if u = t then r.2 :: w.held t else w.held u }
  | .detach t =>
    match w.held t with
    | [] => w
    | tok :: toks =>
      { rt := w.rt.detach t tok, held := fun u => if u = t then toks else w.held u, spent := tok :: w.spent }
  | .detachForeign t owner =>
    if t = owner then w else
    match w.held owner with
    | [] => w
    | tok :: _ => { w with rt := w.rt.detach t tok }
  | .detachUsed t i =>
    match w.spent[i]? with
    | none => w
    | some tok => { w with rt := w.rt.detach t tok }

/-- Specification: every thread has its own stack of contexts. -/
def specStep (st : Nat → List Ctx) : Ev → (Nat → List Ctx)
  | .attach t c => fun u => if u = t then c :: st t else st u
  | .detach t => fun u => if u = t then (st t).tail else st u
  | .detachForeign _ _ => st
  | .detachUsed _ _ => st

/-- The tokens held by a thread restore, one by one, the contexts of its stack. -/
def Chain (t : Nat) (used : List Nat) (next : Nat) : Option Ctx → List Token → List Ctx → Prop
  | v, [], [] => v = none
  | v, tok :: toks, c :: cs =>
    v = some c ∧ tok.thread = t ∧ tok.uid ∉ used ∧ tok.uid < next ∧ (∀ x ∈ toks, x.uid < tok.uid) ∧ Chain t used next tok.old toks cs
  | _, _, _ => False

theorem Chain.mono {t : Nat} {used used' : List Nat} {next next' : Nat} {v : Option Ctx} {toks : List Token} {cs : List Ctx}
    (h : Chain t used next v toks cs) (hn : next ≤ next')
    (hu : ∀ x ∈ toks, x.uid ∉ used → x.uid ∉ used') : Chain t used' next' v toks cs := by
  induction toks generalizing v cs with
  | nil => cases cs with
    | nil => exact h
    | cons c cs => exact h
  | cons tok toks ih =>
    cases cs with
    | nil => exact h
    | cons c cs =>
      obtain ⟨h1, h2, h3, h4, h5, h6⟩ := h
      exact ⟨h1, h2, hu tok (by simp) h3, by omega, h5, ih h6 (fun x hx => hu x (by simp [hx]))⟩

theorem Chain.lt {t : Nat} {used : List Nat} {next : Nat} {v : Option Ctx} {toks : List Token} {cs : List Ctx}
    (h : Chain t used next v toks cs) : ∀ x ∈ toks, x.uid < next ∧ x.thread = t := by
  induction toks generalizing v cs with
  | nil => simp
  | cons tok toks ih =>
    cases cs with
    | nil => exact absurd h (by simp [Chain])
    | cons c cs =>
      obtain ⟨h1, h2, h3, h4, h5, h6⟩ := h
      intro x hx
      rcases List.mem_cons.mp hx with rfl | hx
      · exact ⟨h4, h2⟩
      · exact ih h6 x hx

/-- The refinement invariant. -/
structure Inv (w : World) (st : Nat → List Ctx) : Prop where
  chain : ∀ t, Chain t w.rt.used w.rt.nextUid (w.rt.value t) (w.held t) (st t)
  spent : ∀ tok ∈ w.spent, tok.uid ∈ w.rt.used
  usedLt : ∀ i ∈ w.rt.used, i < w.rt.nextUid
  distinct : ∀ t u, t ≠ u → ∀ x ∈ w.held t, ∀ y ∈ w.held u, x.uid ≠ y.uid

theorem inv_step (w : World) (st : Nat → List Ctx) (h : Inv w st) (e : Ev) : Inv (w.step e) (specStep st e) := by
  cases e with
  | attach t c =>
    constructor
    · intro u
      simp only [World.step, specStep, attach]
      by_cases hu : u = t
      · subst hu
        simp only [if_true]
        have hc := h.chain u
        refine ⟨rfl, rfl, ?_, by simp, ?_, hc.mono (by omega) (fun _ _ h => h)⟩
        · intro hm; exact Nat.lt_irrefl _ (h.usedLt _ hm)
        · intro x hx; exact (hc.lt x hx).1
      · simp only [hu, if_false]
        exact (h.chain u).mono (by omega) (fun _ _ h => h)
    · exact h.spent
    · intro i hi
      have := h.usedLt i hi
      simp only [World.step, attach]; omega
    · intro a b hab x hx y hy
      simp only [World.step, attach] at hx hy
      by_cases ha : a = t
      · have hb : b ≠ t := fun hb => hab (ha.trans hb.symm)
        simp only [ha, if_true] at hx
        simp only [hb, if_false] at hy
        rcases List.mem_cons.mp hx with rfl | hx
        · have := ((h.chain b).lt y hy).1; simp only; omega
        · exact h.distinct a b hab x (by rw [ha]; exact hx) y hy
      · simp only [ha, if_false] at hx
        by_cases hb : b = t
        · simp only [hb, if_true] at hy
          rcases List.mem_cons.mp hy with rfl | hy
          · have := ((h.chain a).lt x hx).1; simp only; omega
          · exact h.distinct a b hab x hx y (by rw [hb]; exact hy)
        · simp only [hb, if_false] at hy
          exact h.distinct a b hab x hx y hy
  | detach t =>
    cases hh : w.held t with
    | nil =>
      have hc := h.chain t
      rw [hh] at hc
      have hst : st t = [] := by
        cases hs : st t with
        | nil => rfl
        | cons c cs => rw [hs] at hc; exact absurd hc (by simp [Chain])
      have e1 : w.step (.detach t) = w := by simp only [World.step, hh]
      have e2 : specStep st (.detach t) = st := by
        funext u; simp only [specStep]; split
        · rename_i hu; subst hu; rw [hst]; rfl
        · rfl
      rw [e1, e2]; exact h
    | cons tok toks =>
      have hc := h.chain t
      rw [hh] at hc
      cases hs : st t with
      | nil => rw [hs] at hc; exact absurd hc (by simp [Chain])
      | cons c cs =>
        rw [hs] at hc
        obtain ⟨h1, h2, h3, h4, h5, h6⟩ := hc
        have ed : w.rt.detach t tok = { w.rt with value := fun u => if u = t then tok.old else w.rt.value u, used := tok.uid :: w.rt.used } := by
          simp only [detach, h2, h3, not_false_eq_true, and_self, if_true]
        have e1 : w.step (.detach t) = ⟨{ w.rt with value := fun u => if u = t then tok.old else w.rt.value u, used := tok.uid :: w.rt.used },
            fun u => if u = t then toks else w.held u, tok :: w.spent⟩ := by
          simp only [World.step, hh, ed]
        rw [e1]
        constructor
        · intro u
          simp only [specStep]
          by_cases hu : u = t
          · subst hu
            simp only [if_true, hs, List.tail_cons]
            refine h6.mono (Nat.le_refl _) ?_
            intro x hx hxu
            simp only [List.mem_cons, not_or]
            have := h5 x hx
            exact ⟨by omega, hxu⟩
          · simp only [hu, if_false]
            refine (h.chain u).mono (Nat.le_refl _) ?_
            intro x hx hxu
            simp only [List.mem_cons, not_or]
            exact ⟨h.distinct u t hu x hx tok (by rw [hh]; simp), hxu⟩
        · intro x hx
          rcases List.mem_cons.mp hx with rfl | hx
          · simp
          · simp [h.spent x hx]
        · intro i hi
          rcases List.mem_cons.mp hi with rfl | hi
          · exact h4
          · exact h.usedLt i hi
        · intro a b hab x hx y hy
          have sub : ∀ a x, x ∈ (if a = t then toks else w.held a) → x ∈ w.held a := by
            intro a x hx
            split at hx
            · rename_i ha; rw [ha, hh]; simp [hx]
            · exact hx
          exact h.distinct a b hab x (sub a x hx) y (sub b y hy)
  | detachForeign t o =>
    have e1 : w.step (.detachForeign t o) = w := by
      simp only [World.step]
      split; · rfl
      rename_i hto
      split; · rfl
      rename_i tok toks hh
      have := ((h.chain o).lt tok (by rw [hh]; simp)).2
      have : w.rt.detach t tok = w.rt := by
        unfold detach; rw [if_neg]; rintro ⟨h1, _⟩; exact hto (h1.symm.trans this)
      rw [this]
    rw [e1]; exact h
  | detachUsed t i =>
    have e1 : w.step (.detachUsed t i) = w := by
      simp only [World.step]
      split; · rfl
      rename_i tok hh
      have hm : tok.uid ∈ w.rt.used := h.spent tok (List.mem_of_getElem? hh)
      have : w.rt.detach t tok = w.rt := by
        unfold detach; rw [if_neg]; rintro ⟨_, h1⟩; exact h1 hm
      rw [this]
    rw [e1]; exact h

theorem inv_init : Inv World.init (fun _ => []) :=
  ⟨fun _ => rfl, by simp [World.init], by simp [World.init, Runtime.init], by simp [World.init]⟩

/-- **C06 (attach/detach).** Under every interleaving of any number of threads, each thread's current
context is the top of its own stack of attached contexts (the empty context when it has none):
threads do not see each other's attachments, a detach restores the context current before the
matching attach, and a foreign or already used token has no effect. -/
theorem C06_attach_detach_stack (es : List Ev) (t : Nat) :
    (es.foldl World.step World.init).rt.getCurrent t = ((es.foldl specStep (fun _ => [])) t).headD [] := by
  have key : ∀ (es : List Ev) (w : World) (st : Nat → List Ctx), Inv w st → Inv (es.foldl World.step w) (es.foldl specStep st) := by
    intro es
    induction es with
    | nil => intro w st h; exact h
    | cons e es ih => intro w st h; exact ih _ _ (inv_step w st h e)
  have h := (key es World.init (fun _ => []) inv_init).chain t
  unfold getCurrent
  generalize (es.foldl World.step World.init).rt.value t = v at h
  generalize (es.foldl World.step World.init).held t = toks at h
  generalize (es.foldl specStep (fun _ => [])) t = cs at h
  cases toks with
  | nil => cases cs with
    | nil => simp only [Chain] at h; rw [h]; rfl
    | cons c cs => exact absurd h (by simp [Chain])
  | cons tok toks => cases cs with
    | nil => exact absurd h (by simp [Chain])
    | cons c cs => rw [h.1]; rfl

/-- A thread's events nested inside an attach/detach pair. -/
inductive Nested (t : Nat) : List Ev → Prop
  | nil : Nested t []
  | other (e es) : (∀ c, e ≠ .attach t c) → e ≠ .detach t → Nested t es → Nested t (e :: es)
  | pair (c body es) : Nested t body → Nested t es → Nested t (.attach t c :: (body ++ .detach t :: es))

/-- **C06 (nesting).** A well-nested sequence of attach/detach in a thread, interleaved with anything
done by other threads, leaves that thread's stack, hence its current context, as it was. -/
theorem C06_nested_restores (t : Nat) (es : List Ev) (h : Nested t es) (st : Nat → List Ctx) :
    (es.foldl specStep st) t = st t := by
  induction h generalizing st with
  | nil => rfl
  | other e es h1 h2 _ ih =>
    simp only [List.foldl_cons]; rw [ih]
    cases e with
    | attach u c =>
      have : t ≠ u := fun h => h1 c (by rw [h])
      simp [specStep, this]
    | detach u =>
      have : t ≠ u := fun h => h2 (by rw [h])
      simp [specStep, this]
    | detachForeign _ _ => rfl
    | detachUsed _ _ => rfl
  | pair c body es _ _ ih1 ih2 =>
    simp only [List.foldl_cons, List.foldl_append]
    rw [ih2]
    simp only [specStep, if_true]
    rw [ih1]; simp

/-- Non-vacuity: two threads, nested and interleaved. -/
example : Nested 1 [.attach 1 [(.user ['a'], .other 1)], .attach 2 [], .attach 1 [], .detach 1, .detach 1] :=
  .pair [(.user ['a'], .other 1)] [.attach 2 [], .attach 1 [], .detach 1] []
    (.other _ _ (by simp) (by simp) (.pair [] [] [] .nil .nil)) .nil

/-- Detaching out of order is not covered by the stack specification; the code then restores the
context that was current before that token's attach, whatever was attached since (test). -/
example :
    let c1 : Ctx := [(.user ['a'], .other 1)]
    let c2 : Ctx := [(.user ['b'], .other 2)]
    let r1 := Runtime.init.attach 0 c1
    let r2 := r1.1.attach 0 c2
    (r2.1.detach 0 r1.2).getCurrent 0 = [] := by decide

end Runtime
end Otel
