import Verif.Model.UseSpan
import Verif.Props.Span
import Verif.Props.Context
/-!
# C53: `use_span`
-/
namespace Otel
namespace UseSpan
open Span

/-- No token is from the future. True at the start, and kept by every program (`run_fresh`). -/
def Fresh (w : World) : Prop := (∀ u ∈ w.rt.used, u < w.rt.nextUid) ∧ ∀ k ∈ w.toks, k.uid < w.rt.nextUid

/-- Tokens with the number `n` are neither held by the program nor used. -/
def Private (n : Nat) (w : World) : Prop := n < w.rt.nextUid ∧ n ∉ w.rt.used ∧ ∀ k ∈ w.toks, k.uid ≠ n

@[simp] theorem steps_rt (w : World) (i : Nat) (l : List Step) : (w.steps i l).rt = w.rt := rfl
@[simp] theorem steps_toks (w : World) (i : Nat) (l : List Step) : (w.steps i l).toks = w.toks := rfl
@[simp] theorem steps_seen (w : World) (i : Nat) (l : List Step) : (w.steps i l).seen = w.seen := rfl

theorem onExit_rt (w : World) (i : Nat) (e : Bool) (t : Int) (x : Option Esc) : (onExit w i e t x).1.rt = w.rt ∧ (onExit w i e t x).1.toks = w.toks ∧
    (onExit w i e t x).1.seen = w.seen := by
  unfold onExit
  split
  · split <;> exact ⟨rfl, rfl, rfl⟩
  · exact ⟨rfl, rfl, rfl⟩

theorem detach_used (r : Runtime) (t : Nat) (k : Token) (u : Nat) (h : u ∈ (r.detach t k).used) : u = k.uid ∨ u ∈ r.used := by
  unfold Runtime.detach at h
  split at h
  · exact List.mem_cons.1 h
  · exact .inr h

theorem detach_next (r : Runtime) (t : Nat) (k : Token) : (r.detach t k).nextUid = r.nextUid := by
  unfold Runtime.detach; split <;> rfl

/-- What a program keeps: tokens stay in the past, and private ones private. -/
theorem run_fresh (t : Nat) (b : Body) (w : World) (h : Fresh w) :
    Fresh (run t b w).1 ∧ w.rt.nextUid ≤ (run t b w).1.rt.nextUid ∧ ∀ n, Private n w → Private n (run t b w).1 := by
  induction b generalizing w with
  | skip => exact ⟨h, Nat.le_refl _, fun _ h => h⟩
  | look => exact ⟨h, Nat.le_refl _, fun _ h => h⟩
  | op i s => exact ⟨h, Nat.le_refl _, fun _ h => h⟩
  | attach c =>
    refine ⟨⟨fun u hu => Nat.lt_succ_of_lt (h.1 u hu), ?_⟩, Nat.le_succ _, ?_⟩
    · intro k hk
      rcases List.mem_append.1 hk with hk | hk
      · exact Nat.lt_succ_of_lt (h.2 k hk)
      · rw [List.mem_singleton] at hk; subst hk; exact Nat.lt_succ_self _
    · rintro n ⟨h1, h2, h3⟩
      refine ⟨Nat.lt_succ_of_lt h1, h2, ?_⟩
      intro k hk
      rcases List.mem_append.1 hk with hk | hk
      · exact h3 k hk
      · rw [List.mem_singleton] at hk; subst hk; exact (Nat.ne_of_lt h1).symm
  | detach n =>
    simp only [run]
    cases hk : w.toks[n]? with
    | none => exact ⟨h, Nat.le_refl _, fun _ h => h⟩
    | some k =>
      have hmem := List.mem_of_getElem? hk
      refine ⟨⟨?_, ?_⟩, ?_, ?_⟩
      · intro u hu
        simp only [detach_next]
        rcases detach_used _ _ _ _ hu with rfl | hu
        · exact h.2 k hmem
        · exact h.1 u hu
      · intro k' hk'; simp only [detach_next]; exact h.2 k' hk'
      · simp only [detach_next]; exact Nat.le_refl _
      · rintro n ⟨h1, h2, h3⟩
        refine ⟨by simp only [detach_next]; exact h1, ?_, h3⟩
        intro hu
        rcases detach_used _ _ _ _ hu with rfl | hu
        · exact h3 k hmem rfl
        · exact h2 hu
  | raise e => exact ⟨h, Nat.le_refl _, fun _ h => h⟩
  | seq a b iha ihb =>
    obtain ⟨a1, a2, a3⟩ := iha w h
    simp only [run]
    split
    · obtain ⟨b1, b2, b3⟩ := ihb _ a1
      exact ⟨b1, Nat.le_trans a2 b2, fun n hn => b3 n (a3 n hn)⟩
    · exact ⟨a1, a2, a3⟩
  | tryExcept a b iha ihb =>
    obtain ⟨a1, a2, a3⟩ := iha w h
    simp only [run]
    split
    · obtain ⟨b1, b2, b3⟩ := ihb _ a1
      exact ⟨b1, Nat.le_trans a2 b2, fun n hn => b3 n (a3 n hn)⟩
    · exact ⟨a1, a2, a3⟩
  | useSpan i eo re se ts tEnd b ih =>
    simp only [run]
    have hf : Fresh { w with rt := (w.rt.attach t (Ctx.setSpan (w.rt.getCurrent t) (w.spans i).data.ctx)).1 } :=
      ⟨fun u hu => Nat.lt_succ_of_lt (h.1 u hu), fun k hk => Nat.lt_succ_of_lt (h.2 k hk)⟩
    obtain ⟨b1, b2, b3⟩ := ih _ hf
    have b2 : w.rt.nextUid + 1 ≤ _ := b2
    obtain ⟨e1, e2, -⟩ := onExit_rt
      (World.steps { (run t b { w with rt := (w.rt.attach t (Ctx.setSpan (w.rt.getCurrent t) (w.spans i).data.ctx)).1 }).1 with
        rt := (run t b { w with rt := (w.rt.attach t (Ctx.setSpan (w.rt.getCurrent t) (w.spans i).data.ctx)).1 }).1.rt.detach t
          (w.rt.attach t (Ctx.setSpan (w.rt.getCurrent t) (w.spans i).data.ctx)).2 } i
        (onError (Span.isRecording ((run t b { w with rt := (w.rt.attach t (Ctx.setSpan (w.rt.getCurrent t) (w.spans i).data.ctx)).1 }).1.spans i)) re se ts
          (run t b { w with rt := (w.rt.attach t (Ctx.setSpan (w.rt.getCurrent t) (w.spans i).data.ctx)).1 }).2)) i eo tEnd
      (run t b { w with rt := (w.rt.attach t (Ctx.setSpan (w.rt.getCurrent t) (w.spans i).data.ctx)).1 }).2
    refine ⟨⟨?_, ?_⟩, ?_, ?_⟩
    · intro u hu
      rw [e1] at hu ⊢
      simp only [steps_rt, detach_next] at hu ⊢
      rcases detach_used _ _ _ _ hu with rfl | hu
      · exact b2
      · exact b1.1 u hu
    · intro k hk
      rw [e2] at hk
      rw [e1]
      simp only [steps_rt, detach_next]
      exact b1.2 k hk
    · rw [e1]
      simp only [steps_rt, detach_next]
      omega
    · rintro n ⟨h1, h2, h3⟩
      obtain ⟨c1, c2, c3⟩ := b3 n ⟨Nat.lt_succ_of_lt h1, h2, h3⟩
      refine ⟨?_, ?_, ?_⟩
      · rw [e1]; simp only [steps_rt, detach_next]; exact c1
      · rw [e1]
        intro hu
        rcases detach_used _ _ _ _ hu with rfl | hu
        · exact Nat.lt_irrefl _ h1
        · exact c2 hu
      · rw [e2]; exact c3

/-- A program does not change the context of other threads. -/
theorem run_other (t : Nat) (b : Body) (w : World) (u : Nat) (hu : u ≠ t) : (run t b w).1.rt.value u = w.rt.value u := by
  have hd : ∀ (r : Runtime) (k : Token), (r.detach t k).value u = r.value u := by
    intro r k; unfold Runtime.detach; split
    · simp [hu]
    · rfl
  induction b generalizing w with
  | skip => rfl
  | look => rfl
  | op i s => rfl
  | attach c => simp [run, Runtime.attach, hu]
  | detach n =>
    simp only [run]
    split
    · exact hd _ _
    · rfl
  | raise e => rfl
  | seq a b iha ihb =>
    simp only [run]
    split
    · rw [ihb, iha]
    · exact iha w
  | tryExcept a b iha ihb =>
    simp only [run]
    split
    · rw [ihb, iha]
    · exact iha w
  | useSpan i eo re se ts tEnd b ih =>
    simp only [run]
    rw [(onExit_rt _ _ _ _ _).1]
    simp only [steps_rt]
    rw [hd, ih]
    simp [Runtime.attach, hu]

/-- **C53** Whatever the body does — nested blocks, exceptions, contexts attached and not detached, or detached out of order — after the
block the context of the thread is the one before it, and other threads' contexts are untouched. -/
theorem C53_restores (t : Nat) (i : Nat) (eo re se : Bool) (ts tEnd : Int) (b : Body) (w : World) (h : Fresh w) (u : Nat) :
    (run t (.useSpan i eo re se ts tEnd b) w).1.rt.value u = w.rt.value u := by
  by_cases hu : u = t
  · subst hu
    simp only [run]
    rw [(onExit_rt _ _ _ _ _).1]
    simp only [steps_rt]
    have hf : Fresh { w with rt := (w.rt.attach u (Ctx.setSpan (w.rt.getCurrent u) (w.spans i).data.ctx)).1 } :=
      ⟨fun x hx => Nat.lt_succ_of_lt (h.1 x hx), fun k hk => Nat.lt_succ_of_lt (h.2 k hk)⟩
    obtain ⟨_, h2, _⟩ := (run_fresh u b _ hf).2.2 w.rt.nextUid
      ⟨Nat.lt_succ_self _, fun hx => Nat.lt_irrefl _ (h.1 _ hx), fun k hk => Nat.ne_of_lt (h.2 k hk)⟩
    unfold Runtime.detach
    rw [if_pos ⟨rfl, h2⟩]
    simp [Runtime.attach]
  · exact run_other t _ w u hu

/-- **C53** In particular every value in the context, the current span among them, is as before. -/
theorem C53_current_after (t : Nat) (i : Nat) (eo re se : Bool) (ts tEnd : Int) (b : Body) (w : World) (h : Fresh w) (u : Nat) :
    (run t (.useSpan i eo re se ts tEnd b) w).1.rt.getCurrent u = w.rt.getCurrent u := by
  rw [Runtime.getCurrent, C53_restores t i eo re se ts tEnd b w h u]; rfl

/-! ## Inside -/

/-- Programs that change the context only through `use_span`, and never end a span that was not started. -/
def Structured : Body → Prop
  | .attach _ | .detach _ => False
  | .seq a b | .tryExcept a b => Structured a ∧ Structured b
  | .useSpan _ _ _ _ _ _ b => Structured b
  | _ => True

/-- What a program sees and how it ends, given the current span `cur` and the context of each span: the current span is that of the
innermost block. -/
def sees (ctx : Nat → SpanContext) : SpanContext → Body → List SpanContext × Option Esc
  | cur, .look => ([cur], none)
  | _, .raise e => ([], some e)
  | cur, .seq a b =>
    let q := sees ctx cur a
    match q.2 with
    | none => let r := sees ctx cur b; (q.1 ++ r.1, r.2)
    | some e => (q.1, some e)
  | cur, .tryExcept a b =>
    let q := sees ctx cur a
    match q.2 with
    | some (.exception _ _) => let r := sees ctx cur b; (q.1 ++ r.1, r.2)
    | e => (q.1, e)
  | _, .useSpan i _ _ _ _ _ b => sees ctx (ctx i) b
  | _, _ => ([], none)

theorem step_fixed (s : Span.State) (x : Step) : (step s x).data.ctx = s.data.ctx ∧ (s.data.startTime.isSome → (step s x).data.startTime = s.data.startTime) := by
  cases x <;> simp only [step] <;> (try split) <;> (try exact ⟨rfl, fun _ => rfl⟩)
  all_goals first
    | (rename_i h; exact ⟨rfl, fun h' => absurd h' h⟩)
    | skip
  · rename_i c a _
    cases c with
    | none => exact ⟨rfl, fun _ => rfl⟩
    | some c => simp only [mutate]; split <;> exact ⟨rfl, fun _ => rfl⟩

theorem steps_fixed (l : List Step) (s : Span.State) : (l.foldl step s).data.ctx = s.data.ctx ∧ (s.data.startTime.isSome → (l.foldl step s).data.startTime = s.data.startTime) := by
  induction l generalizing s with
  | nil => exact ⟨rfl, fun _ => rfl⟩
  | cons x l ih =>
    obtain ⟨h1, h2⟩ := step_fixed s x
    obtain ⟨h3, h4⟩ := ih (step s x)
    exact ⟨h3.trans h1, fun h => (h4 (by rw [h2 h]; exact h)).trans (h2 h)⟩

/-- Every span is started. -/
def Started (w : World) : Prop := ∀ i, (w.spans i).data.startTime.isSome = true

theorem steps_spans (w : World) (i j : Nat) (l : List Step) :
    ((w.steps i l).spans j).data.ctx = (w.spans j).data.ctx ∧ ((w.spans j).data.startTime.isSome → ((w.steps i l).spans j).data.startTime = (w.spans j).data.startTime) := by
  simp only [World.steps]
  by_cases h : j = i
  · subst h; rw [if_pos rfl]; exact steps_fixed l _
  · rw [if_neg h]; exact ⟨rfl, fun _ => rfl⟩

theorem onExit_spans (w : World) (i j : Nat) (e : Bool) (t : Int) (x : Option Esc) :
    ((onExit w i e t x).1.spans j).data.ctx = (w.spans j).data.ctx ∧ ((w.spans j).data.startTime.isSome → ((onExit w i e t x).1.spans j).data.startTime = (w.spans j).data.startTime) := by
  unfold onExit
  split
  · split
    · exact ⟨rfl, fun _ => rfl⟩
    · exact steps_spans _ _ _ _
  · exact ⟨rfl, fun _ => rfl⟩

/-- Programs never change the context or the start of a started span. -/
theorem run_spans (t : Nat) (b : Body) (w : World) (j : Nat) :
    ((run t b w).1.spans j).data.ctx = (w.spans j).data.ctx ∧ ((w.spans j).data.startTime.isSome → ((run t b w).1.spans j).data.startTime = (w.spans j).data.startTime) := by
  have htrans : ∀ a b c : Span.State, (b.data.ctx = a.data.ctx ∧ (a.data.startTime.isSome → b.data.startTime = a.data.startTime)) →
      (c.data.ctx = b.data.ctx ∧ (b.data.startTime.isSome → c.data.startTime = b.data.startTime)) →
      c.data.ctx = a.data.ctx ∧ (a.data.startTime.isSome → c.data.startTime = a.data.startTime) := by
    intro a b c h1 h2
    exact ⟨h2.1.trans h1.1, fun h => (h2.2 (by rw [h1.2 h]; exact h)).trans (h1.2 h)⟩
  induction b generalizing w with
  | skip => exact ⟨rfl, fun _ => rfl⟩
  | look => exact ⟨rfl, fun _ => rfl⟩
  | op i s => exact steps_spans w i j [s]
  | attach c => exact ⟨rfl, fun _ => rfl⟩
  | detach n => simp only [run]; split <;> exact ⟨rfl, fun _ => rfl⟩
  | raise e => exact ⟨rfl, fun _ => rfl⟩
  | seq a b iha ihb =>
    simp only [run]
    split
    · exact htrans _ _ _ (iha w) (ihb _)
    · exact iha w
  | tryExcept a b iha ihb =>
    simp only [run]
    split
    · exact htrans _ _ _ (iha w) (ihb _)
    · exact iha w
  | useSpan i eo re se ts tEnd b ih =>
    simp only [run]
    exact htrans _ _ _ (htrans _ _ _ (ih { w with rt := (w.rt.attach t (Ctx.setSpan (w.rt.getCurrent t) (w.spans i).data.ctx)).1 })
      (steps_spans { (run t b { w with rt := (w.rt.attach t (Ctx.setSpan (w.rt.getCurrent t) (w.spans i).data.ctx)).1 }).1 with
        rt := (run t b { w with rt := (w.rt.attach t (Ctx.setSpan (w.rt.getCurrent t) (w.spans i).data.ctx)).1 }).1.rt.detach t
          (w.rt.attach t (Ctx.setSpan (w.rt.getCurrent t) (w.spans i).data.ctx)).2 } i j _)) (onExit_spans _ i j eo tEnd _)

/-- A structured program leaves the context of its thread as it was. -/
theorem run_structured_ctx (t : Nat) (b : Body) (w : World) (hs : Structured b) (hf : Fresh w) : (run t b w).1.rt.getCurrent t = w.rt.getCurrent t := by
  induction b generalizing w with
  | skip => rfl
  | look => rfl
  | op i s => rfl
  | attach c => exact hs.elim
  | detach n => exact hs.elim
  | raise e => rfl
  | seq a b iha ihb =>
    simp only [run]
    split
    · rw [ihb _ hs.2 (run_fresh t a w hf).1, iha w hs.1 hf]
    · exact iha w hs.1 hf
  | tryExcept a b iha ihb =>
    simp only [run]
    split
    · rw [ihb _ hs.2 (run_fresh t a w hf).1, iha w hs.1 hf]
    · exact iha w hs.1 hf
  | useSpan i eo re se ts tEnd b ih => exact C53_current_after t i eo re se ts tEnd b w hf t

theorem onExit_esc (w : World) (i : Nat) (e : Bool) (t : Int) (x : Option Esc) (h : (w.spans i).data.startTime.isSome = true) : (onExit w i e t x).2 = x := by
  unfold onExit
  split
  · split
    · rename_i h'; rw [h'] at h; cases h
    · rfl
  · rfl

/-- **C53** In any nesting of blocks, with any exceptions raised, caught or escaping, the current span is at every moment that of the innermost
block the program is in (or the one current outside), and exceptions escape exactly as they would without the blocks. -/
theorem C53_innermost (t : Nat) (b : Body) (w : World) (hs : Structured b) (hf : Fresh w) (hst : Started w) :
    (run t b w).1.seen = w.seen ++ (sees (fun i => (w.spans i).data.ctx) (Ctx.currentSpan (w.rt.getCurrent t)) b).1 ∧
    (run t b w).2 = (sees (fun i => (w.spans i).data.ctx) (Ctx.currentSpan (w.rt.getCurrent t)) b).2 := by
  induction b generalizing w with
  | skip => exact ⟨(List.append_nil _).symm, rfl⟩
  | look => exact ⟨rfl, rfl⟩
  | op i s => exact ⟨(List.append_nil _).symm, rfl⟩
  | attach c => exact hs.elim
  | detach n => exact hs.elim
  | raise e => exact ⟨(List.append_nil _).symm, rfl⟩
  | seq a b iha ihb =>
    obtain ⟨a1, a2⟩ := iha w hs.1 hf hst
    have hst' : Started (run t a w).1 := by intro i; rw [(run_spans t a w i).2 (hst i)]; exact hst i
    obtain ⟨b1, b2⟩ := ihb _ hs.2 (run_fresh t a w hf).1 hst'
    have hctx : (fun i => ((run t a w).1.spans i).data.ctx) = fun i => (w.spans i).data.ctx := funext (fun i => (run_spans t a w i).1)
    rw [run_structured_ctx t a w hs.1 hf, hctx] at b1 b2
    simp only [run, sees, ← a2]
    cases hq : (run t a w).2 with
    | none => simp only; exact ⟨by rw [b1, a1, List.append_assoc], b2⟩
    | some e => exact ⟨a1, rfl⟩
  | tryExcept a b iha ihb =>
    obtain ⟨a1, a2⟩ := iha w hs.1 hf hst
    have hst' : Started (run t a w).1 := by intro i; rw [(run_spans t a w i).2 (hst i)]; exact hst i
    obtain ⟨b1, b2⟩ := ihb _ hs.2 (run_fresh t a w hf).1 hst'
    have hctx : (fun i => ((run t a w).1.spans i).data.ctx) = fun i => (w.spans i).data.ctx := funext (fun i => (run_spans t a w i).1)
    rw [run_structured_ctx t a w hs.1 hf, hctx] at b1 b2
    simp only [run, sees, ← a2]
    cases hq : (run t a w).2 with
    | none => simp only; exact ⟨a1, trivial⟩
    | some e =>
      cases e with
      | exception x s => simp only; exact ⟨by rw [b1, a1, List.append_assoc], b2⟩
      | base n => simp only; exact ⟨a1, trivial⟩
  | useSpan i eo re se ts tEnd b ih =>
    have hf' : Fresh { w with rt := (w.rt.attach t (Ctx.setSpan (w.rt.getCurrent t) (w.spans i).data.ctx)).1 } :=
      ⟨fun x hx => Nat.lt_succ_of_lt (hf.1 x hx), fun k hk => Nat.lt_succ_of_lt (hf.2 k hk)⟩
    obtain ⟨b1, b2⟩ := ih _ hs hf' hst
    have hcur : Ctx.currentSpan ((w.rt.attach t (Ctx.setSpan (w.rt.getCurrent t) (w.spans i).data.ctx)).1.getCurrent t) = (w.spans i).data.ctx := by
      simp only [Runtime.attach, Runtime.getCurrent, if_true, Option.getD_some]
      exact (Ctx.C06_current_span _ _).1
    simp only at b1 b2
    rw [hcur] at b1 b2
    simp only [run, sees]
    rw [(onExit_rt _ _ _ _ _).2.2, onExit_esc]
    · exact ⟨b1, b2⟩
    · have hb := (run_spans t b { w with rt := (w.rt.attach t (Ctx.setSpan (w.rt.getCurrent t) (w.spans i).data.ctx)).1 } i).2 (hst i)
      rw [(steps_spans _ i i _).2]
      · exact (congrArg Option.isSome hb).trans (hst i)
      · exact (congrArg Option.isSome hb).trans (hst i)

/-! ## Leaving -/

/-- The world in which the body of `use_span` starts: the given span is current. -/
def enter (t i : Nat) (w : World) : World := { w with rt := (w.rt.attach t (Ctx.setSpan (w.rt.getCurrent t) (w.spans i).data.ctx)).1 }

/-- **C53** In the body the given span is current, and every other value in the context is as outside. -/
theorem C53_entered (t i : Nat) (w : World) : Ctx.currentSpan ((enter t i w).rt.getCurrent t) = (w.spans i).data.ctx ∧
    (∀ k, k ≠ .span → Ctx.getValue ((enter t i w).rt.getCurrent t) k = Ctx.getValue (w.rt.getCurrent t) k) ∧
    (∀ u, u ≠ t → (enter t i w).rt.getCurrent u = w.rt.getCurrent u) ∧ (enter t i w).spans = w.spans := by
  refine ⟨?_, ?_, ?_, rfl⟩
  · simp only [enter, Runtime.attach, Runtime.getCurrent, if_true, Option.getD_some]
    exact (Ctx.C06_current_span _ _).1
  · intro k hk
    simp only [enter, Runtime.attach, Runtime.getCurrent, if_true, Option.getD_some, Ctx.getValue, Ctx.setSpan, Ctx.setValue]
    exact Dict.get?_set_ne _ _ (Ne.symm hk)
  · intro u hu
    simp [enter, Runtime.attach, Runtime.getCurrent, hu]

/-- The span after the block in terms of the span after its body. -/
theorem run_useSpan_span (t i : Nat) (eo re se : Bool) (ts tEnd : Int) (b : Body) (w : World) (hst : (w.spans i).data.startTime.isSome = true) (j : Nat) :
    (run t (.useSpan i eo re se ts tEnd b) w).1.spans j =
      if j = i then
        (onError (isRecording ((run t b (enter t i w)).1.spans i)) re se ts (run t b (enter t i w)).2 ++ (if eo then [Step.end_ tEnd, Step.notifyEnd] else [])).foldl
          step ((run t b (enter t i w)).1.spans i)
      else (run t b (enter t i w)).1.spans j := by
  have hb := (run_spans t b (enter t i w) i).2 hst
  have hb' : ((run t b (enter t i w)).1.spans i).data.startTime.isSome = true := (congrArg Option.isSome hb).trans hst
  simp only [run]
  change (onExit (World.steps { (run t b (enter t i w)).1 with rt := _ } i (onError (isRecording ((run t b (enter t i w)).1.spans i)) re se ts
    (run t b (enter t i w)).2)) i eo tEnd (run t b (enter t i w)).2).1.spans j = _
  generalize run t b (enter t i w) = q at hb'
  generalize hl : onError (isRecording (q.1.spans i)) re se ts q.2 = l
  have hs : ((World.steps { q.1 with rt := q.1.rt.detach t (w.rt.attach t (Ctx.setSpan (w.rt.getCurrent t) (w.spans i).data.ctx)).2 } i l).spans i).data.startTime.isSome = true :=
    (congrArg Option.isSome ((steps_spans { q.1 with rt := q.1.rt.detach t (w.rt.attach t (Ctx.setSpan (w.rt.getCurrent t) (w.spans i).data.ctx)).2 } i i l).2 hb')).trans hb'
  unfold onExit
  cases eo with
  | false =>
    simp only [Bool.false_eq_true, if_false, List.append_nil, World.steps]
  | true =>
    simp only [if_true]
    split
    · rename_i h; exact absurd hs (by rw [show (World.steps _ i l).spans i = _ from rfl] at h; simp only [World.steps] at h ⊢; rw [h]; simp)
    · simp only [World.steps, List.foldl_append, if_true]
      by_cases hj : j = i
      · simp [hj]
      · simp [hj]

/-- **C53** What escapes from the body escapes from the block. -/
theorem C53_reraises (t i : Nat) (eo re se : Bool) (ts tEnd : Int) (b : Body) (w : World) (hst : (w.spans i).data.startTime.isSome = true) :
    (run t (.useSpan i eo re se ts tEnd b) w).2 = (run t b (enter t i w)).2 := by
  have hb := (run_spans t b (enter t i w) i).2 hst
  simp only [run]
  rw [onExit_esc]
  · rfl
  · rw [(steps_spans _ i i _).2]
    · exact (congrArg Option.isSome hb).trans hst
    · exact (congrArg Option.isSome hb).trans hst

/-- **C53** Leaving the block with a span that is still recording: with `end_on_exit` it is ended at that moment and the processor is told
once; an escaping `Exception` adds one `exception` event (if asked, saying `escaped = False`) and the status ERROR with the description
`Type: message` (if asked, and unless the status is OK); nothing else about the span changes, and no other span changes. -/
theorem C53_exit (t i : Nat) (eo re se : Bool) (ts tEnd : Int) (b : Body) (w : World) (hst : (w.spans i).data.startTime.isSome = true)
    (hrec : ((run t b (enter t i w)).1.spans i).data.endTime = none) (howed : ((run t b (enter t i w)).1.spans i).owedEnd = 0) :
    let before := (run t b (enter t i w)).1.spans i
    let after := (run t (.useSpan i eo re se ts tEnd b) w).1.spans i
    after.data.endTime = (if eo then some tEnd else none) ∧ after.log = (if eo then before.log ++ [.ended after.data] else before.log) ∧
    after.data.name = before.data.name ∧ after.data.attrs = before.data.attrs ∧ after.data.links = before.data.links ∧
    after.data.events = (match (run t b (enter t i w)).2, re with
      | some (.exception e _), true => before.data.events.append (mkEvent before.lim "exception".toList
          [(.str "exception.type".toList, .atom (.str e.typeName true)),
           (.str "exception.message".toList, .atom (.str e.message true)),
           (.str "exception.stacktrace".toList, .atom (.str e.stacktrace true)),
           (.str "exception.escaped".toList, .atom (.str "False".toList true))] ts)
      | _, _ => before.data.events) ∧
    after.data.status = (match (run t b (enter t i w)).2, se with
      | some (.exception _ text), true => if before.data.status.code = .ok then before.data.status else Status.make .error (some text)
      | _, _ => before.data.status) ∧
    ∀ j, j ≠ i → (run t (.useSpan i eo re se ts tEnd b) w).1.spans j = (run t b (enter t i w)).1.spans j := by
  intro before after
  have hafter := run_useSpan_span t i eo re se ts tEnd b w hst i
  rw [if_pos rfl] at hafter
  have hstart := (run_spans t b (enter t i w) i).2 hst
  obtain ⟨t0, ht0⟩ := Option.isSome_iff_exists.1 hst
  rw [show ((enter t i w).spans i) = w.spans i from rfl, ht0] at hstart
  have hother : ∀ j, j ≠ i → (run t (.useSpan i eo re se ts tEnd b) w).1.spans j = (run t b (enter t i w)).1.spans j := by
    intro j hj
    rw [run_useSpan_span t i eo re se ts tEnd b w hst j, if_neg hj]
  have hr : isRecording before = true := by simp [isRecording, before, hrec]
  change after = (onError (isRecording before) re se ts (run t b (enter t i w)).2 ++ _).foldl step before at hafter
  rw [hr] at hafter
  change before.data.startTime = _ at hstart
  change before.data.endTime = _ at hrec
  change before.owedEnd = _ at howed
  generalize (run t b (enter t i w)).2 = q at hafter ⊢
  refine (fun (h : _ ∧ _ ∧ _ ∧ _ ∧ _ ∧ _ ∧ _) => ⟨h.1, h.2.1, h.2.2.1, h.2.2.2.1, h.2.2.2.2.1, h.2.2.2.2.2.1, h.2.2.2.2.2.2, hother⟩) ?_
  clear hother hr
  rw [hafter]
  clear_value before
  cases q with
  | none => cases eo <;> simp [onError, step, hstart, hrec, howed]
  | some x =>
    cases x with
    | base n => cases eo <;> simp [onError, step, hstart, hrec, howed]
    | exception e text =>
      have hu : excAttrs e [] false =
          [(.str "exception.type".toList, .atom (.str e.typeName true)),
           (.str "exception.message".toList, .atom (.str e.message true)),
           (.str "exception.stacktrace".toList, .atom (.str e.stacktrace true)),
           (.str "exception.escaped".toList, .atom (.str "False".toList true))] := rfl
      cases re <;> cases se <;> cases eo <;>
        simp only [← hu, onError, if_true, if_false, Bool.false_eq_true, List.nil_append, List.append_nil,
          List.cons_append, List.foldl_cons, List.foldl_nil, step, mutate, newStatus, hstart, hrec, howed,
          Option.isSome_none, reduceCtorEq, or_false, Option.isSome_some] <;>
        simp

/-- **C53** If the body has ended the span, leaving the block changes nothing. -/
theorem C53_already_ended (t i : Nat) (eo re se : Bool) (ts tEnd : Int) (b : Body) (w : World) (hst : (w.spans i).data.startTime.isSome = true)
    (hend : ((run t b (enter t i w)).1.spans i).data.endTime.isSome = true) (howed : ((run t b (enter t i w)).1.spans i).owedEnd = 0) :
    (run t (.useSpan i eo re se ts tEnd b) w).1.spans = (run t b (enter t i w)).1.spans := by
  funext j
  rw [run_useSpan_span t i eo re se ts tEnd b w hst j]
  split
  · rename_i hj; subst hj
    obtain ⟨te, hte⟩ := Option.isSome_iff_exists.1 hend
    have hr : isRecording ((run t b (enter t j w)).1.spans j) = false := by simp [isRecording, hte]
    rw [hr]
    have : ∀ q, onError false re se ts q = [] := by intro q; cases q with
      | none => rfl
      | some x => cases x <;> rfl
    rw [this]
    cases eo <;> simp [step, hte, howed]
  · rfl

theorem mutate_times (lim : SpanLimits) (d : Data) (x : Step) : (mutate lim d x).startTime = d.startTime ∧ (mutate lim d x).endTime = d.endTime := by
  cases x
  case addLink c a =>
    cases c with
    | none => exact ⟨rfl, rfl⟩
    | some c => simp only [mutate]; split <;> exact ⟨rfl, rfl⟩
  all_goals exact ⟨rfl, rfl⟩

/-- A span is announced as ended once it is, never before and never twice. -/
def Once (s : Span.State) : Prop := (endNotes s.log).length + s.owedEnd = if s.data.endTime.isSome then 1 else 0

theorem step_once (s : Span.State) (x : Step) (h : Once s) : Once (step s x) := by
  unfold Once at h ⊢
  cases x <;> simp only [step] <;> (try split) <;> (try exact h)
  all_goals (try (simp only [mutate_times]; exact h))
  all_goals (try (simp_all [endNotes]; done))
  all_goals (try (simp_all [endNotes]; omega))

theorem steps_once (l : List Step) (s : Span.State) (h : Once s) : Once (l.foldl step s) := by
  induction l generalizing s with
  | nil => exact h
  | cons x l ih => exact ih _ (step_once s x h)

theorem run_once (t : Nat) (b : Body) (w : World) (h : ∀ j, Once (w.spans j)) (j : Nat) : Once ((run t b w).1.spans j) := by
  have hs : ∀ (w : World) (i : Nat) (l : List Step), (∀ j, Once (w.spans j)) → ∀ j, Once ((w.steps i l).spans j) := by
    intro w i l h j
    simp only [World.steps]
    split
    · exact steps_once l _ (h i)
    · exact h j
  induction b generalizing w j with
  | skip => exact h j
  | look => exact h j
  | op i s => exact hs w i [s] h j
  | attach c => exact h j
  | detach n => simp only [run]; split <;> exact h j
  | raise e => exact h j
  | seq a b iha ihb =>
    simp only [run]
    split
    · exact ihb _ (fun j => iha w h j) j
    · exact iha w h j
  | tryExcept a b iha ihb =>
    simp only [run]
    split
    · exact ihb _ (fun j => iha w h j) j
    · exact iha w h j
  | useSpan i eo re se ts tEnd b ih =>
    simp only [run, onExit]
    have h1 : ∀ j, Once ((run t b (enter t i w)).1.spans j) := fun j => ih (enter t i w) h j
    split
    · split
      · exact hs _ i _ h1 j
      · exact hs _ i _ (hs _ i _ h1) j
    · exact hs _ i _ h1 j

/-- **C53** After a block with `end_on_exit`, whatever the body did (ending the span itself, entering further blocks with the same span, raising),
the span is ended, and its processor has been told or is about to be told exactly once. -/
theorem C53_ended_once (t i : Nat) (re se : Bool) (ts tEnd : Int) (b : Body) (w : World) (hst : (w.spans i).data.startTime.isSome = true)
    (h : ∀ j, Once (w.spans j)) :
    let after := (run t (.useSpan i true re se ts tEnd b) w).1.spans i
    after.data.endTime.isSome = true ∧ (endNotes after.log).length + after.owedEnd = 1 := by
  intro after
  have hon : Once after := run_once t (.useSpan i true re se ts tEnd b) w h i
  have hend : after.data.endTime.isSome = true := by
    have := run_useSpan_span t i true re se ts tEnd b w hst i
    rw [if_pos rfl] at this
    change after = _ at this
    rw [this, List.foldl_append]
    have hb := (run_spans t b (enter t i w) i).2 hst
    have hb2 := (steps_fixed (onError (isRecording ((run t b (enter t i w)).1.spans i)) re se ts (run t b (enter t i w)).2) ((run t b (enter t i w)).1.spans i)).2
      ((congrArg Option.isSome hb).trans hst)
    obtain ⟨t0, ht0⟩ := Option.isSome_iff_exists.1 hst
    rw [hb, show ((enter t i w).spans i) = w.spans i from rfl, ht0] at hb2
    generalize (onError (isRecording ((run t b (enter t i w)).1.spans i)) re se ts (run t b (enter t i w)).2).foldl step ((run t b (enter t i w)).1.spans i) = s at hb2
    cases he : s.data.endTime with
    | none => simp [step, hb2, he]
    | some te => simp [step, hb2, he]; split <;> simp [he]
  refine ⟨hend, ?_⟩
  have := hon
  unfold Once at this
  rw [if_pos hend] at this
  exact this

/-- **C53** (finding) With `end_on_exit`, a span that was not started makes the block raise `RuntimeError` instead of what the body raised. -/
theorem C53_not_started (t i : Nat) (re se : Bool) (ts tEnd : Int) (b : Body) (w : World) (hst : ((run t b (enter t i w)).1.spans i).data.startTime = none) :
    (run t (.useSpan i true re se ts tEnd b) w).2 = some (.exception
      ⟨"builtins".toList, "RuntimeError".toList, "Calling end() on a not started span.".toList, []⟩
      "RuntimeError: Calling end() on a not started span.".toList) := by
  have hns : ∀ (l : List Step) (s : Span.State), s.data.startTime = none → (∀ x ∈ l, ∀ t, x ≠ .start t) → (l.foldl step s).data.startTime = none := by
    intro l
    induction l with
    | nil => intro s h _; exact h
    | cons x l ih =>
      intro s h hx
      refine ih _ ?_ (fun y hy => hx y (List.mem_cons_of_mem _ hy))
      have hx := hx x List.mem_cons_self
      cases x <;> simp only [step] <;> (try split) <;> (try exact h)
      all_goals (try (simp only [mutate_times]; exact h))
      all_goals (try (exact absurd rfl (hx _)))
  simp only [run, onExit, if_true]
  rw [if_pos]
  · rfl
  simp only [World.steps, if_true]
  apply hns _ _ hst
  intro x hx t'
  unfold onError at hx
  split at hx
  · split at hx
    · simp only [List.mem_append] at hx
      rcases hx with hx | hx
      · split at hx
        · rw [List.mem_singleton] at hx; subst hx; simp
        · simp at hx
      · split at hx
        · rw [List.mem_singleton] at hx; subst hx; simp
        · simp at hx
    · simp at hx
  · simp at hx

private def sc (n : Nat) : SpanContext := ⟨1, n, false, 1, []⟩
private def exSpans (i : Nat) : Span.State := step (init exLim0 ['n'] (sc (i + 1)) none [] [] []) (.start 5)
private def exWorld : World := ⟨Runtime.init, exSpans, [], []⟩
private def exBody : Body :=
  .seq .look (.seq (.tryExcept (.useSpan 0 true true true 7 8 (.seq .look (.seq (.useSpan 1 false true true 7 8 .look) (.raise (.exception ⟨[], ['E'], [], []⟩ ['E'])))))
    (.look)) (.useSpan 2 true true true 1 2 (.seq .look (.raise (.base 0)))))

example : Structured exBody ∧ Fresh exWorld ∧ Started exWorld ∧ (∀ j, Once (exWorld.spans j)) ∧
    (run 0 exBody exWorld).1.seen = [SpanContext.invalid, sc 1, sc 2, SpanContext.invalid, sc 3] ∧ (run 0 exBody exWorld).2 = some (.base 0) ∧
    ((run 0 exBody exWorld).1.spans 0).data.status = ⟨.error, some ['E']⟩ ∧ ((run 0 exBody exWorld).1.spans 2).data.status = ⟨.unset, none⟩ ∧
    ((run 0 exBody exWorld).1.spans 2).data.endTime = some 2 := by
  refine ⟨by simp [Structured, exBody], ⟨(by intro u hu; cases hu), (by intro k hk; cases hk)⟩, fun _ => rfl, fun _ => rfl, by decide +kernel, rfl, by decide +kernel, by decide +kernel, by decide +kernel⟩

end UseSpan
end Otel
