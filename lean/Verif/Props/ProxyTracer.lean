import Verif.Model.ProxyTracer
import Verif.Props.Tracer
import Verif.Props.Limits
/-!
# C77: tracers and loggers obtained before the provider is set; programs without an SDK
-/
namespace Otel
namespace ProxyTracer

/-! ## Specification -/

/-- The provider of the first `set_tracer_provider`. -/
def firstSet : List Step → Option Nat
  | [] => none
  | .set p :: _ => some p
  | _ :: l => firstSet l

/-- What the proxies were asked for with: the `get_tracer` calls before the first `set_tracer_provider`. -/
def asked : List Step → List Args
  | [] => []
  | .set _ :: _ => []
  | .get a :: l => a :: asked l
  | _ :: l => asked l

def after (l : List Step) : State := l.foldl step State.init

/-! ## The invariant -/

/-- `r` is a tracer of the global provider for the arguments `a`. -/
def Made (s : State) (r : Nat) (a : Args) : Prop := ∃ p, s.glob = some p ∧ s.made[r]? = some (p, a)

def PCOk (s : State) (x : Proxy) : PC → Prop
  | .start | .noReal | .over none => True
  | .provider p => s.glob = some p
  | .made r | .over (some r) => Made s r x.args
  | .stored => x.real ≠ none

structure Inv (s : State) : Prop where
  proxy : ∀ (i : Nat) (x : Proxy) (r : Nat), s.proxies[i]? = some x → x.real = some r → Made s r x.args
  use : ∀ (n : Nat) (u : Use), s.uses[n]? = some u → ∃ x, s.proxies[u.proxy]? = some x ∧ PCOk s x u.pc

theorem inv_init : Inv State.init := ⟨by simp [State.init], by simp [State.init]⟩

theorem Made.mono {s s' : State} {r : Nat} {a : Args} (h : Made s r a) (hg : ∀ p, s.glob = some p → s'.glob = some p)
    (hm : ∀ x, s.made[r]? = some x → s'.made[r]? = some x) : Made s' r a := by
  obtain ⟨p, h1, h2⟩ := h
  exact ⟨p, hg p h1, hm _ h2⟩

theorem PCOk.mono {s s' : State} {x : Proxy} {pc : PC} (h : PCOk s x pc) (hg : ∀ p, s.glob = some p → s'.glob = some p)
    (hm : ∀ (r : Nat) y, s.made[r]? = some y → s'.made[r]? = some y) : PCOk s' x pc := by
  cases pc with
  | start => trivial
  | noReal => trivial
  | provider p => exact hg p h
  | made r => exact Made.mono h hg (hm r)
  | stored => exact h
  | over o =>
    cases o with
    | none => trivial
    | some r => exact Made.mono h hg (hm r)

theorem PCOk.proxy {s : State} {x y : Proxy} {pc : PC} (h : PCOk s x pc) (ha : y.args = x.args) (hr : x.real ≠ none → y.real ≠ none) : PCOk s y pc := by
  cases pc with
  | start => trivial
  | noReal => trivial
  | provider p => exact h
  | made r => simpa [PCOk, ha] using h
  | stored => exact hr h
  | over o =>
    cases o with
    | none => trivial
    | some r => simpa [PCOk, ha] using h

theorem append_get {α : Type} {l : List α} {x y : α} {n : Nat} (h : (l ++ [x])[n]? = some y) : l[n]? = some y ∨ (n = l.length ∧ y = x) := by
  rw [List.getElem?_append] at h
  split at h
  · exact .inl h
  · have : n - l.length = 0 := by
      cases hn : n - l.length with
      | zero => rfl
      | succ m => rw [hn] at h; simp at h
    rw [this] at h
    simp at h
    exact .inr ⟨by omega, h.symm⟩

theorem get_append {α : Type} {l : List α} (x : α) {y : α} {n : Nat} (h : l[n]? = some y) : (l ++ [x])[n]? = some y := by
  rw [List.getElem?_append_left (List.getElem?_eq_some_iff.1 h).1]; exact h

theorem inv_goto {s : State} (h : Inv s) {n : Nat} {u : Use} {x : Proxy} {pc : PC} (hu : s.uses[n]? = some u) (hx : s.proxies[u.proxy]? = some x)
    (hp : PCOk s x pc) : Inv (s.goto n u pc) := by
  constructor
  · exact h.proxy
  · intro m v hv
    simp only [State.goto, List.getElem?_set] at hv
    split at hv
    · split at hv
      · cases hv; exact ⟨x, hx, hp⟩
      · cases hv
    · exact h.use m v hv

theorem inv_step (s : State) (h : Inv s) (c : Step) : Inv (step s c) := by
  cases c with
  | set p =>
    simp only [step]; split
    · exact h
    · rename_i hg
      have hn : s.glob = none := by cases hq : s.glob <;> simp_all
      constructor
      · intro i x r hx hr
        exact (h.proxy i x r hx hr).mono (by simp [hn]) (fun _ h => h)
      · intro n u hu
        obtain ⟨x, h1, h2⟩ := h.use n u hu
        exact ⟨x, h1, h2.mono (by simp [hn]) (fun _ _ h => h)⟩
  | get a =>
    simp only [step]; split
    · constructor
      · intro i x r hx hr
        exact (h.proxy i x r hx hr).mono (fun _ h => h) (fun _ h => get_append _ h)
      · intro n u hu
        obtain ⟨x, h1, h2⟩ := h.use n u hu
        exact ⟨x, h1, h2.mono (fun _ h => h) (fun _ _ h => get_append _ h)⟩
    · constructor
      · intro i x r hx hr
        rcases append_get hx with hx | ⟨_, rfl⟩
        · exact (h.proxy i x r hx hr).mono (fun _ h => h) (fun _ h => h)
        · simp at hr
      · intro n u hu
        obtain ⟨x, h1, h2⟩ := h.use n u hu
        exact ⟨x, get_append _ h1, h2.mono (fun _ h => h) (fun _ _ h => h)⟩
  | use i =>
    simp only [step]; split
    · rename_i hi
      refine ⟨h.proxy, ?_⟩
      intro n u hu
      rcases append_get hu with hu | ⟨_, rfl⟩
      · exact h.use n u hu
      · exact ⟨_, List.getElem?_eq_getElem hi, trivial⟩
    · exact h
  | next n =>
    simp only [step]; split
    · exact h
    · rename_i u hu
      split
      · exact h
      · rename_i x hx
        obtain ⟨x', hx', hpc⟩ := h.use n u hu
        rw [hx] at hx'; cases hx'
        split
        · split
          · rename_i r hr; exact inv_goto h hu hx (h.proxy _ x r hx hr)
          · exact inv_goto h hu hx trivial
        · split
          · rename_i p hg; exact inv_goto h hu hx hg
          · exact inv_goto h hu hx trivial
        · rename_i p hpc'
          rw [hpc'] at hpc
          have hg : s.glob = some p := hpc
          constructor
          · intro i y r hy hr
            exact (h.proxy i y r hy hr).mono (fun _ h => h) (fun _ h => get_append _ h)
          · intro m v hv
            simp only [State.goto, List.getElem?_set] at hv
            split at hv
            · split at hv
              · cases hv
                exact ⟨x, hx, p, hg, by simp⟩
              · cases hv
            · obtain ⟨y, h1, h2⟩ := h.use m v hv
              exact ⟨y, h1, h2.mono (fun _ h => h) (fun _ _ h => get_append _ h)⟩
        · rename_i r hpc'
          rw [hpc'] at hpc
          have hm : Made s r x.args := hpc
          have hlt : u.proxy < s.proxies.length := (List.getElem?_eq_some_iff.1 hx).1
          have look : ∀ (i : Nat) (y : Proxy), s.proxies[i]? = some y →
              ∃ z : Proxy, (s.proxies.set u.proxy { x with real := some r })[i]? = some z ∧ z.args = y.args ∧ (y.real ≠ none → z.real ≠ none) := by
            intro i y hy
            rw [List.getElem?_set]
            split
            · rename_i hi
              subst hi
              rw [hx] at hy; cases hy
              exact ⟨{ x with real := some r }, by simp [hlt], rfl, by simp⟩
            · exact ⟨y, hy, rfl, id⟩
          constructor
          · intro i y r' hy hr
            simp only [List.getElem?_set] at hy
            split at hy
            · simp only [hlt, if_true, Option.some.injEq] at hy
              subst hy
              cases hr
              exact hm
            · exact h.proxy i y r' hy hr
          · intro m v hv
            simp only [State.goto, List.getElem?_set] at hv
            split at hv
            · split at hv
              · cases hv
                refine ⟨{ x with real := some r }, by simp [hlt], by simp [PCOk]⟩
              · cases hv
            · obtain ⟨y, h1, h2⟩ := h.use m v hv
              obtain ⟨z, hz, ha, hr⟩ := look _ y h1
              exact ⟨z, hz, (h2.proxy ha hr).mono (fun _ h => h) (fun _ _ h => h)⟩
        · rename_i hpc'
          rw [hpc'] at hpc
          have hr : x.real ≠ none := hpc
          cases hxr : x.real with
          | none => exact absurd hxr hr
          | some r => exact inv_goto h hu hx (h.proxy _ x r hx hxr)
        · exact h

theorem inv_after (l : List Step) : Inv (after l) := by
  unfold after
  generalize hs : State.init = s
  have h : Inv s := hs ▸ inv_init
  clear hs
  induction l generalizing s with
  | nil => exact h
  | cons c l ih => exact ih _ (inv_step s h c)

/-! ## The history, read off the state -/

theorem proxies_args (s : State) (c : Step) :
    (step s c).proxies.map Proxy.args = s.proxies.map Proxy.args ++ (match c, s.glob with | .get a, none => [a] | _, _ => []) ∧
    (step s c).glob = s.glob.or (match c with | .set p => some p | _ => none) := by
  cases c with
  | set p => simp only [step]; split <;> rename_i hg <;> cases hq : s.glob <;> simp_all
  | get a => simp only [step]; split <;> rename_i hg <;> simp [hg]
  | use i => simp only [step]; split <;> simp
  | next n =>
    simp only [step]
    split
    · simp
    · rename_i u hu
      split
      · simp
      · rename_i x hx
        split
        · split <;> simp [State.goto]
        · split <;> simp [State.goto]
        · simp [State.goto]
        · simp only [State.goto, List.map_set, List.append_nil, Option.or_none, and_true]
          apply List.ext_getElem?
          intro i
          rw [List.getElem?_set]
          split
          · rename_i hi
            subst hi
            have := (List.getElem?_eq_some_iff.1 hx).1
            simp [this, hx]
            have h2 := (List.getElem?_eq_some_iff.1 hx).2
            rw [h2]
          · rfl
        · simp [State.goto]
        · simp

theorem history (l : List Step) (s : State) :
    (l.foldl step s).glob = s.glob.or (firstSet l) ∧
    (l.foldl step s).proxies.map Proxy.args = s.proxies.map Proxy.args ++ (if s.glob.isSome then [] else asked l) := by
  induction l generalizing s with
  | nil => simp [firstSet, asked]
  | cons c l ih =>
    obtain ⟨h1, h2⟩ := proxies_args s c
    obtain ⟨i1, i2⟩ := ih (step s c)
    rw [List.foldl_cons, i1, i2, h1, h2]
    cases c <;> cases hg : s.glob <;> simp [firstSet, asked]

/-- **C77** The global provider is that of the first `set_tracer_provider`, and stays. -/
theorem C77_global (l : List Step) : (after l).glob = firstSet l := by
  have := (history l State.init).1
  simpa [State.init, after] using this

/-- **C77** Every use of a tracer obtained before the provider was set uses the no-op tracer or a tracer which the global provider (the first
one set) returned for exactly the name, version, schema URL and attributes that were asked for. -/
theorem C77_right_tracer (l : List Step) (n i r : Nat) (h : (after l).uses[n]? = some ⟨i, .over (some r)⟩) :
    ∃ (p : Nat) (a : Args), firstSet l = some p ∧ (asked l)[i]? = some a ∧ (after l).made[r]? = some (p, a) := by
  obtain ⟨x, hx, p, hg, hm⟩ := (inv_after l).use n _ h
  refine ⟨p, x.args, by rw [← C77_global]; exact hg, ?_, hm⟩
  have := (history l State.init).2
  simp only [State.init, List.map_nil, List.nil_append, Option.isSome_none, Bool.false_eq_true, if_false] at this
  rw [← this]
  have hx' : (after l).proxies[i]? = some x := hx
  unfold after at hx'
  simp only [State.init] at hx'
  simp [hx']

theorem step_use_kept (s : State) (c : Step) (hg : s.glob.isSome) (n i : Nat) (h : (step s c).uses[n]? = some ⟨i, .over none⟩) :
    s.uses[n]? = some ⟨i, .over none⟩ ∨ ∃ (u : Use) (x : Proxy), s.uses[n]? = some u ∧ u.pc = .stored ∧ s.proxies[u.proxy]? = some x ∧ x.real = none := by
  obtain ⟨p, hp⟩ := Option.isSome_iff_exists.1 hg
  cases c with
  | set q => simp only [step, hp, Option.isSome_some, if_true] at h; exact .inl h
  | get a => simp only [step, hp] at h; exact .inl h
  | use j =>
    simp only [step] at h
    split at h
    · rcases append_get h with h | ⟨_, h⟩
      · exact .inl h
      · simp at h
    · exact .inl h
  | next m =>
    simp only [step] at h
    split at h
    · exact .inl h
    · rename_i u hu
      split at h
      · exact .inl h
      · rename_i x hx
        have goto : ∀ pc, pc ≠ .over none → (s.goto m u pc).uses[n]? = some ⟨i, .over none⟩ → s.uses[n]? = some ⟨i, .over none⟩ := by
          intro pc hpc h
          simp only [State.goto, List.getElem?_set] at h
          split at h
          · split at h
            · simp only [Option.some.injEq, Use.mk.injEq] at h
              exact absurd h.2 hpc
            · cases h
          · exact h
        split at h
        · split at h
          · exact .inl (goto _ (by simp) h)
          · exact .inl (goto _ (by simp) h)
        · rw [hp] at h
          exact .inl (goto _ (by simp) h)
        · exact .inl (goto _ (by simp) h)
        · exact .inl (goto .stored (by simp) h)
        · rename_i hpc
          cases hr : x.real with
          | some r => rw [hr] at h; exact .inl (goto _ (by simp) h)
          | none =>
            by_cases hnm : m = n
            · subst hnm; exact .inr ⟨u, x, hu, hpc, hx, hr⟩
            · simp only [State.goto, List.getElem?_set, hnm, if_false] at h
              exact .inl h
        · exact .inl h

theorem after_append (l l' : List Step) : after (l ++ l') = l'.foldl step (after l) := by
  unfold after; rw [List.foldl_append]

/-- **C77** Once the provider is set, the no-op tracer is used no more: only a use that had already got it before the provider was set has it,
so no use begun afterwards, through a tracer obtained however early, is lost. -/
theorem C77_upgraded (l l' : List Step) (hl : (firstSet l).isSome) (n i : Nat) (h : (after (l ++ l')).uses[n]? = some ⟨i, .over none⟩) :
    (after l).uses[n]? = some ⟨i, .over none⟩ := by
  rw [after_append] at h
  have hg : (after l).glob.isSome := by rw [C77_global]; exact hl
  have hi := inv_after l
  generalize after l = s at h hg hi ⊢
  induction l' generalizing s with
  | nil => exact h
  | cons c l' ih =>
    have hg' : (step s c).glob.isSome := by
      rw [(proxies_args s c).2]
      obtain ⟨p, hp⟩ := Option.isSome_iff_exists.1 hg
      rw [hp]; simp
    rcases step_use_kept s c hg n i (ih (step s c) h hg' (inv_step s hi c)) with h | ⟨u, x, hu, hpc, hx, hr⟩
    · exact h
    · obtain ⟨x', hx', hok⟩ := hi.use n u hu
      rw [hx] at hx'; cases hx'
      rw [hpc] at hok
      exact absurd hr hok

/-- **C77** Until the provider is set, a tracer does nothing. -/
theorem C77_noop_before (l : List Step) (hl : firstSet l = none) (n i : Nat) (o : Option Nat) (h : (after l).uses[n]? = some ⟨i, .over o⟩) : o = none := by
  cases o with
  | none => rfl
  | some r =>
    obtain ⟨p, _, hp, _⟩ := C77_right_tracer l n i r h
    rw [hl] at hp; cases hp

/-- **C77** A use comes to an end after at most five steps of its own, whatever the other threads do in between (no step waits). -/
theorem C77_use_finishes (l : List Step) (n : Nat) (u : Use) (hu : (after l).uses[n]? = some u) :
    ∃ o, (after (l ++ List.replicate 5 (.next n))).uses[n]? = some ⟨u.proxy, .over o⟩ := by
  rw [after_append]
  have hi := inv_after l
  generalize after l = s at hu hi
  -- one step
  have one : ∀ (s : State) (u : Use), Inv s → s.uses[n]? = some u → ∃ v : Use, (step s (.next n)).uses[n]? = some v ∧ v.proxy = u.proxy ∧
      (match u.pc with
        | .start => v.pc = .noReal ∨ ∃ o, v.pc = .over o
        | .noReal => (∃ p, v.pc = .provider p) ∨ ∃ o, v.pc = .over o
        | .provider _ => ∃ r, v.pc = .made r
        | .made _ => v.pc = .stored
        | .stored => ∃ o, v.pc = .over o
        | .over o => v.pc = .over o) := by
    intro s u hi hu
    obtain ⟨x, hx, _⟩ := hi.use n u hu
    have hlt := (List.getElem?_eq_some_iff.1 hu).1
    have goto : ∀ pc, (s.goto n u pc).uses[n]? = some { u with pc := pc } := by
      intro pc; simp [State.goto, hlt]
    simp only [step, hu, hx]
    obtain ⟨i, pc⟩ := u
    cases pc with
    | start => cases hr : x.real <;> exact ⟨_, goto _, rfl, by simp⟩
    | noReal => cases hg : s.glob <;> exact ⟨_, goto _, rfl, by simp⟩
    | provider p => exact ⟨_, goto _, rfl, ⟨_, rfl⟩⟩
    | made r => exact ⟨_, goto _, rfl, rfl⟩
    | stored => exact ⟨_, goto _, rfl, ⟨_, rfl⟩⟩
    | over o => exact ⟨_, hu, rfl, rfl⟩
  obtain ⟨v1, e1, p1, q1⟩ := one s u hi hu
  have i1 := inv_step s hi (.next n)
  obtain ⟨v2, e2, p2, q2⟩ := one _ v1 i1 e1
  have i2 := inv_step _ i1 (.next n)
  obtain ⟨v3, e3, p3, q3⟩ := one _ v2 i2 e2
  have i3 := inv_step _ i2 (.next n)
  obtain ⟨v4, e4, p4, q4⟩ := one _ v3 i3 e3
  have i4 := inv_step _ i3 (.next n)
  obtain ⟨v5, e5, p5, q5⟩ := one _ v4 i4 e4
  have hp : v5.proxy = u.proxy := by rw [p5, p4, p3, p2, p1]
  have key : ∃ o, v5.pc = .over o := by
    have ov : ∀ {a b : Use} {o}, a.pc = .over o → (match a.pc with
        | .start => b.pc = .noReal ∨ ∃ o, b.pc = .over o
        | .noReal => (∃ p, b.pc = .provider p) ∨ ∃ o, b.pc = .over o
        | .provider _ => ∃ r, b.pc = .made r
        | .made _ => b.pc = .stored
        | .stored => ∃ o, b.pc = .over o
        | .over o => b.pc = .over o) → b.pc = .over o := by
      intro a b o h1 h2; rw [h1] at h2; exact h2
    have st : ∀ {a b : Use}, a.pc = .stored → (match a.pc with
        | .start => b.pc = .noReal ∨ ∃ o, b.pc = .over o
        | .noReal => (∃ p, b.pc = .provider p) ∨ ∃ o, b.pc = .over o
        | .provider _ => ∃ r, b.pc = .made r
        | .made _ => b.pc = .stored
        | .stored => ∃ o, b.pc = .over o
        | .over o => b.pc = .over o) → ∃ o, b.pc = .over o := by
      intro a b h1 h2; rw [h1] at h2; exact h2
    cases hpc : u.pc with
    | start =>
      rw [hpc] at q1
      rcases q1 with q1 | ⟨o, q1⟩
      · rw [q1] at q2
        rcases q2 with ⟨p, q2⟩ | ⟨o, q2⟩
        · rw [q2] at q3
          obtain ⟨r, q3⟩ := q3
          rw [q3] at q4
          exact st q4 q5
        · exact ⟨o, ov (ov (ov q2 q3) q4) q5⟩
      · exact ⟨o, ov (ov (ov (ov q1 q2) q3) q4) q5⟩
    | noReal =>
      rw [hpc] at q1
      rcases q1 with ⟨p, q1⟩ | ⟨o, q1⟩
      · rw [q1] at q2
        obtain ⟨r, q2⟩ := q2
        rw [q2] at q3
        obtain ⟨o, q4⟩ := st q3 q4
        exact ⟨o, ov q4 q5⟩
      · exact ⟨o, ov (ov (ov (ov q1 q2) q3) q4) q5⟩
    | provider p =>
      rw [hpc] at q1
      obtain ⟨r, q1⟩ := q1
      rw [q1] at q2
      obtain ⟨o, q3⟩ := st q2 q3
      exact ⟨o, ov (ov q3 q4) q5⟩
    | made r =>
      rw [hpc] at q1
      obtain ⟨o, q2⟩ := st q1 q2
      exact ⟨o, ov (ov (ov q2 q3) q4) q5⟩
    | stored =>
      obtain ⟨o, q1⟩ := st hpc q1
      exact ⟨o, ov (ov (ov (ov q1 q2) q3) q4) q5⟩
    | over o => exact ⟨o, ov (ov (ov (ov (ov hpc q1) q2) q3) q4) q5⟩
  obtain ⟨o, ho⟩ := key
  refine ⟨o, ?_⟩
  show (step (step (step (step (step s (.next n)) (.next n)) (.next n)) (.next n)) (.next n)).uses[n]? = _
  rw [e5]
  cases v5
  simp_all

/-- The hypotheses are met: a tracer obtained and used before and after the provider is set. -/
example : (after [.get ⟨"lib".toList, some "1".toList, none, some 7⟩, .use 0, .next 0, .next 0, .set 3, .set 4, .use 0, .next 1, .next 1, .next 1, .next 1, .next 1]).uses =
    [⟨0, .over none⟩, ⟨0, .over (some 0)⟩] := by decide +kernel

/-! ## Disabling the SDK -/
open Limits (low lowerAscii_eq pyStrip_low toNat_ofNat_add)

/-- **C77** The SDK is disabled exactly if `OTEL_SDK_DISABLED` is `true`, in upper or lower case, with white space around it. -/
theorem C77_disabled (env : Option Str) :
    disabled env = true ↔ ∃ (a b : Str) (t r u e : Char), env = some (a ++ [t, r, u, e] ++ b) ∧ (∀ c ∈ a, isPySpace c = true) ∧ (∀ c ∈ b, isPySpace c = true) ∧
      (t = 't' ∨ t = 'T') ∧ (r = 'r' ∨ r = 'R') ∧ (u = 'u' ∨ u = 'U') ∧ (e = 'e' ∨ e = 'E') := by
  have lowc : ∀ (c d : Char), 97 ≤ d.toNat → d.toNat ≤ 122 → low c = d → c = d ∨ c.toNat + 32 = d.toNat := by
    intro c d _ _ h
    unfold low at h
    split at h
    · rename_i hu; right; rw [← h, toNat_ofNat_add c hu]
    · exact .inl h
  unfold disabled
  rw [beq_iff_eq, lowerAscii_eq, pyStrip_low]
  constructor
  · intro h
    cases env with
    | none => simp [pyStrip, stripBy, rstripBy, lstripBy] at h
    | some s =>
      simp only [Option.getD_some] at h
      obtain ⟨b, hb, hb'⟩ := rstripBy_spec isPySpace (lstripBy isPySpace s)
      have ha : s = s.takeWhile isPySpace ++ lstripBy isPySpace s := (List.takeWhile_append_dropWhile).symm
      have hp : pyStrip s = rstripBy isPySpace (lstripBy isPySpace s) := rfl
      rw [← hp] at hb
      obtain ⟨t, r, u, e, hs⟩ : ∃ t r u e, pyStrip s = [t, r, u, e] := by
        have hl := congrArg List.length h
        simp only [List.length_map] at hl
        match hq : pyStrip s, hl with
        | [t, r, u, e], _ => exact ⟨t, r, u, e, rfl⟩
      rw [hs] at h hb
      have h' : low t = 't' ∧ low r = 'r' ∧ low u = 'u' ∧ low e = 'e' := by simpa using h
      refine ⟨s.takeWhile isPySpace, b, t, r, u, e, ?_, fun c hc => mem_takeWhile_imp _ _ _ hc, hb', ?_, ?_, ?_, ?_⟩
      · rw [List.append_assoc, ← hb, ← ha]
      · exact (lowc t 't' (by decide) (by decide) h'.1).imp id fun h => (char_eq_iff _ _).2 (by have : 'T'.toNat = 84 := rfl; have : 't'.toNat = 116 := rfl; omega)
      · exact (lowc r 'r' (by decide) (by decide) h'.2.1).imp id fun h => (char_eq_iff _ _).2 (by have : 'R'.toNat = 82 := rfl; have : 'r'.toNat = 114 := rfl; omega)
      · exact (lowc u 'u' (by decide) (by decide) h'.2.2.1).imp id fun h => (char_eq_iff _ _).2 (by have : 'U'.toNat = 85 := rfl; have : 'u'.toNat = 117 := rfl; omega)
      · exact (lowc e 'e' (by decide) (by decide) h'.2.2.2).imp id fun h => (char_eq_iff _ _).2 (by have : 'E'.toNat = 69 := rfl; have : 'e'.toNat = 101 := rfl; omega)
  · rintro ⟨a, b, t, r, u, e, rfl, ha, hb, ht, hr, hu, he⟩
    have hsp : isPySpace t = false ∧ isPySpace e = false := by
      rcases ht with rfl | rfl <;> rcases he with rfl | rfl <;> decide
    have : pyStrip (a ++ [t, r, u, e] ++ b) = [t, r, u, e] := by
      simp only [pyStrip, stripBy, lstripBy]
      rw [List.append_assoc, List.dropWhile_append, dropWhile_eq_nil isPySpace a ha]
      simp only [List.isEmpty_nil, if_true, List.cons_append, List.nil_append, List.dropWhile_cons, hsp.1, Bool.false_eq_true, if_false]
      exact rstripBy_append isPySpace [t, r, u, e] b hb (by intro c hc; simp at hc; subst hc; exact hsp.2)
    simp only [Option.getD_some]
    rw [this]
    rcases ht with rfl | rfl <;> rcases hr with rfl | rfl <;> rcases hu with rfl | rfl <;> rcases he with rfl | rfl <;> decide

/-- **C77** A disabled provider hands out no-op tracers only, an enabled one a tracer with the scope asked for. -/
theorem C77_tracer_scope (dis : Bool) (a : Args) :
    (dis = true → getTracer dis a = none) ∧
    (dis = false → ∃ s, getTracer dis a = some s ∧ s.name = a.name ∧ s.version = some (a.version.getD []) ∧ s.schema = a.schema.getD [] ∧ s.attrs = a.attrs) := by
  constructor
  · rintro rfl; rfl
  · rintro rfl; exact ⟨_, rfl, rfl, rfl, rfl, rfl⟩

/-! ## The loggers of a provider -/

/-- Is it the same logger? -/
def Same (a b : Args) : Prop := a.attrs = none ∧ b.attrs = none ∧ a.name = b.name ∧ a.version = b.version ∧ a.schema = b.schema

structure LInv (s : Loggers) : Prop where
  keys : ∀ (k : Str × Option Str × Option Str) (n : Nat), lookup k s.cache = some n → n < s.made.length ∧ s.made[n]? = some ⟨k.1, k.2.1, k.2.2.getD [], none⟩
  inj : ∀ (k k' : Str × Option Str × Option Str) (n : Nat), lookup k s.cache = some n → lookup k' s.cache = some n → k = k'

theorem lookup_append (k k' : Str × Option Str × Option Str) (n : Nat) (l : List ((Str × Option Str × Option Str) × Nat)) :
    lookup k (l ++ [(k', n)]) = (lookup k l).or (if k' = k then some n else none) := by
  induction l with
  | nil => simp [lookup]
  | cons x l ih =>
    obtain ⟨a, b⟩ := x
    simp only [List.cons_append, lookup]
    split
    · simp
    · exact ih

/-- What one call does. -/
theorem getLogger_spec (s : Loggers) (h : LInv s) (a : Args) :
    LInv (getLogger false s a).1 ∧ (∃ l, (getLogger false s a).1.made = s.made ++ l) ∧
    (∀ k n, lookup k s.cache = some n → lookup k (getLogger false s a).1.cache = some n) ∧
    ∃ n, (getLogger false s a).2 = some n ∧ (getLogger false s a).1.made[n]? = some ⟨a.name, a.version, a.schema.getD [], a.attrs⟩ ∧
      (a.attrs = none → lookup (a.name, a.version, a.schema) (getLogger false s a).1.cache = some n) ∧
      (a.attrs ≠ none → n = s.made.length ∧ (getLogger false s a).1.cache = s.cache) := by
  unfold getLogger
  simp only [Bool.false_eq_true, if_false]
  cases ha : a.attrs with
  | some x =>
    refine ⟨⟨?_, h.inj⟩, ⟨_, rfl⟩, fun _ _ h => h, _, rfl, by simp, by simp, by simp⟩
    intro k n hk
    obtain ⟨h1, h2⟩ := h.keys k n hk
    exact ⟨by simp only [List.length_append, List.length_singleton]; omega, get_append _ h2⟩
  | none =>
    simp only
    cases hl : lookup (a.name, a.version, a.schema) s.cache with
    | some n =>
      refine ⟨h, ⟨[], by simp⟩, fun _ _ h => h, n, rfl, ?_, fun _ => hl, by simp⟩
      exact (h.keys _ n hl).2
    | none =>
      simp only
      have look : ∀ k n, lookup k (s.cache ++ [((a.name, a.version, a.schema), s.made.length)]) = some n →
          lookup k s.cache = some n ∨ (k = (a.name, a.version, a.schema) ∧ n = s.made.length) := by
        intro k n hk
        rw [lookup_append] at hk
        cases hq : lookup k s.cache with
        | some m => rw [hq] at hk; exact .inl (by simpa using hk)
        | none =>
          rw [hq] at hk
          by_cases he : (a.name, a.version, a.schema) = k
          · simp only [he, if_true, Option.none_or, Option.some.injEq] at hk
            exact .inr ⟨he.symm, hk.symm⟩
          · simp only [he, if_false, Option.none_or] at hk
            cases hk
      refine ⟨⟨?_, ?_⟩, ⟨_, rfl⟩, ?_, _, rfl, by simp, ?_, by simp⟩
      · intro k n hk
        rcases look k n hk with hk | ⟨rfl, rfl⟩
        · obtain ⟨h1, h2⟩ := h.keys k n hk
          exact ⟨by simp only [List.length_append, List.length_singleton]; omega, get_append _ h2⟩
        · simp
      · intro k k' n hk hk'
        rcases look k n hk with hk | ⟨rfl, rfl⟩ <;> rcases look k' _ hk' with hk' | ⟨h1, h2⟩
        · exact h.inj k k' n hk hk'
        · exact absurd (h.keys k n hk).1 (by omega)
        · exact absurd (h.keys k' _ hk').1 (by omega)
        · exact h1.symm
      · intro k n hk
        rw [lookup_append, hk]; rfl
      · intro _
        rw [lookup_append, hl]; simp

/-- The logger `m` was returned for `a`. -/
structure Held (s : Loggers) (a : Args) (m : Nat) : Prop where
  made : s.made[m]? = some ⟨a.name, a.version, a.schema.getD [], a.attrs⟩
  cached : a.attrs = none → lookup (a.name, a.version, a.schema) s.cache = some m

theorem held_call (s : Loggers) (h : LInv s) (a b : Args) (m : Nat) (hh : Held s a m) :
    Held (getLogger false s b).1 a m ∧ ∀ n, (getLogger false s b).2 = some n → (m = n ↔ Same a b) := by
  obtain ⟨h1, ⟨e, h2⟩, h3, n, h4, h5, h6, h7⟩ := getLogger_spec s h b
  generalize getLogger false s b = r at h1 h2 h3 h4 h5 h6 h7
  have hm : m < s.made.length := (List.getElem?_eq_some_iff.1 hh.made).1
  have hmade : r.1.made[m]? = some ⟨a.name, a.version, a.schema.getD [], a.attrs⟩ := by
    rw [h2, List.getElem?_append_left hm]; exact hh.made
  refine ⟨⟨hmade, fun ha => h3 _ _ (hh.cached ha)⟩, ?_⟩
  intro n' hn'
  rw [h4] at hn'
  cases hn'
  constructor
  · rintro rfl
    have hb : b.attrs = none := by
      cases hq : b.attrs with
      | none => rfl
      | some x => exact absurd (h7 (by simp [hq])).1 (by omega)
    rw [hmade] at h5
    have h8 := Option.some.inj h5
    simp only [Scope.mk.injEq] at h8
    have ha : a.attrs = none := by rw [h8.2.2.2, hb]
    have hk := h1.inj _ _ m (h3 _ _ (hh.cached ha)) (h6 hb)
    simp only [Prod.mk.injEq] at hk
    exact ⟨ha, hb, hk⟩
  · rintro ⟨ha, hb, e1, e2, e3⟩
    have := h6 hb
    rw [← e1, ← e2, ← e3, h3 _ _ (hh.cached ha)] at this
    exact Option.some.inj this

theorem held_calls (s : Loggers) (h : LInv s) (a : Args) (m : Nat) (hh : Held s a m) (l : List Args) :
    Held (getLoggers false s l).1 a m ∧
    ∀ (j : Nat) (b : Args) (n : Nat), l[j]? = some b → (getLoggers false s l).2[j]? = some (some n) → (m = n ↔ Same a b) := by
  induction l generalizing s with
  | nil => exact ⟨hh, by simp⟩
  | cons c l ih =>
    obtain ⟨h1, h2⟩ := held_call s h a c m hh
    have h3 := (getLogger_spec s h c).1
    simp only [getLoggers]
    generalize getLogger false s c = r at h1 h2 h3
    obtain ⟨i1, i2⟩ := ih r.1 h3 h1
    refine ⟨i1, ?_⟩
    intro j b n hj hn
    cases j with
    | zero =>
      simp only [List.getElem?_cons_zero, Option.some.injEq] at hj hn
      subst hj
      exact h2 n hn
    | succ j =>
      simp only [List.getElem?_cons_succ] at hj hn
      exact i2 j b n hj hn

theorem same_from (s : Loggers) (h : LInv s) (l : List Args) :
    (∀ (i : Nat) (a : Args), l[i]? = some a → ∃ n, (getLoggers false s l).2[i]? = some (some n) ∧ Held (getLoggers false s l).1 a n) ∧
    ∀ (i j : Nat) (a b : Args) (m n : Nat), i < j → l[i]? = some a → l[j]? = some b → (getLoggers false s l).2[i]? = some (some m) →
      (getLoggers false s l).2[j]? = some (some n) → (m = n ↔ Same a b) := by
  induction l generalizing s with
  | nil => simp [getLoggers]
  | cons c l ih =>
    obtain ⟨h1, _, _, n, h4, h5, h6, _⟩ := getLogger_spec s h c
    simp only [getLoggers]
    generalize getLogger false s c = r at h1 h4 h5 h6
    obtain ⟨i1, i2⟩ := ih r.1 h1
    have hh : Held r.1 c n := ⟨h5, h6⟩
    obtain ⟨k1, k2⟩ := held_calls r.1 h1 c n hh l
    generalize getLoggers false r.1 l = q at i1 i2 k1 k2
    constructor
    · intro i a ha
      cases i with
      | zero =>
        simp only [List.getElem?_cons_zero, Option.some.injEq] at ha
        subst ha
        exact ⟨n, by simp [h4], k1⟩
      | succ i => simpa using i1 i a (by simpa using ha)
    · intro i j a b m n' hij ha hb hm hn
      cases j with
      | zero => omega
      | succ j =>
        simp only [List.getElem?_cons_succ] at hb hn
        cases i with
        | zero =>
          simp only [List.getElem?_cons_zero, Option.some.injEq] at ha hm
          subst ha
          rw [h4] at hm
          cases hm
          exact k2 j b n' hb hn
        | succ i =>
          simp only [List.getElem?_cons_succ] at ha hm
          exact i2 i j a b m n' (by omega) ha hb hm hn

/-- A provider that has made no logger yet. -/
def noLoggers : Loggers := ⟨[], []⟩

theorem linv_empty : LInv noLoggers := ⟨by simp [noLoggers, lookup], by simp [noLoggers, lookup]⟩

/-- **C77** In every history of `get_logger` calls on an enabled provider, each call returns a logger with the scope asked for, and two calls
return the same logger exactly if neither gives attributes and name, version and schema URL agree. -/
theorem C77_loggers (l : List Args) :
    (∀ (i : Nat) (a : Args), l[i]? = some a → ∃ n, (getLoggers false noLoggers l).2[i]? = some (some n) ∧
      (getLoggers false noLoggers l).1.made[n]? = some ⟨a.name, a.version, a.schema.getD [], a.attrs⟩) ∧
    ∀ (i j : Nat) (a b : Args) (m n : Nat), i < j → l[i]? = some a → l[j]? = some b → (getLoggers false noLoggers l).2[i]? = some (some m) →
      (getLoggers false noLoggers l).2[j]? = some (some n) →
      (m = n ↔ a.attrs = none ∧ b.attrs = none ∧ a.name = b.name ∧ a.version = b.version ∧ a.schema = b.schema) :=
  ⟨fun i a ha => ((same_from _ linv_empty l).1 i a ha).imp fun _ h => ⟨h.1, h.2.made⟩, (same_from _ linv_empty l).2⟩

/-- **C77** A disabled provider hands out no-op loggers only. -/
theorem C77_loggers_disabled (s : Loggers) (l : List Args) : getLoggers true s l = (s, l.map fun _ => none) := by
  induction l generalizing s with
  | nil => rfl
  | cons a l ih => simp [getLoggers, getLogger, ih]

/-- The same name, with and without attributes: loggers 0, 1, 0, 2. -/
example : (getLoggers false noLoggers [⟨"a".toList, none, none, none⟩, ⟨"a".toList, none, none, some 1⟩, ⟨"a".toList, none, none, none⟩,
    ⟨"a".toList, some [], none, none⟩]).2 = [some 0, some 1, some 0, some 2] := by decide +kernel

/-! ## Programs without an SDK -/
open Tracer (Prog World Wire)
open UseSpan (Esc)

/-- The program without its tracing: the places where it looks at the current span (`true`: in another service), and the exception that
leaves it. -/
def plain (r : Bool) : Prog → List Bool × Option Esc
  | .skip | .op _ _ | .start _ => ([], none)
  | .look => ([r], none)
  | .raise e => ([], some e)
  | .seq a b =>
    match (plain r a).2 with
    | none => ((plain r a).1 ++ (plain r b).1, (plain r b).2)
    | some e => ((plain r a).1, some e)
  | .tryExcept a b =>
    match (plain r a).2 with
    | some (.exception _ _) => ((plain r a).1 ++ (plain r b).1, (plain r b).2)
    | e => ((plain r a).1, e)
  | .block _ b => plain r b
  | .remote _ b => ((plain true b).1, none)

theorem plain_remote (p : Prog) : (plain true p).1 = (plain false p).1.map (fun _ => true) ∧ (plain true p).2 = (plain false p).2 := by
  induction p with
  | skip => exact ⟨rfl, rfl⟩
  | look => exact ⟨rfl, rfl⟩
  | op i s => exact ⟨rfl, rfl⟩
  | raise e => exact ⟨rfl, rfl⟩
  | start o => exact ⟨rfl, rfl⟩
  | block o b ih => exact ih
  | remote S b ih =>
    refine ⟨?_, rfl⟩
    simp only [plain]
    rw [ih.1, List.map_map]; rfl
  | seq a b iha ihb =>
    simp only [plain]
    rw [iha.2]
    cases (plain false a).2 with
    | none => simp [iha.1, ihb.1, ihb.2]
    | some e => simp [iha.1]
  | tryExcept a b iha ihb =>
    simp only [plain]
    rw [iha.2]
    cases (plain false a).2 with
    | none => simp [iha.1]
    | some e => cases e <;> simp [iha.1, ihb.1, ihb.2]

/-- What is seen from another service. -/
def seenFrom (cur : SpanContext) (r : Bool) : SpanContext := if cur.isValid && r then { cur with isRemote := true } else cur

theorem remote_seen (c : Ctx) (hc : Wire (Ctx.currentSpan c) ∨ Ctx.currentSpan c = SpanContext.invalid) :
    Ctx.currentSpan ((Runtime.init.attach 0 (TraceContext.extract (TraceContext.inject [] c) (Runtime.init.getCurrent 0))).1.getCurrent 0) =
      seenFrom (Ctx.currentSpan c) true := by
  simp only [Runtime.attach, Runtime.getCurrent, if_true, Option.getD_some]
  rcases hc with h1 | h1
  · have := TraceContext.C04_inject_extract_roundtrip [] c [] _ rfl h1.1 h1.2.1 h1.2.2 (.inr rfl)
    have e : Runtime.init.value 0 = none := rfl
    rw [e]
    simp only [Option.getD_none]
    rw [this, (Ctx.C06_current_span _ _).1]
    simp [seenFrom, h1.1]
  · have hi : TraceContext.inject [] c = [] := TraceContext.C04_invalid_not_injected [] _ h1
    rw [hi, h1]
    rfl

theorem wire_seen (cur : SpanContext) (h : Wire cur ∨ cur = SpanContext.invalid) (r : Bool) :
    Wire (seenFrom cur r) ∨ seenFrom cur r = SpanContext.invalid := by
  unfold seenFrom
  split
  · rename_i hv
    rcases h with h | h
    · exact .inl ⟨h.1, h.2.1, h.2.2⟩
    · subst h
      simp [SpanContext.invalid, SpanContext.isValid] at hv
  · exact h

/-- **C77** Without an SDK a program runs as if it were not traced, and its instrumentation passes traces through: for every program, the
exception that leaves it is the program's own, the context, the spans and the processors are left alone, and at every point of the program, in
every service it calls, the current span is the one that was current at the outset, the same trace id, span id, flags and trace state. -/
theorem C77_transparent (t : Nat) (p : Prog) (w : World)
    (hc : Wire (Ctx.currentSpan (w.rt.getCurrent t)) ∨ Ctx.currentSpan (w.rt.getCurrent t) = SpanContext.invalid) :
    noopRun t p w =
      ({ w with seen := w.seen ++ (plain false p).1.map (seenFrom (Ctx.currentSpan (w.rt.getCurrent t))) }, (plain false p).2) := by
  induction p generalizing t w with
  | skip => simp [noopRun, plain]
  | look => simp [noopRun, plain, seenFrom]
  | op i s => simp [noopRun, plain]
  | raise e => simp [noopRun, plain]
  | start o => simp [noopRun, plain]
  | block o b ih => exact ih t w hc
  | seq a b iha ihb =>
    simp only [noopRun, plain, iha t w hc]
    cases (plain false a).2 with
    | none => simp only; rw [ihb t _ (by exact hc)]; simp
    | some e => rfl
  | tryExcept a b iha ihb =>
    simp only [noopRun, plain, iha t w hc]
    cases (plain false a).2 with
    | none => rfl
    | some e =>
      cases e with
      | base n => rfl
      | exception x y => simp only; rw [ihb t _ (by exact hc)]; simp
  | remote S b ih =>
    have hs := remote_seen (w.rt.getCurrent t) hc
    simp only [noopRun, plain]
    rw [ih 0 _ (by rw [hs]; exact wire_seen _ hc true)]
    simp only [hs, (plain_remote b).1, List.map_map]
    congr 3
    apply List.map_congr_left
    intro r _
    simp only [Function.comp, seenFrom, Bool.and_true]
    split
    · split <;> rfl
    · rename_i hv
      simp [hv]

/-- **C77**, a limit: `with use_span(tracer.start_span(…))`, unlike `start_as_current_span`, hides the current span when there is no SDK: inside
the block the current span is invalid, so a trace from outside is not passed on. -/
theorem C77_use_span_hides (t : Nat) (o : Tracer.Opts) (w : World) :
    (noopUseSpan t (noopRun t .look) w).1.seen = w.seen ++ [SpanContext.invalid] ∧
    (noopRun t (.block o .look) w).1.seen = w.seen ++ [Ctx.currentSpan (w.rt.getCurrent t)] := by
  constructor <;> simp [noopUseSpan, noopRun, Runtime.attach, Runtime.getCurrent, Ctx.C06_current_span]

theorem noopRun_rt (p : Tracer.Prog) (t : Nat) (w : World) : (noopRun t p w).1.rt = w.rt := by
  induction p generalizing t w with
  | skip => rfl
  | look => rfl
  | op i s => rfl
  | raise e => rfl
  | start o => rfl
  | seq a b iha ihb =>
    simp only [noopRun]
    split
    · rw [ihb, iha]
    · exact iha t w
  | tryExcept a b iha ihb =>
    simp only [noopRun]
    split
    · rw [ihb, iha]
    · exact iha t w
  | block o b ih => exact ih t w
  | remote S b ih => rfl

/-- **C77** … and after the block every thread's current context is what it was, whatever the body did, also if it raised; and what the body
raises comes out. -/
theorem C77_use_span_restores (t : Nat) (p : Tracer.Prog) (w : World) (hw : Tracer.FreshRt w.rt) (u : Nat) :
    (noopUseSpan t (noopRun t p) w).1.rt.getCurrent u = w.rt.getCurrent u ∧
    (noopUseSpan t (noopRun t p) w).2 = (noopRun t p { w with rt := (w.rt.attach t (Ctx.setSpan (w.rt.getCurrent t) SpanContext.invalid)).1 }).2 := by
  refine ⟨?_, rfl⟩
  have hn : w.rt.nextUid ∉ w.rt.used := fun h => Nat.lt_irrefl _ (hw _ h)
  simp only [noopUseSpan, noopRun_rt, Runtime.detach, Runtime.attach, Runtime.getCurrent, hn, not_false_eq_true, and_self, if_true]
  split
  · rename_i h; rw [h]
  · rfl

end ProxyTracer
end Otel
