import Verif.Spec.Callbacks
import Mathlib.Data.List.Induction
import Mathlib.Tactic.Linarith
/-!
# C126: callbacks of asynchronous instruments
-/
namespace Otel
namespace Callbacks
open Spec
variable {σ ο : Type}

theorem collect_eq (o : ο) (hs : List (Held σ ο)) : collect o hs =
    ((hs.flatMap (fun h => (call o h).1.obs), (hs.filter (fun h => (call o h).1.raises)).length), hs.map (fun h => (call o h).2)) := by
  induction hs with
  | nil => rfl
  | cons h hs ih =>
    simp only [collect, ih, List.flatMap_cons, List.map_cons]
    cases hr : (call o h).1.raises <;> simp [hr]

/-- **C126** Callbacks do not affect each other: in each collection the reader observes what each callback yields, in the order of the callbacks,
whichever of them raise; each callback goes its own way through the collections of all readers. -/
theorem C126_independent (hs : List (Held σ ο)) (l : List (Nat × ο)) (n : Nat) :
    (run hs l)[n]? = l[n]?.map (fun e => (e.1, hs.flatMap (fun h => ((calls h (l.map Prod.snd))[n]?.map (·.obs)).getD []),
      (hs.filter (fun h => ((calls h (l.map Prod.snd))[n]?.map (·.raises)).getD false)).length)) := by
  induction l generalizing hs n with
  | nil => simp [run]
  | cons e l ih =>
    obtain ⟨r, o⟩ := e
    cases n with
    | zero =>
      simp only [run, List.getElem?_cons_zero, Option.map_some, List.map_cons, calls, collect_eq, Option.getD_some]
    | succ n =>
      simp only [run, List.getElem?_cons_succ, List.map_cons, calls, collect_eq]
      rw [ih]
      simp only [List.flatMap_map, List.filter_map, List.length_map]
      rfl

theorem calls_function (f : Nat → ο → Yield σ) (k : Nat) (os : List ο) (n : Nat) :
    (calls (.function f k) os)[n]? = os[n]?.map (fun o => f (k + n) o) := by
  induction os generalizing k n with
  | nil => simp [calls]
  | cons o os ih =>
    cases n with
    | zero => simp [calls, call]
    | succ n =>
      simp only [calls, call, List.getElem?_cons_succ]
      rw [ih, show k + 1 + n = k + (n + 1) from by omega]

/-- **C126** A function is called once in each collection, whoever collects and whatever it did before. -/
theorem C126_function (f : Nat → ο → Yield σ) (os : List ο) (n : Nat) :
    (calls (.function f 0) os)[n]? = os[n]?.map (fun o => f n o) := by
  rw [calls_function]; simp

theorem calls_over (os : List ο) : calls (.over : Held σ ο) os = os.map (fun _ => ⟨[], false⟩) := by
  induction os with
  | nil => rfl
  | cons o os ih => simp [calls, call, ih]

open Classical in
theorem calls_generator (g : List ο → Out σ) (sent os : List ο) (n : Nat) (hn : n < os.length) :
    (calls (.generator g sent) os)[n]? = some (if ∀ j, j ≤ n → 0 < j → ∃ y, g (sent ++ os.take j) = .yield y then
      (match g (sent ++ os.take (n + 1)) with | .yield y => y | .ret => ⟨[], false⟩ | .throw => ⟨[], true⟩) else ⟨[], false⟩) := by
  induction os generalizing sent n with
  | nil => simp at hn
  | cons o os ih =>
    simp only [calls, call]
    cases n with
    | zero =>
      rw [if_pos (by intro j h1 h2; omega)]
      simp only [List.take_succ_cons, List.take_zero]
      cases g (sent ++ [o]) <;> simp
    | succ n =>
      simp only [List.getElem?_cons_succ]
      have hn' : n < os.length := by simpa using hn
      cases hg : g (sent ++ [o]) with
      | yield y =>
        simp only []
        rw [ih (sent ++ [o]) n hn']
        congr 1
        have hiff : (∀ j, j ≤ n → 0 < j → ∃ y, g (sent ++ [o] ++ os.take j) = .yield y) ↔
            (∀ j, j ≤ n + 1 → 0 < j → ∃ y, g (sent ++ (o :: os).take j) = .yield y) := by
          constructor
          · intro h j h1 h2
            obtain ⟨j, rfl⟩ : ∃ i, j = i + 1 := ⟨j - 1, by omega⟩
            cases j with
            | zero => exact ⟨y, by simpa using hg⟩
            | succ j =>
              obtain ⟨y', hy⟩ := h (j + 1) (by omega) (by omega)
              exact ⟨y', by simpa using hy⟩
          · intro h j h1 h2
            obtain ⟨y', hy⟩ := h (j + 1) (by omega) (by omega)
            exact ⟨y', by simpa using hy⟩
        by_cases hc : ∀ j, j ≤ n → 0 < j → ∃ y, g (sent ++ [o] ++ os.take j) = .yield y
        · rw [if_pos hc, if_pos (hiff.1 hc)]
          simp
        · rw [if_neg hc, if_neg (fun h => hc (hiff.2 h))]
      | ret =>
        simp only []
        rw [calls_over, if_neg]
        · simp [hn']
        · intro h
          obtain ⟨y, hy⟩ := h 1 (by omega) (by omega)
          simp [hg] at hy
      | throw =>
        simp only []
        rw [calls_over, if_neg]
        · simp [hn']
        · intro h
          obtain ⟨y, hy⟩ := h 1 (by omega) (by omega)
          simp [hg] at hy

/-- **C126** A generator is resumed once in each collection, whoever collects: the `n`-th collection gets what it yields then; once it has returned
or raised, every later collection gets nothing, and no failure is reported. -/
theorem C126_generator (g : List ο → Out σ) (os : List ο) (n : Nat) (hn : n < os.length) (h0 : ∃ y, g [] = .yield y) :
    (Running g os n → (calls (.generator g []) os)[n]? = some (match g (os.take (n + 1)) with | .yield y => y | .ret => ⟨[], false⟩ | .throw => ⟨[], true⟩)) ∧
    (¬ Running g os n → (calls (.generator g []) os)[n]? = some ⟨[], false⟩) := by
  classical
  rw [calls_generator g [] os n hn]
  simp only [List.nil_append]
  have hiff : (∀ j, j ≤ n → 0 < j → ∃ y, g (os.take j) = .yield y) ↔ Running g os n := by
    constructor
    · intro h j hj
      cases j with
      | zero => simpa using h0
      | succ j => exact h (j + 1) hj (by omega)
    · intro h j hj _
      exact h j hj
  constructor
  · intro h; rw [if_pos (hiff.2 h)]
  · intro h; rw [if_neg (fun hc => h (hiff.1 hc))]

/-- **C126** The constructor succeeds exactly if every generator reaches a first `yield`; what that yields is not used. -/
theorem C126_construct (cs : List (Callback σ ο)) :
    ((construct cs).isSome = true ↔ ∀ g, Callback.generator g ∈ cs → ∃ y, g [] = .yield y) ∧
    ∀ hs, construct cs = some hs → hs = cs.map (fun | .function f => .function f 0 | .generator g => .generator g []) := by
  induction cs with
  | nil => simp [construct]
  | cons c cs ih =>
    cases c with
    | function f =>
      simp only [construct, hold]
      constructor
      · rw [Option.isSome_map, ih.1]
        simp
      · intro hs h
        obtain ⟨x, hx, rfl⟩ := Option.map_eq_some_iff.1 h
        rw [ih.2 x hx]; rfl
    | generator g =>
      simp only [construct, hold]
      cases hg : g [] with
      | yield y =>
        simp only []
        constructor
        · rw [Option.isSome_map, ih.1]
          constructor
          · intro h g' hg'
            rcases List.mem_cons.1 hg' with he | he
            · cases he; exact ⟨y, hg⟩
            · exact h g' he
          · intro h g' hg'
            exact h g' (by simp [hg'])
        · intro hs h
          obtain ⟨x, hx, rfl⟩ := Option.map_eq_some_iff.1 h
          rw [ih.2 x hx]; rfl
      | ret =>
        simp only [Option.isSome_none]
        refine ⟨⟨fun h => (by cases h), fun h => ?_⟩, fun hs h => (by cases h)⟩
        obtain ⟨y, hy⟩ := h g (by simp)
        rw [hg] at hy; cases hy
      | throw =>
        simp only [Option.isSome_none]
        refine ⟨⟨fun h => (by cases h), fun h => ?_⟩, fun hs h => (by cases h)⟩
        obtain ⟨y, hy⟩ := h g (by simp)
        rw [hg] at hy; cases hy

/-- **C126** With a single reader, a generator that always yields, and no other callback, the reader observes everything that is yielded (but for the
first `yield`), in order. -/
theorem C126_single (y : List ο → Yield σ) (r : Nat) (os : List ο) :
    seen r (run [.generator (fun os => .yield (y os)) []] (os.map (fun o => (r, o)))) = (List.range os.length).map (fun n => (y (os.take (n + 1))).obs) := by
  apply List.ext_getElem?
  intro n
  have hall : ∀ e ∈ run [.generator (fun os => .yield (y os)) []] (os.map (fun o => (r, o))), e.1 = r := by
    have : ∀ (hs : List (Held σ ο)) (l : List (Nat × ο)), (∀ e ∈ l, e.1 = r) → ∀ e ∈ run hs l, e.1 = r := by
      intro hs l
      induction l generalizing hs with
      | nil => intro _ e he; cases he
      | cons e l ih =>
        obtain ⟨r', o⟩ := e
        intro h e' he'
        rcases List.mem_cons.1 he' with he' | he'
        · rw [he']; exact h (r', o) (by simp)
        · exact ih _ (fun e he => h e (by simp [he])) e' he'
    apply this
    intro e he
    obtain ⟨o, _, rfl⟩ := List.mem_map.1 he
    rfl
  unfold seen
  rw [List.filter_eq_self.2 (fun e he => by simpa using hall e he), List.getElem?_map, C126_independent]
  simp only [List.getElem?_map, List.map_map, Function.comp_def, List.map_id', List.flatMap_cons, List.flatMap_nil, List.append_nil]
  by_cases hn : n < os.length
  · rw [(C126_generator _ os n hn ⟨_, rfl⟩).1 (fun j _ => ⟨_, rfl⟩)]
    simp [hn]
  · rw [show os[n]? = none from List.getElem?_eq_none (by omega)]
    simp [hn]

/-! ## Time -/

/-- **C126** A callback is run only before the deadline, and is told the time that is left, or the default if that is less: a positive time. -/
theorem C126_told (deadline dflt now : Int) (hd : 0 < dflt) (l : List (Int × Int)) (ho : Ordered now l) (n : Nat) (t : Int)
    (h : (told deadline dflt dflt l).1[n]? = some t) :
    ∃ t1 t2, l[n]? = some (t1, t2) ∧ t = min dflt (deadline - t1) ∧ t2 < deadline ∧ 0 < t ∧ now + t ≤ max deadline (now + dflt) := by
  have key : ∀ (l : List (Int × Int)) (now' opt : Int) (n : Nat), now ≤ now' → (opt = dflt ∨ (deadline - now' < dflt)) → Ordered now' l →
      (told deadline dflt opt l).1[n]? = some t →
      ∃ t1 t2, l[n]? = some (t1, t2) ∧ t = min dflt (deadline - t1) ∧ t2 < deadline ∧ 0 < t ∧ now ≤ t1 := by
    intro l
    induction l with
    | nil => intro now' opt n _ _ _ h; simp [told] at h
    | cons e l ih =>
      obtain ⟨t1, t2⟩ := e
      intro now' opt n hnow hopt ho h
      obtain ⟨h1, h2, h3⟩ := ho
      simp only [told] at h
      by_cases hdl : t2 ≥ deadline
      · rw [if_pos hdl] at h; simp at h
      · rw [if_neg hdl] at h
        cases n with
        | zero =>
          simp only [List.getElem?_cons_zero, Option.some.injEq] at h
          refine ⟨t1, t2, rfl, ?_, by omega, ?_, by omega⟩
          · rw [← h]
            split_ifs with hc
            · omega
            · rcases hopt with rfl | hopt
              · omega
              · omega
          · rw [← h]
            split_ifs with hc
            · omega
            · rcases hopt with rfl | hopt
              · omega
              · omega
        | succ n =>
          simp only [List.getElem?_cons_succ] at h ⊢
          refine ih t2 _ n (by omega) ?_ h3 h
          split_ifs with hc
          · right; omega
          · rcases hopt with h | h
            · exact .inl h
            · right; omega
  obtain ⟨t1, t2, h1, h2, h3, h4, h5⟩ := key l now dflt n (Int.le_refl _) (.inl rfl) ho h
  refine ⟨t1, t2, h1, h2, h3, h4, ?_⟩
  omega

/-- **C126** The collection fails with a timeout exactly if an instrument's turn comes at or after the deadline; all instruments before the first
such one have been asked. How long the last one takes is not checked. -/
theorem C126_timeout (deadline dflt opt : Int) (l : List (Int × Int)) :
    ((told deadline dflt opt l).2 = true ↔ ∃ e ∈ l, deadline ≤ e.2) ∧
    (told deadline dflt opt l).1.length = (l.takeWhile (fun e => decide (e.2 < deadline))).length := by
  induction l generalizing opt with
  | nil => simp [told]
  | cons e l ih =>
    obtain ⟨t1, t2⟩ := e
    simp only [told]
    by_cases hd : t2 ≥ deadline
    · rw [if_pos hd, List.takeWhile_cons_of_neg (by simpa using hd)]
      exact ⟨⟨fun _ => ⟨(t1, t2), by simp, hd⟩, fun _ => rfl⟩, rfl⟩
    · rw [if_neg hd, List.takeWhile_cons_of_pos (by simpa using hd)]
      obtain ⟨h1, h2⟩ := ih (if deadline - t1 < dflt then deadline - t1 else opt)
      refine ⟨?_, ?_⟩
      · simp only [h1, List.mem_cons, exists_eq_or_imp]
        constructor
        · exact .inr
        · rintro (h | h)
          · exact absurd h hd
          · exact h
      · simp only [List.length_cons]; omega

/-! ## Findings -/

/-- **C126** (finding) Two readers share a generator: what it yields in a collection of one never reaches the other. -/
theorem C126_readers_violated : ∃ g : List Unit → Out Nat, (∀ os, ∃ y, g os = .yield ⟨[y], false⟩) ∧
    ∀ n, seen 0 (run [.generator g []] ((List.range n).flatMap (fun _ => [(0, ()), (1, ())]))) = (List.range n).map (fun i => [2 * i + 1]) ∧
      seen 1 (run [.generator g []] ((List.range n).flatMap (fun _ => [(0, ()), (1, ())]))) = (List.range n).map (fun i => [2 * i + 2]) := by
  refine ⟨fun os => .yield ⟨[os.length], false⟩, fun os => ⟨_, rfl⟩, ?_⟩
  intro n
  have key : ∀ (n : Nat) (sent : List Unit) (l : List Nat), l.length = n →
      seen 0 (run [.generator (fun os => .yield ⟨[os.length], false⟩) sent] (l.flatMap (fun _ => [(0, ()), (1, ())]))) = (List.range n).map (fun i => [sent.length + 2 * i + 1]) ∧
      seen 1 (run [.generator (fun os => .yield ⟨[os.length], false⟩) sent] (l.flatMap (fun _ => [(0, ()), (1, ())]))) = (List.range n).map (fun i => [sent.length + 2 * i + 2]) := by
    intro n
    induction n with
    | zero => intro sent l hl; rw [List.length_eq_zero_iff.1 hl]; exact ⟨rfl, rfl⟩
    | succ n ih =>
      intro sent l hl
      cases l with
      | nil => simp at hl
      | cons x l =>
        obtain ⟨h0, h1⟩ := ih (sent ++ [()] ++ [()]) l (by simpa using hl)
        simp only [List.flatMap_cons, List.cons_append, List.nil_append, run, collect, call]
        rw [List.range_succ_eq_map]
        simp only [List.map_cons, List.map_map]
        unfold seen at h0 h1 ⊢
        constructor
        · rw [List.filter_cons_of_pos (by simp), List.filter_cons_of_neg (by simp), List.map_cons, h0]
          simp only [List.length_append, List.length_singleton, List.append_nil, Function.comp_def]
          refine congrArg₂ _ (by simp) (List.map_congr_left ?_)
          intro i _
          simp only [List.cons.injEq, and_true]; omega
        · rw [List.filter_cons_of_neg (by simp), List.filter_cons_of_pos (by simp), List.map_cons, h1]
          simp only [List.length_append, List.length_singleton, List.append_nil, Function.comp_def]
          refine congrArg₂ _ (by simp) (List.map_congr_left ?_)
          intro i _
          simp only [List.cons.injEq, and_true]; omega
  have := key n [] (List.range n) (by simp)
  simpa using this

/-- **C126** (finding) A generator that raises once is silent for ever, and nothing says so, where a function is called again. -/
theorem C126_silenced_violated (x : σ) (os : List ο) : ∃ (g : List ο → Out σ) (f : Nat → ο → Yield σ),
    (∀ os', os'.length ≠ 1 → g os' = .yield ⟨[x], false⟩) ∧ (∀ n o, n ≠ 0 → f n o = ⟨[x], false⟩) ∧
    ∀ o, calls (.generator g []) (o :: os) = ⟨[], true⟩ :: os.map (fun _ => ⟨[], false⟩) ∧
      calls (.function f 0) (o :: os) = ⟨[], true⟩ :: os.map (fun _ => ⟨[x], false⟩) := by
  refine ⟨fun os' => if os'.length = 1 then .throw else .yield ⟨[x], false⟩, fun n _ => if n = 0 then ⟨[], true⟩ else ⟨[x], false⟩,
    fun os' h => if_neg h, fun n o h => if_neg h, ?_⟩
  intro o
  constructor
  · simp [calls, call, calls_over]
  · simp only [calls, call, if_true, List.cons.injEq, true_and]
    have : ∀ (os : List ο) (k : Nat), k ≠ 0 → calls (.function (fun n (_ : ο) => if n = 0 then ⟨[], true⟩ else ⟨[x], false⟩) k) os = os.map (fun _ => ⟨[x], false⟩) := by
      intro os
      induction os with
      | nil => intro k _; rfl
      | cons o os ih => intro k hk; simp only [calls, call, List.map_cons, if_neg hk]; rw [ih (k + 1) (by omega)]
    exact this os 1 (by omega)

/-- **C126** (finding) Creating an instrument with a generator that returns before its first `yield` raises `StopIteration` in the application; and
the observations of the first `yield` are never used. -/
theorem C126_first_violated (x : σ) (l : List (Nat × ο)) :
    (∃ g : List ο → Out σ, g [] = .ret ∧ construct [.generator g] = none) ∧
    ∃ g : List ο → Out σ, g [] = .yield ⟨[x], false⟩ ∧ ∀ hs, construct [.generator g] = some hs → ∀ e ∈ run hs l, e.2.1 = [] := by
  refine ⟨⟨fun _ => .ret, rfl, rfl⟩, fun os => if os.length = 0 then .yield ⟨[x], false⟩ else .yield ⟨[], false⟩, rfl, ?_⟩
  intro hs hhs
  have := (C126_construct [.generator (fun os : List ο => if os.length = 0 then Out.yield (⟨[x], false⟩ : Yield σ) else .yield ⟨[], false⟩)]).2 hs hhs
  subst this
  simp only [List.map_cons, List.map_nil]
  have key : ∀ (l : List (Nat × ο)) (sent : List ο), ∀ e ∈ run [.generator (fun os : List ο => if os.length = 0 then Out.yield (⟨[x], false⟩ : Yield σ) else .yield ⟨[], false⟩) sent] l, e.2.1 = [] := by
    intro l
    induction l with
    | nil => intro sent e he; cases he
    | cons e l ih =>
      obtain ⟨r, o⟩ := e
      intro sent e' he'
      have hy : (if (sent ++ [o]).length = 0 then Out.yield (⟨[x], false⟩ : Yield σ) else .yield ⟨[], false⟩) = .yield ⟨[], false⟩ := if_neg (by simp)
      simp only [run, collect, call, hy] at he'
      rcases List.mem_cons.1 he' with he' | he'
      · rw [he']; rfl
      · exact ih _ e' he'
  exact key l []

/-! ## Examples -/

/-- A function that fails in the second collection beside a generator that ends in the third. -/
example : (construct [.function (fun n (_ : Nat) => if n = 1 then ⟨[10], true⟩ else ⟨[n, n], false⟩),
      .generator (fun os => if os.length = 3 then .ret else .yield ⟨[100 + os.length], false⟩)]).map
    (fun hs => run hs [(0, 5), (1, 5), (0, 5), (0, 5)]) = some [(0, [0, 0, 101], 0), (1, [10, 102], 1), (0, [2, 2], 0), (0, [3, 3], 0)] := by decide +kernel

/-- A collection with 12 s in which the second instrument has 4 s left and the third is too late. -/
example : Ordered 0 [(0, 0), (8, 8), (12, 12)] ∧ told 12 10 10 [(0, 0), (8, 8), (12, 12)] = ([10, 4], true) := by
  simp [Ordered, told]

end Callbacks
end Otel
