import Verif.Model.Conflicts
import Verif.Spec.Conflicts
import Mathlib.Data.List.Induction
import Mathlib.Tactic.SplitIfs
import Mathlib.Tactic.Tauto
/-!
# C121: warnings about streams that cannot be told apart
-/
namespace Otel
namespace Conflicts
open Metrics
variable {α : Type}

/-- The name in the identity is the one the model's stream is reported under. -/
theorem name_eq (s : Stream α) : s.name = Spec.nameOf s := by
  unfold Stream.name Spec.nameOf
  cases s.view.name with
  | none => rfl
  | some n => cases n <;> simp [Option.filter]

theorem conflicts_eq (table : Kind → AggConf α) (a b : Stream α) : conflicts table a b = some (decide (Spec.identity table a = Spec.identity table b)) := by
  unfold conflicts
  simp only [Spec.identity, Spec.Identity.mk.injEq, ← name_eq]
  generalize a.cls table = x
  generalize b.cls table = y
  by_cases hn : a.name = b.name <;> by_cases hu : a.instr.unit = b.instr.unit
  · rw [hn, hu]
    cases x <;> cases y <;> simp [sameClass, Cls.monotonic?, Cls.temporality?]
    rename_i m t m' t'
    by_cases hm : m = m' <;> by_cases ht : t = t' <;> simp [hm, ht]
  all_goals cases x <;> cases y <;> simp [sameClass, hn, hu]

/-- `conflicts` never raises, and holds exactly if the two streams have the same identity; so it does not matter which of them is asked. -/
theorem C121_conflicts (table : Kind → AggConf α) (a b : Stream α) :
    (conflicts table a b = some true ↔ Spec.identity table a = Spec.identity table b) ∧ conflicts table a b ≠ none ∧ conflicts table a b = conflicts table b a := by
  rw [conflicts_eq, conflicts_eq]
  refine ⟨by simp, by simp, ?_⟩
  congr 1
  exact decide_eq_decide.2 eq_comm

/-- The kind of data `conflicts` looks at is that of the aggregations the stream makes for its measurements. -/
theorem C121_data [AddCommGroup α] [LinearOrder α] (dflt : List α) (table : Kind → AggConf α) (s : Stream α) (start : Int) :
    s.cls table = Spec.dataOf s.instr.kind.monotonic ((effective table s.view s.instr).create dflt s.instr start) := by
  obtain ⟨w, i⟩ := s
  have h : ∀ conf : AggConf α, clsOf conf i.kind = Spec.dataOf i.kind.monotonic (conf.create dflt i start) := by
    intro conf
    cases conf with
    | default => cases hk : i.kind <;> simp [clsOf, AggConf.create, hk, defaultCls, Spec.dataOf, Kind.monotonic, SumAgg.new]
    | _ => simp [clsOf, AggConf.create, Spec.dataOf, SumAgg.new]
  simp only [Stream.cls, effective]
  cases w.agg <;> exact h _

theorem streamsOf_eq (fnm : Str → Str → Bool) (views : List (View α)) (i : Instr α) :
    (if (viewStreams fnm views i).isEmpty then [⟨defaultView, i⟩] else viewStreams fnm views i) = Spec.streamsOf fnm views i := by
  unfold viewStreams Spec.streamsOf viewsFor
  cases h : views.filter (fun w => w.matches fnm i && w.compatible i) with
  | nil => rfl
  | cons x xs => rfl

theorem mem_viewStreams (fnm : Str → Str → Bool) (views : List (View α)) (i : Instr α) (s : Stream α) :
    s ∈ viewStreams fnm views i ↔ s.instr = i ∧ Spec.Viewed fnm views s := by
  simp only [viewStreams, List.mem_map, List.mem_filter, Bool.and_eq_true, Spec.Viewed]
  constructor
  · rintro ⟨w, ⟨h1, h2⟩, rfl⟩; exact ⟨rfl, h1, h2⟩
  · rintro ⟨rfl, h1, h2⟩; exact ⟨s.view, ⟨h1, h2⟩, rfl⟩

theorem run_snoc (fnm : Str → Str → Bool) (table : Kind → AggConf α) (views : List (View α)) (is : List (Instr α)) (i : Instr α) :
    run fnm table views (is ++ [i]) = measure fnm table views (run fnm table views is) i := by
  simp [run]

/-- What the storage knows. -/
theorem known_run (fnm : Str → Str → Bool) (table : Kind → AggConf α) (views : List (View α)) (is : List (Instr α)) :
    (∀ n, (run fnm table views is).known.any (fun e => e.1 == n) = true ↔ ∃ i ∈ is, i.id = n) ∧
    (∀ e ∈ (run fnm table views is).known, ∃ i ∈ is, e = (i.id, Spec.streamsOf fnm views i)) := by
  induction is using List.reverseRecOn with
  | nil => simp [run, init]
  | append_singleton l i ih =>
    rw [run_snoc]
    obtain ⟨h1, h2⟩ := ih
    unfold measure
    split_ifs with h
    · refine ⟨fun n => ?_, fun e he => ?_⟩
      · rw [h1 n]
        constructor
        · rintro ⟨j, hj, rfl⟩; exact ⟨j, List.mem_append_left _ hj, rfl⟩
        · rintro ⟨j, hj, rfl⟩
          rcases List.mem_append.1 hj with hj | hj
          · exact ⟨j, hj, rfl⟩
          · obtain rfl := List.mem_singleton.1 hj
            exact (h1 _).1 h
      · obtain ⟨j, hj, he⟩ := h2 e he; exact ⟨j, List.mem_append_left _ hj, he⟩
    · refine ⟨fun n => ?_, fun e he => ?_⟩
      · simp only [List.any_append, Bool.or_eq_true, h1 n, List.any_cons, List.any_nil, Bool.or_false, beq_iff_eq, List.mem_append, List.mem_singleton]
        constructor
        · rintro (⟨j, hj, rfl⟩ | rfl)
          · exact ⟨j, Or.inl hj, rfl⟩
          · exact ⟨i, Or.inr rfl, rfl⟩
        · rintro ⟨j, hj | rfl, rfl⟩
          · exact Or.inl ⟨j, hj, rfl⟩
          · exact Or.inr rfl
      · rcases List.mem_append.1 he with he | he
        · obtain ⟨j, hj, he⟩ := h2 e he; exact ⟨j, List.mem_append_left _ hj, he⟩
        · rw [List.mem_singleton, streamsOf_eq] at he
          exact ⟨i, List.mem_append_right _ List.mem_cons_self, he⟩

theorem known_streams (fnm : Str → Str → Bool) (table : Kind → AggConf α) (views : List (View α)) (is : List (Instr α)) (ho : Spec.Objects is) (s : Stream α) :
    s ∈ (run fnm table views is).known.flatMap (·.2) ↔ ∃ i ∈ is, s ∈ Spec.streamsOf fnm views i := by
  obtain ⟨h1, h2⟩ := known_run fnm table views is
  rw [List.mem_flatMap]
  constructor
  · rintro ⟨e, he, hs⟩
    obtain ⟨i, hi, rfl⟩ := h2 e he
    exact ⟨i, hi, hs⟩
  · rintro ⟨i, hi, hs⟩
    obtain ⟨e, he, hn⟩ := List.any_eq_true.1 ((h1 i.id).2 ⟨i, hi, rfl⟩)
    obtain ⟨j, hj, rfl⟩ := h2 e he
    refine ⟨_, he, ?_⟩
    rw [ho j hj i hi (by simpa using hn)]
    exact hs

theorem instr_streamsOf (fnm : Str → Str → Bool) (views : List (View α)) (i : Instr α) (s : Stream α) (h : s ∈ Spec.streamsOf fnm views i) : s.instr = i := by
  unfold Spec.streamsOf at h
  obtain ⟨w, -, rfl⟩ := List.mem_map.1 h
  rfl

/-- Whatever is measured in whatever order: measurements never fail because of the check, and a warning is logged for two streams exactly if they have the same identity, the second comes from
a view, and the instrument of the first was measured before that of the second. -/
theorem C121_warnings (fnm : Str → Str → Bool) (table : Kind → AggConf α) (views : List (View α)) (is : List (Instr α)) (ho : Spec.Objects is) :
    (run fnm table views is).failed = false ∧
    ∀ a b, (a, b) ∈ (run fnm table views is).warnings ↔
      Spec.Before is a.instr b.instr ∧ a ∈ Spec.streamsOf fnm views a.instr ∧ Spec.Viewed fnm views b ∧ Spec.identity table a = Spec.identity table b := by
  induction is using List.reverseRecOn with
  | nil =>
    refine ⟨rfl, fun a b => ⟨fun h => (by cases h), ?_⟩⟩
    rintro ⟨⟨pre, post, h, -⟩, -⟩
    simp at h
  | append_singleton l i ih =>
    have hol : Spec.Objects l := fun x hx y hy => ho x (List.mem_append_left _ hx) y (List.mem_append_left _ hy)
    obtain ⟨h1, h2⟩ := ih hol
    have hin : (run fnm table views l).known.any (fun e => e.1 == i.id) = true ↔ i ∈ l := by
      rw [(known_run fnm table views l).1]
      constructor
      · rintro ⟨j, hj, he⟩
        rw [ho j (List.mem_append_left _ hj) i (List.mem_append_right _ List.mem_cons_self) he] at hj
        exact hj
      · intro h; exact ⟨i, h, rfl⟩
    have hbefore : ∀ x y : Instr α, Spec.Before (l ++ [i]) x y ↔ Spec.Before l x y ∨ (y = i ∧ x ∈ l ∧ i ∉ l) := by
      intro x y
      constructor
      · rintro ⟨pre, post, h, hx, hy⟩
        rcases List.eq_nil_or_concat post with hp | ⟨q, z, hp⟩
        · subst hp
          obtain ⟨e1, e2⟩ := List.append_inj' h rfl
          subst e1
          simp only [List.cons.injEq, and_true] at e2
          subst e2
          exact Or.inr ⟨rfl, hx, hy⟩
        · subst hp
          rw [List.concat_eq_append, ← List.cons_append, ← List.append_assoc] at h
          exact Or.inl ⟨pre, q, (List.append_inj' h rfl).1, hx, hy⟩
      · rintro (⟨pre, post, h, hx, hy⟩ | ⟨rfl, hx, hy⟩)
        · exact ⟨pre, post ++ [i], by rw [h]; simp, hx, hy⟩
        · exact ⟨l, [], rfl, hx, hy⟩
    rw [run_snoc]
    unfold measure
    split_ifs with h
    · have hi := hin.1 h
      refine ⟨h1, fun a b => ?_⟩
      rw [h2 a b, hbefore]
      tauto
    · have hi : i ∉ l := fun hc => h (hin.2 hc)
      refine ⟨?_, fun a b => ?_⟩
      · simp only [h1, Bool.false_or, List.any_eq_false, Bool.not_eq_true]
        intro n _
        intro e _
        simp [conflicts_eq]
      · simp only [List.mem_append, h2 a b, hbefore, List.mem_flatMap (b := (a, b)), List.mem_map, List.mem_filter, warned, conflicts_eq, Prod.mk.injEq]
        constructor
        · rintro (⟨hb, rest⟩ | ⟨n, hn, e, ⟨he, hw⟩, rfl, rfl⟩)
          · exact ⟨Or.inl hb, rest⟩
          · obtain ⟨hni, hv⟩ := (mem_viewStreams fnm views i _).1 hn
            obtain ⟨j, hj, hs⟩ := (known_streams fnm table views l hol _).1 he
            have hji := instr_streamsOf fnm views j _ hs
            refine ⟨Or.inr ⟨hni, by rw [hji]; exact hj, hi⟩, by rw [hji]; exact hs, hv, by simpa using hw⟩
        · rintro ⟨hb | ⟨hbi, ha, -⟩, hs, hv, he⟩
          · exact Or.inl ⟨hb, hs, hv, he⟩
          · refine Or.inr ⟨b, (mem_viewStreams fnm views i b).2 ⟨hbi, hv⟩, a, ⟨(known_streams fnm table views l hol a).2 ⟨_, ha, hs⟩, by simp [he]⟩, rfl, rfl⟩

/-- If every measured instrument is selected by some view, silence means that no two instruments feed streams of the same identity; and conversely. -/
theorem C121_silent (fnm : Str → Str → Bool) (table : Kind → AggConf α) (views : List (View α)) (is : List (Instr α)) (ho : Spec.Objects is)
    (hv : ∀ i ∈ is, ∃ w ∈ views, w.matches fnm i = true ∧ w.compatible i = true) :
    (run fnm table views is).warnings = [] ↔
      ∀ i ∈ is, ∀ j ∈ is, i ≠ j → ∀ a ∈ Spec.streamsOf fnm views i, ∀ b ∈ Spec.streamsOf fnm views j, Spec.identity table a ≠ Spec.identity table b := by
  obtain ⟨-, hw⟩ := C121_warnings fnm table views is ho
  have hview : ∀ i ∈ is, ∀ s ∈ Spec.streamsOf fnm views i, Spec.Viewed fnm views s := by
    intro i hi s hs
    rw [← streamsOf_eq] at hs
    have hne : (viewStreams fnm views i).isEmpty = false := by
      obtain ⟨w, h1, h2, h3⟩ := hv i hi
      rw [List.isEmpty_eq_false_iff_exists_mem]
      exact ⟨⟨w, i⟩, (mem_viewStreams fnm views i _).2 ⟨rfl, h1, h2, h3⟩⟩
    rw [hne] at hs
    exact ((mem_viewStreams fnm views i s).1 hs).2
  have hlin : ∀ i ∈ is, ∀ j ∈ is, i ≠ j → Spec.Before is i j ∨ Spec.Before is j i := by
    clear hw hview hv ho
    induction is using List.reverseRecOn with
    | nil => intro i hi; cases hi
    | append_singleton l k ih =>
      have hext : ∀ x y, Spec.Before l x y → Spec.Before (l ++ [k]) x y := by
        rintro x y ⟨pre, post, h, hx, hy⟩
        exact ⟨pre, post ++ [k], by rw [h]; simp, hx, hy⟩
      intro i hi j hj hij
      by_cases hil : i ∈ l <;> by_cases hjl : j ∈ l
      · rcases ih i hil j hjl hij with h | h
        · exact Or.inl (hext _ _ h)
        · exact Or.inr (hext _ _ h)
      · rcases List.mem_append.1 hj with h | h
        · exact absurd h hjl
        · obtain rfl := List.mem_singleton.1 h
          exact Or.inl ⟨l, [], rfl, hil, hjl⟩
      · rcases List.mem_append.1 hi with h | h
        · exact absurd h hil
        · obtain rfl := List.mem_singleton.1 h
          exact Or.inr ⟨l, [], rfl, hjl, hil⟩
      · simp only [List.mem_append, hil, hjl, List.mem_singleton, false_or] at hi hj
        exact absurd (hi.trans hj.symm) hij
  constructor
  · intro hn i hi j hj hij a ha b hb he
    have hai := instr_streamsOf fnm views i a ha
    have hbj := instr_streamsOf fnm views j b hb
    subst hai hbj
    rcases hlin _ hi _ hj hij with h | h
    · have : (a, b) ∈ (run fnm table views is).warnings := (hw a b).2 ⟨h, ha, hview _ hj b hb, he⟩
      rw [hn] at this; cases this
    · have : (b, a) ∈ (run fnm table views is).warnings := (hw b a).2 ⟨h, hb, hview _ hi a ha, he.symm⟩
      rw [hn] at this; cases this
  · intro hd
    by_contra hne
    obtain ⟨⟨a, b⟩, hab⟩ := List.exists_mem_of_ne_nil _ hne
    obtain ⟨⟨pre, post, h, hx, hy⟩, ha, hb, he⟩ := (hw a b).1 hab
    have hbm : b ∈ Spec.streamsOf fnm views b.instr := by
      rw [← streamsOf_eq]
      have hm := (mem_viewStreams fnm views b.instr b).2 ⟨rfl, hb⟩
      split_ifs with hemp
      · rw [List.isEmpty_iff] at hemp; rw [hemp] at hm; cases hm
      · exact hm
    refine hd a.instr (by rw [h]; exact List.mem_append_left _ hx) b.instr (by rw [h]; simp) ?_ a ha b hbm he
    intro heq
    rw [heq] at hx
    exact hy hx

/-! ## What does not hold -/

/-- Two instruments without views are never reported, even if their streams have the same identity in the same scope (they differ in the description). -/
theorem C121_default_violated : ∃ (fnm : Str → Str → Bool) (table : Kind → AggConf Int) (i j : Instr Int), i.scope = j.scope ∧ Spec.Objects [i, j] ∧ i ≠ j ∧
    (∃ a ∈ Spec.streamsOf fnm [] i, ∃ b ∈ Spec.streamsOf fnm [] j, Spec.identity table a = Spec.identity table b) ∧ (run fnm table [] [i, j]).warnings.length = 0 := by
  refine ⟨fun a b => a == b, fun _ => .default, ⟨0, .counter, ['x'], [], ['a'], ⟨['m'], none, none⟩, none⟩, ⟨1, .counter, ['x'], [], ['b'], ⟨['m'], none, none⟩, none⟩, rfl, ?_, ?_, ?_, ?_⟩
  · intro a ha b hb h
    simp only [List.mem_cons, List.not_mem_nil, or_false] at ha hb
    rcases ha with rfl | rfl <;> rcases hb with rfl | rfl <;> first | rfl | cases h
  · simp
  · exact ⟨_, List.mem_cons_self, _, List.mem_cons_self, rfl⟩
  · decide

/-- A view that renames an instrument to the name of another one: reported or not depending on which is measured first. -/
theorem C121_order_violated : ∃ (fnm : Str → Str → Bool) (table : Kind → AggConf Int) (views : List (View Int)) (i j : Instr Int),
    (run fnm table views [i, j]).warnings.length = 1 ∧ (run fnm table views [j, i]).warnings.length = 0 := by
  refine ⟨fun a b => a == b, fun _ => .default, [⟨none, some ['y'], none, none, none, none, some ['x'], none, none, .default⟩],
    ⟨0, .counter, ['x'], [], [], ⟨['m'], none, none⟩, none⟩, ⟨1, .counter, ['y'], [], [], ⟨['m'], none, none⟩, none⟩, ?_, ?_⟩ <;> decide

/-- Two views that give one instrument two streams of the same identity are not reported. -/
theorem C121_own_violated : ∃ (fnm : Str → Str → Bool) (table : Kind → AggConf Int) (views : List (View Int)) (i : Instr Int) (a b : Stream Int),
    Spec.streamsOf fnm views i = [a, b] ∧ Spec.identity table a = Spec.identity table b ∧ ∀ is, (∀ j ∈ is, j = i) → (run fnm table views is).warnings = [] := by
  refine ⟨fun a b => a == b, fun _ => .default,
    [⟨none, some ['x'], none, none, none, none, none, none, none, .default⟩, ⟨none, some ['x'], none, none, none, none, none, none, some [], .default⟩],
    ⟨0, .counter, ['x'], [], [], ⟨['m'], none, none⟩, none⟩, _, _, rfl, rfl, fun is his => ?_⟩
  have ho : Spec.Objects is := fun a ha b hb _ => by rw [his a ha, his b hb]
  by_contra hne
  obtain ⟨⟨a, b⟩, hab⟩ := List.exists_mem_of_ne_nil _ hne
  obtain ⟨⟨pre, post, h, hx, hy⟩, -⟩ := ((C121_warnings _ _ _ is ho).2 a b).1 hab
  have ha := his a.instr (by rw [h]; exact List.mem_append_left _ hx)
  have hb := his b.instr (by rw [h]; simp)
  rw [ha, ← hb] at hx
  exact hy hx

/-- Streams of the same name in different scopes do not meet anywhere, but are reported. -/
theorem C121_scopes_violated : ∃ (fnm : Str → Str → Bool) (table : Kind → AggConf Int) (views : List (View Int)) (i j : Instr Int),
    i.scope ≠ j.scope ∧ (run fnm table views [i, j]).warnings.length = 1 := by
  refine ⟨fun a b => a == b, fun _ => .default, [⟨none, some ['x'], none, none, none, none, none, none, none, .default⟩],
    ⟨0, .counter, ['x'], [], [], ⟨['m'], none, none⟩, none⟩, ⟨1, .counter, ['x'], [], [], ⟨['n'], none, none⟩, none⟩, ?_, ?_⟩ <;> decide

/-- What the OpenTelemetry specification calls a conflict, streams of one scope with one name and different units or kinds, is never reported, whatever the views. -/
theorem C121_different_violated (fnm : Str → Str → Bool) (table : Kind → AggConf α) (views : List (View α)) (is : List (Instr α)) (ho : Spec.Objects is) (a b : Stream α)
    (hd : a.instr.unit ≠ b.instr.unit ∨ a.cls table ≠ b.cls table) : (a, b) ∉ (run fnm table views is).warnings := by
  intro h
  obtain ⟨-, -, -, he⟩ := ((C121_warnings fnm table views is ho).2 a b).1 h
  simp only [Spec.identity, Spec.Identity.mk.injEq] at he
  rcases hd with hd | hd
  · exact hd he.2.1
  · exact hd he.2.2

/-! ## Examples -/

/-- Three instruments selected by views, the last renamed to the first's name: reported once, though it is measured twice. -/
example : (run (fun a b => a == b) (fun _ => .default) [⟨none, some ['z'], none, none, none, none, some ['x'], none, none, .default⟩, ⟨some (· == .counter), none, none, none, none, none, none, none, none, .sum⟩]
    ([⟨0, .counter, ['x'], [], [], ⟨['m'], none, none⟩, none⟩, ⟨1, .upDown, ['z'], [], [], ⟨['m'], none, none⟩, none⟩, ⟨2, .obsCounter, ['y'], [], [], ⟨['m'], none, none⟩, none⟩,
      ⟨3, .counter, ['z'], [], [], ⟨['m'], none, none⟩, none⟩, ⟨3, .counter, ['z'], [], [], ⟨['m'], none, none⟩, none⟩] : List (Instr Int))).warnings.map (fun p => (p.1.instr.id, p.2.instr.id, p.2.name)) =
    [(0, 3, ['x'])] := by decide

/-- Two instruments selected by views with different names: silence. -/
example : (run (fun a b => a == b) (fun _ => .default) [⟨some (fun _ => true), none, none, none, none, none, none, none, none, .sum⟩]
    ([⟨0, .counter, ['x'], [], [], ⟨['m'], none, none⟩, none⟩, ⟨1, .counter, ['y'], [], [], ⟨['m'], none, none⟩, none⟩] : List (Instr Int))).warnings.length = 0 := by decide

end Conflicts
end Otel
