import Verif.Model.Storage
import Mathlib.Data.List.Basic
import Mathlib.Data.List.Nodup
import Mathlib.Data.List.Induction
/-!
# Dictionaries of lazily created members
-/
namespace Otel
namespace Metrics
variable {K I O : Type} [DecidableEq K]

/-- The member with key `k` on its own: created at its first input, fed its own inputs, collected at every collection after
its creation. -/
def Members.soloFrom (m : Members K I O) (k : K) : Option m.S → List (FOp K I) → Option m.S
  | s, [] => s
  | s, .feed k' i :: l =>
    if k' = k then m.soloFrom k (some (m.feed (s.getD (m.new k i)) i)) l else m.soloFrom k s l
  | s, .coll t :: l => m.soloFrom k (s.map (fun x => (m.coll x t).2)) l

def Members.solo (m : Members K I O) (k : K) (h : List (FOp K I)) : Option m.S := m.soloFrom k none h

/-- Lookup in a dictionary. -/
def look {S : Type} (k : K) : List (K × S) → Option S
  | [] => none
  | (k', s) :: l => if k' = k then some s else look k l

theorem look_mem {S : Type} (k : K) (s : S) (d : List (K × S)) (hn : (d.map (·.1)).Nodup) : look k d = some s ↔ (k, s) ∈ d := by
  induction d with
  | nil => simp [look]
  | cons x d ih =>
    obtain ⟨k', s'⟩ := x
    simp only [List.map_cons, List.nodup_cons] at hn
    simp only [look, List.mem_cons, Prod.mk.injEq]
    by_cases h : k' = k
    · subst h
      simp only [if_true, true_and, Option.some.injEq]
      constructor
      · rintro rfl; exact Or.inl rfl
      · rintro (h | h)
        · exact h.symm
        · exact absurd (List.mem_map_of_mem (f := (·.1)) h) hn.1
    · rw [if_neg h, ih hn.2]
      constructor
      · exact Or.inr
      · rintro (⟨h1, _⟩ | h1)
        · exact absurd h1.symm h
        · exact h1

theorem look_feedAt (m : Members K I O) (k k' : K) (i : I) (d : List (K × m.S)) :
    look k' (m.feedAt k i d) = if k = k' then some (m.feed ((look k' d).getD (m.new k i)) i) else look k' d := by
  induction d with
  | nil => simp [Members.feedAt, look]
  | cons x d ih =>
    obtain ⟨k0, s⟩ := x
    simp only [Members.feedAt]
    by_cases h0 : k0 = k
    · subst h0
      by_cases h : k0 = k' <;> simp [look, h]
    · rw [if_neg h0]
      simp only [look, ih]
      by_cases h1 : k0 = k'
      · subst h1
        simp [Ne.symm (a := k0) (b := k) h0]
      · simp [h1]

theorem feedAt_keys (m : Members K I O) (k : K) (i : I) (d : List (K × m.S)) :
    (m.feedAt k i d).map (·.1) = if k ∈ d.map (·.1) then d.map (·.1) else d.map (·.1) ++ [k] := by
  induction d with
  | nil => simp [Members.feedAt]
  | cons x d ih =>
    obtain ⟨k0, s⟩ := x
    simp only [Members.feedAt]
    by_cases h0 : k0 = k
    · simp [h0]
    · rw [if_neg h0]
      simp only [List.map_cons, ih, List.mem_cons]
      by_cases h : k ∈ d.map (·.1)
      · simp [h]
      · simp [h, Ne.symm h0]

theorem feedAt_nodup (m : Members K I O) (k : K) (i : I) (d : List (K × m.S)) (hn : (d.map (·.1)).Nodup) :
    ((m.feedAt k i d).map (·.1)).Nodup := by
  rw [feedAt_keys]
  split
  · exact hn
  · rename_i h
    rw [List.nodup_append]
    exact ⟨hn, by simp, by intro a ha b hb; simp at hb; subst hb; intro h'; subst h'; exact h ha⟩

theorem look_map {S S' : Type} (f : S → S') (k : K) (d : List (K × S)) :
    look k (d.map (fun ks => (ks.1, f ks.2))) = (look k d).map f := by
  induction d with
  | nil => rfl
  | cons x d ih => simp only [List.map_cons, look, ih]; split <;> rfl

/-- The dictionary after a history: one entry per key that had an input, in the state its own inputs and the collections
since its creation put it in. -/
theorem run_solo (m : Members K I O) (h : List (FOp K I)) (d : List (K × m.S)) (hn : (d.map (·.1)).Nodup) :
    ((m.run d h).1.map (·.1)).Nodup ∧ ∀ k, look k (m.run d h).1 = m.soloFrom k (look k d) h := by
  induction h generalizing d with
  | nil => exact ⟨hn, fun k => rfl⟩
  | cons o h ih =>
    cases o with
    | feed k i =>
      obtain ⟨h1, h2⟩ := ih (m.feedAt k i d) (feedAt_nodup m k i d hn)
      refine ⟨h1, fun k' => ?_⟩
      show look k' (m.run (m.feedAt k i d) h).1 = _
      rw [h2, look_feedAt]
      simp only [Members.soloFrom]
      by_cases hk : k = k'
      · subst hk; simp
      · simp [hk]
    | coll t =>
      obtain ⟨h1, h2⟩ := ih (d.map (fun ks => (ks.1, (m.coll ks.2 t).2))) (by simpa [List.map_map, Function.comp_def] using hn)
      refine ⟨h1, fun k' => ?_⟩
      show look k' (m.run (d.map (fun ks => (ks.1, (m.coll ks.2 t).2))) h).1 = _
      rw [h2, look_map (fun s => (m.coll s t).2)]
      rfl

theorem run_append (m : Members K I O) (d : List (K × m.S)) (h h' : List (FOp K I)) :
    (m.run d (h ++ h')).1 = (m.run (m.run d h).1 h').1 ∧ (m.run d (h ++ h')).2 = (m.run d h).2 ++ (m.run (m.run d h).1 h').2 := by
  induction h generalizing d with
  | nil => simp [Members.run]
  | cons o h ih =>
    have := ih (m.step d o).1
    simp only [List.cons_append, Members.run, this.1, this.2, List.append_assoc, and_self]

theorem run_coll (m : Members K I O) (d : List (K × m.S)) (t : Int) :
    (m.run d [.coll t]).2 = [d.map (fun ks => (ks.1, (m.coll ks.2 t).1))] := by
  simp [Members.run, Members.step]

/-- Nothing but the inputs with key `k` and the collections matters for the member `k`. -/
theorem solo_filter (m : Members K I O) (k : K) (h : List (FOp K I)) (s : Option m.S) :
    m.soloFrom k s h = m.soloFrom k s (h.filter (fun o => match o with | .feed k' _ => decide (k' = k) | .coll _ => true)) := by
  induction h generalizing s with
  | nil => rfl
  | cons o h ih =>
    cases o with
    | feed k' i =>
      by_cases hk : k' = k
      · subst hk
        simp only [List.filter_cons, decide_true, if_true, Members.soloFrom]
        exact ih _
      · simp only [List.filter_cons, hk, decide_false, Bool.false_eq_true, if_false, Members.soloFrom]
        exact ih _
    | coll t => simp only [List.filter_cons, if_true, Members.soloFrom]; exact ih _

theorem solo_isSome (m : Members K I O) (k : K) (h : List (FOp K I)) (s : Option m.S) :
    (m.soloFrom k s h).isSome ↔ s.isSome ∨ ∃ i, FOp.feed k i ∈ h := by
  induction h generalizing s with
  | nil => simp [Members.soloFrom]
  | cons o h ih =>
    cases o with
    | feed k' i =>
      simp only [Members.soloFrom]
      by_cases hk : k' = k
      · subst hk
        rw [if_pos rfl, ih]
        simp
      · rw [if_neg hk, ih]
        simp [Ne.symm hk]
    | coll t =>
      simp only [Members.soloFrom]
      rw [ih]
      simp

end Metrics
end Otel
