import Verif.Model.Once
import Mathlib.Data.List.Basic
import Mathlib.Tactic.ByContra
/-!
# C28: `Once` and the global provider
-/
namespace Otel
namespace Once
variable {V : Type}

/-- Inside the `with` block. -/
def crit : PC → Bool
  | .inside | .calling | .body | .setDone | .releasing => true
  | _ => false

/-- Program points that need the function not to have completed yet. -/
def early : PC → Bool
  | .calling | .body => true
  | _ => false

/-- What one call may look like in a state. -/
def CallOK (s : St V) (i : Nat) (t : Call V) : Prop :=
  (crit t.pc = true → s.lock = some i) ∧
  (early t.pc = true → s.done = false ∧ s.completed = []) ∧
  (t.pc = .setDone → s.done = false ∧ s.completed = [i]) ∧
  (t.pc = .releasing ∨ t.pc = .ret true → s.completed = [i] ∧ s.done = true) ∧
  (t.pc = .ret false → s.done = true)

structure Inv (s : St V) : Prop where
  calls : ∀ i t, s.calls[i]? = some t → CallOK s i t
  lock : ∀ i, s.lock = some i → ∃ t, s.calls[i]? = some t ∧ crit t.pc = true
  done : s.done = true → ∃ i t, s.completed = [i] ∧ s.calls[i]? = some t ∧ (t.pc = .releasing ∨ t.pc = .ret true) ∧ s.glob = some t.value
  comp : s.done = false → s.completed = [] ∨ ∃ i t, s.completed = [i] ∧ s.calls[i]? = some t ∧ t.pc = .setDone ∧ s.glob = some t.value
  body : ∀ (i : Nat) (t : Call V), s.calls[i]? = some t → t.pc = .body → s.glob = some t.value
  prov : ∀ v, s.glob = some v → ∃ t ∈ s.calls, t.value = v

theorem lt_of_getElem? {α : Type} {l : List α} {i : Nat} {x : α} (h : l[i]? = some x) : i < l.length := by
  rcases Nat.lt_or_ge i l.length with hl | hl
  · exact hl
  · rw [List.getElem?_eq_none hl] at h; cases h

theorem get_set {α : Type} (l : List α) (i j : Nat) (x y : α) (h : (l.set i x)[j]? = some y) :
    (i = j ∧ y = x) ∨ (i ≠ j ∧ l[j]? = some y) := by
  by_cases hij : i = j
  · subst hij
    have hl := lt_of_getElem? h
    rw [List.length_set] at hl
    rw [List.getElem?_set_self hl] at h
    exact Or.inl ⟨rfl, (Option.some.inj h).symm⟩
  · rw [List.getElem?_set_ne hij] at h; exact Or.inr ⟨hij, h⟩

theorem get_set_self {α : Type} (l : List α) (i : Nat) (x y : α) (h : l[i]? = some y) : (l.set i x)[i]? = some x :=
  List.getElem?_set_self (lt_of_getElem? h)

/-- Assigning a call's position keeps the values of the calls. -/
theorem values_goto (l : List (Call V)) (i : Nat) (t : Call V) (pc : PC) (h : l[i]? = some t) (v : V)
    (hv : ∃ t ∈ l, t.value = v) : ∃ t' ∈ l.set i ⟨t.value, pc⟩, t'.value = v := by
  obtain ⟨u, hu, huv⟩ := hv
  obtain ⟨j, hj⟩ := List.mem_iff_getElem?.mp hu
  by_cases hij : i = j
  · subst hij
    rw [h] at hj; cases hj
    exact ⟨⟨t.value, pc⟩, List.mem_of_getElem? (get_set_self l i _ t h), huv⟩
  · exact ⟨u, List.mem_of_getElem? (by rw [List.getElem?_set_ne hij]; exact hj), huv⟩

/-- A step of call `i` that only moves it, from outside the lock to outside the lock. -/
theorem inv_move (s s' : St V) (i : Nat) (t : Call V) (pc : PC) (h : Inv s) (hi : s.calls[i]? = some t)
    (hc : s'.calls = s.calls.set i ⟨t.value, pc⟩) (hl : s'.lock = s.lock) (hd : s'.done = s.done) (hg : s'.glob = s.glob)
    (hk : s'.completed = s.completed) (ho : CallOK s i ⟨t.value, pc⟩)
    (hlock : s.lock = some i → crit pc = true) (h1 : t.pc ≠ .setDone) (h2 : t.pc ≠ .releasing) (h3 : t.pc ≠ .ret true)
    (h4 : pc ≠ .body) : Inv s' := by
  refine ⟨?_, ?_, ?_, ?_, ?_, ?_⟩
  · intro j u hj
    have key : CallOK s j u := by
      rw [hc] at hj
      rcases get_set _ _ _ _ _ hj with ⟨rfl, rfl⟩ | ⟨_, hj'⟩
      · exact ho
      · exact h.calls j u hj'
    unfold CallOK; rw [hl, hd, hk]; exact key
  · intro j hj
    rw [hl] at hj
    obtain ⟨u, hu, hcr⟩ := h.lock j hj
    by_cases hij : i = j
    · subst hij
      exact ⟨⟨t.value, pc⟩, by rw [hc]; exact get_set_self _ _ _ t hi, hlock hj⟩
    · exact ⟨u, by rw [hc, List.getElem?_set_ne hij]; exact hu, hcr⟩
  · intro hdn
    rw [hd] at hdn
    obtain ⟨j, u, e1, e2, e3, e4⟩ := h.done hdn
    have hij : i ≠ j := by
      rintro rfl
      rw [hi] at e2; cases e2
      rcases e3 with e3 | e3
      · exact h2 e3
      · exact h3 e3
    exact ⟨j, u, by rw [hk]; exact e1, by rw [hc, List.getElem?_set_ne hij]; exact e2, e3, by rw [hg]; exact e4⟩
  · intro hdn
    rw [hd] at hdn
    rcases h.comp hdn with e | ⟨j, u, e1, e2, e3, e4⟩
    · exact Or.inl (by rw [hk]; exact e)
    · have hij : i ≠ j := by
        rintro rfl
        rw [hi] at e2; cases e2; exact h1 e3
      exact Or.inr ⟨j, u, by rw [hk]; exact e1, by rw [hc, List.getElem?_set_ne hij]; exact e2, e3, by rw [hg]; exact e4⟩
  · intro j u hj hb
    rw [hc] at hj
    rcases get_set _ _ _ _ _ hj with ⟨rfl, rfl⟩ | ⟨_, hj'⟩
    · exact absurd hb h4
    · rw [hg]; exact h.body j u hj' hb
  · intro v hv
    rw [hg] at hv
    rw [hc]; exact values_goto _ _ _ _ hi v (h.prov v hv)

theorem not_crit_of_lock (s : St V) (h : Inv s) (i j : Nat) (u : Call V) (hl : s.lock = some i) (hij : i ≠ j)
    (hj : s.calls[j]? = some u) : crit u.pc = false := by
  by_contra hc
  have := (h.calls j u hj).1 (by simpa using hc)
  rw [hl] at this; exact hij (Option.some.inj this)

theorem inv_step (s : St V) (a : Act V) (h : Inv s) : Inv (step s a) := by
  cases a with
  | call v =>
    refine ⟨?_, ?_, ?_, ?_, ?_, ?_⟩
    · intro j u hj
      simp only [step] at hj
      rcases Nat.lt_or_ge j s.calls.length with hl | hl
      · rw [List.getElem?_append_left hl] at hj
        exact h.calls j u hj
      · rw [List.getElem?_append_right hl] at hj
        have : u = ⟨v, .start⟩ := by
          cases hk : j - s.calls.length with
          | zero => rw [hk] at hj; simpa using hj.symm
          | succ n => rw [hk] at hj; simp at hj
        subst this
        exact ⟨by simp [crit], by simp [early], by simp, by simp, by simp⟩
    · intro j hj
      obtain ⟨u, hu, hcr⟩ := h.lock j hj
      exact ⟨u, by simp only [step]; rw [List.getElem?_append_left (lt_of_getElem? hu)]; exact hu, hcr⟩
    · intro hdn
      obtain ⟨j, u, e1, e2, e3, e4⟩ := h.done hdn
      exact ⟨j, u, e1, by simp only [step]; rw [List.getElem?_append_left (lt_of_getElem? e2)]; exact e2, e3, e4⟩
    · intro hdn
      rcases h.comp hdn with e | ⟨j, u, e1, e2, e3, e4⟩
      · exact Or.inl e
      · exact Or.inr ⟨j, u, e1, by simp only [step]; rw [List.getElem?_append_left (lt_of_getElem? e2)]; exact e2, e3, e4⟩
    · intro j u hj hb
      simp only [step] at hj
      rcases Nat.lt_or_ge j s.calls.length with hl | hl
      · rw [List.getElem?_append_left hl] at hj
        exact h.body j u hj hb
      · rw [List.getElem?_append_right hl] at hj
        cases hk : j - s.calls.length with
        | zero => rw [hk] at hj; simp at hj; subst hj; cases hb
        | succ n => rw [hk] at hj; simp at hj
    · intro w hw
      obtain ⟨t, ht, hv⟩ := h.prov w hw
      exact ⟨t, by simp [step, ht], hv⟩
  | next i ok =>
    simp only [step]
    split
    · exact h
    rename_i t hi
    have hti := h.calls i t hi
    have hlk : s.lock = some i → crit t.pc = true := by
      intro hl
      obtain ⟨u, hu, hcr⟩ := h.lock i hl
      rw [hi] at hu; cases hu; exact hcr
    split <;> rename_i hpc
    · -- start
      have hnl : s.lock ≠ some i := by
        intro hl; have := hlk hl; rw [hpc] at this; simp [crit] at this
      refine inv_move s _ i t _ h hi rfl rfl rfl rfl rfl ?_ (fun hl => absurd hl hnl) (by rw [hpc]; simp) (by rw [hpc]; simp) (by rw [hpc]; simp) ?_
      · cases hd : s.done with
        | true => exact ⟨by simp [crit], by simp [early], by simp, by simp, fun _ => hd⟩
        | false => exact ⟨by simp [crit], by simp [early], by simp, by simp, by simp⟩
      · split <;> simp
    · -- want
      split
      · rename_i hl0
        refine ⟨?_, ?_, ?_, ?_, ?_, ?_⟩
        · intro j u hj
          rcases get_set _ _ _ _ _ hj with ⟨rfl, rfl⟩ | ⟨hij, hj'⟩
          · exact ⟨fun _ => rfl, by simp [early], by simp, by simp, by simp⟩
          · obtain ⟨a1, a2⟩ := h.calls j u hj'
            refine ⟨?_, a2⟩
            intro hc
            have := a1 hc
            rw [hl0] at this; cases this
        · intro j hj
          cases hj
          exact ⟨⟨t.value, .inside⟩, get_set_self _ _ _ t hi, rfl⟩
        · intro hdn
          obtain ⟨j, u, e1, e2, e3, e4⟩ := h.done hdn
          have hij : i ≠ j := by
            rintro rfl
            rw [hi] at e2; cases e2
            rw [hpc] at e3; simp at e3
          exact ⟨j, u, e1, by simp only [goto]; rw [List.getElem?_set_ne hij]; exact e2, e3, e4⟩
        · intro hdn
          rcases h.comp hdn with e | ⟨j, u, e1, e2, e3, e4⟩
          · exact Or.inl e
          · have hij : i ≠ j := by
              rintro rfl
              rw [hi] at e2; cases e2; rw [hpc] at e3; simp at e3
            exact Or.inr ⟨j, u, e1, by simp only [goto]; rw [List.getElem?_set_ne hij]; exact e2, e3, e4⟩
        · intro j u hj hb
          rcases get_set _ _ _ _ _ hj with ⟨rfl, rfl⟩ | ⟨_, hj'⟩
          · cases hb
          · exact h.body j u hj' hb
        · intro v hv
          exact values_goto _ _ _ _ hi v (h.prov v hv)
      · exact h
    · -- inside
      have hl := hti.1 (by rw [hpc]; rfl)
      split
      · rename_i hd
        obtain ⟨j0, u0, e1, e2, e3, e4⟩ := h.done hd
        refine ⟨?_, ?_, ?_, ?_, ?_, ?_⟩
        · intro j u hj
          rcases get_set _ _ _ _ _ hj with ⟨rfl, rfl⟩ | ⟨hij, hj'⟩
          · exact ⟨by simp [crit], by simp [early], by simp, by simp, fun _ => hd⟩
          · obtain ⟨a1, a2⟩ := h.calls j u hj'
            refine ⟨?_, a2⟩
            intro hc
            have := not_crit_of_lock s h i j u hl hij hj'
            rw [hc] at this; cases this
        · intro j hj; cases hj
        · intro _
          have hij : i ≠ j0 := by
            rintro rfl
            rw [hi] at e2; cases e2
            rw [hpc] at e3; simp at e3
          exact ⟨j0, u0, e1, by simp only [goto]; rw [List.getElem?_set_ne hij]; exact e2, e3, e4⟩
        · intro hdn; simp only [goto] at hdn; rw [hd] at hdn; cases hdn
        · intro j u hj hb
          rcases get_set _ _ _ _ _ hj with ⟨rfl, rfl⟩ | ⟨_, hj'⟩
          · cases hb
          · exact h.body j u hj' hb
        · intro v hv
          exact values_goto _ _ _ _ hi v (h.prov v hv)
      · rename_i hd
        have hd' : s.done = false := by simpa using hd
        have hcm : s.completed = [] := by
          rcases h.comp hd' with e | ⟨j, u, e1, e2, e3, e4⟩
          · exact e
          · have : i ≠ j := by
              rintro rfl
              rw [hi] at e2; cases e2; rw [hpc] at e3; simp at e3
            have := not_crit_of_lock s h i j u hl this e2
            rw [e3] at this; simp [crit] at this
        refine inv_move s _ i t _ h hi rfl rfl rfl rfl rfl ?_ (fun _ => rfl) (by rw [hpc]; simp) (by rw [hpc]; simp) (by rw [hpc]; simp) (by simp)
        exact ⟨fun _ => hl, fun _ => ⟨hd', hcm⟩, by simp, by simp, by simp⟩
    · -- calling
      have hl := hti.1 (by rw [hpc]; rfl)
      obtain ⟨hd, hcm⟩ := hti.2.1 (by rw [hpc]; rfl)
      refine ⟨?_, ?_, ?_, ?_, ?_, ?_⟩
      · intro j u hj
        rcases get_set _ _ _ _ _ hj with ⟨rfl, rfl⟩ | ⟨hij, hj'⟩
        · exact ⟨fun _ => hl, fun _ => ⟨hd, hcm⟩, by simp, by simp, by simp⟩
        · exact h.calls j u hj'
      · intro j hj
        have : i = j := Option.some.inj (hl.symm.trans hj)
        subst this
        exact ⟨⟨t.value, .body⟩, get_set_self _ _ _ t hi, rfl⟩
      · intro hdn; simp only [goto] at hdn; rw [hd] at hdn; cases hdn
      · intro _; exact Or.inl hcm
      · intro j u hj hb
        rcases get_set _ _ _ _ _ hj with ⟨rfl, rfl⟩ | ⟨hij, hj'⟩
        · rfl
        · have := not_crit_of_lock s h i j u hl hij hj'
          rw [hb] at this; simp [crit] at this
      · intro v hv
        cases hv
        exact ⟨⟨t.value, .body⟩, List.mem_of_getElem? (get_set_self _ _ _ t hi), rfl⟩
    · -- body
      have hl := hti.1 (by rw [hpc]; rfl)
      obtain ⟨hd, hcm⟩ := hti.2.1 (by rw [hpc]; rfl)
      have hg := h.body i t hi hpc
      split
      · refine ⟨?_, ?_, ?_, ?_, ?_, ?_⟩
        · intro j u hj
          rcases get_set _ _ _ _ _ hj with ⟨rfl, rfl⟩ | ⟨hij, hj'⟩
          · exact ⟨fun _ => hl, by simp [early], fun _ => ⟨hd, by simp [hcm]⟩, by simp, by simp⟩
          · have hnc := not_crit_of_lock s h i j u hl hij hj'
            obtain ⟨a1, a2, a3, a4, a5⟩ := h.calls j u hj'
            refine ⟨a1, ?_, ?_, ?_, a5⟩
            · intro he; exfalso; revert hnc he; cases u.pc <;> simp [crit, early]
            · intro he; rw [he] at hnc; simp [crit] at hnc
            · intro he; have := (a4 he).2; rw [hd] at this; cases this
        · intro j hj
          have : i = j := Option.some.inj (hl.symm.trans hj)
          subst this
          exact ⟨⟨t.value, .setDone⟩, get_set_self _ _ _ t hi, rfl⟩
        · intro hdn; simp only [goto] at hdn; rw [hd] at hdn; cases hdn
        · intro _
          exact Or.inr ⟨i, ⟨t.value, .setDone⟩, by simp [hcm], get_set_self _ _ _ t hi, rfl, hg⟩
        · intro j u hj hb
          rcases get_set _ _ _ _ _ hj with ⟨rfl, rfl⟩ | ⟨_, hj'⟩
          · cases hb
          · exact h.body j u hj' hb
        · intro v hv
          exact values_goto _ _ _ _ hi v (h.prov v hv)
      · refine ⟨?_, ?_, ?_, ?_, ?_, ?_⟩
        · intro j u hj
          rcases get_set _ _ _ _ _ hj with ⟨rfl, rfl⟩ | ⟨hij, hj'⟩
          · exact ⟨by simp [crit], by simp [early], by simp, by simp, by simp⟩
          · obtain ⟨a1, a2⟩ := h.calls j u hj'
            refine ⟨?_, a2⟩
            intro hc
            have := not_crit_of_lock s h i j u hl hij hj'
            rw [hc] at this; cases this
        · intro j hj; cases hj
        · intro hdn; simp only [goto] at hdn; rw [hd] at hdn; cases hdn
        · intro _; exact Or.inl hcm
        · intro j u hj hb
          rcases get_set _ _ _ _ _ hj with ⟨rfl, rfl⟩ | ⟨_, hj'⟩
          · cases hb
          · exact h.body j u hj' hb
        · intro v hv
          exact values_goto _ _ _ _ hi v (h.prov v hv)
    · -- setDone
      have hl := hti.1 (by rw [hpc]; rfl)
      obtain ⟨hd, hcm⟩ := hti.2.2.1 hpc
      have hg : s.glob = some t.value := by
        rcases h.comp hd with e | ⟨j, u, e1, e2, e3, e4⟩
        · rw [e] at hcm; cases hcm
        · rw [e1] at hcm; cases hcm; rw [hi] at e2; cases e2; exact e4
      refine ⟨?_, ?_, ?_, ?_, ?_, ?_⟩
      · intro j u hj
        rcases get_set _ _ _ _ _ hj with ⟨rfl, rfl⟩ | ⟨hij, hj'⟩
        · exact ⟨fun _ => hl, by simp [early], by simp, fun _ => ⟨hcm, rfl⟩, by simp⟩
        · have hnc := not_crit_of_lock s h i j u hl hij hj'
          obtain ⟨a1, a2, a3, a4, a5⟩ := h.calls j u hj'
          refine ⟨a1, ?_, ?_, ?_, fun _ => rfl⟩
          · intro he; exfalso; revert hnc he; cases u.pc <;> simp [crit, early]
          · intro he; rw [he] at hnc; simp [crit] at hnc
          · intro he; exact ⟨(a4 he).1, rfl⟩
      · intro j hj
        have : i = j := Option.some.inj (hl.symm.trans hj)
        subst this
        exact ⟨⟨t.value, .releasing⟩, get_set_self _ _ _ t hi, rfl⟩
      · intro _
        exact ⟨i, ⟨t.value, .releasing⟩, hcm, get_set_self _ _ _ t hi, Or.inl rfl, hg⟩
      · intro hdn; cases hdn
      · intro j u hj hb
        rcases get_set _ _ _ _ _ hj with ⟨rfl, rfl⟩ | ⟨_, hj'⟩
        · cases hb
        · exact h.body j u hj' hb
      · intro v hv
        exact values_goto _ _ _ _ hi v (h.prov v hv)
    · -- releasing
      have hl := hti.1 (by rw [hpc]; rfl)
      obtain ⟨hcm, hd⟩ := hti.2.2.2.1 (Or.inl hpc)
      have hg : s.glob = some t.value := by
        obtain ⟨j, u, e1, e2, e3, e4⟩ := h.done hd
        rw [e1] at hcm; cases hcm; rw [hi] at e2; cases e2; exact e4
      refine ⟨?_, ?_, ?_, ?_, ?_, ?_⟩
      · intro j u hj
        rcases get_set _ _ _ _ _ hj with ⟨rfl, rfl⟩ | ⟨hij, hj'⟩
        · exact ⟨by simp [crit], by simp [early], by simp, fun _ => ⟨hcm, hd⟩, by simp⟩
        · obtain ⟨a1, a2⟩ := h.calls j u hj'
          refine ⟨?_, a2⟩
          intro hc
          have := not_crit_of_lock s h i j u hl hij hj'
          rw [hc] at this; cases this
      · intro j hj; cases hj
      · intro _
        exact ⟨i, ⟨t.value, .ret true⟩, hcm, get_set_self _ _ _ t hi, Or.inr rfl, hg⟩
      · intro hdn; simp only [goto] at hdn; rw [hd] at hdn; cases hdn
      · intro j u hj hb
        rcases get_set _ _ _ _ _ hj with ⟨rfl, rfl⟩ | ⟨_, hj'⟩
        · cases hb
        · exact h.body j u hj' hb
      · intro v hv
        exact values_goto _ _ _ _ hi v (h.prov v hv)
    · exact h
    · exact h

theorem inv_run (acts : List (Act V)) : Inv (run acts) := by
  have : ∀ (acts : List (Act V)) (s : St V), Inv s → Inv (acts.foldl step s) := by
    intro acts
    induction acts with
    | nil => intro s h; exact h
    | cons a acts ih => intro s h; exact ih _ (inv_step s a h)
  exact this acts _ ⟨by simp [init], by simp [init], by simp [init], fun _ => Or.inl rfl, by simp [init], by simp [init]⟩

/-- **C28** Under every interleaving of any number of calls: the function returns normally at most once; a call that
returned `True` is the one whose function did; so at most one call returns `True`. -/
theorem C28_at_most_once (acts : List (Act V)) :
    (run acts).completed.length ≤ 1 ∧
    (∀ (i : Nat) (t : Call V), (run acts).calls[i]? = some t → t.pc = .ret true → (run acts).completed = [i]) ∧
    (∀ (i j : Nat) (t u : Call V), (run acts).calls[i]? = some t → (run acts).calls[j]? = some u →
      t.pc = .ret true → u.pc = .ret true → i = j) := by
  have h := inv_run acts
  have key : ∀ (i : Nat) (t : Call V), (run acts).calls[i]? = some t → t.pc = .ret true → (run acts).completed = [i] :=
    fun i t hi hp => ((h.calls i t hi).2.2.2.1 (Or.inr hp)).1
  refine ⟨?_, key, ?_⟩
  · cases hd : (run acts).done with
    | true => obtain ⟨i, t, e, _⟩ := h.done hd; simp [e]
    | false =>
      rcases h.comp hd with e | ⟨i, t, e, _⟩
      · simp [e]
      · simp [e]
  · intro i j t u hi hj ht hu
    have e1 := key i t hi ht
    have e2 := key j u hj hu
    rw [e1] at e2; simpa using e2

/-- **C28** A call returns `False` only after some call's function has returned normally: callers are held back until
the work is done. -/
theorem C28_false_means_done (acts : List (Act V)) (i : Nat) (t : Call V) (hi : (run acts).calls[i]? = some t)
    (hp : t.pc = .ret false) : (run acts).completed.length = 1 := by
  have h := inv_run acts
  obtain ⟨j, u, e, _⟩ := h.done ((h.calls i t hi).2.2.2.2 hp)
  simp [e]

/-- A call is over. -/
def over (pc : PC) : Prop := (∃ b, pc = .ret b) ∨ pc = .raised

/-- **C28** If every call is over and none of them saw the function raise, exactly one call returned `True`. -/
theorem C28_exactly_once (acts : List (Act V)) (hne : (run acts).calls ≠ [])
    (hall : ∀ t ∈ (run acts).calls, ∃ b, t.pc = .ret b) :
    ∃ (i : Nat) (t : Call V), (run acts).calls[i]? = some t ∧ t.pc = .ret true ∧ (run acts).completed = [i] ∧ (run acts).glob = some t.value := by
  have h := inv_run acts
  have hd : (run acts).done = true := by
    cases hcs : (run acts).calls with
    | nil => exact absurd hcs hne
    | cons t l =>
      have ht : (run acts).calls[0]? = some t := by rw [hcs]; rfl
      obtain ⟨b, hb⟩ := hall t (by rw [hcs]; simp)
      cases b with
      | true => exact ((h.calls 0 t ht).2.2.2.1 (Or.inr hb)).2
      | false => exact (h.calls 0 t ht).2.2.2.2 hb
  obtain ⟨i, t, e1, e2, e3, e4⟩ := h.done hd
  refine ⟨i, t, e2, ?_, e1, e4⟩
  rcases e3 with e3 | e3
  · obtain ⟨b, hb⟩ := hall t (List.mem_of_getElem? e2)
    rw [e3] at hb; cases hb
  · exact e3

/-- **C28** Once a call has returned (with either answer) the global is set, to the value of the call whose function
completed, and no later step replaces it. -/
theorem C28_never_replaced (acts acts' : List (Act V)) (i : Nat) (t : Call V) (b : Bool)
    (hi : (run acts).calls[i]? = some t) (hp : t.pc = .ret b) :
    ∃ v, (run acts).glob = some v ∧ (run (acts ++ acts')).glob = some v ∧ (b = true → v = t.value) := by
  have h := inv_run acts
  have hd : (run acts).done = true := by
    cases b with
    | true => exact ((h.calls i t hi).2.2.2.1 (Or.inr hp)).2
    | false => exact (h.calls i t hi).2.2.2.2 hp
  obtain ⟨j, u, e1, e2, e3, e4⟩ := h.done hd
  refine ⟨u.value, e4, ?_, ?_⟩
  · have key : ∀ (acts' : List (Act V)) (s : St V), Inv s → s.done = true → s.glob = some u.value →
        (acts'.foldl step s).glob = some u.value := by
      intro acts'
      induction acts' with
      | nil => intro s _ _ h; exact h
      | cons a acts' ih =>
        intro s hs hdn hg
        refine ih _ (inv_step s a hs) ?_ ?_
        · cases a with
          | call v => exact hdn
          | next k ok =>
            simp only [step]
            split
            · exact hdn
            · split <;> (try exact hdn) <;> (try rfl)
              · split <;> exact hdn
              · split <;> exact hdn
              · split <;> exact hdn
        · cases a with
          | call v => exact hg
          | next k ok =>
            simp only [step]
            split
            · exact hg
            · rename_i w hw
              split <;> rename_i hpc <;> (try exact hg)
              · split <;> exact hg
              · split <;> exact hg
              · have := ((hs.calls k w hw).2.1 (by rw [hpc]; rfl)).1
                rw [hdn] at this; cases this
              · split <;> exact hg
    have := key acts' _ h hd e4
    simpa [run] using this
  · intro hb
    subst hb
    have := ((h.calls i t hi).2.2.2.1 (Or.inr hp)).1
    rw [e1] at this
    cases this
    rw [hi] at e2; cases e2; rfl

/-- **C28** No deadlock: as long as some call is not over, some call can take a step. -/
theorem C28_no_deadlock (acts : List (Act V)) (t : Call V) (ht : t ∈ (run acts).calls) (hn : ¬ over t.pc) :
    ∃ (k : Nat) (u : Call V) (pc : PC), (run acts).calls[k]? = some u ∧ pc ≠ u.pc ∧
      (step (run acts) (.next k true)).calls = (run acts).calls.set k ⟨u.value, pc⟩ := by
  have h := inv_run acts
  -- a call inside the lock can always move
  have hcrit : ∀ (k : Nat) (u : Call V), (run acts).calls[k]? = some u → crit u.pc = true →
      ∃ pc, pc ≠ u.pc ∧ (step (run acts) (.next k true)).calls = (run acts).calls.set k ⟨u.value, pc⟩ := by
    intro k u hk hc
    cases hp : u.pc with
    | inside =>
      cases hd : (run acts).done with
      | true => exact ⟨.ret false, by simp, by simp [step, hk, hp, hd, goto]⟩
      | false => exact ⟨.calling, by simp, by simp [step, hk, hp, hd, goto]⟩
    | calling => exact ⟨.body, by simp, by simp [step, hk, hp, goto]⟩
    | body => exact ⟨.setDone, by simp, by simp [step, hk, hp, goto]⟩
    | setDone => exact ⟨.releasing, by simp, by simp [step, hk, hp, goto]⟩
    | releasing => exact ⟨.ret true, by simp, by simp [step, hk, hp, goto]⟩
    | start => rw [hp] at hc; simp [crit] at hc
    | want => rw [hp] at hc; simp [crit] at hc
    | ret b => rw [hp] at hc; simp [crit] at hc
    | raised => rw [hp] at hc; simp [crit] at hc
  obtain ⟨i, hi⟩ := List.mem_iff_getElem?.mp ht
  by_cases hc : crit t.pc = true
  · obtain ⟨pc, h1, h2⟩ := hcrit i t hi hc
    exact ⟨i, t, pc, hi, h1, h2⟩
  · cases hp : t.pc with
    | start =>
      cases hd : (run acts).done with
      | true => exact ⟨i, t, .ret false, hi, by rw [hp]; simp, by simp [step, hi, hp, hd, goto]⟩
      | false => exact ⟨i, t, .want, hi, by rw [hp]; simp, by simp [step, hi, hp, hd, goto]⟩
    | want =>
      cases hl : (run acts).lock with
      | none => exact ⟨i, t, .inside, hi, by rw [hp]; simp, by simp [step, hi, hp, hl, goto]⟩
      | some k =>
        obtain ⟨u, hu, hcr⟩ := h.lock k hl
        obtain ⟨pc, h1, h2⟩ := hcrit k u hu hcr
        exact ⟨k, u, pc, hu, h1, h2⟩
    | ret b => exact absurd (Or.inl ⟨b, hp⟩) hn
    | raised => exact absurd (Or.inr hp) hn
    | inside => rw [hp] at hc; simp [crit] at hc
    | calling => rw [hp] at hc; simp [crit] at hc
    | body => rw [hp] at hc; simp [crit] at hc
    | setDone => rw [hp] at hc; simp [crit] at hc
    | releasing => rw [hp] at hc; simp [crit] at hc

/-- **C28** If the function assigns the global and then raises — as setting a meter provider whose `get_meter` raises does
— the call does not count, and a later call replaces the global. -/
theorem C28_raise_replaces :
    let a : List (Act Nat) := [.call 1, .next 0 true, .next 0 true, .next 0 true, .next 0 true, .next 0 false]
    let b : List (Act Nat) := .call 2 :: List.replicate 7 (.next 1 true)
    (run a).glob = some 1 ∧ (run (a ++ b)).glob = some 2 := by
  decide

/-! Two racing calls: both pass the fast path, the second waits for the lock and returns `False`. -/
example : let s := run ([.call 1, .call 2, .next 0 true, .next 1 true, .next 0 true, .next 1 true] ++
    List.replicate 5 (.next 0 true) ++ List.replicate 3 (.next 1 true) : List (Act Nat));
    s.calls.map (·.pc) = [.ret true, .ret false] ∧ s.glob = some 1 := by
  decide

end Once
end Otel
