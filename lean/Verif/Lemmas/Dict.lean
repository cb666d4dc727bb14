import Verif.Model.Py
/-! Laws of the ordered dictionary. -/
namespace Otel
namespace Dict
set_option linter.unusedSectionVars false
variable {κ ν : Type} [DecidableEq κ]

@[simp] theorem get?_nil (k : κ) : get? ([] : Dict κ ν) k = none := rfl
@[simp] theorem keys_nil : keys ([] : Dict κ ν) = [] := rfl
@[simp] theorem keys_cons (p : κ × ν) (d : Dict κ ν) : keys (p :: d) = p.1 :: keys d := rfl
@[simp] theorem keys_append (d e : Dict κ ν) : keys (d ++ e) = keys d ++ keys e := by simp [keys]

theorem get?_set (d : Dict κ ν) (k k' : κ) (v : ν) :
    get? (set d k v) k' = if k = k' then some v else get? d k' := by
  induction d with
  | nil => simp [set, get?]
  | cons p d ih =>
    obtain ⟨a, b⟩ := p
    simp only [set]
    split
    · rename_i h; subst h; simp only [get?]; split <;> rfl
    · rename_i h; simp only [get?, ih]
      split
      · rename_i h2; subst h2; simp [Ne.symm h]
      · rfl

@[simp] theorem get?_set_self (d : Dict κ ν) (k : κ) (v : ν) : get? (set d k v) k = some v := by
  simp [get?_set]

theorem get?_set_ne (d : Dict κ ν) {k k' : κ} (v : ν) (h : k ≠ k') :
    get? (set d k v) k' = get? d k' := by simp [get?_set, h]

theorem get?_eq_none_iff (d : Dict κ ν) (k : κ) : get? d k = none ↔ k ∉ keys d := by
  induction d with
  | nil => simp
  | cons p d ih =>
    obtain ⟨a, b⟩ := p
    simp only [get?, keys_cons, List.mem_cons, not_or]
    split
    · rename_i h; subst h; simp
    · rename_i h; rw [ih]; constructor
      · intro h2; exact ⟨fun h3 => h h3.symm, h2⟩
      · exact fun h2 => h2.2

theorem has_iff (d : Dict κ ν) (k : κ) : has d k = true ↔ k ∈ keys d := by
  unfold has
  cases h : get? d k with
  | none => simp [(get?_eq_none_iff d k).mp h]
  | some v =>
    have : ¬ (k ∉ keys d) := fun h2 => by rw [(get?_eq_none_iff d k).mpr h2] at h; cases h
    simp only [Option.isSome_some, true_iff]; exact Classical.not_not.mp this

theorem has_false_iff (d : Dict κ ν) (k : κ) : has d k = false ↔ k ∉ keys d := by
  rw [← has_iff]; simp

theorem mem_of_get? (d : Dict κ ν) (k : κ) (v : ν) (h : get? d k = some v) : (k, v) ∈ d := by
  induction d with
  | nil => simp at h
  | cons p d ih =>
    obtain ⟨a, b⟩ := p
    simp only [get?] at h
    split at h
    · rename_i h2; subst h2; injection h with h; subst h; exact List.mem_cons_self ..
    · exact List.mem_cons_of_mem _ (ih h)

theorem get?_of_mem (d : Dict κ ν) (hn : (keys d).Nodup) (k : κ) (v : ν) (h : (k, v) ∈ d) :
    get? d k = some v := by
  induction d with
  | nil => simp at h
  | cons p d ih =>
    obtain ⟨a, b⟩ := p
    simp only [keys_cons, List.nodup_cons] at hn
    rcases List.mem_cons.mp h with h | h
    · injection h with h1 h2; subst h1; subst h2; simp [get?]
    · have : a ≠ k := by
        rintro rfl; exact hn.1 (List.mem_map.mpr ⟨_, h, rfl⟩)
      simp [get?, this, ih hn.2 h]

theorem keys_set (d : Dict κ ν) (k : κ) (v : ν) :
    keys (set d k v) = if k ∈ keys d then keys d else keys d ++ [k] := by
  induction d with
  | nil => simp [set, keys]
  | cons p d ih =>
    obtain ⟨a, b⟩ := p
    simp only [set, keys_cons, List.mem_cons]
    split
    · rename_i h; subst h; simp
    · rename_i h
      simp only [keys_cons, ih]
      have : ¬ (k = a) := fun h2 => h h2.symm
      simp only [this, false_or]
      split <;> simp

theorem nodup_set (d : Dict κ ν) (k : κ) (v : ν) (h : (keys d).Nodup) : (keys (set d k v)).Nodup := by
  rw [keys_set]; split
  · exact h
  · rename_i h2; rw [List.nodup_append]; refine ⟨h, by simp, ?_⟩
    intro a ha b hb; simp at hb; subst hb; rintro rfl; exact h2 ha

theorem set_of_not_mem (d : Dict κ ν) (k : κ) (v : ν) (h : k ∉ keys d) : set d k v = d ++ [(k, v)] := by
  induction d with
  | nil => rfl
  | cons p d ih =>
    obtain ⟨a, b⟩ := p
    simp only [keys_cons, List.mem_cons, not_or] at h
    simp [set, Ne.symm h.1, ih h.2]

theorem length_set (d : Dict κ ν) (k : κ) (v : ν) :
    (set d k v).length = if k ∈ keys d then d.length else d.length + 1 := by
  have h1 : ∀ e : Dict κ ν, e.length = (keys e).length := fun e => by simp [keys]
  rw [h1, keys_set, h1 d]; split <;> simp

theorem erase_of_not_mem (d : Dict κ ν) (k : κ) (h : k ∉ keys d) : erase d k = d := by
  induction d with
  | nil => rfl
  | cons p d ih =>
    obtain ⟨a, b⟩ := p
    simp only [keys_cons, List.mem_cons, not_or] at h
    simp [erase, Ne.symm h.1, ih h.2]

theorem erase_eq_filter (d : Dict κ ν) (k : κ) (h : (keys d).Nodup) :
    erase d k = d.filter (fun p => p.1 ≠ k) := by
  induction d with
  | nil => rfl
  | cons p d ih =>
    obtain ⟨a, b⟩ := p
    simp only [keys_cons, List.nodup_cons] at h
    simp only [erase]
    split
    · rename_i h2; subst h2
      rw [List.filter_cons_of_neg (by simp)]
      symm; rw [List.filter_eq_self]
      intro p hp; simp only [ne_eq, decide_not, Bool.not_eq_eq_eq_not, Bool.not_true, decide_eq_false_iff_not]
      rintro rfl; exact h.1 (List.mem_map.mpr ⟨p, hp, rfl⟩)
    · rename_i h2
      rw [List.filter_cons_of_pos (by simpa using h2), ih h.2]

theorem erase_sublist (d : Dict κ ν) (k : κ) : (erase d k).Sublist d := by
  induction d with
  | nil => exact List.Sublist.refl _
  | cons p d ih =>
    obtain ⟨a, b⟩ := p
    simp only [erase]; split
    · exact List.sublist_cons_self ..
    · exact List.Sublist.cons_cons _ ih

theorem keys_erase_sublist (d : Dict κ ν) (k : κ) : (keys (erase d k)).Sublist (keys d) :=
  (erase_sublist d k).map _

theorem nodup_erase (d : Dict κ ν) (k : κ) (h : (keys d).Nodup) : (keys (erase d k)).Nodup :=
  List.Sublist.nodup (keys_erase_sublist d k) h

theorem get?_erase (d : Dict κ ν) (k k' : κ) (h : (keys d).Nodup) :
    get? (erase d k) k' = if k = k' then none else get? d k' := by
  induction d with
  | nil => simp [erase]
  | cons p d ih =>
    obtain ⟨a, b⟩ := p
    simp only [keys_cons, List.nodup_cons] at h
    simp only [erase]; split
    · rename_i h2; subst h2
      split
      · rename_i h3; subst h3; exact (get?_eq_none_iff d a).mpr h.1
      · rename_i h3; simp [get?, h3]
    · rename_i h2
      simp only [get?, ih h.2]
      split
      · rename_i h3; subst h3; simp [Ne.symm h2]
      · rfl

theorem length_erase_lt (d : Dict κ ν) (k : κ) (h : k ∈ keys d) : (erase d k).length + 1 = d.length := by
  induction d with
  | nil => simp at h
  | cons p d ih =>
    obtain ⟨a, b⟩ := p
    simp only [erase]; split
    · simp
    · rename_i h2
      simp only [keys_cons, List.mem_cons] at h
      rcases h with h | h
      · exact absurd h.symm h2
      · simp [ih h]

theorem length_erase_le (d : Dict κ ν) (k : κ) : (erase d k).length ≤ d.length :=
  (erase_sublist d k).length_le

theorem not_mem_keys_erase (d : Dict κ ν) (k : κ) (h : (keys d).Nodup) : k ∉ keys (erase d k) := by
  rw [← get?_eq_none_iff, get?_erase _ _ _ h]; simp

theorem update_nil (d : Dict κ ν) : update d [] = d := rfl
theorem update_cons (d : Dict κ ν) (p : κ × ν) (e : Dict κ ν) :
    update d (p :: e) = update (set d p.1 p.2) e := rfl

theorem nodup_update (d e : Dict κ ν) (h : (keys d).Nodup) : (keys (update d e)).Nodup := by
  induction e generalizing d with
  | nil => exact h
  | cons p e ih => exact ih _ (nodup_set _ _ _ h)

theorem get?_update (d e : Dict κ ν) (k : κ) (he : (keys e).Nodup) :
    get? (update d e) k = (get? e k).or (get? d k) := by
  induction e generalizing d with
  | nil => simp [update_nil]
  | cons p e ih =>
    obtain ⟨a, b⟩ := p
    simp only [keys_cons, List.nodup_cons] at he
    rw [update_cons, ih _ he.2, get?_set]
    simp only [get?]
    split
    · rename_i h; subst h; rw [(get?_eq_none_iff e a).mpr he.1]; simp
    · rfl

end Dict
end Otel
