import Verif.Spec.Attributes
import Verif.Lemmas.Dict
import Verif.Lemmas.Url
/-! Helper lemmas for attribute collections. -/
namespace Otel
open Spec

section lists
variable {κ ν : Type} [DecidableEq κ]

theorem newest_some {α : Type} (n : Nat) (l : List α) : newest (some n) l = l.drop (l.length - n) := by
  simp only [newest, List.take_reverse, List.reverse_reverse]

theorem lastAssignments_keys (h : List (κ × ν)) : (lastAssignments h).map Prod.fst |>.Nodup := by
  induction h with
  | nil => simp [lastAssignments]
  | cons p ps ih =>
    unfold lastAssignments
    split
    · exact ih
    · rename_i hp
      simp only [List.map_cons, List.nodup_cons]
      refine ⟨fun hm => hp ?_, ih⟩
      have : ∀ l : List (κ × ν), p.1 ∈ (lastAssignments l).map Prod.fst → p.1 ∈ l.map Prod.fst := by
        intro l
        induction l with
        | nil => exact id
        | cons q qs ih2 =>
          intro h
          unfold lastAssignments at h
          split at h
          · exact List.mem_cons_of_mem _ (ih2 h)
          · simp only [List.map_cons, List.mem_cons] at h ⊢
            exact h.imp_right ih2
      exact this ps hm

theorem lastAssignments_snoc (h : List (κ × ν)) (p : κ × ν) :
    lastAssignments (h ++ [p]) = (lastAssignments h).filter (fun q => decide (q.1 ≠ p.1)) ++ [p] := by
  induction h with
  | nil => simp [lastAssignments]
  | cons q qs ih =>
    simp only [List.cons_append, lastAssignments, List.map_append, List.mem_append, List.map_cons, List.map_nil,
      List.mem_singleton, ih]
    by_cases h1 : q.1 ∈ qs.map Prod.fst
    · simp [h1]
    · rw [if_neg h1]
      by_cases h2 : q.1 = p.1
      · rw [if_pos (Or.inr h2), List.filter_cons_of_neg (by simp [h2])]
      · rw [if_neg (by simp [h2]; simpa using h1), List.filter_cons_of_pos (by simp [h2])]; rfl

theorem filter_ne_of_not_mem (l : List (κ × ν)) (k : κ) (h : k ∉ l.map Prod.fst) :
    l.filter (fun q => decide (q.1 ≠ k)) = l := by
  rw [List.filter_eq_self]
  intro q hq
  simp only [ne_eq, decide_not, Bool.not_eq_true', decide_eq_false_iff_not]
  rintro rfl
  exact h (List.mem_map_of_mem hq)

theorem drop_append_snoc {α : Type} (A B : List α) (n : Nat) (h : B.length = n) : (A ++ B).drop ((A ++ B).length - n) = B := by
  have : (A ++ B).length - n = A.length := by simp; omega
  rw [this, List.drop_left]

/-- One assignment on the newest `n` last assignments. -/
theorem newest_step (L : List (κ × ν)) (hL : (L.map Prod.fst).Nodup) (n : Nat) (hn : 0 < n) (p : κ × ν)
    (d : Dict κ ν) (hd : d = newest (some n) L) :
    newest (some n) (L.filter (fun q => decide (q.1 ≠ p.1)) ++ [p]) =
      if Dict.has d p.1 then Dict.erase d p.1 ++ [p]
      else if n = d.length then d.tail ++ [p] else d ++ [p] := by
  rw [newest_some] at hd
  obtain ⟨A, hA⟩ : ∃ A, L = A ++ d := ⟨L.take (L.length - n), by rw [hd]; exact (List.take_append_drop _ _).symm⟩
  have hlen : d.length ≤ n := by rw [hd]; simp; omega
  have hshort : d.length < n → A = [] := by
    intro h
    have h1 : d.length = L.length - (L.length - n) := by rw [hd]; simp
    have h2 : L.length = A.length + d.length := by rw [hA]; simp
    have : A.length = 0 := by omega
    exact List.length_eq_zero_iff.mp this
  have hdn : d.keys.Nodup := by
    rw [hA, List.map_append] at hL
    exact (List.nodup_append.mp hL).2.1
  rw [newest_some]
  split
  · rename_i hk
    rw [Dict.has_iff] at hk
    have hkA : p.1 ∉ A.map Prod.fst := by
      intro h
      rw [hA, List.map_append] at hL
      exact (List.nodup_append.mp hL).2.2 _ h _ hk rfl
    have e : L.filter (fun q => decide (q.1 ≠ p.1)) = A ++ Dict.erase d p.1 := by
      rw [hA, List.filter_append, filter_ne_of_not_mem A p.1 hkA, Dict.erase_eq_filter _ _ hdn]
    have hl := Dict.length_erase_lt d p.1 hk
    rw [e, List.append_assoc]
    by_cases hfull : d.length = n
    · exact drop_append_snoc A _ n (by simp; omega)
    · rw [hshort (by omega)]
      have : ([] ++ (Dict.erase d p.1 ++ [p])).length - n = 0 := by simp; omega
      rw [this]; rfl
  · rename_i hk
    have hk' : p.1 ∉ d.map Prod.fst := by rw [Dict.has_iff] at hk; exact hk
    have e : L.filter (fun q => decide (q.1 ≠ p.1)) = A.filter (fun q => decide (q.1 ≠ p.1)) ++ d := by
      rw [hA, List.filter_append, filter_ne_of_not_mem d p.1 hk']
    rw [e]
    split
    · rename_i hfull
      cases hd' : d with
      | nil => rw [hd'] at hfull; simp at hfull; omega
      | cons x xs =>
        rw [hd'] at hfull
        simp only [List.tail_cons]
        rw [show A.filter (fun q => decide (q.1 ≠ p.1)) ++ x :: xs ++ [p] =
          (A.filter (fun q => decide (q.1 ≠ p.1)) ++ [x]) ++ (xs ++ [p]) by simp]
        exact drop_append_snoc _ _ n (by simp at hfull ⊢; omega)
    · rename_i hfull
      rw [hshort (by omega)]
      have : (List.filter (fun (q : κ × ν) => decide (q.1 ≠ p.1)) [] ++ d ++ [p]).length - n = 0 := by simp; omega
      rw [this]; rfl

end lists

namespace Attr

theorem cleanValue_cases (limit : Option Nat) (a : Atom) :
    cleanValue limit a = .none ∨ (ValidScalar limit (cleanValue limit a)) ∨ (∃ n, cleanValue limit a = .other n) := by
  cases a with
  | none => simp [cleanValue]
  | bool b => simp [cleanValue, ValidScalar]
  | int i e => simp [cleanValue, ValidScalar]
  | float i e => simp [cleanValue, ValidScalar]
  | str s e =>
    right; left
    cases limit with
    | none => simp [cleanValue, truncate, ValidScalar]
    | some n => simp [cleanValue, truncate, ValidScalar]
  | bytes b e =>
    simp only [cleanValue]
    cases decodeStrict b with
    | none => simp
    | some s =>
      right; left
      cases limit with
      | none => simp [truncate, ValidScalar]
      | some n => simp [truncate, ValidScalar]
  | other n => simp [cleanValue]

theorem exactType_hasType (a : Atom) (t : ScalarType) (limit : Option Nat) (h : exactType a = some t)
    (hv : ValidScalar limit a) : HasType t a := by
  cases a with
  | bool b => simp [exactType] at h; exact h.symm
  | int i e => cases e <;> simp [exactType] at h; exact ⟨h.symm, rfl⟩
  | float i e => cases e <;> simp [exactType] at h; exact ⟨h.symm, rfl⟩
  | str i e => cases e <;> simp [exactType] at h; exact ⟨h.symm, rfl⟩
  | bytes i e => exact absurd hv (by simp [ValidScalar])
  | none => simp [exactType] at h
  | other n => simp [exactType] at h

theorem hasType_exactType (a : Atom) (t : ScalarType) (h : HasType t a) : exactType a = some t := by
  cases a with
  | bool b => simp [HasType] at h; simp [exactType, h]
  | int i e => obtain ⟨rfl, rfl⟩ := h; rfl
  | float i e => obtain ⟨rfl, rfl⟩ := h; rfl
  | str i e => obtain ⟨rfl, rfl⟩ := h; rfl
  | bytes i e => exact absurd h (by simp [HasType])
  | none => exact absurd h (by simp [HasType])
  | other n => exact absurd h (by simp [HasType])

theorem cleanSeq_step (limit : Option Nat) (ft : Option ScalarType) (a : Atom) (as : List Atom) :
    cleanSeq limit ft (a :: as) =
      if cleanValue limit a = .none then (cleanSeq limit ft as).map (Atom.none :: ·)
      else match exactType (cleanValue limit a) with
        | none => none
        | some t =>
          match ft with
          | none => (cleanSeq limit (some t) as).map (cleanValue limit a :: ·)
          | some t0 => if t = t0 then (cleanSeq limit ft as).map (cleanValue limit a :: ·) else none := by
  rw [cleanSeq]
  cases h : cleanValue limit a <;> simp <;> rfl

theorem cleanSeq_valid (limit : Option Nat) (ft : Option ScalarType) (l r : List Atom)
    (h : cleanSeq limit ft l = some r) :
    ∃ t, (∀ t0, ft = some t0 → t = t0) ∧ ∀ a ∈ r, a = .none ∨ (ValidScalar limit a ∧ HasType t a) := by
  induction l generalizing ft r with
  | nil =>
    simp only [cleanSeq, Option.some.injEq] at h
    subst h
    cases ft with
    | none => exact ⟨.bool, by simp, by simp⟩
    | some t0 => exact ⟨t0, by simp, by simp⟩
  | cons a as ih =>
    rw [cleanSeq_step] at h
    split at h
    · simp only [Option.map_eq_some_iff] at h
      obtain ⟨r', hr, rfl⟩ := h
      obtain ⟨t, h1, h2⟩ := ih ft r' hr
      refine ⟨t, h1, ?_⟩
      intro a ha
      rcases List.mem_cons.mp ha with rfl | ha
      · exact Or.inl rfl
      · exact h2 a ha
    · rename_i hn
      split at h
      · cases h
      · rename_i t ht
        have hv : ValidScalar limit (cleanValue limit a) := by
          rcases cleanValue_cases limit a with h | h | ⟨n, h⟩
          · exact absurd h hn
          · exact h
          · rw [h] at ht; simp [exactType] at ht
        have hT := exactType_hasType _ _ limit ht hv
        cases ft with
        | none =>
          simp only [Option.map_eq_some_iff] at h
          obtain ⟨r', hr, rfl⟩ := h
          obtain ⟨t', h1, h2⟩ := ih (some t) r' hr
          have := h1 t rfl; subst this
          refine ⟨t', by simp, ?_⟩
          intro b hb
          rcases List.mem_cons.mp hb with rfl | hb
          · exact Or.inr ⟨hv, hT⟩
          · exact h2 b hb
        | some t0 =>
          simp only at h
          split at h
          · rename_i e; subst e
            simp only [Option.map_eq_some_iff] at h
            obtain ⟨r', hr, rfl⟩ := h
            obtain ⟨t', h1, h2⟩ := ih (some t) r' hr
            have := h1 t rfl; subst this
            refine ⟨t', h1, ?_⟩
            intro b hb
            rcases List.mem_cons.mp hb with rfl | hb
            · exact Or.inr ⟨hv, hT⟩
            · exact h2 b hb
          · cases h

/-- Cleaning a valid scalar changes nothing (except that slicing makes an exact `str`). -/
theorem cleanValue_valid (limit : Option Nat) (a : Atom) (h : ValidScalar limit a)
    (he : limit = none ∨ ∀ s, a ≠ .str s false) : cleanValue limit a = a := by
  cases a with
  | none => exact absurd h (by simp [ValidScalar])
  | bool b => rfl
  | int i e => rfl
  | float i e => rfl
  | str s e =>
    cases limit with
    | none => rfl
    | some n =>
      have := h n rfl
      cases e with
      | true => simp [cleanValue, truncate, List.take_of_length_le this]
      | false => rcases he with he | he
                 · cases he
                 · exact absurd rfl (he s)
  | bytes b e => exact absurd h (by simp [ValidScalar])
  | other n => exact absurd h (by simp [ValidScalar])

theorem cleanSeq_fix (limit : Option Nat) (ft : Option ScalarType) (r : List Atom) (t : ScalarType)
    (hft : ∀ t0, ft = some t0 → t = t0)
    (h : ∀ a ∈ r, a = .none ∨ (ValidScalar limit a ∧ HasType t a)) : cleanSeq limit ft r = some r := by
  induction r generalizing ft with
  | nil => rfl
  | cons a as ih =>
    rw [cleanSeq_step]
    have hrest := fun a ha => h a (List.mem_cons_of_mem _ ha)
    rcases h a (by simp) with rfl | ⟨hv, hT⟩
    · simp only [cleanValue, if_true, ih ft hft hrest, Option.map_some]
    · have hx := hasType_exactType a t hT
      have hc : cleanValue limit a = a := cleanValue_valid limit a hv (Or.inr (by rintro s rfl; simp [HasType] at hT))
      have hn : a ≠ .none := by rintro rfl; simp [HasType] at hT
      rw [hc, if_neg hn, hx]
      cases ft with
      | none => simp only [ih (some t) (by simp) hrest, Option.map_some]
      | some t0 =>
        have := hft t0 rfl; subst this
        simp only [if_true, ih (some t) (by simp) hrest, Option.map_some]

end Attr
end Otel
