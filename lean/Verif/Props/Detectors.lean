import Verif.Spec.Detectors
import Verif.Props.Resource
import Mathlib.Data.Nat.Cast.WithTop
import Mathlib.Tactic.SplitIfs
/-!
# C110: resources are merged in the order of their detectors, whoever is faster; slow detectors are skipped
-/
namespace Otel
namespace Detectors
open Resource (Detected)

theorem finishes_length (free : List (WithTop Nat)) (ds : List Detector) : (finishes free ds).length = ds.length := by
  induction ds generalizing free with
  | nil => rfl
  | cons d l ih => simp [finishes, ih]

theorem await_cons_in {timeout now : Nat} {d : Detector} {f : WithTop Nat} {l : List (Detector × WithTop Nat)}
    (h : f ≤ ((now + timeout : Nat) : WithTop Nat)) :
    await timeout now ((d, f) :: l) = (d.result :: (await timeout (max now (f.untopD 0)) l).1, (await timeout (max now (f.untopD 0)) l).2) := by
  rw [await, if_pos h]
  rfl

theorem await_cons_out {timeout now : Nat} {d : Detector} {f : WithTop Nat} {l : List (Detector × WithTop Nat)}
    (h : ¬ f ≤ ((now + timeout : Nat) : WithTop Nat)) :
    await timeout now ((d, f) :: l) = (.fails d.raiseOnError :: (await timeout (now + timeout) l).1, (await timeout (now + timeout) l).2) := by
  rw [await, if_neg h]

theorem untopD_le {f : WithTop Nat} {n : Nat} (h : f ≤ (n : WithTop Nat)) : f.untopD 0 ≤ n := by
  cases f with
  | top => exact absurd h (by simp)
  | coe f => exact WithTop.coe_le_coe.mp h

theorem await_in_time (timeout now i : Nat) (l : List (Detector × WithTop Nat)) (d : Detector) (f : WithTop Nat) (h : l[i]? = some (d, f))
    (hf : f ≤ (timeout : WithTop Nat)) : (await timeout now l).1[i]? = some d.result := by
  induction l generalizing now i with
  | nil => simp at h
  | cons x l ih =>
    obtain ⟨d', f'⟩ := x
    cases i with
    | zero =>
      simp only [List.getElem?_cons_zero, Option.some.injEq, Prod.mk.injEq] at h
      obtain ⟨rfl, rfl⟩ := h
      have hle : f' ≤ ((now + timeout : Nat) : WithTop Nat) := le_trans hf (by exact_mod_cast Nat.le_add_left timeout now)
      rw [await_cons_in hle]
      rfl
    | succ i =>
      simp only [List.getElem?_cons_succ] at h
      by_cases hh : f' ≤ ((now + timeout : Nat) : WithTop Nat)
      · rw [await_cons_in hh]
        simpa using ih _ i h
      · rw [await_cons_out hh]
        simpa using ih _ i h

theorem await_too_late (timeout now i k : Nat) (hk : now ≤ k * timeout) (l : List (Detector × WithTop Nat)) (d : Detector) (f : WithTop Nat)
    (h : l[i]? = some (d, f)) (hf : (((k + i + 1) * timeout : Nat) : WithTop Nat) < f) :
    (await timeout now l).1[i]? = some (.fails d.raiseOnError) := by
  induction l generalizing now i k with
  | nil => simp at h
  | cons x l ih =>
    obtain ⟨d', f'⟩ := x
    have hm : (k + 1) * timeout = k * timeout + timeout := Nat.succ_mul k timeout
    cases i with
    | zero =>
      simp only [List.getElem?_cons_zero, Option.some.injEq, Prod.mk.injEq] at h
      obtain ⟨rfl, rfl⟩ := h
      rw [await_cons_out]
      · rfl
      · intro hle
        have := lt_of_lt_of_le hf hle
        have this : (k + 0 + 1) * timeout < now + timeout := by exact_mod_cast this
        rw [Nat.add_zero, hm] at this
        omega
    | succ i =>
      simp only [List.getElem?_cons_succ] at h
      have e : k + (i + 1) + 1 = k + 1 + i + 1 := by omega
      rw [e] at hf
      by_cases hh : f' ≤ ((now + timeout : Nat) : WithTop Nat)
      · rw [await_cons_in hh]
        simpa using ih _ i (k + 1) (by have := untopD_le hh; rw [hm]; omega) h hf
      · rw [await_cons_out hh]
        simpa using ih _ i (k + 1) (by rw [hm]; omega) h hf

theorem zip_get {ds : List Detector} {fs : List (WithTop Nat)} {i : Nat} {d : Detector} {f : WithTop Nat} (hd : ds[i]? = some d) (hf : fs[i]? = some f) :
    (ds.zip fs)[i]? = some (d, f) := by
  rw [List.getElem?_zip_eq_some]
  exact ⟨hd, hf⟩

/-- **C110** A detector that is finished within the timeout of the call is never skipped, whatever the others do. One that is finished later than
`(i + 1)` timeouts after the call, where `i` is its position, always is. -/
theorem C110_skipped (timeout i : Nat) (ds : List Detector) (d : Detector) (f : WithTop Nat) (hd : ds[i]? = some d)
    (hf : (finishes [0, 0, 0, 0] ds)[i]? = some f) :
    (f ≤ (timeout : WithTop Nat) → (outcomes timeout ds)[i]? = some d.result) ∧
    ((((i + 1) * timeout : Nat) : WithTop Nat) < f → (outcomes timeout ds)[i]? = some (.fails d.raiseOnError)) := by
  refine ⟨fun h => await_in_time timeout 0 i _ d f (zip_get hd hf) h, fun h => ?_⟩
  exact await_too_late timeout 0 i 0 (Nat.zero_le _) _ d f (zip_get hd hf) (by simpa using h)

theorem earliest_zero {free : List (WithTop Nat)} (h : 0 ∈ free) : earliest free = 0 := by
  unfold earliest
  induction free with
  | nil => simp at h
  | cons a l ih =>
    rw [List.foldr_cons]
    rcases List.mem_cons.mp h with rfl | h
    · simp
    · rw [ih h]
      simp

theorem finishes_few (free : List (WithTop Nat)) (ds : List Detector) (h : ds.length ≤ free.count 0) :
    finishes free ds = ds.map (·.takes) := by
  induction ds generalizing free with
  | nil => rfl
  | cons d l ih =>
    have h0 : 0 ∈ free := List.count_pos_iff.mp (by simp at h; omega)
    rw [finishes, earliest_zero h0, zero_add, List.map_cons, ih]
    rw [List.count_append, List.count_erase_self]
    simp at h
    omega

/-- **C110** With at most four detectors, one that takes no longer than the timeout is never skipped, even if the others hang. -/
theorem C110_few (timeout i : Nat) (ds : List Detector) (few : ds.length ≤ 4) (d : Detector) (hd : ds[i]? = some d)
    (ht : d.takes ≤ (timeout : WithTop Nat)) : (outcomes timeout ds)[i]? = some d.result := by
  refine (C110_skipped timeout i ds d d.takes hd ?_).1 ht
  rw [finishes_few _ _ (by simpa using few), List.getElem?_map, hd]
  rfl

theorem await_all (timeout now : Nat) (l : List (Detector × WithTop Nat)) (h : ∀ x ∈ l, x.2 ≤ (timeout : WithTop Nat)) :
    (await timeout now l).1 = l.map (·.1.result) := by
  induction l generalizing now with
  | nil => rfl
  | cons x l ih =>
    obtain ⟨d, f⟩ := x
    have hle : f ≤ ((now + timeout : Nat) : WithTop Nat) := le_trans (h (d, f) (by simp)) (by exact_mod_cast Nat.le_add_left timeout now)
    rw [await_cons_in hle, List.map_cons, ih _ fun x hx => h x (by simp [hx])]

theorem aggregate_ok (initial : Resource) (rs : List Resource) : Resource.aggregate initial (rs.map Detected.ok) = some (rs.foldl Resource.merge initial) := by
  induction rs generalizing initial with
  | nil => rfl
  | cons r l ih => rw [List.map_cons, Resource.aggregate, ih]; rfl

/-- **C110** If all detectors are finished within the timeout, the resources are merged in the order of the detectors, whichever is finished first. -/
theorem C110_order (timeout : Nat) (initial : Resource) (ds : List Detector)
    (h : ∀ f ∈ finishes [0, 0, 0, 0] ds, f ≤ (timeout : WithTop Nat)) :
    (detect timeout initial ds).1 = Resource.aggregate initial (ds.map (·.result)) ∧
    ∀ rs : List Resource, ds.map (·.answer) = rs.map some → (detect timeout initial ds).1 = some (rs.foldl Resource.merge initial) := by
  have e : outcomes timeout ds = ds.map (·.result) := by
    unfold outcomes
    rw [await_all]
    · show (ds.zip _).map (Detector.result ∘ Prod.fst) = _
      rw [← List.map_map, List.map_fst_zip (by rw [finishes_length])]
    · intro x hx
      exact h _ (List.of_mem_zip hx).2
  refine ⟨by rw [detect, e], fun rs hrs => ?_⟩
  rw [detect, e, ← aggregate_ok]
  show Resource.aggregate initial _ = _
  congr 1
  have : ds.map (·.result) = (ds.map (·.answer)).zipWith (fun a d => match a with
      | some r => Detected.ok r
      | none => .fails d.raiseOnError) ds := by
    clear h e hrs
    induction ds with
    | nil => rfl
    | cons d l ih => simp only [List.map_cons, List.zipWith_cons_cons, ← ih]; rfl
  rw [this, hrs]
  have hl : ds.length = rs.length := by simpa using congrArg List.length hrs
  clear h e this hrs
  induction rs generalizing ds with
  | nil => simp
  | cons r l ih =>
    cases ds with
    | nil => simp at hl
    | cons d t => simp only [List.map_cons, List.zipWith_cons_cons, ih t (by simpa using hl)]

theorem le_allDone {fs : List (WithTop Nat)} {f : WithTop Nat} (h : f ∈ fs) : f ≤ allDone fs := by
  unfold allDone
  induction fs with
  | nil => simp at h
  | cons a l ih =>
    rw [List.foldr_cons]
    rcases List.mem_cons.mp h with rfl | h
    · exact le_max_left _ _
    · exact le_trans (ih h) (le_max_right _ _)

theorem allDone_top {fs : List (WithTop Nat)} : allDone fs = ⊤ ↔ ⊤ ∈ fs := by
  refine ⟨fun h => ?_, fun h => top_le_iff.mp (le_allDone h)⟩
  unfold allDone at h
  induction fs with
  | nil => simp at h
  | cons a l ih =>
    rw [List.foldr_cons] at h
    rcases max_choice a (List.foldr max 0 l) with e | e
    · rw [e] at h
      simp [h]
    · rw [e] at h
      exact List.mem_cons_of_mem _ (ih h)

theorem await_end (timeout now : Nat) (l : List (Detector × WithTop Nat)) (b : WithTop Nat) (hn : (now : WithTop Nat) ≤ b) (h : ∀ x ∈ l, x.2 ≤ b) :
    ((await timeout now l).2 : WithTop Nat) ≤ b := by
  induction l generalizing now with
  | nil => exact hn
  | cons x l ih =>
    obtain ⟨d, f⟩ := x
    have hf : f ≤ b := h (d, f) (by simp)
    have hl : ∀ x ∈ l, x.2 ≤ b := fun x hx => h x (by simp [hx])
    by_cases hh : f ≤ ((now + timeout : Nat) : WithTop Nat)
    · rw [await_cons_in hh]
      refine ih _ ?_ hl
      cases f with
      | top => exact absurd hh (by simp)
      | coe f =>
        show ((max now f : Nat) : WithTop Nat) ≤ b
        rcases max_choice now f with e | e
        · rw [e]; exact hn
        · rw [e]; exact hf
    · rw [await_cons_out hh]
      exact ih _ (le_trans (le_of_lt (not_le.mp hh)) hf) hl

theorem await_bound (timeout now : Nat) (l : List (Detector × WithTop Nat)) : (await timeout now l).2 ≤ now + l.length * timeout := by
  induction l generalizing now with
  | nil => simp [await]
  | cons x l ih =>
    obtain ⟨d, f⟩ := x
    have e : (l.length + 1) * timeout = l.length * timeout + timeout := Nat.succ_mul _ _
    by_cases hh : f ≤ ((now + timeout : Nat) : WithTop Nat)
    · rw [await_cons_in hh]
      have := ih (max now (f.untopD 0))
      have := untopD_le hh
      simp only [List.length_cons]
      rw [e]
      omega
    · rw [await_cons_out hh]
      have := ih (now + timeout)
      simp only [List.length_cons]
      rw [e]
      omega

theorem earliest_finite {free : List (WithTop Nat)} (hne : free ≠ []) (h : ⊤ ∉ free) : earliest free ≠ ⊤ := by
  cases free with
  | nil => exact absurd rfl hne
  | cons a l =>
    intro e
    apply h
    unfold earliest at e
    rw [List.foldr_cons, min_eq_top] at e
    rw [e.1]
    simp

theorem finishes_top (free : List (WithTop Nat)) (ds : List Detector) (hne : free ≠ []) (h : ⊤ ∉ free) :
    ⊤ ∈ finishes free ds ↔ ∃ d ∈ ds, d.takes = ⊤ := by
  induction ds generalizing free with
  | nil => simp [finishes]
  | cons d l ih =>
    rw [finishes, List.mem_cons]
    by_cases ht : d.takes = ⊤
    · refine ⟨fun _ => ⟨d, by simp, ht⟩, fun _ => Or.inl ?_⟩
      rw [ht, WithTop.add_top]
    · have hs : earliest free + d.takes ≠ ⊤ := by
        rw [Ne, WithTop.add_eq_top]
        rintro (e | e)
        · exact earliest_finite hne h e
        · exact ht e
      rw [ih _ (by simp) (by
        intro hm
        rcases List.mem_append.mp hm with hm | hm
        · exact h (List.mem_of_mem_erase hm)
        · simp only [List.mem_singleton] at hm
          exact hs hm.symm)]
      constructor
      · rintro (e | ⟨d', hd', h'⟩)
        · exact absurd e.symm hs
        · exact ⟨d', by simp [hd'], h'⟩
      · rintro ⟨d', hd', h'⟩
        rcases List.mem_cons.mp hd' with rfl | hd'
        · exact absurd h' ht
        · exact Or.inr ⟨d', hd', h'⟩

/-- **C110** The call returns, or raises, at the very moment when the last detector is finished, also when that detector was skipped; the loop over the
detectors is over after one timeout for each at most. -/
theorem C110_returns (timeout : Nat) (initial : Resource) (ds : List Detector) :
    (detect timeout initial ds).2 = allDone (finishes [0, 0, 0, 0] ds) ∧
    (∀ f ∈ finishes [0, 0, 0, 0] ds, f ≤ (detect timeout initial ds).2) ∧
    (await timeout 0 (ds.zip (finishes [0, 0, 0, 0] ds))).2 ≤ ds.length * timeout := by
  have e : (detect timeout initial ds).2 = allDone (finishes [0, 0, 0, 0] ds) := by
    rw [detect]
    exact max_eq_right (await_end _ _ _ _ (by simp) fun x hx => le_allDone (List.of_mem_zip hx).2)
  refine ⟨e, fun f hf => by rw [e]; exact le_allDone hf, ?_⟩
  have := await_bound timeout 0 (ds.zip (finishes [0, 0, 0, 0] ds))
  rw [List.length_zip, finishes_length, Nat.min_self] at this
  omega

/-- **C110, refuted** "Number of seconds to wait for each detector to return": the call returns exactly if all detectors do. One that hangs hangs
the call (and with it `Resource.create` and the creation of a provider), whatever the timeout, although it was skipped. -/
theorem C110_hang_violated (timeout : Nat) (initial : Resource) (ds : List Detector) :
    (detect timeout initial ds).2 = ⊤ ↔ ∃ d ∈ ds, d.takes = ⊤ := by
  rw [(C110_returns timeout initial ds).1, allDone_top]
  exact finishes_top _ _ (by simp) (by simp)

/-- **C110, refuted** A fifth detector may be skipped although it takes no time at all: the four workers are busy with detectors that are skipped too. -/
theorem C110_starved_violated (timeout slow : Nat) (hs : 5 * timeout < slow) (r r' : Resource) :
    (outcomes timeout [quick slow r, quick slow r, quick slow r, quick slow r, quick 0 r'])[4]? = some (.fails false) := by
  have h0 : (0 : WithTop Nat) ≤ (slow : WithTop Nat) := by simp
  have hne : slow ≠ 0 := by omega
  refine (C110_skipped timeout 4 _ (quick 0 r') (slow : WithTop Nat) rfl ?_).2 (WithTop.coe_lt_coe.mpr hs)
  have hb : ((slow : Nat) : WithTop Nat) ≠ 0 := by exact_mod_cast hne
  have hb' : (0 : WithTop Nat) ≠ ((slow : Nat) : WithTop Nat) := fun e => hb e.symm
  simp [finishes, quick, earliest, List.erase_cons, hb, hb']

/-- **C110, refuted** A detector that takes longer than the timeout is not skipped if an earlier one has been waited for meanwhile. -/
theorem C110_late_violated (timeout : Nat) (r r' : Resource) :
    outcomes timeout [quick timeout r, quick ((2 * timeout : Nat) : WithTop Nat) r'] = [.ok r, .ok r'] := by
  unfold outcomes
  rw [finishes_few _ _ (by simp)]
  show (await timeout 0 [(quick timeout r, (timeout : WithTop Nat)), (quick _ r', ((2 * timeout : Nat) : WithTop Nat))]).1 = _
  rw [await_cons_in (by rw [Nat.zero_add]), await_cons_in]
  · rfl
  · refine WithTop.coe_le_coe.mpr ?_
    show 2 * timeout ≤ max 0 timeout + timeout
    omega

/-- **C110, refuted** "Static resource. This has highest priority": an attribute that a detector sets replaces the one of the initial resource. -/
theorem C110_priority_violated (timeout : Nat) (initial r : Resource) (hi : Resource.WF initial) (hr : Resource.WF r)
    (h : Resource.Compatible initial.schema r.schema) (k : Str) (v : Val) (hk : Dict.get? r.attrs k = some v) :
    ∃ res : Resource, (detect timeout initial [quick 0 r]).1 = some res ∧ Dict.get? res.attrs k = some v := by
  refine ⟨initial.merge r, ?_, ?_⟩
  · rw [(C110_order timeout initial [quick 0 r] ?_).2 [r] rfl]
    · rfl
    · rw [finishes_few _ _ (by simp)]
      simp [quick]
  · rw [(Resource.C41_override initial r hi hr h).1 k, hk]
    rfl

/-- **C110** The first detector in the order that fails and has `raise_on_error` set makes the call raise, once all are finished. -/
theorem C110_raises (timeout : Nat) (initial : Resource) (ds : List Detector) :
    (detect timeout initial ds).1 = none ↔ .fails true ∈ outcomes timeout ds := by
  show Resource.aggregate initial _ = none ↔ _
  generalize outcomes timeout ds = l
  induction l generalizing initial with
  | nil => simp [Resource.aggregate]
  | cons x l ih =>
    cases x with
    | ok r => simp [Resource.aggregate, ih]
    | fails b => cases b <;> simp [Resource.aggregate, ih]

example : (detect 5 Resource.empty [quick 3 (.new [(.str ['a'], Resource.strVal ['1'])] none), quick 1 (.new [(.str ['a'], Resource.strVal ['2'])] none),
    ⟨false, 9, none⟩]).2 = 9 := by
  rw [(C110_returns _ _ _).1]
  rw [finishes_few _ _ (by simp)]
  decide

end Detectors
end Otel
