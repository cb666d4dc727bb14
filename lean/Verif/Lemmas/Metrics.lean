import Verif.Spec.Metrics
import Mathlib.Tactic.Linarith
import Mathlib.Tactic.ByContra
import Mathlib.Data.List.Sort
import Mathlib.Data.List.Basic
/-!
# Running aggregations over histories
-/
namespace Otel
namespace Metrics
variable {α P : Type}

/-- Map with the earlier cycles in view. -/
def mapPast (f : List (Cycle α) → Cycle α → Option P) : List (Cycle α) → List (Cycle α) → List (Option P)
  | _, [] => []
  | past, c :: cs => f past c :: mapPast f (past ++ [c]) cs

theorem mapPast_getElem? (f : List (Cycle α) → Cycle α → Option P) (cs past : List (Cycle α)) (i : Nat) :
    (mapPast f past cs)[i]? = (cs[i]?).map (fun c => f (past ++ cs.take i) c) := by
  induction cs generalizing past i with
  | nil => simp [mapPast]
  | cons c cs ih =>
    cases i with
    | zero => simp [mapPast]
    | succ i => simp [mapPast, ih]

theorem mapPast_const (g : Cycle α → Option P) (cs past : List (Cycle α)) :
    mapPast (fun _ c => g c) past cs = cs.map g := by
  induction cs generalizing past with
  | nil => rfl
  | cons c cs ih => simp [mapPast, ih]

/-- If a relation between the state of an aggregation and the history is kept by every call and determines the points,
the points of every history are given by the cycles. -/
theorem run_eq (m : Machine α P) (R : m.S → List (Cycle α) → Int → List α → List α → Prop)
    (f : List (Cycle α) → Cycle α → Option P)
    (hagg : ∀ s past since here all v, R s past since here all → R (m.aggregate s v) past since (here ++ [v]) (all ++ [v]))
    (hcol : ∀ s past since here all t, R s past since here all →
      (m.collect s t).1 = f past ⟨since, t, here, all⟩ ∧
      R (m.collect s t).2 (past ++ [⟨since, t, here, all⟩]) t [] all)
    (l : List (Op α)) (s : m.S) (past : List (Cycle α)) (since : Int) (here all : List α) (h : R s past since here all) :
    (m.run s l).2 = mapPast f past (cyclesFrom since here all l) := by
  induction l generalizing s past since here all with
  | nil => rfl
  | cons o l ih =>
    cases o with
    | meas v => exact ih _ _ _ _ _ (hagg s past since here all v h)
    | coll t =>
      obtain ⟨h1, h2⟩ := hcol s past since here all t h
      show (m.collect s t).1 :: (m.run (m.collect s t).2 l).2 = _
      rw [ih _ _ _ _ _ h2, h1]; rfl

theorem cyclesFrom_length (l : List (Op α)) (since : Int) (here all : List α) (m : Machine α P) (s : m.S) :
    (cyclesFrom since here all l).length = (m.run s l).2.length := by
  induction l generalizing since here all s with
  | nil => rfl
  | cons o l ih =>
    cases o with
    | meas v => exact ih _ _ _ _
    | coll t => simp [cyclesFrom, Machine.run, ih t [] all (m.collect s t).2]

/-! ## Shape of cycles -/

/-- Cutting a history into cycles loses and invents no measurement. -/
theorem cyclesFrom_flatMap (l : List (Op α)) (since : Int) (here all : List α) :
    (cyclesFrom since here all l).flatMap (·.here) ++ pendingFrom here l = here ++ measurements l := by
  induction l generalizing since here all with
  | nil => simp [cyclesFrom, measurements, pendingFrom]
  | cons o l ih => cases o <;> simp [cyclesFrom, measurements, pendingFrom, ih]

/-- `all` accumulates the cycles. -/
theorem cyclesFrom_all (l : List (Op α)) (since : Int) (here pre : List α) (i : Nat) (c : Cycle α)
    (h : (cyclesFrom since here (pre ++ here) l)[i]? = some c) :
    c.all = pre ++ ((cyclesFrom since here (pre ++ here) l).take (i + 1)).flatMap (·.here) := by
  induction l generalizing since here pre i with
  | nil => simp [cyclesFrom] at h
  | cons o l ih =>
    cases o with
    | meas v =>
      simp only [cyclesFrom, List.append_assoc] at h ⊢
      exact ih _ _ _ _ h
    | coll t =>
      simp only [cyclesFrom] at h ⊢
      cases i with
      | zero => simp at h; subst h; simp
      | succ i =>
        simp only [List.getElem?_cons_succ] at h
        have := ih t [] (pre ++ here) i (by simpa using h)
        simpa using this

/-- Intervals are contiguous. -/
theorem cyclesFrom_since (l : List (Op α)) (since : Int) (here all : List α) (i : Nat) (c : Cycle α)
    (h : (cyclesFrom since here all l)[i]? = some c) :
    (i = 0 → c.since = since) ∧ (∀ j d, i = j + 1 → (cyclesFrom since here all l)[j]? = some d → c.since = d.time) := by
  induction l generalizing since here all i with
  | nil => simp [cyclesFrom] at h
  | cons o l ih =>
    cases o with
    | meas v => exact ih _ _ _ _ h
    | coll t =>
      simp only [cyclesFrom] at h ⊢
      cases i with
      | zero => simp at h; subst h; simp
      | succ i =>
        simp only [List.getElem?_cons_succ] at h
        obtain ⟨h1, h2⟩ := ih _ _ _ _ h
        refine ⟨by simp, ?_⟩
        intro j d hj hd
        obtain rfl : j = i := by omega
        cases j with
        | zero => simp at hd; subst hd; exact h1 rfl
        | succ j => exact h2 j d rfl (by simpa using hd)

end Metrics
end Otel
