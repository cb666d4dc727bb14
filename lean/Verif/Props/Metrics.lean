import Verif.Lemmas.Metrics
import Mathlib.Algebra.BigOperators.Group.List.Basic
import Mathlib.Algebra.Order.Group.Int
import Mathlib.Tactic.Abel
/-!
# C29, C31 (sums): sum aggregations
-/
namespace Otel
namespace Metrics
variable {α : Type}

theorem out_length {P : Type} (m : Machine α P) (l : List (Op α)) (start : Int) : (m.out l).length = (cycles start l).length :=
  (cyclesFrom_length l start [] [] m m.init).symm

/-- **C29** A delta reader of a synchronous instrument gets, for every collection, nothing if nothing was measured since
the previous one, and otherwise a point from the previous collection (or the creation) to this one whose value is the sum
of the measurements in between. -/
theorem C29_sync_delta [AddCommMonoid α] [Sub α] (start : Int) (l : List (Op α)) :
    (sumM .delta .delta start).out l = (cycles start l).map (fun c =>
      if c.here.isEmpty then none else some ⟨some c.since, c.time, c.here.sum⟩) := by
  have := run_eq (α := α) (sumM .delta .delta start)
    (fun s _ since here _ => s.inst = .delta ∧ s.prevStart = since ∧ s.value = if here.isEmpty then none else some here.sum)
    (fun _ c => if c.here.isEmpty then none else some ⟨some c.since, c.time, c.here.sum⟩)
    (by
      rintro s past since here all v ⟨h1, h2, h3⟩
      refine ⟨h1, h2, ?_⟩
      simp only [sumM, SumAgg.aggregate, h3]
      cases here <;> simp [add_assoc])
    (by
      rintro s past since here all t ⟨h1, h2, h3⟩
      cases here with
      | nil => simp [sumM, SumAgg.collect, h1, h2, h3]
      | cons a here => simp [sumM, SumAgg.collect, h1, h2, h3])
    l (SumAgg.new .delta start) [] start [] [] (by simp [SumAgg.new])
  rw [mapPast_const] at this
  exact this

/-- **C29** A cumulative reader of a synchronous instrument always gets the sum of all measurements since the stream was
created. -/
theorem C29_sync_cumulative [AddCommMonoid α] [Sub α] (start : Int) (l : List (Op α)) :
    (sumM .delta .cumulative start).out l = (cycles start l).map (fun c => some ⟨some start, c.time, c.all.sum⟩) := by
  have := run_eq (α := α) (sumM .delta .cumulative start)
    (fun s _ _ _ all => s.inst = .delta ∧ s.start = start ∧ s.value.getD 0 + s.prev = all.sum)
    (fun _ c => some ⟨some start, c.time, c.all.sum⟩)
    (by
      rintro s past since here all v ⟨h1, h2, h3⟩
      refine ⟨h1, h2, ?_⟩
      simp only [sumM, SumAgg.aggregate, Option.getD_some, List.sum_append, ← h3, List.sum_singleton]
      abel)
    (by
      rintro s past since here all t ⟨h1, h2, h3⟩
      simp [sumM, SumAgg.collect, h1, h2, h3])
    l (SumAgg.new .delta start) [] start [] [] (by simp [SumAgg.new])
  rw [mapPast_const] at this
  exact this

/-- **C29** A cumulative reader of an asynchronous instrument gets the (sum of the) values observed in this cycle, or
nothing if the callback observed nothing. -/
theorem C29_async_cumulative [AddCommMonoid α] [Sub α] (start : Int) (l : List (Op α)) :
    (sumM .cumulative .cumulative start).out l = (cycles start l).map (fun c =>
      if c.here.isEmpty then none else some ⟨some start, c.time, c.here.sum⟩) := by
  have := run_eq (α := α) (sumM .cumulative .cumulative start)
    (fun s _ _ here _ => s.inst = .cumulative ∧ s.start = start ∧ s.value = if here.isEmpty then none else some here.sum)
    (fun _ c => if c.here.isEmpty then none else some ⟨some start, c.time, c.here.sum⟩)
    (by
      rintro s past since here all v ⟨h1, h2, h3⟩
      refine ⟨h1, h2, ?_⟩
      simp only [sumM, SumAgg.aggregate, h3]
      cases here <;> simp [add_assoc])
    (by
      rintro s past since here all t ⟨h1, h2, h3⟩
      cases here with
      | nil => simp [sumM, SumAgg.collect, h1, h2, h3]
      | cons a here => simp [sumM, SumAgg.collect, h1, h2, h3])
    l (SumAgg.new .cumulative start) [] start [] [] (by simp [SumAgg.new])
  rw [mapPast_const] at this
  exact this

/-- The last cycle among `past` in which something was observed. -/
def lastObserved (past : List (Cycle α)) : Option (Cycle α) := (past.filter (fun c => !c.here.isEmpty)).getLast?

/-- `C29_async_delta`, for any numbers where subtracting zero changes nothing. -/
theorem async_delta_gen [AddCommMonoid α] [Sub α] (h0 : ∀ x : α, x - 0 = x) (start : Int) (l : List (Op α)) (i : Nat) :
    ((sumM .cumulative .delta start).out l)[i]? = ((cycles start l)[i]?).map (fun c =>
      if c.here.isEmpty then none else
        match lastObserved ((cycles start l).take i) with
        | none => some ⟨some start, c.time, c.here.sum⟩
        | some p => some ⟨some p.time, c.time, c.here.sum - p.here.sum⟩) := by
  have := run_eq (α := α) (sumM .cumulative .delta start)
    (fun s past _ here _ => s.inst = .cumulative ∧
      (s.value = if here.isEmpty then none else some here.sum) ∧
      s.prevStart = ((lastObserved past).map (·.time)).getD start ∧
      s.prev = ((lastObserved past).map (·.here.sum)).getD 0)
    (fun past c => if c.here.isEmpty then none else
        match lastObserved past with
        | none => some ⟨some start, c.time, c.here.sum⟩
        | some p => some ⟨some p.time, c.time, c.here.sum - p.here.sum⟩)
    (by
      rintro s past since here all v ⟨h1, h2, h3, h4⟩
      refine ⟨h1, ?_, h3, h4⟩
      simp only [sumM, SumAgg.aggregate, h2]
      cases here <;> simp [add_assoc])
    (by
      rintro s past since here all t ⟨h1, h2, h3, h4⟩
      cases here with
      | nil =>
        have : lastObserved (past ++ [⟨since, t, [], all⟩]) = lastObserved past := by simp [lastObserved]
        simp [sumM, SumAgg.collect, h1, h2, h3, h4, this]
      | cons a here =>
        have : lastObserved (past ++ [⟨since, t, a :: here, all⟩]) = some ⟨since, t, a :: here, all⟩ := by
          simp [lastObserved]
        cases hl : lastObserved past <;> simp [sumM, SumAgg.collect, h1, h2, h3, h4, this, hl, h0])
    l (SumAgg.new .cumulative start) [] start [] [] (by simp [SumAgg.new, lastObserved])
  show ((sumM .cumulative .delta start).run (SumAgg.new .cumulative start) l).2[i]? = _
  rw [this, mapPast_getElem?]
  simp [cycles]

/-- **C29** A delta reader of an asynchronous instrument gets, in a cycle with observations, the difference to the
previous cycle with observations (or to zero), over the interval since then. -/
theorem C29_async_delta [AddCommGroup α] (start : Int) (l : List (Op α)) (i : Nat) :
    ((sumM .cumulative .delta start).out l)[i]? = ((cycles start l)[i]?).map (fun c =>
      if c.here.isEmpty then none else
        match lastObserved ((cycles start l).take i) with
        | none => some ⟨some start, c.time, c.here.sum⟩
        | some p => some ⟨some p.time, c.time, c.here.sum - p.here.sum⟩) :=
  async_delta_gen sub_zero start l i

/-- **C29** Conservation: what a delta reader has been given plus what has not been collected yet is everything that was
measured. -/
theorem C29_conservation [AddCommMonoid α] [Sub α] (start : Int) (l : List (Op α)) :
    (((sumM .delta .delta start).out l).filterMap (·.map (·.value))).sum + (pending l).sum = (measurements l).sum := by
  rw [C29_sync_delta, pending]
  have h := congrArg List.sum (cyclesFrom_flatMap l start [] [])
  rw [List.nil_append, List.sum_append] at h
  rw [← h]
  congr 1
  rw [cycles]
  generalize cyclesFrom start [] [] l = cs
  induction cs with
  | nil => rfl
  | cons c cs ih =>
    cases hc : c.here with
    | nil => simpa [hc] using ih
    | cons a r => simp [hc] at ih ⊢; rw [ih]; abel

/-- **C29** The intervals of a delta reader are contiguous: the first point starts at the creation of the stream, each
other one where the previous collection (whether or not it gave a point) ended. -/
theorem C29_contiguous [AddCommMonoid α] [Sub α] (start : Int) (l : List (Op α)) (i : Nat) (p : NumPoint α)
    (h : ((sumM .delta .delta start).out l)[i]? = some (some p)) :
    (i = 0 → p.start = some start) ∧ ∀ j c, i = j + 1 → (cycles start l)[j]? = some c → p.start = some c.time := by
  rw [C29_sync_delta, List.getElem?_map] at h
  cases hc : (cycles start l)[i]? with
  | none => simp [hc] at h
  | some c =>
    obtain ⟨h1, h2⟩ := cyclesFrom_since l start [] [] i c hc
    cases he : c.here with
    | nil => simp [hc, he] at h
    | cons a r =>
      simp [hc, he] at h
      subst h
      exact ⟨fun h0 => by rw [h1 h0], fun j d hj hd => by rw [h2 j d hj hd]⟩

/-- Measurement histories with a quiet cycle exist and give the expected points. -/
example : (sumM (α := Int) .delta .delta 0).out [.meas 2, .coll 10, .coll 20, .meas 3, .meas (-1), .coll 30, .meas 7] =
    [some ⟨some 0, 10, 2⟩, none, some ⟨some 20, 30, 2⟩] ∧
    pending [.meas (2 : Int), .coll 10, .coll 20, .meas 3, .meas (-1), .coll 30, .meas 7] = [7] := by decide

example : (sumM (α := Int) .cumulative .delta 0).out [.meas 1352, .coll 10, .coll 20, .meas 2324, .coll 30] =
    [some ⟨some 0, 10, 1352⟩, none, some ⟨some 10, 30, 972⟩] := by decide

/-! ## Agreement of delta and cumulative -/

/-- **C31** For a synchronous sum the total of the delta points of the first `i + 1` collections is the value of the
`i`-th cumulative point. -/
theorem C31_sum_sync [AddCommMonoid α] [Sub α] (start : Int) (l : List (Op α)) (i : Nat) (p : NumPoint α)
    (h : ((sumM .delta .cumulative start).out l)[i]? = some (some p)) :
    ((((sumM .delta .delta start).out l).take (i + 1)).filterMap (·.map (·.value))).sum = p.value := by
  rw [C29_sync_cumulative, List.getElem?_map] at h
  cases hc : (cycles start l)[i]? with
  | none => simp [hc] at h
  | some c =>
    simp [hc] at h
    subst h
    have := cyclesFrom_all l start [] [] i c (by simpa [cycles] using hc)
    simp only [List.append_nil, List.nil_append] at this
    rw [show c.all = _ from this, C29_sync_delta, ← List.map_take, cycles]
    generalize (cyclesFrom start [] [] l).take (i + 1) = cs
    induction cs with
    | nil => rfl
    | cons c cs ih =>
      cases hc : c.here with
      | nil => simpa [hc] using ih
      | cons a r => simp [hc] at ih ⊢; rw [ih]; abel

/-- **C31** The cumulative reader of a synchronous sum has a point at every collection. -/
theorem C31_sum_sync_total [AddCommMonoid α] [Sub α] (start : Int) (l : List (Op α)) (i : Nat) (hi : i < ((sumM (α := α) .delta .cumulative start).out l).length) :
    ∃ p, ((sumM .delta .cumulative start).out l)[i]? = some (some p) := by
  rw [List.getElem?_eq_getElem hi]
  simp [C29_sync_cumulative]

/-- **C31** For an asynchronous sum a delta point is reported exactly when a cumulative point is, and the total of the delta
points up to it is the cumulative value. -/
theorem C31_sum_async [AddCommGroup α] (start : Int) (l : List (Op α)) (i : Nat) :
    ((((sumM (α := α) .cumulative .delta start).out l)[i]?).map (·.isSome) =
      (((sumM .cumulative .cumulative start).out l)[i]?).map (·.isSome)) ∧
    ∀ p, ((sumM .cumulative .cumulative start).out l)[i]? = some (some p) →
      ((((sumM .cumulative .delta start).out l).take (i + 1)).filterMap (·.map (·.value))).sum = p.value := by
  constructor
  · rw [C29_async_delta, C29_async_cumulative, List.getElem?_map]
    cases (cycles start l)[i]? with
    | none => rfl
    | some c =>
      cases he : c.here with
      | nil => simp [he]
      | cons a r => cases hlo : lastObserved ((cycles start l).take i) <;> simp [hlo, he]
  · intro p h
    have key : ∀ n, ((((sumM (α := α) .cumulative .delta start).out l).take n).filterMap (·.map (·.value))).sum =
        ((lastObserved ((cycles start l).take n)).map (·.here.sum)).getD 0 := by
      intro n
      induction n with
      | zero => simp [lastObserved]
      | succ n ih =>
        have hd := C29_async_delta start l n
        rw [List.take_add_one, List.take_add_one, hd]
        cases hc : (cycles start l)[n]? with
        | none => simpa using ih
        | some c =>
          rw [List.filterMap_append, List.sum_append, ih]
          cases he : c.here with
          | nil => simp [lastObserved, he]
          | cons a r =>
            have : lastObserved ((cycles start l).take n ++ [c]) = some c := by simp [lastObserved, he]
            cases hlo : lastObserved ((cycles start l).take n) <;> simp [hlo, he, this]
    rw [key (i + 1)]
    rw [C29_async_cumulative, List.getElem?_map] at h
    cases hc : (cycles start l)[i]? with
    | none => simp [hc] at h
    | some c =>
      cases he : c.here with
      | nil => simp [hc, he] at h
      | cons a r =>
        simp [hc, he] at h
        subst h
        rw [List.take_add_one, hc]
        have : lastObserved ((cycles start l).take i ++ [c]) = some c := by simp [lastObserved, he]
        simp [this, he]

/-! ## Last value -/

/-- **C29** A gauge reports the last value of the cycle, and nothing in a cycle without one, whatever the temporality. -/
theorem C29_last_value (t : Temporality) (start : Int) (l : List (Op α)) :
    (lastM t).out l = (cycles start l).map (fun c => (c.here.getLast?).map (fun v => ⟨none, c.time, v⟩)) := by
  have := run_eq (α := α) (lastM t) (fun s _ _ here _ => s.value = here.getLast?)
    (fun _ c => (c.here.getLast?).map (fun v => ⟨none, c.time, v⟩))
    (by rintro s past since here all v h; simp [lastM, LastAgg.aggregate])
    (by
      intro s past since here all now h
      simp only [lastM, LastAgg.collect, h]
      cases hl : here.getLast? <;> simp [h, hl])
    l ⟨none⟩ [] start [] [] (by simp)
  rw [mapPast_const] at this
  exact this

end Metrics
end Otel
