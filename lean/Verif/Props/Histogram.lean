import Verif.Lemmas.Metrics
import Mathlib.Algebra.BigOperators.Group.List.Basic
import Mathlib.Algebra.Order.Group.Int
import Mathlib.Tactic.Abel
/-!
# C30, C31 (histograms): explicit-bucket histograms
-/
namespace Otel
namespace Metrics
variable {α : Type}

section Bisect
variable [LinearOrder α]

theorem bisectLoop_spec (a : List α) (x : α) (hs : a.Pairwise (· ≤ ·)) (fuel lo hi : Nat) (hf : hi - lo ≤ fuel) (hlh : lo ≤ hi)
    (hh : hi ≤ a.length) (h1 : ∀ j y, j < lo → a[j]? = some y → y < x) (h2 : ∀ j y, hi ≤ j → a[j]? = some y → x ≤ y) :
    bisectLoop a x fuel lo hi ≤ a.length ∧
    (∀ j y, j < bisectLoop a x fuel lo hi → a[j]? = some y → y < x) ∧
    (∀ j y, bisectLoop a x fuel lo hi ≤ j → a[j]? = some y → x ≤ y) := by
  have hle : ∀ (i j : Nat) (y z : α), i ≤ j → a[i]? = some y → a[j]? = some z → y ≤ z := by
    intro i j y z hij hi' hj'
    rcases Nat.lt_or_eq_of_le hij with h | h
    · obtain ⟨hi1, rfl⟩ := List.getElem?_eq_some_iff.1 hi'
      obtain ⟨hj1, rfl⟩ := List.getElem?_eq_some_iff.1 hj'
      exact List.pairwise_iff_getElem.1 hs i j hi1 hj1 h
    · subst h; rw [hi'] at hj'; cases hj'; exact le_rfl
  induction fuel generalizing lo hi with
  | zero =>
    obtain rfl : lo = hi := by omega
    exact ⟨hh, h1, h2⟩
  | succ fuel ih =>
    rw [bisectLoop]
    by_cases hlt : lo < hi
    · rw [if_pos hlt]
      have hm : (lo + hi) / 2 < a.length := by omega
      simp only [List.getElem?_eq_getElem hm]
      by_cases hy : a[(lo + hi) / 2] < x
      · rw [if_pos hy]
        refine ih _ _ (by omega) (by omega) hh ?_ h2
        intro j y hj hjy
        exact lt_of_le_of_lt (hle j _ y _ (by omega) hjy (List.getElem?_eq_getElem hm)) hy
      · rw [if_neg hy]
        refine ih _ _ (by omega) (by omega) (by omega) h1 ?_
        intro j y hj hjy
        exact le_trans (not_lt.1 hy) (hle _ j _ y hj (List.getElem?_eq_getElem hm) hjy)
    · rw [if_neg hlt]
      obtain rfl : lo = hi := by omega
      exact ⟨hh, h1, h2⟩

/-- **C30** The bucket a value is counted in is the one whose interval contains it. -/
theorem C30_bucket_of (bounds : List α) (hs : bounds.Pairwise (· ≤ ·)) (v : α) (i : Nat) (hi : i ≤ bounds.length) :
    bisectLeft bounds v = i ↔ inBucket bounds i v := by
  obtain ⟨h0, h1, h2⟩ := bisectLoop_spec bounds v hs bounds.length 0 bounds.length (by omega) (by omega) le_rfl
    (by omega) (by intro j y hj hy; rw [List.getElem?_eq_none hj] at hy; cases hy)
  change bisectLeft bounds v ≤ _ at h0
  change ∀ j y, j < bisectLeft bounds v → _ at h1
  change ∀ j y, bisectLeft bounds v ≤ j → _ at h2
  constructor
  · rintro rfl
    exact ⟨fun b hp hb => h1 _ b (by omega) hb, fun b hb => h2 _ b le_rfl hb⟩
  · rintro ⟨ha, hb⟩
    rcases Nat.lt_trichotomy (bisectLeft bounds v) i with h | h | h
    · have hl : i - 1 < bounds.length := by omega
      have := ha _ (by omega) (List.getElem?_eq_getElem hl)
      have := h2 (i - 1) _ (by omega) (List.getElem?_eq_getElem hl)
      exact absurd this (not_le.2 (by assumption))
    · exact h
    · have hl : i < bounds.length := by omega
      have := hb _ (List.getElem?_eq_getElem hl)
      have := h1 i _ h (List.getElem?_eq_getElem hl)
      exact absurd this (not_lt.2 (by assumption))

theorem bisectLeft_le (bounds : List α) (hs : bounds.Pairwise (· ≤ ·)) (v : α) : bisectLeft bounds v ≤ bounds.length :=
  (bisectLoop_spec bounds v hs bounds.length 0 bounds.length (by omega) (by omega) le_rfl
    (by omega) (by intro j y hj hy; rw [List.getElem?_eq_none hj] at hy; cases hy)).1

end Bisect

section Hist
variable [AddCommMonoid α] [LinearOrder α]

/-- Bucket counts of a list of values. -/
def countsOf (bounds vs : List α) : List Nat :=
  (List.range (bounds.length + 1)).map (fun i => vs.countP (fun v => bisectLeft bounds v == i))

def minOf (mm : Bool) (vs : List α) : WithTop α := if mm then vs.foldl (fun m v => Min.min m (v : WithTop α)) ⊤ else ⊤
def maxOf (mm : Bool) (vs : List α) : WithBot α := if mm then vs.foldl (fun m v => Max.max m (v : WithBot α)) ⊥ else ⊥

theorem countsOf_nil (bounds : List α) : countsOf bounds [] = List.replicate (bounds.length + 1) 0 := by
  simp [countsOf, List.map_const']

theorem countsOf_snoc (bounds vs : List α) (v : α) :
    countsOf bounds (vs ++ [v]) = (countsOf bounds vs).modify (bisectLeft bounds v) (· + 1) := by
  apply List.ext_getElem?
  intro i
  simp only [countsOf, List.getElem?_map, List.getElem?_modify]
  by_cases hi : i < bounds.length + 1
  · rw [List.getElem?_range hi]
    by_cases h : bisectLeft bounds v = i <;> simp [h, List.countP_append]
  · rw [List.getElem?_eq_none (by simpa using hi)]; simp

theorem countsOf_append (bounds vs ws : List α) :
    List.zipWith (· + ·) (countsOf bounds ws) (countsOf bounds vs) = countsOf bounds (vs ++ ws) := by
  apply List.ext_getElem?
  intro i
  simp only [countsOf, List.getElem?_zipWith, List.getElem?_map]
  by_cases hi : i < bounds.length + 1
  · rw [List.getElem?_range hi]; simp [List.countP_append, Nat.add_comm]
  · rw [List.getElem?_eq_none (by simpa using hi)]; simp

theorem countsOf_sum (bounds vs : List α) (hs : bounds.Pairwise (· ≤ ·)) : (countsOf bounds vs).sum = vs.length := by
  have hmod : ∀ (l : List Nat) (i : Nat), i < l.length → (l.modify i (· + 1)).sum = l.sum + 1 := by
    intro l
    induction l with
    | nil => intro i h; simp at h
    | cons a l ih =>
      intro i h
      cases i with
      | zero => simp; omega
      | succ i => simp at h; simp [ih i h]; omega
  have : ∀ ws : List α, (countsOf bounds ws.reverse).sum = ws.length := by
    intro ws
    induction ws with
    | nil => simp [countsOf_nil]
    | cons v ws ih =>
      rw [List.reverse_cons, countsOf_snoc, hmod, ih]
      · simp
      · have := bisectLeft_le bounds hs v
        simp [countsOf]; omega
  have h := this vs.reverse
  simpa using h

omit [AddCommMonoid α] in
theorem minOf_isMin (vs : List α) : IsMin (minOf true vs) vs := by
  have : ∀ ws : List α, IsMin (minOf true ws.reverse) ws.reverse := by
    intro ws
    induction ws with
    | nil => simp [IsMin, minOf]
    | cons v ws ih =>
      obtain ⟨h1, h2⟩ := ih
      have e : minOf true (v :: ws).reverse = Min.min (minOf true ws.reverse) (v : WithTop α) := by
        simp [minOf, List.foldl_append]
      rw [e]
      refine ⟨?_, Or.inr ?_⟩
      · intro w hw
        simp only [List.reverse_cons, List.mem_append, List.mem_singleton] at hw
        rcases hw with hw | rfl
        · exact le_trans (min_le_left _ _) (h1 w hw)
        · exact min_le_right _ _
      · rcases h2 with ⟨h2, h3⟩ | ⟨w, hw, h3⟩
        · exact ⟨v, by simp, by rw [h3]; simp⟩
        · rcases min_choice (minOf true ws.reverse) (v : WithTop α) with h | h
          · exact ⟨w, by simp at hw ⊢; exact Or.inl hw, by rw [h, h3]⟩
          · exact ⟨v, by simp, h⟩
  have h := this vs.reverse
  simpa using h

omit [AddCommMonoid α] in
theorem maxOf_isMax (vs : List α) : IsMax (maxOf true vs) vs := by
  have : ∀ ws : List α, IsMax (maxOf true ws.reverse) ws.reverse := by
    intro ws
    induction ws with
    | nil => simp [IsMax, maxOf]
    | cons v ws ih =>
      obtain ⟨h1, h2⟩ := ih
      have e : maxOf true (v :: ws).reverse = Max.max (maxOf true ws.reverse) (v : WithBot α) := by
        simp [maxOf, List.foldl_append]
      rw [e]
      refine ⟨?_, Or.inr ?_⟩
      · intro w hw
        simp only [List.reverse_cons, List.mem_append, List.mem_singleton] at hw
        rcases hw with hw | rfl
        · exact le_trans (h1 w hw) (le_max_left _ _)
        · exact le_max_right _ _
      · rcases h2 with ⟨h2, h3⟩ | ⟨w, hw, h3⟩
        · exact ⟨v, by simp, by rw [h3]; simp⟩
        · rcases max_choice (maxOf true ws.reverse) (v : WithBot α) with h | h
          · exact ⟨w, by simp at hw ⊢; exact Or.inl hw, by rw [h, h3]⟩
          · exact ⟨v, by simp, h⟩
  have h := this vs.reverse
  simpa using h

omit [AddCommMonoid α] in
theorem minOf_snoc (mm : Bool) (vs : List α) (v : α) :
    minOf mm (vs ++ [v]) = if mm then Min.min (minOf mm vs) (v : WithTop α) else minOf mm vs := by
  cases mm <;> simp [minOf, List.foldl_append]

omit [AddCommMonoid α] in
theorem maxOf_snoc (mm : Bool) (vs : List α) (v : α) :
    maxOf mm (vs ++ [v]) = if mm then Max.max (maxOf mm vs) (v : WithBot α) else maxOf mm vs := by
  cases mm <;> simp [maxOf, List.foldl_append]

omit [AddCommMonoid α] in
theorem minOf_append (mm : Bool) (vs ws : List α) : Min.min (minOf mm ws) (minOf mm vs) = minOf mm (vs ++ ws) := by
  have : ∀ us : List α, Min.min (minOf mm us.reverse) (minOf mm vs) = minOf mm (vs ++ us.reverse) := by
    intro us
    induction us with
    | nil => cases mm <;> simp [minOf]
    | cons v us ih =>
      rw [List.reverse_cons, ← List.append_assoc, minOf_snoc, minOf_snoc, ← ih]
      cases mm
      · rfl
      · simp only [if_true]; rw [min_assoc, min_assoc, min_comm (minOf true vs)]
  simpa using this ws.reverse

omit [AddCommMonoid α] in
theorem maxOf_append (mm : Bool) (vs ws : List α) : Max.max (maxOf mm ws) (maxOf mm vs) = maxOf mm (vs ++ ws) := by
  have : ∀ us : List α, Max.max (maxOf mm us.reverse) (maxOf mm vs) = maxOf mm (vs ++ us.reverse) := by
    intro us
    induction us with
    | nil => cases mm <;> simp [maxOf]
    | cons v us ih =>
      rw [List.reverse_cons, ← List.append_assoc, maxOf_snoc, maxOf_snoc, ← ih]
      cases mm
      · rfl
      · simp only [if_true]; rw [max_assoc, max_assoc, max_comm (maxOf true vs)]
  simpa using this ws.reverse

/-- The point a histogram should report for the values `vs`. -/
def pointOf (bounds : List α) (mm : Bool) (start time : Int) (vs : List α) : HistPoint α :=
  { start := start, time := time, count := (countsOf bounds vs).sum, sum := vs.sum, buckets := countsOf bounds vs,
    bounds := bounds, min := minOf mm vs, max := maxOf mm vs }

theorem pointOf_describes (bounds : List α) (hs : bounds.Pairwise (· ≤ ·)) (mm : Bool) (start time : Int) (vs : List α) :
    Describes (pointOf bounds mm start time vs) bounds mm vs where
  bounds_eq := rfl
  one_more := by simp [pointOf, countsOf]
  bucket := by
    intro i hi d
    have : i < bounds.length + 1 := by omega
    simp only [pointOf, countsOf, List.getElem?_map, List.getElem?_range this, Option.map_some]
    congr 2
    funext v
    have h := C30_bucket_of bounds hs v i hi
    by_cases hb : bisectLeft bounds v = i
    · have := h.1 hb; simp [hb, this]
    · have : ¬ inBucket bounds i v := fun hh => hb (h.2 hh)
      simp [hb, this]
  total := rfl
  count_eq := countsOf_sum bounds vs hs
  sum_eq := rfl
  min_eq := by cases mm; · simp [pointOf, minOf]
               · simpa [pointOf] using minOf_isMin vs
  max_eq := by cases mm; · simp [pointOf, maxOf]
               · simpa [pointOf] using maxOf_isMax vs

theorem hist_delta_out (start : Int) (bounds : List α) (mm : Bool) (l : List (Op α)) :
    (histM .delta .delta start bounds mm).out l = (cycles start l).map (fun c =>
      if c.here.isEmpty then none else some (pointOf bounds mm c.since c.time c.here)) := by
  have := run_eq (α := α) (histM .delta .delta start bounds mm)
    (fun s _ since here _ => s.inst = .delta ∧ s.prevStart = since ∧ s.bounds = bounds ∧ s.recordMinMax = mm ∧
      (s.value = if here.isEmpty then none else some (countsOf bounds here)) ∧ s.sum = here.sum ∧
      s.min = minOf mm here ∧ s.max = maxOf mm here)
    (fun _ c => if c.here.isEmpty then none else some (pointOf bounds mm c.since c.time c.here))
    (by
      rintro s past since here all v ⟨h1, h2, h3, h4, h5, h6, h7, h8⟩
      refine ⟨h1, h2, h3, h4, ?_, ?_, ?_, ?_⟩
      · simp only [histM, HistAgg.aggregate, h5, h3, HistAgg.empty]
        rw [countsOf_snoc]
        cases here with
        | nil => simp [countsOf_nil]
        | cons a r => simp
      · simp [histM, HistAgg.aggregate, h6]
      · simp only [histM, HistAgg.aggregate, h4, h7, minOf_snoc]
      · simp only [histM, HistAgg.aggregate, h4, h8, maxOf_snoc])
    (by
      rintro s past since here all t ⟨h1, h2, h3, h4, h5, h6, h7, h8⟩
      cases here with
      | nil => simp [histM, HistAgg.collect, h1, h3, h4, h5, minOf, maxOf]
      | cons a r => simp [histM, HistAgg.collect, h1, h2, h3, h4, h5, h6, h7, h8, minOf, maxOf, pointOf])
    l (HistAgg.new .delta start bounds mm) [] start [] [] (by simp [HistAgg.new, minOf, maxOf])
  rw [mapPast_const] at this
  exact this

theorem hist_cumulative_out (start : Int) (bounds : List α) (mm : Bool) (l : List (Op α)) :
    (histM .delta .cumulative start bounds mm).out l = (cycles start l).map (fun c =>
      some (pointOf bounds mm start c.time c.all)) := by
  have := run_eq (α := α) (histM .delta .cumulative start bounds mm)
    (fun s _ _ _ all => ∃ here' old, all = old ++ here' ∧ s.inst = .delta ∧ s.start = start ∧ s.bounds = bounds ∧ s.recordMinMax = mm ∧
      (s.value.getD s.empty = countsOf bounds here') ∧ s.sum = here'.sum ∧
      s.min = minOf mm here' ∧ s.max = maxOf mm here' ∧
      (s.prevValue.getD s.empty = countsOf bounds old) ∧ s.prevSum = old.sum ∧
      s.prevMin = minOf mm old ∧ s.prevMax = maxOf mm old)
    (fun _ c => some (pointOf bounds mm start c.time c.all))
    (by
      rintro s past since here all v ⟨here', old, rfl, h1, h2, h3, h4, h5, h6, h7, h8, h9, h10, h11, h12⟩
      refine ⟨here' ++ [v], old, by simp, h1, h2, h3, h4, ?_, ?_, ?_, ?_, h9, h10, h11, h12⟩
      · simp only [histM, HistAgg.aggregate, h5, h3, countsOf_snoc, Option.getD_some]
      · simp [histM, HistAgg.aggregate, h6]
      · simp only [histM, HistAgg.aggregate, h4, h7, minOf_snoc]
      · simp only [histM, HistAgg.aggregate, h4, h8, maxOf_snoc])
    (by
      rintro s past since here all t ⟨here', old, rfl, h1, h2, h3, h4, h5, h6, h7, h8, h9, h10, h11, h12⟩
      constructor
      · simp only [histM, HistAgg.collect, h1, h2, h3, h5, h6, h7, h8, h9, h10, h11, h12, pointOf, countsOf_append,
          minOf_append, maxOf_append, List.sum_append, add_comm]
      · refine ⟨[], old ++ here', by simp, ?_, ?_, ?_, ?_, ?_, ?_, ?_, ?_, ?_, ?_, ?_, ?_⟩ <;>
          simp only [histM, HistAgg.collect, h1, h2, h3, h4, h5, h6, h7, h8, h9, h10, h11, h12, countsOf_append,
            minOf_append, maxOf_append, List.sum_append, add_comm, HistAgg.empty, Option.getD_some, Option.getD_none, countsOf_nil, List.sum_nil]
        · cases mm <;> rfl
        · cases mm <;> rfl
        · simp only [HistAgg.empty, h3] at h5 h9
          rw [h5, h9, countsOf_append])
    l (HistAgg.new .delta start bounds mm) [] start [] []
    ⟨[], [], rfl, rfl, rfl, rfl, rfl, by simp [HistAgg.new, HistAgg.empty, countsOf_nil], rfl, by cases mm <;> rfl, by cases mm <;> rfl,
      by simp [HistAgg.new, HistAgg.empty, countsOf_nil], rfl, by cases mm <;> rfl, by cases mm <;> rfl⟩
  rw [mapPast_const] at this
  exact this

/-- **C30** Every delta point of a synchronous histogram describes exactly the measurements since the previous collection:
one more bucket than boundaries, every measurement in the bucket whose interval contains it, the bucket counts adding up to
the count, and the sum, minimum and maximum of those measurements. A collection with nothing new gives no point. -/
theorem C30_delta (start : Int) (bounds : List α) (hs : bounds.Pairwise (· ≤ ·)) (mm : Bool) (l : List (Op α)) (i : Nat)
    (c : Cycle α) (hc : (cycles start l)[i]? = some c) :
    if c.here = [] then ((histM .delta .delta start bounds mm).out l)[i]? = some none
    else ∃ p, ((histM .delta .delta start bounds mm).out l)[i]? = some (some p) ∧ p.start = c.since ∧ p.time = c.time ∧
      Describes p bounds mm c.here := by
  rw [hist_delta_out, List.getElem?_map, hc]
  cases hh : c.here with
  | nil => simp [hh]
  | cons a r =>
    simp only [reduceCtorEq, if_false]
    exact ⟨_, by simp [hh], rfl, rfl, pointOf_describes bounds hs mm _ _ _⟩

/-- **C30** Every cumulative point describes exactly all measurements since the stream was created. -/
theorem C30_cumulative (start : Int) (bounds : List α) (hs : bounds.Pairwise (· ≤ ·)) (mm : Bool) (l : List (Op α)) (i : Nat)
    (c : Cycle α) (hc : (cycles start l)[i]? = some c) :
    ∃ p, ((histM .delta .cumulative start bounds mm).out l)[i]? = some (some p) ∧ p.start = start ∧ p.time = c.time ∧
      Describes p bounds mm c.all := by
  rw [hist_cumulative_out, List.getElem?_map, hc]
  exact ⟨_, rfl, rfl, rfl, pointOf_describes bounds hs mm _ _ _⟩

/-- **C30** A histogram stream fed by an asynchronous instrument never reports anything. -/
theorem C30_async_silent (t : Temporality) (start : Int) (bounds : List α) (mm : Bool) (l : List (Op α)) :
    ∀ o ∈ (histM .cumulative t start bounds mm).out l, o = none := by
  have := run_eq (α := α) (histM .cumulative t start bounds mm) (fun s _ _ _ _ => s.inst = .cumulative)
    (fun _ _ => none)
    (by rintro s past since here all v h; exact h)
    (by rintro s past since here all now h; simp [histM, HistAgg.collect, h])
    l (HistAgg.new .cumulative start bounds mm) [] start [] [] rfl
  rw [mapPast_const] at this
  change ∀ o ∈ ((histM .cumulative t start bounds mm).run (HistAgg.new .cumulative start bounds mm) l).2, _
  rw [this]
  simp

example : ((histM (α := Int) .delta .delta 0 [0, 5, 10] true).out
    [.meas 5, .meas 6, .meas 11, .coll 1, .coll 2, .meas 0, .coll 3]).map (·.map (fun p => (p.buckets, p.count, p.sum))) =
    [some ([0, 1, 1, 1], 3, 22), none, some ([1, 0, 0, 0], 1, 0)] := by decide

/-- Point-wise addition of bucket counts. -/
def addBuckets (l : List (List Nat)) (n : Nat) : List Nat := l.foldl (List.zipWith (· + ·)) (List.replicate n 0)

/-- **C31** For a synchronous histogram, adding up the delta points of the first `i + 1` collections (bucket by bucket,
counts, sums; least minimum, greatest maximum) gives the `i`-th cumulative point. -/
theorem C31_hist (start : Int) (bounds : List α) (mm : Bool) (l : List (Op α)) (i : Nat) (p : HistPoint α)
    (h : ((histM .delta .cumulative start bounds mm).out l)[i]? = some (some p)) :
    let ds := (((histM .delta .delta start bounds mm).out l).take (i + 1)).filterMap id
    addBuckets (ds.map (·.buckets)) (bounds.length + 1) = p.buckets ∧ (ds.map (·.count)).sum = p.count ∧
    (ds.map (·.sum)).sum = p.sum ∧ (ds.map (·.min)).foldl Min.min ⊤ = p.min ∧ (ds.map (·.max)).foldl Max.max ⊥ = p.max := by
  rw [hist_cumulative_out, List.getElem?_map] at h
  cases hc : (cycles start l)[i]? with
  | none => simp [hc] at h
  | some c =>
    simp [hc] at h
    subst h
    have hall := cyclesFrom_all l start [] [] i c (by simpa [cycles] using hc)
    simp only [List.append_nil, List.nil_append] at hall
    rw [show c.all = _ from hall, hist_delta_out, ← List.map_take, cycles]
    generalize (cyclesFrom start [] [] l).take (i + 1) = cs
    have key : ∀ rs : List (Cycle α),
        let ds := (rs.reverse.map (fun c => if c.here.isEmpty then none else some (pointOf bounds mm c.since c.time c.here))).filterMap id
        addBuckets (ds.map (·.buckets)) (bounds.length + 1) = countsOf bounds (rs.reverse.flatMap (·.here)) ∧
        (ds.map (·.count)).sum = (countsOf bounds (rs.reverse.flatMap (·.here))).sum ∧
        (ds.map (·.sum)).sum = (rs.reverse.flatMap (·.here)).sum ∧
        (ds.map (·.min)).foldl Min.min ⊤ = minOf mm (rs.reverse.flatMap (·.here)) ∧
        (ds.map (·.max)).foldl Max.max ⊥ = maxOf mm (rs.reverse.flatMap (·.here)) := by
      intro rs
      induction rs with
      | nil => exact ⟨by simp [addBuckets, countsOf_nil], by simp [countsOf_nil], by simp, by cases mm <;> rfl, by cases mm <;> rfl⟩
      | cons c rs ih =>
        cases hh : c.here with
        | nil => simpa [hh] using ih
        | cons a r =>
          obtain ⟨i1, i2, i3, i4, i5⟩ := ih
          simp only [List.reverse_cons, List.map_append, List.filterMap_append, List.flatMap_append, hh, List.map_cons, List.map_nil,
            List.isEmpty_cons, Bool.false_eq_true, if_false, List.filterMap_cons_some rfl, List.filterMap_nil, List.flatMap_cons, List.flatMap_nil,
            List.append_nil, List.sum_append, List.sum_cons, List.sum_nil, add_zero, List.foldl_append, List.foldl_cons, List.foldl_nil,
            addBuckets, id] at i1 i2 i3 i4 i5 ⊢
          rw [i1, i2, i3, i4, i5]
          refine ⟨?_, ?_, ?_, ?_, ?_⟩
          · rw [← countsOf_append, List.zipWith_comm]
            simp only [Nat.add_comm, hh]
            rfl
          · rw [← countsOf_append]
            have hz : ∀ (x y : List Nat), x.length = y.length → (List.zipWith (· + ·) x y).sum = x.sum + y.sum := by
              intro x
              induction x with
              | nil => intro y h; cases y with
                | nil => rfl
                | cons _ _ => simp at h
              | cons a x ih => intro y h; cases y with
                | nil => simp at h
                | cons b y => simp at h; simp [ih y h]; omega
            rw [hz _ _ (by simp [countsOf])]
            simp [pointOf, Nat.add_comm]
          · simp [pointOf]
          · rw [← minOf_append, min_comm]; rfl
          · rw [← maxOf_append, max_comm]; rfl
    have := key cs.reverse
    simpa [pointOf] using this

end Hist

end Metrics
end Otel
