import Verif.Model.Instrument
import Verif.Props.Metrics
import Verif.Props.Histogram
import Verif.Props.Storage
import Mathlib.Algebra.Order.BigOperators.Group.List
import Mathlib.Tactic.Tauto
/-!
# C50, C61, C62, C65: instruments
-/
namespace Otel
namespace Metrics
variable {α : Type}

/-! ## C50 -/

/-- **C50** Only non-negative amounts of counters and histograms reach the measurement consumer; they reach it unchanged, and every amount
given to another instrument does. -/
theorem C50_forwarded [Zero α] [LinearOrder α] (k : Kind) (amount : α) :
    instrCall k amount = some amount ∨ (instrCall k amount = none ∧ amount < 0 ∧ (k = .counter ∨ k = .histogram)) := by
  cases k <;> simp [instrCall] <;> exact le_or_gt 0 amount

/-- **C50** Whatever a program calls, no measurement of a counter or histogram that reaches the consumer is negative. -/
theorem C50_no_negative [Zero α] [LinearOrder α] (calls : List (UCall α)) (i : Instr α) (m : Meas α)
    (h : COp.measure i m ∈ calls.filterMap UCall.op) (hk : i.kind = .counter ∨ i.kind = .histogram) : 0 ≤ m.value := by
  rw [List.mem_filterMap] at h
  obtain ⟨c, _, hc⟩ := h
  cases c with
  | collect r obs timeout now => simp [UCall.op] at hc
  | call j now attrs amount =>
    simp only [UCall.op, Option.map_eq_some_iff] at hc
    obtain ⟨v, h1, h2⟩ := hc
    cases h2
    rcases hk with hk | hk <;> rw [hk] at h1 <;> simp [instrCall] at h1 <;> obtain ⟨h1, rfl⟩ := h1 <;> exact h1

/-- Calls on one stream: an amount given to the instrument, or a collection. -/
inductive SCall (α : Type) where
  | amount (v : α)
  | coll (now : Int)

/-- What the stream sees. -/
def SCall.op [Zero α] [LinearOrder α] (k : Kind) : SCall α → Option (Op α)
  | .amount v => (instrCall k v).map .meas
  | .coll now => some (.coll now)

theorem cycles_prefix (l : List (Op α)) : ∀ (since : Int) (here all : List α) (i j : Nat) (c d : Cycle α), i ≤ j →
    (cyclesFrom since here all l)[i]? = some c → (cyclesFrom since here all l)[j]? = some d →
    all <+: c.all ∧ c.all <+: d.all := by
  induction l with
  | nil => intro since here all i j c d _ hc; simp [cyclesFrom] at hc
  | cons o l ih =>
    intro since here all i j c d hij hc hd
    cases o with
    | meas v =>
      rw [cyclesFrom] at hc hd
      obtain ⟨h1, h2⟩ := ih _ _ _ i j c d hij hc hd
      exact ⟨(List.prefix_append _ _).trans h1, h2⟩
    | coll t =>
      rw [cyclesFrom] at hc hd
      cases j with
      | zero =>
        obtain rfl : i = 0 := by omega
        simp at hc hd
        subst hc; subst hd
        exact ⟨List.prefix_rfl, List.prefix_rfl⟩
      | succ j =>
        simp only [List.getElem?_cons_succ] at hd
        cases i with
        | zero =>
          simp at hc
          subst hc
          exact ⟨List.prefix_rfl, (ih _ _ _ j j d d le_rfl hd hd).1⟩
        | succ i =>
          simp only [List.getElem?_cons_succ] at hc
          exact ih _ _ _ i j c d (by omega) hc hd

theorem cycles_mem (l : List (Op α)) : ∀ (since : Int) (here all : List α) (i : Nat) (c : Cycle α) (v : α),
    (cyclesFrom since here all l)[i]? = some c → v ∈ c.all → v ∈ all ∨ v ∈ measurements l := by
  induction l with
  | nil => intro since here all i c v hc; simp [cyclesFrom] at hc
  | cons o l ih =>
    intro since here all i c v hc hv
    cases o with
    | meas w =>
      rw [cyclesFrom] at hc
      have := ih _ _ _ i c v hc hv
      simp [measurements] at this ⊢
      tauto
    | coll t =>
      rw [cyclesFrom] at hc
      cases i with
      | zero => simp at hc; subst hc; exact Or.inl hv
      | succ i => simp only [List.getElem?_cons_succ] at hc; exact ih _ _ _ i c v hc hv

theorem measurements_nonneg [Zero α] [LinearOrder α] (k : Kind) (hk : k = .counter ∨ k = .histogram) (calls : List (SCall α)) :
    ∀ v ∈ measurements (calls.filterMap (SCall.op k)), 0 ≤ v := by
  induction calls with
  | nil => simp [measurements]
  | cons c calls ih =>
    intro v hv
    cases c with
    | coll now => exact ih v (by simpa [SCall.op, measurements] using hv)
    | amount a =>
      by_cases ha : a < 0
      · rw [List.filterMap_cons] at hv
        have : instrCall k a = none := by rcases hk with rfl | rfl <;> simp [instrCall, ha]
        simp only [SCall.op, this, Option.map_none] at hv
        exact ih v hv
      · rw [List.filterMap_cons] at hv
        have : instrCall k a = some a := by rcases hk with rfl | rfl <;> simp [instrCall, ha]
        simp only [SCall.op, this, Option.map_some, measurements, List.mem_cons] at hv
        rcases hv with rfl | hv
        · exact not_lt.1 ha
        · exact ih v hv

section Ordered
variable [AddCommGroup α] [LinearOrder α] [IsOrderedAddMonoid α]

theorem sum_le_of_prefix {a b : List α} (h : a <+: b) (hb : ∀ v ∈ b, 0 ≤ v) : a.sum ≤ b.sum := by
  obtain ⟨c, rfl⟩ := h
  rw [List.sum_append]
  have : 0 ≤ c.sum := List.sum_nonneg (fun v hv => hb v (by simp [hv]))
  exact le_add_of_nonneg_right this

/-- **C50** The value a counter reports to a cumulative reader never decreases, whatever amounts are added between the collections. -/
theorem C50_monotone (start : Int) (calls : List (SCall α)) (i j : Nat) (p q : NumPoint α) (hij : i ≤ j)
    (hp : ((sumM .delta .cumulative start).out (calls.filterMap (SCall.op .counter)))[i]? = some (some p))
    (hq : ((sumM .delta .cumulative start).out (calls.filterMap (SCall.op .counter)))[j]? = some (some q)) :
    0 ≤ p.value ∧ p.value ≤ q.value := by
  rw [C29_sync_cumulative, List.getElem?_map, Option.map_eq_some_iff] at hp hq
  obtain ⟨c, hc, hp⟩ := hp
  obtain ⟨d, hd, hq⟩ := hq
  cases hp; cases hq
  have hnn : ∀ v ∈ d.all, 0 ≤ v := by
    intro v hv
    have := cycles_mem _ start [] [] j d v hd hv
    exact measurements_nonneg .counter (Or.inl rfl) calls v (by simpa using this)
  have hpre := (cycles_prefix _ start [] [] i j c d hij hc hd).2
  exact ⟨List.sum_nonneg (fun v hv => hnn v (hpre.subset hv)), sum_le_of_prefix hpre hnn⟩

/-- **C50** The increments a counter reports to a delta reader are never negative. -/
theorem C50_delta_nonneg (start : Int) (calls : List (SCall α)) (i : Nat) (p : NumPoint α)
    (hp : ((sumM .delta .delta start).out (calls.filterMap (SCall.op .counter)))[i]? = some (some p)) : 0 ≤ p.value := by
  rw [C29_sync_delta, List.getElem?_map, Option.map_eq_some_iff] at hp
  obtain ⟨c, hc, hp⟩ := hp
  have hsub : ∀ v ∈ c.here, 0 ≤ v := by
    intro v hv
    have hh : v ∈ c.all := by
      have := cyclesFrom_all _ start [] [] i c hc
      simp only [List.append_nil, List.nil_append] at this
      rw [this, List.mem_flatMap]
      exact ⟨c, List.mem_iff_getElem?.2 ⟨i, by rw [List.getElem?_take]; simpa [cycles] using hc⟩, hv⟩
    have := cycles_mem _ start [] [] i c v hc hh
    exact measurements_nonneg .counter (Or.inl rfl) calls v (by simpa using this)
  split at hp
  · cases hp
  · cases hp
    exact List.sum_nonneg hsub

/-- **C50** A histogram's cumulative sum, count and every bucket count never decrease, and its minimum is not negative. -/
theorem C50_histogram_monotone (start : Int) (bounds : List α) (hs : bounds.Pairwise (· ≤ ·)) (mm : Bool) (calls : List (SCall α)) (i j : Nat)
    (p q : HistPoint α) (hij : i ≤ j)
    (hp : ((histM .delta .cumulative start bounds mm).out (calls.filterMap (SCall.op .histogram)))[i]? = some (some p))
    (hq : ((histM .delta .cumulative start bounds mm).out (calls.filterMap (SCall.op .histogram)))[j]? = some (some q)) :
    p.sum ≤ q.sum ∧ p.count ≤ q.count ∧ (∀ (b x y : Nat), p.buckets[b]? = some x → q.buckets[b]? = some y → x ≤ y) ∧ (0 : WithTop α) ≤ p.min := by
  have hlen : ∀ (k : Nat) (r : HistPoint α), ((histM .delta .cumulative start bounds mm).out (calls.filterMap (SCall.op .histogram)))[k]? = some (some r) →
      ∃ c, (cycles start (calls.filterMap (SCall.op .histogram)))[k]? = some c ∧ Describes r bounds mm c.all := by
    intro k r hr
    have hk : k < (cycles start (calls.filterMap (SCall.op .histogram))).length := by
      have := (List.getElem?_eq_some_iff.1 hr).1
      rwa [hist_cumulative_out, List.length_map] at this
    obtain ⟨r', e, _, _, hd⟩ := C30_cumulative start bounds hs mm _ k _ (List.getElem?_eq_getElem hk)
    rw [hr] at e
    cases e
    exact ⟨_, List.getElem?_eq_getElem hk, hd⟩
  obtain ⟨c, hc, dp⟩ := hlen i p hp
  obtain ⟨d, hd, dq⟩ := hlen j q hq
  have hnn : ∀ v ∈ d.all, 0 ≤ v := by
    intro v hv
    have := cycles_mem _ start [] [] j d v hd hv
    exact measurements_nonneg .histogram (Or.inr rfl) calls v (by simpa using this)
  have hpre := (cycles_prefix _ start [] [] i j c d hij hc hd).2
  refine ⟨by rw [dp.sum_eq, dq.sum_eq]; exact sum_le_of_prefix hpre hnn, by rw [dp.count_eq, dq.count_eq]; exact hpre.length_le, ?_, ?_⟩
  · intro b x y hx hy
    have hb : b ≤ bounds.length := by
      have := (List.getElem?_eq_some_iff.1 hx).1
      rw [dp.one_more] at this; omega
    classical
    rw [dp.bucket b hb inferInstance] at hx
    rw [dq.bucket b hb inferInstance] at hy
    cases hx; cases hy
    exact hpre.sublist.countP_le
  · have hmin := dp.min_eq
    cases mm with
    | false => simp at hmin; rw [hmin]; exact le_top
    | true =>
      simp only [if_true] at hmin
      rcases hmin.2 with ⟨_, h⟩ | ⟨v, hv, h⟩
      · rw [h]; exact le_top
      · rw [h]
        exact WithTop.coe_le_coe.2 (hnn v (hpre.subset hv))

end Ordered

/-- A counter to which 5, −3 and 2 are added, collected before and after the last. -/
example : ((sumM (α := Int) .delta .cumulative 0).out (([.amount 5, .amount (-3), .coll 1, .amount 2, .coll 2] : List (SCall Int)).filterMap (SCall.op .counter))).map
    (fun p => p.map (fun (q : NumPoint Int) => q.value)) = [some 5, some 7] := by decide

/-! ## C65: callbacks -/

theorem callbackRun_eq (cs : List (CallbackRun α)) : callbackRun cs = ((cs.map (·.obs)).flatten, cs.countP (·.raises)) := by
  induction cs with
  | nil => rfl
  | cons c cs ih =>
    rw [callbackRun, ih]
    cases hc : c.raises <;> simp [hc]

/-- **C65** A callback that raises loses only what it would have yielded later: the observations of all callbacks before the failing one,
of the failing one up to its failure, and of the later ones are all kept, in order; every failure is logged. -/
theorem C65_failing_callback (before after : List (CallbackRun α)) (c : CallbackRun α) (hc : c.raises = true) :
    (callbackRun (before ++ c :: after)).1 = (callbackRun before).1 ++ c.obs ++ (callbackRun after).1 ∧
    (callbackRun (before ++ c :: after)).2 = (callbackRun before).2 + 1 + (callbackRun after).2 := by
  simp [callbackRun_eq, hc]
  omega

/-- **C65** If no instrument's turn comes after the deadline, everything every callback of every instrument yields is observed, whatever
callbacks raise; and there is no timeout. -/
theorem C65_all_observed (deadline : Int) (ts : List (AsyncTurn α)) (h : ∀ t ∈ ts, t.clock < deadline) :
    gather deadline ts = (ts.flatMap (fun t => (t.callbacks.flatMap (·.obs)).map (t.instr, ·)), false) := by
  induction ts with
  | nil => rfl
  | cons t ts ih =>
    have h1 := h t (by simp)
    have h2 := ih (fun u hu => h u (by simp [hu]))
    rw [gather, if_neg (by omega), h2, callbackRun_eq]
    simp [List.flatMap]

/-- **C65** The deadline is checked only when an instrument's turn comes: a collection times out exactly if it has already passed for some
instrument, and then exactly what the instruments before the first such one yield is observed. -/
theorem C65_timeout (deadline : Int) (before after : List (AsyncTurn α)) (t : AsyncTurn α) (h : ∀ u ∈ before, u.clock < deadline)
    (ht : deadline ≤ t.clock) : gather deadline (before ++ t :: after) = ((gather deadline before).1, true) := by
  induction before with
  | nil => simp [gather, ht]
  | cons u before ih =>
    have h1 := h u (by simp)
    rw [List.cons_append, gather, gather, if_neg (by omega), if_neg (by omega), ih (fun v hv => h v (by simp [hv]))]

example : gather 100 [⟨(⟨0, .obsCounter, [], [], [], ⟨[], none, none⟩, none⟩ : Instr Int), 5, [⟨[⟨0, none, 1⟩], true⟩, ⟨[⟨0, none, 2⟩], false⟩]⟩] =
    ([((⟨0, .obsCounter, [], [], [], ⟨[], none, none⟩, none⟩ : Instr Int), ⟨0, none, 1⟩),
      ((⟨0, .obsCounter, [], [], [], ⟨[], none, none⟩, none⟩ : Instr Int), ⟨0, none, 2⟩)], false) := rfl

/-! ## C61: an aborted collection -/

/-- An SDK without views and a cumulative reader with the default aggregations. -/
def plainSdk : Sdk Int := ⟨[], [0, 5, 10], fun _ _ => false⟩
/-- The reader. -/
def cumulativeReader : ReaderConf Int := ⟨fun _ => .cumulative, fun _ => .default⟩
/-- An observable counter. -/
def obsInstr : Instr Int := ⟨0, .obsCounter, ['n'], [], [], ⟨['m'], none, none⟩, none⟩

/-- The number values a collection returned, or `none` if it raised. -/
def numbers : CollOut Int → Option (List Int)
  | .raised => none
  | .data none => some []
  | .data (some l) => some (l.flatMap (fun sc => sc.2.flatMap (fun m => m.points.filterMap (fun p => match p.pt with | .num q => some q.value | _ => none))))

/-- **C61** (refutation) A collection that is aborted (by the deadline, or by an observation with unhashable attributes) leaves the
observations made before it in the streams: the next collection reports their sum with the new ones. An observable counter that is at 7
at both collections is reported as 14. -/
theorem C61_aborted_doubles :
    ((consumerRun plainSdk (consumerInit [cumulativeReader])
      [.collect 0 [(obsInstr, ⟨1, none, 7⟩)] true 2, .collect 0 [(obsInstr, ⟨3, none, 7⟩)] false 4]).2.map (fun o => numbers o.2)) = [none, some [14]] := by
  decide

/-- **C61** The same for all values: `a` observed by the aborted collection and `b` by the next give `a + b`. -/
theorem C61_aborted_adds (a b : Int) :
    ((consumerRun plainSdk (consumerInit [cumulativeReader])
      [.collect 0 [(obsInstr, ⟨1, none, a⟩)] true 2, .collect 0 [(obsInstr, ⟨3, none, b⟩)] false 4]).2.map (fun o => numbers o.2)) = [none, some [a + b]] := by
  have h : (0 : Int) + a + b = a + b := by omega
  rw [← h]
  rfl

/-- **C61 (partial)** An observable counter's cumulative point is the sum of what was observed since the previous *successful* collection;
so if every collection of the reader succeeds, it is what the callbacks observed at that collection. *Missing*: that aborted collections
leave no trace, which is false. -/
theorem C61_partial [AddCommGroup α] (start : Int) (batches : List (List α × Int)) :
    (sumM .cumulative .cumulative start).out (batches.flatMap (fun b => b.1.map Op.meas ++ [Op.coll b.2])) =
      batches.map (fun b => if b.1 = [] then none else some ⟨some start, b.2, b.1.sum⟩) := by
  rw [C29_async_cumulative]
  have hm : ∀ (vs : List α) (since : Int) (here all : List α) (l : List (Op α)),
      cyclesFrom since here all (vs.map Op.meas ++ l) = cyclesFrom since (here ++ vs) (all ++ vs) l := by
    intro vs
    induction vs with
    | nil => intro since here all l; simp
    | cons v vs ih => intro since here all l; simp [cyclesFrom, ih]
  have key : ∀ (bs : List (List α × Int)) (since : Int) (all : List α),
      (cyclesFrom since [] all (bs.flatMap (fun b => b.1.map Op.meas ++ [Op.coll b.2]))).map (fun c => (c.time, c.here)) = bs.map (fun b => (b.2, b.1)) := by
    intro bs
    induction bs with
    | nil => intro since all; rfl
    | cons b bs ih =>
      intro since all
      rw [List.flatMap_cons, List.append_assoc, hm]
      simp only [List.nil_append, List.cons_append, cyclesFrom, List.map_cons]
      rw [ih]
  have := key batches start []
  rw [← cycles] at this
  have := congrArg (List.map (fun (x : Int × List α) => if x.2.isEmpty then none else some (⟨some start, x.1, x.2.sum⟩ : NumPoint α))) this
  rw [List.map_map, List.map_map] at this
  refine Eq.trans (Eq.trans ?_ this) ?_
  · rfl
  · apply List.map_congr_left
    intro b _
    simp

/-! ## C62: boundaries -/

/-- **C62** An `ExplicitBucketHistogramAggregation` with boundaries uses them for every instrument. -/
theorem C62_given (dflt b : List α) (is : List (Instr α)) : ∀ o ∈ Sticky.creates dflt ⟨some b⟩ is, o = some b := by
  induction is with
  | nil => simp [Sticky.creates]
  | cons i is ih =>
    intro o ho
    simp only [Sticky.creates, Sticky.create, List.mem_cons] at ho
    rcases ho with rfl | ho
    · rfl
    · exact ih o ho

/-- **C62** (refutation of "the boundaries are those the instrument advises, or the default ones") Without boundaries, the first histogram
decides for all later ones, whatever they advise; … -/
theorem C62_first_decides (dflt : List α) (i : Instr α) (is : List (Instr α)) (hi : i.kind = .histogram) :
    ∀ o ∈ Sticky.creates dflt ⟨none⟩ (i :: is), o = some (orList i.advisory dflt) := by
  intro o ho
  simp only [Sticky.creates, Sticky.create, hi, List.mem_cons] at ho
  rcases ho with rfl | ho
  · rfl
  · exact C62_given dflt _ is o ho

/-- **C62** The first histogram gets the boundaries it advises; if it advises none, or an empty list, the default ones. -/
theorem C62_first_choice (dflt : List α) (i : Instr α) (hi : i.kind = .histogram) :
    (∀ x l, i.advisory = some (x :: l) → Sticky.creates dflt ⟨none⟩ [i] = [some (x :: l)]) ∧
    (i.advisory = none ∨ i.advisory = some [] → Sticky.creates dflt ⟨none⟩ [i] = [some dflt]) := by
  constructor
  · intro x l h; simp [Sticky.creates, Sticky.create, hi, h, orList]
  · rintro (h | h) <;> simp [Sticky.creates, Sticky.create, hi, h, orList]

/-- **C62** (refutation) … and for any other instrument, while no histogram has been seen, creating the stream raises. -/
theorem C62_raises (dflt : List α) (i : Instr α) (is : List (Instr α)) (hi : i.kind ≠ .histogram) :
    (Sticky.creates dflt ⟨none⟩ (i :: is)).head? = some none := by
  cases h : i.kind <;> simp_all [Sticky.creates, Sticky.create]

/-- Two histograms advising different boundaries get the same. -/
example : Sticky.creates [0] ⟨none⟩ [(⟨0, .histogram, [], [], [], ⟨[], none, none⟩, some [1, 2]⟩ : Instr Int),
    ⟨1, .histogram, [], [], [], ⟨[], none, none⟩, some [5, 6]⟩] = [some [1, 2], some [1, 2]] := by decide

end Metrics
end Otel
