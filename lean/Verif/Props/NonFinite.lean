import Verif.Spec.NonFinite
import Verif.Props.Metrics
import Verif.Props.ExpMapping
import Verif.Lemmas.ExpAgg
import Mathlib.Tactic.SplitIfs
import Mathlib.Tactic.Linarith
import Mathlib.Tactic.Positivity
/-!
# C96: measurements that are NaN or infinite
-/
namespace Otel
namespace Metrics

namespace Fl

theorem add_def (a b : Fl) : a + b = add a b := rfl
theorem zero_def : (0 : Fl) = .fin 0 := rfl

instance : AddCommMonoid Fl where
  add_assoc a b c := by
    cases a <;> cases b <;> cases c <;> simp [add_def, add, _root_.add_assoc]
  zero_add a := by cases a <;> simp [add_def, zero_def, add]
  add_zero a := by cases a <;> simp [add_def, zero_def, add]
  add_comm a b := by cases a <;> cases b <;> simp [add_def, add, _root_.add_comm]
  nsmul := nsmulRec

theorem sub_zero' (a : Fl) : a - 0 = a := by
  show add a (neg (.fin 0)) = a
  cases a <;> simp [neg, add]

theorem sum_total (vs : List Fl) : IsTotal vs vs.sum := by
  induction vs with
  | nil => simp [IsTotal, zero_def]
  | cons v vs ih =>
    obtain ⟨i1, i2, i3, i4⟩ := ih
    have hs : (v :: vs).sum = add v vs.sum := List.sum_cons
    unfold IsTotal
    rw [hs]
    by_cases hn : Fl.nan ∈ vs
    · rw [i1 (Or.inl hn)]
      cases v <;> simp [hn, add]
    · by_cases hp : Fl.pinf ∈ vs <;> by_cases hm : Fl.ninf ∈ vs
      · rw [i1 (Or.inr ⟨hp, hm⟩)]; cases v <;> simp [hn, hp, hm, add]
      · rw [i2 hn hp hm]; cases v <;> simp [hn, hp, hm, add]
      · rw [i3 hn hm hp]; cases v <;> simp [hn, hp, hm, add]
      · rw [i4 hn hp hm]; cases v <;> simp [hn, hp, hm, add, part]

end Fl

/-! ## Instruments -/

/-- **C96** A counter and a histogram refuse exactly the negative numbers, minus infinity among them; every other instrument hands on everything. -/
theorem C96_refused (k : Kind) (v : Fl) :
    (instrCallF k v = none ↔ (k = .counter ∨ k = .histogram) ∧ Negative v) ∧ ∀ w, instrCallF k v = some w → w = v := by
  cases k <;> cases v <;> simp [instrCallF, Negative, Fl.lt, Fl.zero_def] <;> grind

/-- **C96 (refuted part)** A NaN is refused by no instrument. -/
theorem C96_nan_accepted_violated (k : Kind) : instrCallF k .nan = some .nan := by
  cases k <;> simp [instrCallF, Fl.lt]

/-! ## Sums -/

/-- **C96** A delta sum is the IEEE total of the measurements of its interval, whatever they are. -/
theorem C96_sum_delta (start : Int) (l : List (Op Fl)) (i : Nat) (c : Cycle Fl) (hc : (cycles start l)[i]? = some c) :
    (c.here = [] → ((sumM .delta .delta start).out l)[i]? = some none) ∧
    (c.here ≠ [] → ∃ x, ((sumM .delta .delta start).out l)[i]? = some (some ⟨some c.since, c.time, x⟩) ∧ IsTotal c.here x) := by
  rw [C29_sync_delta, List.getElem?_map, hc]
  cases hh : c.here with
  | nil => simp [hh]
  | cons a r => simp [hh]; rw [← List.sum_cons]; exact Fl.sum_total _

/-- **C96** So a NaN or an infinity spoils only the point of its own interval: an interval of finite measurements reports their sum, whatever came before. -/
theorem C96_delta_recovers (start : Int) (l : List (Op Fl)) (i : Nat) (c : Cycle Fl) (hc : (cycles start l)[i]? = some c) (qs : List ℚ) (hq : qs ≠ [])
    (hf : c.here = qs.map Fl.fin) :
    ((sumM .delta .delta start).out l)[i]? = some (some ⟨some c.since, c.time, .fin qs.sum⟩) := by
  obtain ⟨_, h⟩ := C96_sum_delta start l i c hc
  obtain ⟨x, h1, _, _, _, h2⟩ := h (by rw [hf]; simpa using hq)
  rw [h1, h2 (by simp [hf]) (by simp [hf]) (by simp [hf]), hf, List.map_map]
  simp [Function.comp_def, Fl.part]

example : (cycles 0 [.meas Fl.nan, .coll 1, .meas (.fin 2), .meas (.fin 3), .coll 5])[1]? = some ⟨1, 5, [2, 3].map Fl.fin, [.nan, .fin 2, .fin 3]⟩ ∧
    (sumM .delta .delta 0).out [.meas Fl.nan, .coll 1, .meas (.fin 2), .meas (.fin 3), .coll 5] =
      [some ⟨some 0, 1, .nan⟩, some ⟨some 1, 5, .fin 5⟩] := by decide +kernel

/-- **C96** A cumulative sum is the IEEE total of all measurements so far. -/
theorem C96_sum_cumulative (start : Int) (l : List (Op Fl)) (i : Nat) (c : Cycle Fl) (hc : (cycles start l)[i]? = some c) :
    ∃ x, ((sumM .delta .cumulative start).out l)[i]? = some (some ⟨some start, c.time, x⟩) ∧ IsTotal c.all x := by
  rw [C29_sync_cumulative, List.getElem?_map, hc]
  exact ⟨_, rfl, Fl.sum_total _⟩

/-- **C96 (refuted part)** One NaN makes every cumulative point from then on NaN, for as long as the stream lives. -/
theorem C96_poisoned_violated (start : Int) (before after : List (Op Fl)) (t : Int) :
    ∃ n, (((sumM .delta .cumulative start).out (before ++ .meas .nan :: after ++ [.coll t])))[n]? = some (some ⟨some start, t, .nan⟩) ∧
      n + 1 = ((sumM .delta .cumulative start).out (before ++ .meas .nan :: after ++ [.coll t])).length := by
  have key : ∀ (l : List (Op Fl)) (s : Int) (here all : List Fl),
      (cyclesFrom s here all (l ++ [.coll t])).getLast? = some ⟨(cyclesFrom s here all l).foldl (fun _ c => c.time) s, t, pendingFrom here l, all ++ measurements l⟩ := by
    intro l
    induction l with
    | nil => intro s here all; simp [cyclesFrom, pendingFrom, measurements]
    | cons o l ih =>
      intro s here all
      cases o with
      | meas v => simp only [List.cons_append, cyclesFrom, ih, pendingFrom, measurements]; simp
      | coll t' =>
        simp only [List.cons_append, cyclesFrom, pendingFrom, measurements, List.foldl_cons]
        rw [List.getLast?_cons, ih]; simp
  have hmem : Fl.nan ∈ measurements (before ++ .meas .nan :: after) := by
    induction before with
    | nil => simp [measurements]
    | cons o l ih => cases o <;> simp only [List.cons_append, measurements]; exacts [List.mem_cons_of_mem _ ih, ih]
  have hl := key (before ++ .meas .nan :: after) start [] []
  rw [List.nil_append] at hl
  generalize before ++ .meas .nan :: after = l at hl hmem
  rw [List.getLast?_eq_getElem?] at hl
  have hlt := (List.getElem?_eq_some_iff.1 hl).1
  refine ⟨(cyclesFrom start [] [] (l ++ [.coll t])).length - 1, ?_, ?_⟩
  · obtain ⟨x, h1, h2, _⟩ := C96_sum_cumulative start _ _ _ hl
    rw [h1, h2 (Or.inl hmem)]
  · rw [C29_sync_cumulative, List.length_map, cycles]; omega

/-- **C96** A delta point of an asynchronous sum is the IEEE difference of the totals observed now and at the previous collection with observations. -/
theorem C96_async_delta (start : Int) (l : List (Op Fl)) (i : Nat) (c : Cycle Fl) (hc : (cycles start l)[i]? = some c) (hn : c.here ≠ []) :
    (lastObserved ((cycles start l).take i) = none →
      ((sumM .cumulative .delta start).out l)[i]? = some (some ⟨some start, c.time, c.here.sum⟩)) ∧
    ∀ p : Cycle Fl, lastObserved ((cycles start l).take i) = some p →
      ((sumM .cumulative .delta start).out l)[i]? = some (some ⟨some p.time, c.time, c.here.sum - p.here.sum⟩) := by
  have h := async_delta_gen Fl.sub_zero' start l i
  rw [hc] at h
  constructor
  · intro hl; rw [hl] at h; simpa [hn] using h
  · intro p hl; rw [hl] at h; simpa [hn] using h

/-- **C96 (refuted part)** An observable counter that has reached infinity and stays there: the difference is not zero but NaN. -/
theorem C96_async_inf_violated (start t1 t2 : Int) :
    (sumM .cumulative .delta start).out [.meas Fl.pinf, .coll t1, .meas .pinf, .coll t2] =
      [some ⟨some start, t1, Fl.pinf⟩, some ⟨some t1, t2, Fl.nan⟩] := rfl

/-! ## Explicit buckets -/

section Bisect

theorem Fl.lt_trans' {a b c : Fl} (h1 : a = b ∨ Fl.lt a b = true) (h2 : Fl.lt b c = true) : Fl.lt a c = true := by
  rcases h1 with rfl | h1
  · exact h2
  · cases a <;> cases b <;> cases c <;> simp [Fl.lt] at *; grind

theorem Fl.not_lt' {a b : Fl} (ha : a ≠ .nan) (hb : b ≠ .nan) : Fl.lt a b = false ↔ (Fl.lt b a = true ∨ b = a) := by
  cases a <;> cases b <;> simp [Fl.lt] at *; grind

theorem Fl.lt_nan (a : Fl) : Fl.lt a .nan = false := by cases a <;> rfl

theorem bisectLoopF_spec (a : List Fl) (x : Fl) (hs : OkBounds a) (fuel lo hi : Nat) (hf : hi - lo ≤ fuel) (hlh : lo ≤ hi)
    (hh : hi ≤ a.length) (h1 : ∀ j y, j < lo → a[j]? = some y → Fl.lt y x = true) (h2 : ∀ j y, hi ≤ j → a[j]? = some y → Fl.lt y x = false) :
    bisectLoopF a x fuel lo hi ≤ a.length ∧
    (∀ j y, j < bisectLoopF a x fuel lo hi → a[j]? = some y → Fl.lt y x = true) ∧
    (∀ j y, bisectLoopF a x fuel lo hi ≤ j → a[j]? = some y → Fl.lt y x = false) := by
  have hle : ∀ (i j : Nat) (y z : Fl), i ≤ j → a[i]? = some y → a[j]? = some z → y = z ∨ Fl.lt y z = true := by
    intro i j y z hij hi' hj'
    rcases Nat.lt_or_eq_of_le hij with h | h
    · obtain ⟨hi1, rfl⟩ := List.getElem?_eq_some_iff.1 hi'
      obtain ⟨hj1, rfl⟩ := List.getElem?_eq_some_iff.1 hj'
      exact List.pairwise_iff_getElem.1 hs.2 i j hi1 hj1 h
    · subst h; rw [hi'] at hj'; cases hj'; exact Or.inl rfl
  induction fuel generalizing lo hi with
  | zero =>
    obtain rfl : lo = hi := by omega
    exact ⟨hh, h1, h2⟩
  | succ fuel ih =>
    rw [bisectLoopF]
    by_cases hlt : lo < hi
    · rw [if_pos hlt]
      have hm : (lo + hi) / 2 < a.length := by omega
      simp only [List.getElem?_eq_getElem hm]
      by_cases hy : Fl.lt a[(lo + hi) / 2] x = true
      · rw [if_pos hy]
        refine ih _ _ (by omega) (by omega) hh ?_ h2
        intro j y hj hjy
        exact Fl.lt_trans' (hle j _ y _ (by omega) hjy (List.getElem?_eq_getElem hm)) hy
      · rw [if_neg hy]
        refine ih _ _ (by omega) (by omega) (by omega) h1 ?_
        intro j y hj hjy
        by_contra hc
        exact hy (Fl.lt_trans' (hle _ j _ y hj (List.getElem?_eq_getElem hm) hjy) (by simpa using hc))
    · rw [if_neg hlt]
      obtain rfl : lo = hi := by omega
      exact ⟨hh, h1, h2⟩

theorem bisectF_spec (bounds : List Fl) (hs : OkBounds bounds) (v : Fl) :
    bisectF bounds v ≤ bounds.length ∧ (∀ j y, j < bisectF bounds v → bounds[j]? = some y → Fl.lt y v = true) ∧
    (∀ j y, bisectF bounds v ≤ j → bounds[j]? = some y → Fl.lt y v = false) :=
  bisectLoopF_spec bounds v hs bounds.length 0 bounds.length (by omega) (by omega) le_rfl
    (by omega) (by intro j y hj hy; rw [List.getElem?_eq_none hj] at hy; cases hy)

/-- **C96** The bucket of a measurement: the lowest for a NaN, else the one whose interval contains it. -/
theorem C96_bucket_of (bounds : List Fl) (hs : OkBounds bounds) (v : Fl) (i : Nat) (hi : i ≤ bounds.length) :
    bisectF bounds v = i ↔ InBucketF bounds i v := by
  obtain ⟨h0, h1, h2⟩ := bisectF_spec bounds hs v
  have hnn : ∀ (j : Nat) b, bounds[j]? = some b → b ≠ .nan := by
    rintro j b hb rfl; exact hs.1 (List.mem_of_getElem? hb)
  by_cases hv : v = .nan
  · subst hv
    have hz : bisectF bounds .nan = 0 := by
      by_contra hc
      have hl : 0 < bounds.length := by omega
      have := h1 0 _ (by omega) (List.getElem?_eq_getElem hl)
      rw [Fl.lt_nan] at this; cases this
    rw [hz]
    exact ⟨fun h => Or.inl ⟨rfl, h.symm⟩, fun h => by rcases h with ⟨_, h⟩ | ⟨h, _⟩; exacts [h.symm, absurd rfl h]⟩
  · unfold InBucketF
    constructor
    · rintro rfl
      refine Or.inr ⟨hv, fun b hp hb => h1 _ b (by omega) hb, fun b hb => ?_⟩
      exact (Fl.not_lt' (hnn _ _ hb) hv).1 (h2 _ b le_rfl hb)
    · rintro (⟨h, _⟩ | ⟨_, ha, hb⟩)
      · exact absurd h hv
      rcases Nat.lt_trichotomy (bisectF bounds v) i with h | h | h
      · have hl : i - 1 < bounds.length := by omega
        have a1 := ha _ (by omega) (List.getElem?_eq_getElem hl)
        have a2 := h2 (i - 1) _ (by omega) (List.getElem?_eq_getElem hl)
        rw [a1] at a2; cases a2
      · exact h
      · have hl : i < bounds.length := by omega
        have a1 := hb _ (List.getElem?_eq_getElem hl)
        have a2 := h1 i _ h (List.getElem?_eq_getElem hl)
        have a3 := (Fl.not_lt' (hnn _ _ (List.getElem?_eq_getElem hl)) hv).2 a1
        rw [a2] at a3; cases a3

end Bisect

section Hist

/-- Bucket counts of a list of values. -/
def countsF (bounds vs : List Fl) : List Nat :=
  (List.range (bounds.length + 1)).map (fun i => vs.countP (fun v => bisectF bounds v == i))

def minF (mm : Bool) (vs : List Fl) : Fl := if mm then vs.foldl Fl.pyMin .pinf else .pinf
def maxF (mm : Bool) (vs : List Fl) : Fl := if mm then vs.foldl Fl.pyMax .ninf else .ninf

theorem countsF_nil (bounds : List Fl) : countsF bounds [] = List.replicate (bounds.length + 1) 0 := by
  simp [countsF, List.map_const']

theorem countsF_snoc (bounds vs : List Fl) (v : Fl) :
    countsF bounds (vs ++ [v]) = (countsF bounds vs).modify (bisectF bounds v) (· + 1) := by
  apply List.ext_getElem?
  intro i
  simp only [countsF, List.getElem?_map, List.getElem?_modify]
  by_cases hi : i < bounds.length + 1
  · rw [List.getElem?_range hi]
    by_cases h : bisectF bounds v = i <;> simp [h, List.countP_append]
  · rw [List.getElem?_eq_none (by simpa using hi)]; simp

theorem countsF_append (bounds vs ws : List Fl) :
    List.zipWith (· + ·) (countsF bounds ws) (countsF bounds vs) = countsF bounds (vs ++ ws) := by
  apply List.ext_getElem?
  intro i
  simp only [countsF, List.getElem?_zipWith, List.getElem?_map]
  by_cases hi : i < bounds.length + 1
  · rw [List.getElem?_range hi]; simp [List.countP_append, Nat.add_comm]
  · rw [List.getElem?_eq_none (by simpa using hi)]; simp

theorem countsF_sum (bounds vs : List Fl) (hs : OkBounds bounds) : (countsF bounds vs).sum = vs.length := by
  have hmod : ∀ (l : List Nat) (i : Nat), i < l.length → (l.modify i (· + 1)).sum = l.sum + 1 := by
    intro l
    induction l with
    | nil => intro i h; simp at h
    | cons a l ih =>
      intro i h
      cases i with
      | zero => simp; omega
      | succ i => simp at h; simp [ih i h]; omega
  have : ∀ ws : List Fl, (countsF bounds ws.reverse).sum = ws.length := by
    intro ws
    induction ws with
    | nil => simp [countsF_nil]
    | cons v ws ih =>
      rw [List.reverse_cons, countsF_snoc, hmod, ih]
      · simp
      · have := (bisectF_spec bounds hs v).1
        simp [countsF]; omega
  have h := this vs.reverse
  simpa using h

theorem minF_snoc (mm : Bool) (vs : List Fl) (v : Fl) : minF mm (vs ++ [v]) = if mm then Fl.pyMin (minF mm vs) v else minF mm vs := by
  cases mm <;> simp [minF, List.foldl_append]

theorem maxF_snoc (mm : Bool) (vs : List Fl) (v : Fl) : maxF mm (vs ++ [v]) = if mm then Fl.pyMax (maxF mm vs) v else maxF mm vs := by
  cases mm <;> simp [maxF, List.foldl_append]

theorem minF_least (vs : List Fl) : IsLeastF (minF true vs) vs := by
  have : ∀ ws : List Fl, IsLeastF (minF true ws.reverse) ws.reverse := by
    intro ws
    induction ws with
    | nil => simp [IsLeastF, minF]
    | cons v ws ih =>
      obtain ⟨h0, h1, h2⟩ := ih
      rw [List.reverse_cons, minF_snoc, if_pos rfl]
      generalize minF true ws.reverse = m at *
      generalize ws.reverse = us at *
      unfold Fl.pyMin
      by_cases hv : Fl.lt v m = true
      · rw [if_pos hv]
        refine ⟨by rintro rfl; cases m <;> simp [Fl.lt] at hv, ?_, Or.inr (by simp)⟩
        intro w hw hn
        simp only [List.mem_append, List.mem_singleton] at hw
        rcases hw with hw | rfl
        · rcases h1 w hw hn with rfl | h
          · exact Or.inr hv
          · exact Or.inr (Fl.lt_trans' (Or.inr hv) h)
        · exact Or.inl rfl
      · rw [if_neg hv]
        refine ⟨h0, ?_, ?_⟩
        · intro w hw hn
          simp only [List.mem_append, List.mem_singleton] at hw
          rcases hw with hw | rfl
          · exact h1 w hw hn
          · rcases (Fl.not_lt' hn h0).1 (by simpa using hv) with h | h
            · exact Or.inr h
            · exact Or.inl h
        · rcases h2 with h | h
          · exact Or.inl h
          · exact Or.inr (by simp [h])
  simpa using this vs.reverse

theorem maxF_greatest (vs : List Fl) : IsGreatestF (maxF true vs) vs := by
  have : ∀ ws : List Fl, IsGreatestF (maxF true ws.reverse) ws.reverse := by
    intro ws
    induction ws with
    | nil => simp [IsGreatestF, maxF]
    | cons v ws ih =>
      obtain ⟨h0, h1, h2⟩ := ih
      rw [List.reverse_cons, maxF_snoc, if_pos rfl]
      generalize maxF true ws.reverse = m at *
      generalize ws.reverse = us at *
      unfold Fl.pyMax
      by_cases hv : Fl.lt m v = true
      · rw [if_pos hv]
        refine ⟨by rintro rfl; cases m <;> simp [Fl.lt] at hv, ?_, Or.inr (by simp)⟩
        intro w hw hn
        simp only [List.mem_append, List.mem_singleton] at hw
        rcases hw with hw | rfl
        · rcases h1 w hw hn with rfl | h
          · exact Or.inr hv
          · exact Or.inr (Fl.lt_trans' (Or.inr h) hv)
        · exact Or.inl rfl
      · rw [if_neg hv]
        refine ⟨h0, ?_, ?_⟩
        · intro w hw hn
          simp only [List.mem_append, List.mem_singleton] at hw
          rcases hw with hw | rfl
          · exact h1 w hw hn
          · rcases (Fl.not_lt' h0 hn).1 (by simpa using hv) with h | h
            · exact Or.inr h
            · exact Or.inl h.symm
        · rcases h2 with h | h
          · exact Or.inl h
          · exact Or.inr (by simp [h])
  simpa using this vs.reverse

/-- Two descriptions of the least value agree. -/
theorem least_unique {m m' : Fl} {vs : List Fl} (h : IsLeastF m vs) (h' : IsLeastF m' vs) : m = m' := by
  obtain ⟨a0, a1, a2⟩ := h
  obtain ⟨b0, b1, b2⟩ := h'
  rcases a2 with rfl | a2
  · rcases b2 with rfl | b2
    · rfl
    · rcases a1 m' b2 b0 with h | h
      · exact h
      · cases m' <;> simp [Fl.lt] at h
  · rcases b1 m a2 a0 with h | h
    · exact h.symm
    · rcases b2 with rfl | b2
      · cases m <;> simp [Fl.lt] at h
      · rcases a1 m' b2 b0 with h' | h'
        · exact h'
        · have := Fl.lt_trans' (Or.inr h) h'
          cases m' <;> simp [Fl.lt] at this

theorem greatest_unique {m m' : Fl} {vs : List Fl} (h : IsGreatestF m vs) (h' : IsGreatestF m' vs) : m = m' := by
  obtain ⟨a0, a1, a2⟩ := h
  obtain ⟨b0, b1, b2⟩ := h'
  rcases a2 with rfl | a2
  · rcases b2 with rfl | b2
    · rfl
    · rcases a1 m' b2 b0 with h | h
      · exact h
      · cases m' <;> simp [Fl.lt] at h
  · rcases b1 m a2 a0 with h | h
    · exact h.symm
    · rcases b2 with rfl | b2
      · cases m <;> simp [Fl.lt] at h
      · rcases a1 m' b2 b0 with h' | h'
        · exact h'
        · have := Fl.lt_trans' (Or.inr h) h'
          cases m <;> simp [Fl.lt] at this

theorem minF_append (mm : Bool) (vs ws : List Fl) : Fl.pyMin (minF mm ws) (minF mm vs) = minF mm (vs ++ ws) := by
  cases mm with
  | false => rfl
  | true =>
    refine least_unique ?_ (minF_least (vs ++ ws))
    obtain ⟨a0, a1, a2⟩ := minF_least vs
    obtain ⟨b0, b1, b2⟩ := minF_least ws
    generalize minF true vs = m at *
    generalize minF true ws = n at *
    unfold Fl.pyMin
    have tr : ∀ {x y z : Fl}, (x = y ∨ Fl.lt x y = true) → (y = z ∨ Fl.lt y z = true) → (x = z ∨ Fl.lt x z = true) := by
      intro x y z h1 h2
      rcases h2 with rfl | h2
      · exact h1
      · exact Or.inr (Fl.lt_trans' h1 h2)
    by_cases h : Fl.lt m n = true
    · rw [if_pos h]
      refine ⟨a0, ?_, by rcases a2 with h | h <;> simp [h]⟩
      intro v hv hn
      rcases List.mem_append.1 hv with hv | hv
      · exact a1 v hv hn
      · exact tr (Or.inr h) (b1 v hv hn)
    · rw [if_neg h]
      have h' : n = m ∨ Fl.lt n m = true := by
        rcases (Fl.not_lt' a0 b0).1 (by simpa using h) with h | h
        · exact Or.inr h
        · exact Or.inl h
      refine ⟨b0, ?_, by rcases b2 with h | h <;> simp [h]⟩
      intro v hv hn
      rcases List.mem_append.1 hv with hv | hv
      · exact tr h' (a1 v hv hn)
      · exact b1 v hv hn

theorem maxF_append (mm : Bool) (vs ws : List Fl) : Fl.pyMax (maxF mm ws) (maxF mm vs) = maxF mm (vs ++ ws) := by
  cases mm with
  | false => rfl
  | true =>
    refine greatest_unique ?_ (maxF_greatest (vs ++ ws))
    obtain ⟨a0, a1, a2⟩ := maxF_greatest vs
    obtain ⟨b0, b1, b2⟩ := maxF_greatest ws
    generalize maxF true vs = m at *
    generalize maxF true ws = n at *
    unfold Fl.pyMax
    have tr : ∀ {x y z : Fl}, (x = y ∨ Fl.lt y x = true) → (y = z ∨ Fl.lt z y = true) → (x = z ∨ Fl.lt z x = true) := by
      intro x y z h1 h2
      rcases h1 with rfl | h1
      · exact h2
      · refine Or.inr (Fl.lt_trans' ?_ h1)
        rcases h2 with rfl | h2
        · exact Or.inl rfl
        · exact Or.inr h2
    by_cases h : Fl.lt n m = true
    · rw [if_pos h]
      refine ⟨a0, ?_, by rcases a2 with h | h <;> simp [h]⟩
      intro v hv hn
      rcases List.mem_append.1 hv with hv | hv
      · exact a1 v hv hn
      · exact tr (Or.inr h) (b1 v hv hn)
    · rw [if_neg h]
      have h' : n = m ∨ Fl.lt m n = true := by
        rcases (Fl.not_lt' b0 a0).1 (by simpa using h) with h | h
        · exact Or.inr h
        · exact Or.inl h.symm
      refine ⟨b0, ?_, by rcases b2 with h | h <;> simp [h]⟩
      intro v hv hn
      rcases List.mem_append.1 hv with hv | hv
      · exact tr h' (a1 v hv hn)
      · exact b1 v hv hn

/-- The point a histogram should report for the values `vs`. -/
def pointF (bounds : List Fl) (mm : Bool) (start time : Int) (vs : List Fl) : HistPointF :=
  { start := start, time := time, count := (countsF bounds vs).sum, sum := vs.sum, buckets := countsF bounds vs,
    bounds := bounds, min := minF mm vs, max := maxF mm vs }

theorem pointF_describes (bounds : List Fl) (hs : OkBounds bounds) (mm : Bool) (start time : Int) (vs : List Fl) :
    DescribesF (pointF bounds mm start time vs) bounds mm vs where
  bounds_eq := rfl
  one_more := by simp [pointF, countsF]
  bucket := by
    intro i hi d
    have : i < bounds.length + 1 := by omega
    simp only [pointF, countsF, List.getElem?_map, List.getElem?_range this, Option.map_some]
    congr 2
    funext v
    have h := C96_bucket_of bounds hs v i hi
    by_cases hb : bisectF bounds v = i
    · have := h.1 hb; simp [hb, this]
    · have : ¬ InBucketF bounds i v := fun hh => hb (h.2 hh)
      simp [hb, this]
  total := rfl
  count_eq := countsF_sum bounds vs hs
  sum_eq := Fl.sum_total vs
  min_eq := by
    cases mm
    · simp [pointF, minF]
    · simpa [pointF] using minF_least vs
  max_eq := by
    cases mm
    · simp [pointF, maxF]
    · simpa [pointF] using maxF_greatest vs

theorem histF_delta_out (start : Int) (bounds : List Fl) (mm : Bool) (l : List (Op Fl)) :
    (histFM .delta start bounds mm).out l = (cycles start l).map (fun c =>
      if c.here.isEmpty then none else some (pointF bounds mm c.since c.time c.here)) := by
  have := run_eq (α := Fl) (histFM .delta start bounds mm)
    (fun s _ since here _ => s.inst = .delta ∧ s.prevStart = since ∧ s.bounds = bounds ∧ s.recordMinMax = mm ∧
      (s.value = if here.isEmpty then none else some (countsF bounds here)) ∧ s.sum = here.sum ∧
      s.min = minF mm here ∧ s.max = maxF mm here)
    (fun _ c => if c.here.isEmpty then none else some (pointF bounds mm c.since c.time c.here))
    (by
      rintro s past since here all v ⟨h1, h2, h3, h4, h5, h6, h7, h8⟩
      refine ⟨h1, h2, h3, h4, ?_, ?_, ?_, ?_⟩
      · simp only [histFM, HistAggF.aggregate, h5, h3, HistAggF.empty]
        rw [countsF_snoc]
        cases here with
        | nil => simp [countsF_nil]
        | cons a r => simp
      · simp [histFM, HistAggF.aggregate, h6]
      · simp only [histFM, HistAggF.aggregate, h4, h7, minF_snoc]
      · simp only [histFM, HistAggF.aggregate, h4, h8, maxF_snoc])
    (by
      rintro s past since here all t ⟨h1, h2, h3, h4, h5, h6, h7, h8⟩
      cases here with
      | nil => simp [histFM, HistAggF.collect, h1, h3, h4, h5, minF, maxF]
      | cons a r => simp [histFM, HistAggF.collect, h1, h2, h3, h4, h5, h6, h7, h8, minF, maxF, pointF])
    l (HistAggF.new .delta start bounds mm) [] start [] [] (by simp [HistAggF.new, minF, maxF])
  rw [mapPast_const] at this
  exact this

theorem histF_cumulative_out (start : Int) (bounds : List Fl) (mm : Bool) (l : List (Op Fl)) :
    (histFM .cumulative start bounds mm).out l = (cycles start l).map (fun c =>
      some (pointF bounds mm start c.time c.all)) := by
  have := run_eq (α := Fl) (histFM .cumulative start bounds mm)
    (fun s _ _ _ all => ∃ here' old, all = old ++ here' ∧ s.inst = .delta ∧ s.start = start ∧ s.bounds = bounds ∧ s.recordMinMax = mm ∧
      (s.value.getD s.empty = countsF bounds here') ∧ s.sum = here'.sum ∧
      s.min = minF mm here' ∧ s.max = maxF mm here' ∧
      (s.prevValue.getD s.empty = countsF bounds old) ∧ s.prevSum = old.sum ∧
      s.prevMin = minF mm old ∧ s.prevMax = maxF mm old)
    (fun _ c => some (pointF bounds mm start c.time c.all))
    (by
      rintro s past since here all v ⟨here', old, rfl, h1, h2, h3, h4, h5, h6, h7, h8, h9, h10, h11, h12⟩
      refine ⟨here' ++ [v], old, by simp, h1, h2, h3, h4, ?_, ?_, ?_, ?_, h9, h10, h11, h12⟩
      · simp only [histFM, HistAggF.aggregate, h5, h3, countsF_snoc, Option.getD_some]
      · simp [histFM, HistAggF.aggregate, h6]
      · simp only [histFM, HistAggF.aggregate, h4, h7, minF_snoc]
      · simp only [histFM, HistAggF.aggregate, h4, h8, maxF_snoc])
    (by
      rintro s past since here all t ⟨here', old, rfl, h1, h2, h3, h4, h5, h6, h7, h8, h9, h10, h11, h12⟩
      constructor
      · simp only [histFM, HistAggF.collect, h1, h2, h3, h5, h6, h7, h8, h9, h10, h11, h12, pointF, countsF_append,
          minF_append, maxF_append, List.sum_append, add_comm]
      · refine ⟨[], old ++ here', by simp, ?_, ?_, ?_, ?_, ?_, ?_, ?_, ?_, ?_, ?_, ?_, ?_⟩ <;>
          simp only [histFM, HistAggF.collect, h1, h2, h3, h4, h5, h6, h7, h8, h9, h10, h11, h12, countsF_append,
            minF_append, maxF_append, List.sum_append, add_comm, HistAggF.empty, Option.getD_some, Option.getD_none, countsF_nil, List.sum_nil]
        · cases mm <;> rfl
        · cases mm <;> rfl
        · simp only [HistAggF.empty, h3] at h5 h9
          rw [h5, h9, countsF_append])
    l (HistAggF.new .delta start bounds mm) [] start [] []
    ⟨[], [], rfl, rfl, rfl, rfl, rfl, by simp [HistAggF.new, HistAggF.empty, countsF_nil], rfl, by cases mm <;> rfl, by cases mm <;> rfl,
      by simp [HistAggF.new, HistAggF.empty, countsF_nil], rfl, by cases mm <;> rfl, by cases mm <;> rfl⟩
  rw [mapPast_const] at this
  exact this

/-- **C96** A delta histogram point describes the measurements of its interval, whatever they are: every one is counted, in the bucket above; the sum
is the IEEE total; minimum and maximum are those of the measurements that are numbers. -/
theorem C96_hist_delta (start : Int) (bounds : List Fl) (hs : OkBounds bounds) (mm : Bool) (l : List (Op Fl)) (i : Nat) (c : Cycle Fl)
    (hc : (cycles start l)[i]? = some c) :
    if c.here = [] then ((histFM .delta start bounds mm).out l)[i]? = some none
    else ∃ p, ((histFM .delta start bounds mm).out l)[i]? = some (some p) ∧ p.start = c.since ∧ p.time = c.time ∧ DescribesF p bounds mm c.here := by
  rw [histF_delta_out, List.getElem?_map, hc]
  cases hh : c.here with
  | nil => simp [hh]
  | cons a r =>
    simp only [reduceCtorEq, if_false]
    exact ⟨_, by simp [hh], rfl, rfl, pointF_describes bounds hs mm _ _ _⟩

/-- **C96** A cumulative one describes all measurements so far. -/
theorem C96_hist_cumulative (start : Int) (bounds : List Fl) (hs : OkBounds bounds) (mm : Bool) (l : List (Op Fl)) (i : Nat) (c : Cycle Fl)
    (hc : (cycles start l)[i]? = some c) :
    ∃ p, ((histFM .cumulative start bounds mm).out l)[i]? = some (some p) ∧ p.start = start ∧ p.time = c.time ∧ DescribesF p bounds mm c.all := by
  rw [histF_cumulative_out, List.getElem?_map, hc]
  exact ⟨_, rfl, rfl, rfl, pointF_describes bounds hs mm _ _ _⟩

/-- **C96 (refuted part)** So a NaN counts as a measurement of at most the lowest boundary. -/
theorem C96_nan_lowest_violated (start t : Int) (b : ℚ) (mm : Bool) :
    ∃ p, (histFM .delta start [.fin b] mm).out [.meas .nan, .coll t] = [some p] ∧ p.buckets = [1, 0] ∧ p.sum = .nan ∧ p.min = .pinf ∧ p.max = .ninf := by
  refine ⟨pointF [.fin b] mm start t [.nan], by rw [histF_delta_out]; rfl, ?_, rfl, ?_, ?_⟩
  · simp [pointF, countsF, bisectF, bisectLoopF, Fl.lt, List.range_succ]
  · cases mm <;> rfl
  · cases mm <;> rfl

example : OkBounds [.fin 0, .fin 5, .pinf] := by
  unfold OkBounds; simp [Fl.lt]

example : ((histFM .delta 0 [.fin 0, .fin 5] true).out [.meas (.fin 3), .meas .nan, .meas .pinf, .coll 1, .meas (.fin 7), .coll 2]).map
    (·.map (fun p => (p.buckets, p.sum, p.min, p.max))) =
    [some ([1, 1, 1], .nan, .fin 3, .pinf), some ([0, 0, 1], .fin 7, .fin 7, .fin 7)] := by decide +kernel

end Hist

/-! ## Exponential buckets -/

namespace Exp

/-- The mapping as a total function (0 where the code raises). -/
abbrev idxF (R : Nat → ℚ) (s : Int) (m : Mag) : Int := (mapIndexF R s m).getD 0

theorem neg_one_div (n : Nat) : (-1 : Int) / 2 ^ n = -1 := by
  have : (0 : Int) < 2 ^ n := by positivity
  rw [Int.ediv_eq_iff_of_pos this]
  constructor <;> linarith

theorem idxF_coherent (R : Nat → ℚ) (hR : RoundsRight R) : Coherent (idxF R) Placeable := by
  constructor
  · intro v hv s c h1 h2
    cases v with
    | fin bits =>
      have := C64_consistent_partial R hR bits hv s c h1 h2
      simp only [idxF, mapIndexF, Option.getD_some]
      rw [this]; simp [shr]
    | nan => cases hv
    | inf =>
      simp only [idxF, mapIndexF, Option.getD_some]
      by_cases hs : s ≤ 0
      · rw [if_pos hs, if_pos (by omega), shr_shr]; congr 1; omega
      · rw [if_neg hs]
        have hz : ∀ n : Nat, shr (1024 * 2 ^ n - 1) n = 1023 := by
          intro n
          unfold shr
          have : (0 : Int) < 2 ^ n := by positivity
          push_cast
          rw [show (1024 : Int) * 2 ^ n - 1 = -1 + 1024 * 2 ^ n by ring, Int.add_mul_ediv_right _ _ (ne_of_gt this), neg_one_div n]
          norm_num
        by_cases hc : s - c ≤ 0
        · rw [if_pos hc, show c = s.toNat + (-(s - c)).toNat by omega, ← shr_shr, hz]
          congr 1; omega
        · rw [if_neg hc]
          unfold shr
          rw [show s.toNat = (s - c).toNat + c by omega, pow_add]
          push_cast
          have : (0 : Int) < 2 ^ c := by positivity
          rw [← mul_assoc]
          generalize (1024 : Int) * 2 ^ (s - ↑c).toNat = a
          rw [show a * 2 ^ c - 1 = -1 + a * 2 ^ c by ring, Int.add_mul_ediv_right _ _ (ne_of_gt this)]
          rw [neg_one_div c]; ring
  · intro v hv
    cases v with
    | fin bits =>
      exact mapIndex_low R hv
    | nan => cases hv
    | inf => right; exact (by decide : shr (1024 + -1) 10 = 0)

/-- What recording leaves behind. -/
structure Inv (R : Nat → ℚ) (s0 : Int) (c : CurF) (vs : List Meas) : Prop where
  low : -10 ≤ c.mapScale
  high : c.mapScale ≤ s0
  pos : Side (idxF R) c.maxSize c.mapScale c.pos (posMags vs)
  neg : Side (idxF R) c.maxSize c.mapScale c.neg (negMags vs)
  count : c.count = vs.length
  zero : c.zeroCount = vs.count .zero

theorem mags_ok {vs : List Meas} (h : ∀ v ∈ vs, ∀ m, v.mag? = some m → Placeable m) :
    (∀ m ∈ posMags vs, Placeable m) ∧ (∀ m ∈ negMags vs, Placeable m) := by
  constructor
  · intro m hm
    obtain ⟨v, hv, he⟩ := List.mem_filterMap.1 hm
    cases v <;> simp at he
    exact h _ hv m (by simp [Meas.mag?, he])
  · intro m hm
    obtain ⟨v, hv, he⟩ := List.mem_filterMap.1 hm
    cases v <;> simp at he
    exact h _ hv m (by simp [Meas.mag?, he])

theorem mapIndexF_some (R : Nat → ℚ) (s : Int) {m : Mag} (h : Placeable m) : ∃ i, mapIndexF R s m = some i := by
  cases m with
  | fin b => exact ⟨_, rfl⟩
  | inf => exact ⟨_, rfl⟩
  | nan => cases h

theorem aggregate_inv (R : Nat → ℚ) (hR : RoundsRight R) {s0 : Int} (h20 : s0 ≤ 20) {c : CurF} {vs : List Meas} (hc : Inv R s0 c vs) (h2 : 2 ≤ c.maxSize)
    (hvs : ∀ v ∈ vs, ∀ m, v.mag? = some m → Placeable m) (v : Meas) (hv : ∀ m, v.mag? = some m → Placeable m) :
    (c.aggregate R v).2 = false ∧ Inv R s0 (c.aggregate R v).1 (vs ++ [v]) ∧ (c.aggregate R v).1.maxSize = c.maxSize := by
  have hco := idxF_coherent R hR
  obtain ⟨okp, okn⟩ := mags_ok hvs
  have h20' : c.mapScale ≤ 20 := le_trans hc.high h20
  cases v with
  | zero =>
    refine ⟨rfl, ⟨hc.low, hc.high, ?_, ?_, ?_, ?_⟩, rfl⟩
    · simpa [CurF.aggregate, posMags] using hc.pos
    · simpa [CurF.aggregate, negMags] using hc.neg
    · simp [CurF.aggregate, hc.count]
    · simp [CurF.aggregate, hc.zero]
  | pos m =>
    obtain ⟨i, hi⟩ := mapIndexF_some R c.mapScale (hv m rfl)
    obtain ⟨a, b, s', e1, e2, e3, e4, e5, _⟩ := insert_spec hco h2 hc.low h20' hc.pos hc.neg okp okn m (hv m rfl)
    unfold CurF.aggregate
    simp only [hi]
    rw [show (fun s m => (mapIndexF R s m).getD 0) = idxF R from rfl, e1]
    refine ⟨rfl, ⟨e4, le_trans e5 hc.high, ?_, ?_, ?_, ?_⟩, rfl⟩
    · simpa [posMags] using e2
    · simpa [negMags] using e3
    · simp [hc.count]
    · simp [hc.zero]
  | neg m =>
    obtain ⟨i, hi⟩ := mapIndexF_some R c.mapScale (hv m rfl)
    obtain ⟨a, b, s', e1, e2, e3, e4, e5, _⟩ := insert_spec hco h2 hc.low h20' hc.neg hc.pos okn okp m (hv m rfl)
    unfold CurF.aggregate
    simp only [hi]
    rw [show (fun s m => (mapIndexF R s m).getD 0) = idxF R from rfl, e1]
    refine ⟨rfl, ⟨e4, le_trans e5 hc.high, ?_, ?_, ?_, ?_⟩, rfl⟩
    · simpa [posMags] using e3
    · simpa [negMags] using e2
    · simp [hc.count]
    · simp [hc.zero]

theorem records_inv (R : Nat → ℚ) (hR : RoundsRight R) {s0 : Int} (h20 : s0 ≤ 20) (ws : List Meas) :
    ∀ (c : CurF) (vs : List Meas), Inv R s0 c vs → 2 ≤ c.maxSize → (∀ v ∈ vs ++ ws, ∀ m, v.mag? = some m → Placeable m) →
      (c.records R ws).2 = false ∧ Inv R s0 (c.records R ws).1 (vs ++ ws) ∧ (c.records R ws).1.maxSize = c.maxSize := by
  induction ws with
  | nil => intro c vs h _ _; simpa [CurF.records] using h
  | cons w ws ih =>
    intro c vs h h2 hp
    obtain ⟨a1, a2, a3⟩ := aggregate_inv R hR h20 h h2 (fun v hv => hp v (by simp [hv])) w (hp w (by simp))
    obtain ⟨b1, b2, b3⟩ := ih (c.aggregate R w).1 (vs ++ [w]) a2 (by omega) (by simpa using hp)
    refine ⟨by simp [CurF.records, a1, b1], by simpa [CurF.records] using b2, by simpa [CurF.records, a3] using b3⟩

/-- **C96 (partial)** Infinities are no problem for an exponential histogram: recording any sequence of finite and infinite values (positive, negative
or zero) raises nothing, every value is counted once, in the bucket of its index, and the counts add up. The same assumption about the computed
logarithms as in C64 is made. -/
theorem C96_exp_infinities_partial (R : Nat → ℚ) (hR : RoundsRight R) (maxSize : Nat) (h2 : 2 ≤ maxSize) (s0 : Int) (hl : -10 ≤ s0) (hh : s0 ≤ 20)
    (vs : List Meas) (hv : ∀ v ∈ vs, ∀ m, v.mag? = some m → Placeable m) :
    let r := (CurF.new maxSize s0).records R vs
    r.2 = false ∧ r.1.count = vs.length ∧ r.1.zeroCount = vs.count .zero ∧
    Counts (idxF R) r.1.mapScale r.1.pos.point (posMags vs) ∧ Counts (idxF R) r.1.mapScale r.1.neg.point (negMags vs) ∧
    r.1.count = r.1.zeroCount + r.1.pos.point.counts.sum + r.1.neg.point.counts.sum := by
  intro r
  obtain ⟨a1, a2, _⟩ := records_inv R hR hh vs (CurF.new maxSize s0) []
    ⟨hl, le_rfl, side_new _ _ h2 _, side_new _ _ h2 _, rfl, rfl⟩ h2 (by simpa using hv)
  rw [List.nil_append] at a2
  have hp := Holds_counts a2.pos.holds
  have hn := Holds_counts a2.neg.holds
  refine ⟨a1, a2.count, a2.zero, hp, hn, ?_⟩
  have hlen : ∀ us : List Meas, us.length = us.count .zero + (posMags us).length + (negMags us).length := by
    intro us
    induction us with
    | nil => rfl
    | cons u us ih => cases u <;> simp [posMags, negMags] at ih ⊢ <;> omega
  have e1 := hp.total
  have e2 := hn.total
  have e3 := hlen vs
  have e4 := a2.count
  have e5 := a2.zero
  change r.1.pos.point.counts.sum = _ at e1
  change r.1.neg.point.counts.sum = _ at e2
  change r.1.count = _ at e4
  change r.1.zeroCount = _ at e5
  omega

example : ∀ v ∈ [Meas.pos .inf, .zero, .neg .inf, .pos (.fin 1)], ∀ m, v.mag? = some m → Placeable m := by
  intro v hv m hm
  simp only [List.mem_cons, List.not_mem_nil, or_false] at hv
  rcases hv with rfl | rfl | rfl | rfl <;> simp [Meas.mag?] at hm <;> subst hm <;> simp [Placeable, PosDouble]

/-- **C96** Negative measurements are treated as positive ones are, in the buckets for negative numbers: also when they raise. -/
theorem C96_exp_mirror (R : Nat → ℚ) (c : CurF) (m : Mag) :
    c.aggregate R (.neg m) = ((c.mirror.aggregate R (.pos m)).1.mirror, (c.mirror.aggregate R (.pos m)).2) := by
  unfold CurF.aggregate CurF.mirror
  simp only
  cases mapIndexF R c.mapScale m with
  | none => rfl
  | some i =>
    simp only
    cases insert (fun s m => (mapIndexF R s m).getD 0) c.maxSize c.mapScale c.neg c.pos m with
    | none => rfl
    | some x => rfl

/-- **C96 (refuted part)** A NaN, at any scale above 0 (the default is 20): `record` raises into the application, and the measurement has already
been counted (and added to the sum), but is in no bucket. -/
theorem C96_exp_nan_raises_violated (R : Nat → ℚ) (c : CurF) (hs : 0 < c.mapScale) :
    (c.aggregate R (.neg .nan)).2 = true ∧ (c.aggregate R (.neg .nan)).1 = { c with count := c.count + 1 } := by
  have h : mapIndexF R c.mapScale .nan = none := by simp [mapIndexF]; omega
  simp [CurF.aggregate, h]

/-- **C96 (refuted part)** At a scale up to 0 it does not raise but is counted as a negative number beyond all finite ones. -/
theorem C96_exp_nan_negative_violated (R : Nat → ℚ) (maxSize : Nat) (s : Int) (hs : s ≤ 0) :
    ∃ i, mapIndexF R s .nan = some i ∧ mapIndexF R s .inf = some (if s ≤ 0 then shr 1023 (-s).toNat else 1024 * 2 ^ s.toNat - 1) ∧
      ((CurF.new maxSize s).aggregate R (.neg .nan)).2 = false ∧
      ((CurF.new maxSize s).aggregate R (.neg .nan)).1.neg.point = ⟨i, [1]⟩ := by
  have h : mapIndexF R s .nan = some (shr 1024 (-s).toNat) := by simp [mapIndexF, hs]
  refine ⟨_, h, by simp [mapIndexF], ?_⟩
  have hs' : (CurF.new maxSize s).mapScale = s := rfl
  generalize shr 1024 (-s).toNat = i at h
  have hi : insert (fun s m => (mapIndexF R s m).getD 0) maxSize s Buckets.new Buckets.new .nan = some (⟨[1], i, i, i⟩, Buckets.new, s) := by
    unfold insert
    simp only [h, Option.getD_some]
    rw [if_pos (by decide)]
    simp [Buckets.extend, Buckets.add, Buckets.incAt, Buckets.new]
  unfold CurF.aggregate
  simp only [hs', h]
  rw [show (CurF.new maxSize s).neg = Buckets.new from rfl, show (CurF.new maxSize s).pos = Buckets.new from rfl,
    show (CurF.new maxSize s).maxSize = maxSize from rfl, hi]
  exact ⟨rfl, by simp [Buckets.point, Buckets.offsetCounts, Buckets.bias]⟩

end Exp
end Metrics
end Otel
