import Verif.Lemmas.ExpCumulative
import Mathlib.Tactic.Tauto
/-!
# C35, C36, C37: exponential histograms
-/
namespace Otel
namespace Metrics
namespace Exp
open Buckets
variable {α : Type}

/-! ## C35 -/

/-- `b` results from recording, blanking, downscaling and merging; `M` lists the bucket indices recorded in it, each shifted by the
downscales since. -/
inductive Built (maxSize : Nat) : Buckets → List Int → Prop where
  | new : Built maxSize Buckets.new []
  | place (i : Int) : Built maxSize { Buckets.new with start := i, stop := i, base := i } []
  | extend (b M) (i : Int) : Built maxSize b M → b.stop - i < maxSize → i - b.start < maxSize → Built maxSize (b.extend i maxSize) M
  | grow (b M needed) : Built maxSize b M → b.counts.length ≤ needed → needed ≤ maxSize → Built maxSize (b.grow needed maxSize) M
  | add (b M b') (i : Int) (k : Nat) : Built maxSize b M → b.start ≤ i → i ≤ b.stop → b.add i k = some b' → Built maxSize b' (List.replicate k i ++ M)
  | downscale (b M) (a : Nat) : Built maxSize b M → Built maxSize (b.downscale a) (M.map (fun x => x / 2 ^ a))
  | copyEmpty (b M) : Built maxSize b M → Built maxSize b.copyEmpty []
  | merge (p v P M) (a : Nat) : Built maxSize p P → Built maxSize v M → (merge maxSize a p v).2 = true →
      Built maxSize (merge maxSize a p v).1 (M.map (fun x => x / 2 ^ a) ++ P)

theorem built_holds {maxSize : Nat} (h1 : 1 ≤ maxSize) {b : Buckets} {M : List Int} (h : Built maxSize b M) :
    b.Holds M ∧ b.counts.length ≤ maxSize := by
  have hsh : ∀ a : Nat, (fun x : Int => x / 2 ^ a) = (fun x => shr x a) := by
    intro a; funext x; simp [shr]
  induction h with
  | new => exact ⟨holds_new, by simpa [Buckets.new] using h1⟩
  | place i =>
    refine ⟨⟨le_rfl, le_rfl, by simp [Buckets.new], by simp, ?_⟩, by simpa [Buckets.new] using h1⟩
    intro x h1 h2
    simp only [Buckets.new, List.length_singleton] at h1 h2
    obtain rfl : x = i := by omega
    simp [Buckets.posOf, Buckets.new]
  | extend b M i _ g1 g2 ih =>
    obtain ⟨e1, e2, _, _⟩ := ih.1.extend i maxSize ih.2 g1 g2
    exact ⟨e1, e2⟩
  | grow b M needed _ g1 g2 ih =>
    obtain ⟨e1, _, e2⟩ := ih.1.grow needed maxSize g1 g2
    exact ⟨e1, e2⟩
  | add b M b' i k _ g1 g2 g3 ih =>
    obtain ⟨b'', e1, e2, e3, _, _⟩ := ih.1.add i k g1 g2
    rw [e1] at g3; cases g3
    exact ⟨e2, by have := ih.2; omega⟩
  | downscale b M a _ ih =>
    obtain ⟨e1, e2, _, _⟩ := ih.1.downscale a
    rw [hsh]
    exact ⟨e1, by have := ih.2; omega⟩
  | copyEmpty b M _ ih => exact ⟨ih.1.copyEmpty, by rw [copyEmpty_size]; exact ih.2⟩
  | merge p v P M a _ _ g ih1 ih2 =>
    obtain ⟨_, m2⟩ := merge_spec maxSize a ih2.1 ih1.2 ih1.1
    obtain ⟨e1, e2, _, _⟩ := m2 g
    rw [hsh]
    exact ⟨e1, e2⟩

/-- **C35** Whatever sequence of recordings, growths, downscales and merges produced a bucket array: the count it reports for every
bucket index is the number of recorded indices that the later downscales shifted there; no count is lost or invented; and the
array never exceeds the maximum size. -/
theorem C35_counts (maxSize : Nat) (h1 : 1 ≤ maxSize) (b : Buckets) (M : List Int) (h : Built maxSize b M) :
    (∀ i, b.point.at i = M.count i) ∧ b.point.counts.sum = M.length ∧ b.point.counts.length ≤ maxSize := by
  obtain ⟨hh, hs⟩ := built_holds h1 h
  have hc : Counts (fun _ (x : Int) => x) 0 b.point M := Holds_counts (by simpa using hh)
  refine ⟨?_, hc.total, ?_⟩
  · intro i
    rw [hc.each i, List.count]
  · show b.offsetCounts.length ≤ _; rw [Holds.offset_length]; exact hs

/-- **C35** Recording an index that fits the maximum size always succeeds (no index error). -/
theorem C35_add_ok (maxSize : Nat) (h1 : 1 ≤ maxSize) (b : Buckets) (M : List Int) (h : Built maxSize b M) (i : Int) (k : Nat)
    (g1 : b.stop - i < maxSize) (g2 : i - b.start < maxSize) :
    ∃ b', (b.extend i maxSize).add i k = some b' ∧ Built maxSize b' (List.replicate k i ++ M) := by
  obtain ⟨hh, hs⟩ := built_holds h1 h
  obtain ⟨e1, _, e3, e4⟩ := hh.extend i maxSize hs g1 g2
  have l1 : (b.extend i maxSize).start ≤ i := by rw [e3]; exact min_le_right _ _
  have l2 : i ≤ (b.extend i maxSize).stop := by rw [e4]; exact le_max_right _ _
  obtain ⟨b', a1, _⟩ := e1.add i k l1 l2
  exact ⟨b', a1, .add _ _ _ _ _ (.extend _ _ _ h g1 g2) l1 l2 a1⟩

/-- **C35** A merge succeeds exactly if the range of the target and the shifted indices fit in one window of the maximum size. -/
theorem C35_merge_ok (maxSize : Nat) (h1 : 1 ≤ maxSize) (p v : Buckets) (P M : List Int) (hp : Built maxSize p P) (hv : Built maxSize v M) (a : Nat) :
    (merge maxSize a p v).2 = true ↔
    ∃ lo hi : Int, lo ≤ p.start ∧ p.stop ≤ hi ∧ hi - lo < maxSize ∧ ∀ x ∈ M, lo ≤ x / 2 ^ a ∧ x / 2 ^ a ≤ hi := by
  obtain ⟨hh, hs⟩ := built_holds h1 hp
  rw [(merge_spec maxSize a (built_holds h1 hv).1 hs hh).1]
  unfold Fits
  simp [shr]

example : ∃ b, Built 4 b ([5, 3] ++ []) ∧ b.point = ⟨3, [1, 0, 1, 0]⟩ :=
  have h1 := C35_add_ok 4 (by decide) _ _ (.place 3) 3 1 (by decide) (by decide)
  have ⟨b, e, hb⟩ := h1
  have hb' : b = ⟨[1], 3, 3, 3⟩ := by
    have e' : ((({ Buckets.new with start := 3, stop := 3, base := 3 } : Buckets).extend 3 4).add 3 1) = some ⟨[1], 3, 3, 3⟩ := by decide
    rw [e'] at e; exact (Option.some.inj e).symm
  have h2 := C35_add_ok 4 (by decide) _ _ hb 5 1 (by rw [hb']; decide) (by rw [hb']; decide)
  have ⟨c, ec, hc⟩ := h2
  ⟨c, hc, by
    have e' : (((⟨[1], 3, 3, 3⟩ : Buckets).extend 5 4).add 5 1) = some ⟨[1, 0, 1, 0], 3, 3, 5⟩ := by
      simp [Buckets.extend, Buckets.grow, Buckets.add, Buckets.incAt, Buckets.bias, Nat.clog]; decide
    rw [hb', e'] at ec; cases ec; decide⟩

/-! ## C36 -/

section Agg
variable [AddCommGroup α] [LinearOrder α]

/-- **C36** The constructor accepts exactly the sizes 2…16384 and the scales −10…20. -/
theorem C36_constructor (inst : Temporality) (start maxSize maxScale : Int) :
    (Agg.new (α := α) inst start maxSize maxScale).isSome ↔ 2 ≤ maxSize ∧ maxSize ≤ 16384 ∧ -10 ≤ maxScale ∧ maxScale ≤ 20 := by
  unfold Agg.new newMapping
  by_cases h1 : maxSize < 2
  · simp [h1]
  · by_cases h2 : maxSize > 16384
    · simp [h1, h2]
    · by_cases h3 : -10 ≤ maxScale ∧ maxScale ≤ 20
      · simp [h1, h2, h3]; omega
      · simp [h1, h2, h3]

theorem new_cur (idx : Int → α → Int) {start maxSize maxScale : Int} {s : Agg α} (h : Agg.new .delta start maxSize maxScale = some s) :
    Cur idx s [] ∧ Prev idx s [] true ∧ s.mapScale = maxScale ∧ (s.maxSize : Int) = maxSize ∧ s.start = start ∧ s.prevStart = start := by
  unfold Agg.new newMapping at h
  split at h
  · cases h
  · split at h
    · cases h
    · split at h
      · rename_i h1 h2 h3
        simp only [Option.map_some, Option.some.injEq] at h
        subst h
        refine ⟨⟨rfl, by simp; omega, h3.1, h3.2, fun _ => ⟨rfl, rfl, rfl⟩, by simp, rfl, rfl, by simp, by simp [minOf], by simp [maxOf]⟩,
          ⟨fun _ => ⟨rfl, rfl, rfl, rfl⟩, by simp, rfl, rfl, by simp, by simp [minOf], by simp [maxOf]⟩, rfl, by simp; omega, rfl, rfl⟩
      · cases h

theorem cur_collect {idx : Int → α → Int} {s : Agg α} {here : List α} (h : Cur idx s here) (t : Temporality) (now : Int) :
    Cur idx (s.collect t now).2 [] ∧ (s.collect t now).2.mapScale = s.mapScale ∧ (s.collect t now).2.maxSize = s.maxSize := by
  cases t with
  | delta =>
    unfold Agg.collect
    rw [h.inst]
    simp only
    split <;> exact ⟨cur_reset h h.inst.symm rfl rfl rfl rfl rfl rfl rfl rfl rfl rfl, rfl, rfl⟩
  | cumulative =>
    unfold Agg.collect
    rw [h.inst]
    simp only
    unfold Agg.collectCumulative
    simp only
    repeat' split
    all_goals exact ⟨cur_reset h h.inst.symm rfl rfl rfl rfl rfl rfl rfl rfl rfl rfl, rfl, rfl⟩

/-- Every measurement of a history is zero or has a magnitude the mapping handles. -/
def OkHist (V : α → Prop) (l : List (Op α)) : Prop := ∀ v ∈ measurements l, v ≠ 0 → V (mag v)

theorem okHist_meas {V : α → Prop} {v : α} {l : List (Op α)} (h : OkHist V (.meas v :: l)) : (v ≠ 0 → V (mag v)) ∧ OkHist V l :=
  ⟨h v (by simp [measurements]), fun w hw => h w (by simp [measurements, hw])⟩

theorem okHist_coll {V : α → Prop} {t : Int} {l : List (Op α)} (h : OkHist V (.coll t :: l)) : OkHist V l := h

theorem ok_snoc {V : α → Prop} {here : List α} {v : α} (h : ∀ w ∈ here, w ≠ 0 → V (mag w)) (hv : v ≠ 0 → V (mag v)) :
    ∀ w ∈ here ++ [v], w ≠ 0 → V (mag w) := by
  intro w hw
  rw [List.mem_append, List.mem_singleton] at hw
  rcases hw with hw | rfl
  · exact h w hw
  · exact hv

theorem run_total {idx : Int → α → Int} {V : α → Prop} (hco : Coherent idx V) (t : Temporality) (l : List (Op α)) (s : Agg α) (since : Int)
    (here all : List α) (h : Cur idx s here) (hV : ∀ v ∈ here, v ≠ 0 → V (mag v)) (hl : OkHist V l) :
    ∃ (s' : Agg α) (os : List (Outcome (Point α))), run idx t s l = some (s', os) ∧ os.length = (cyclesFrom since here all l).length := by
  induction l generalizing s since here all with
  | nil => exact ⟨s, [], rfl, rfl⟩
  | cons o l ih =>
    cases o with
    | meas v =>
      obtain ⟨hv, hl'⟩ := okHist_meas hl
      obtain ⟨s', e, h', _⟩ := aggregate_spec hco h hV v hv
      obtain ⟨s'', os, e2, e3⟩ := ih s' since (here ++ [v]) (all ++ [v]) h' (ok_snoc hV hv) hl'
      exact ⟨s'', os, by rw [run, e]; exact e2, e3⟩
    | coll now =>
      obtain ⟨h', _⟩ := cur_collect h t now
      obtain ⟨s'', os, e2, e3⟩ := ih _ now [] all h' (by simp) (okHist_coll hl)
      exact ⟨s'', (s.collect t now).1 :: os, by rw [run, e2], by simp [cyclesFrom, e3]⟩

/-- **C36** Recording never raises, whatever the history (even after a collection that raised): every run completes, and every
collection of it returns or raises. -/
theorem C36_never_raises {idx : Int → α → Int} {V : α → Prop} (hco : Coherent idx V) (t : Temporality) (start maxSize maxScale : Int) (s : Agg α)
    (hs : Agg.new .delta start maxSize maxScale = some s) (l : List (Op α)) (hl : OkHist V l) :
    ∃ (s' : Agg α) (os : List (Outcome (Point α))), run idx t s l = some (s', os) ∧ os.length = (cycles start l).length := by
  obtain ⟨h, _⟩ := new_cur idx hs
  exact run_total hco t l s start [] [] h (by simp) hl

/-- Two measurements of the same sign, at least `maxSize` buckets apart at scale `t`. -/
def TooWide (idx : Int → α → Int) (maxSize : Int) (vs : List α) (t : Int) : Prop :=
  (∃ x ∈ positives vs, ∃ y ∈ positives vs, maxSize ≤ idx t y - idx t x) ∨ (∃ x ∈ negatives vs, ∃ y ∈ negatives vs, maxSize ≤ idx t y - idx t x)

theorem TooWide.mono {idx : Int → α → Int} {maxSize : Int} {vs ws : List α} {t : Int} (h : TooWide idx maxSize vs t) (hsub : ∀ v ∈ vs, v ∈ ws) :
    TooWide idx maxSize ws t := by
  rcases h with ⟨x, hx, y, hy, h⟩ | ⟨x, hx, y, hy, h⟩
  · rw [mem_positives] at hx hy
    exact Or.inl ⟨x, mem_positives.2 ⟨hsub x hx.1, hx.2⟩, y, mem_positives.2 ⟨hsub y hy.1, hy.2⟩, h⟩
  · rw [mem_negatives] at hx hy
    obtain ⟨a, ha, ha'⟩ := hx
    obtain ⟨b, hb, hb'⟩ := hy
    exact Or.inr ⟨x, mem_negatives.2 ⟨a, hsub a ha, ha'⟩, y, mem_negatives.2 ⟨b, hsub b hb, hb'⟩, h⟩

theorem run_delta {idx : Int → α → Int} {V : α → Prop} (hco : Coherent idx V) (maxScale : Int) (l : List (Op α)) (s : Agg α) (since : Int)
    (here old : List α) (h : Cur idx s here) (hsince : s.prevStart = since) (hV : ∀ v ∈ here, v ≠ 0 → V (mag v)) (hl : OkHist V l)
    (hw : ∀ t, s.mapScale < t → t ≤ maxScale → TooWide idx s.maxSize (old ++ here) t) :
    ∃ (s' : Agg α) (os : List (Outcome (Point α))), run idx .delta s l = some (s', os) ∧
      (∀ (i : Nat) (c : Cycle α), (cyclesFrom since here (old ++ here) l)[i]? = some c →
        (c.here = [] → os[i]? = some (.returned none)) ∧
        (c.here ≠ [] → ∃ (p : Point α) (sc : Int), os[i]? = some (.returned (some p)) ∧ p.start = c.since ∧ p.time = c.time ∧
          Describes idx s.maxSize p sc c.here ∧ (nonzero c.here = [] → sc = 0) ∧
          (nonzero c.here ≠ [] → sc ≤ s.mapScale ∧ ∀ t, sc < t → t ≤ maxScale → TooWide idx s.maxSize c.all t))) ∧
      (∀ (i j : Nat) (c d : Cycle α), i < j → (cyclesFrom since here (old ++ here) l)[i]? = some c → (cyclesFrom since here (old ++ here) l)[j]? = some d →
        nonzero c.here ≠ [] → nonzero d.here ≠ [] → ∃ (p q : Point α) (x y : Int), os[i]? = some (.returned (some p)) ∧ os[j]? = some (.returned (some q)) ∧
          p.scale = some x ∧ q.scale = some y ∧ y ≤ x) := by
  induction l generalizing s since here old with
  | nil => exact ⟨s, [], rfl, by simp [cyclesFrom], by simp [cyclesFrom]⟩
  | cons o l ih =>
    cases o with
    | meas v =>
      obtain ⟨hv, hl'⟩ := okHist_meas hl
      obtain ⟨s', e, h', e1, e2, _, e4, _, _, _, _, _, _, _, _, e13⟩ := aggregate_spec hco h hV v hv
      have hw' : ∀ t, s'.mapScale < t → t ≤ maxScale → TooWide idx s'.maxSize (old ++ (here ++ [v])) t := by
        intro t h1 h2
        rw [e2]
        by_cases ht : t ≤ s.mapScale
        · have := e13 t h1 ht
          exact TooWide.mono (vs := here ++ [v]) this (by simp; tauto)
        · exact (hw t (by omega) h2).mono (by simp; tauto)
      obtain ⟨s'', os, r1, r2, r3⟩ := ih s' since (here ++ [v]) old h' (by rw [e4]; exact hsince) (ok_snoc hV hv) hl' hw'
      refine ⟨s'', os, by rw [run, e]; exact r1, ?_, ?_⟩
      · intro i c hc
        rw [cyclesFrom, List.append_assoc] at hc
        obtain ⟨q1, q2⟩ := r2 i c hc
        refine ⟨q1, fun hn => ?_⟩
        obtain ⟨p, sc, g1, g2, g3, g4, g5, g6⟩ := q2 hn
        rw [e2] at g4 g6
        exact ⟨p, sc, g1, g2, g3, g4, g5, fun hz => ⟨le_trans (g6 hz).1 e1, (g6 hz).2⟩⟩
      · intro i j c d hij hc hd
        rw [cyclesFrom, List.append_assoc] at hc hd
        exact r3 i j c d hij hc hd
    | coll now =>
      obtain ⟨h', e1, e2⟩ := cur_collect h .delta now
      have hw' : ∀ t, (s.collect .delta now).2.mapScale < t → t ≤ maxScale → TooWide idx (s.collect .delta now).2.maxSize ((old ++ here) ++ []) t := by
        intro t h1 h2
        rw [e2, List.append_nil]; rw [e1] at h1
        exact hw t h1 h2
      have hps : (s.collect .delta now).2.prevStart = now := by
        unfold Agg.collect; rw [h.inst]; simp only; split <;> rfl
      obtain ⟨s'', os, r1, r2, r3⟩ := ih _ now [] (old ++ here) h' hps (by simp) (okHist_coll hl) hw'
      rw [List.append_nil] at r2 r3
      have hfirst : (here = [] → (s.collect .delta now).1 = .returned none) ∧
          (here ≠ [] → ∃ (p : Point α) (sc : Int), (s.collect .delta now).1 = .returned (some p) ∧ p.start = since ∧ p.time = now ∧
            Describes idx s.maxSize p sc here ∧ (nonzero here = [] → sc = 0) ∧ (nonzero here ≠ [] → sc = s.mapScale)) := by
        constructor
        · intro hn
          obtain ⟨f1, f2, _⟩ := h.none hn
          unfold Agg.collect; rw [h.inst, f1, f2]
        · intro hn
          obtain ⟨p, n, f1, f2, f3, f4, f5⟩ := h.some hn
          have cp := Holds_counts f3.holds
          have cn := Holds_counts f4.holds
          have hz : nonzero here = [] → positives here = [] ∧ negatives here = [] := (nonzero_nil_parts here).1
          have cp' : Counts idx (if nonzero here = [] then 0 else s.mapScale) p.point (positives here) := by
            by_cases hnz : nonzero here = []
            · rw [if_pos hnz, (hz hnz).1]
              rw [(hz hnz).1] at cp
              exact ⟨cp.each, cp.total⟩
            · rw [if_neg hnz]; exact cp
          have cn' : Counts idx (if nonzero here = [] then 0 else s.mapScale) n.point (negatives here) := by
            by_cases hnz : nonzero here = []
            · rw [if_pos hnz, (hz hnz).2]
              rw [(hz hnz).2] at cn
              exact ⟨cn.each, cn.total⟩
            · rw [if_neg hnz]; exact cn
          refine ⟨_, if nonzero here = [] then 0 else s.mapScale, by unfold Agg.collect; rw [h.inst, f1, f2], hsince, rfl, ?_, ?_, ?_⟩
          · refine { scale_eq := f5, scale_low := ?_, scale_high := ?_, positive := cp', negative := cn', positive_size := ?_, negative_size := ?_,
                     zero_eq := h.zero, count_eq := h.count, total := ?_, sum_eq := h.sum, min_eq := ?_, max_eq := ?_ }
            · have := h.low; split <;> omega
            · have := h.high; split <;> omega
            · show p.offsetCounts.length ≤ _; rw [Holds.offset_length]; exact f3.size
            · show n.offsetCounts.length ≤ _; rw [Holds.offset_length]; exact f4.size
            · have e1 := cp.total; have e2 := cn.total; have e3 := length_parts here; have e4 := h.count; have e5 := h.zero
              simp only at *
              omega
            · show IsMin s.min _; rw [h.min]; exact minOf_isMin _
            · show IsMax s.max _; rw [h.max]; exact maxOf_isMax _
          · intro hnz; rw [if_pos hnz]
          · intro hnz; rw [if_neg hnz]
      refine ⟨s'', (s.collect .delta now).1 :: os, by rw [run, r1], ?_, ?_⟩
      · intro i c hc
        rw [cyclesFrom] at hc
        cases i with
        | zero =>
          simp only [List.getElem?_cons_zero, Option.some.injEq] at hc
          subst hc
          simp only [List.getElem?_cons_zero]
          refine ⟨fun hn => by rw [hfirst.1 hn], fun hn => ?_⟩
          obtain ⟨p, sc, g1, g2, g3, g4, g5, g6⟩ := hfirst.2 hn
          exact ⟨p, sc, by rw [g1], g2, g3, g4, g5, fun hnz => ⟨by rw [g6 hnz], by rw [g6 hnz]; exact hw⟩⟩
        | succ i =>
          simp only [List.getElem?_cons_succ] at hc ⊢
          obtain ⟨q1, q2⟩ := r2 i c hc
          refine ⟨q1, fun hn => ?_⟩
          obtain ⟨p, sc, g1, g2, g3, g4, g5, g6⟩ := q2 hn
          rw [e2] at g4 g6
          rw [e1] at g6
          exact ⟨p, sc, g1, g2, g3, g4, g5, g6⟩
      · intro i j c d hij hc hd
        rw [cyclesFrom] at hc hd
        cases j with
        | zero => omega
        | succ j =>
          simp only [List.getElem?_cons_succ] at hd ⊢
          cases i with
          | zero =>
            simp only [List.getElem?_cons_zero, Option.some.injEq] at hc
            subst hc
            intro hn1 hn2
            have hne : here ≠ [] := by rintro rfl; simp [nonzero] at hn1
            obtain ⟨p, sc, g1, g2, g3, g4, g5, g6⟩ := hfirst.2 hne
            have hne' : d.here ≠ [] := by intro e; rw [e] at hn2; simp [nonzero] at hn2
            obtain ⟨q, sc', k1, _, _, k4, _, k6⟩ := (r2 j d hd).2 hne'
            exact ⟨p, q, sc, sc', by simp [g1], k1, g4.scale_eq, k4.scale_eq, by rw [g6 hn1]; exact le_trans (k6 hn2).1 (le_of_eq e1)⟩
          | succ i =>
            simp only [List.getElem?_cons_succ] at hc ⊢
            exact r3 i j c d (by omega) hc hd

/-- **C36** Every delta point describes exactly the measurements since the previous collection: the count, sum, minimum and maximum;
the zeros; every nonzero measurement in the bucket its magnitude maps to at the point's scale; at most `max_size` buckets per sign;
count = zeros + bucket totals; and a scale between −10 and `max_scale` (0 if only zeros were recorded). The scale is never lowered
without need: above it, two of the measurements so far of one sign would be `max_size` or more buckets apart. -/
theorem C36_delta {idx : Int → α → Int} {V : α → Prop} (hco : Coherent idx V) (start maxSize maxScale : Int) (s : Agg α)
    (hs : Agg.new .delta start maxSize maxScale = some s) (l : List (Op α)) (hl : OkHist V l) :
    ∃ (s' : Agg α) (os : List (Outcome (Point α))), run idx .delta s l = some (s', os) ∧ ∀ (i : Nat) (c : Cycle α), (cycles start l)[i]? = some c →
      (c.here = [] → os[i]? = some (.returned none)) ∧
      (c.here ≠ [] → ∃ (p : Point α) (sc : Int), os[i]? = some (.returned (some p)) ∧ p.start = c.since ∧ p.time = c.time ∧
        Describes idx maxSize.toNat p sc c.here ∧ (nonzero c.here = [] → sc = 0) ∧
        (nonzero c.here ≠ [] → sc ≤ maxScale ∧ ∀ t, sc < t → t ≤ maxScale → TooWide idx maxSize c.all t)) := by
  obtain ⟨h, _, e1, e2, _, e4⟩ := new_cur idx hs
  obtain ⟨s', os, r1, r2, _⟩ := run_delta hco maxScale l s start [] [] h e4 (by simp) hl (by intro t h1 h2; omega)
  refine ⟨s', os, r1, fun i c hc => ?_⟩
  have hm : maxSize.toNat = s.maxSize := by omega
  rw [hm, ← e2, ← e1]
  rw [← e1] at r2
  exact r2 i c hc

/-- **C36** The scale never increases from one delta point with nonzero measurements to a later one. -/
theorem C36_scale_decreases {idx : Int → α → Int} {V : α → Prop} (hco : Coherent idx V) (start maxSize maxScale : Int) (s s' : Agg α)
    (hs : Agg.new .delta start maxSize maxScale = some s) (l : List (Op α)) (hl : OkHist V l) (os : List (Outcome (Point α))) (hr : run idx .delta s l = some (s', os))
    (i j : Nat) (c d : Cycle α) (hij : i < j) (hc : (cycles start l)[i]? = some c) (hd : (cycles start l)[j]? = some d)
    (hc0 : nonzero c.here ≠ []) (hd0 : nonzero d.here ≠ []) :
    ∃ (p q : Point α) (x y : Int), os[i]? = some (.returned (some p)) ∧ os[j]? = some (.returned (some q)) ∧ p.scale = some x ∧ q.scale = some y ∧ y ≤ x := by
  obtain ⟨h, _, e1, e2, _, e4⟩ := new_cur idx hs
  obtain ⟨s'', os', r1, _, r3⟩ := run_delta hco maxScale l s start [] [] h e4 (by simp) hl (by intro t h1 h2; omega)
  rw [r1] at hr
  cases hr
  exact r3 i j c d hij hc hd hc0 hd0

/-! ## C37 -/

/-- In this cycle the sign had measurements, but in no earlier cycle. -/
def StartsLate (earlier here : List α) : Prop :=
  (positives earlier = [] ∧ positives here ≠ []) ∨ (negatives earlier = [] ∧ negatives here ≠ [])

/-- A late sign whose magnitudes all have, at scale `t`, indices that fit in one window of `maxSize` indices together with index 0. -/
def NearZero (idx : Int → α → Int) (maxSize : Int) (t : Int) (A : List α) : Prop :=
  ∃ lo hi : Int, lo ≤ 0 ∧ 0 ≤ hi ∧ hi - lo < maxSize ∧ ∀ x ∈ A, lo ≤ idx t x ∧ idx t x ≤ hi

theorem NearZero.lower {idx : Int → α → Int} {V : α → Prop} (hco : Coherent idx V) {maxSize : Nat} {t u : Int} {A : List α} (hA : ∀ x ∈ A, V x)
    (h : NearZero idx maxSize t A) (hu : -10 ≤ u) (hut : u ≤ t) (ht : t ≤ 20) : NearZero idx maxSize u A := by
  obtain ⟨lo, hi, h1, h2, h3, h4⟩ := h
  refine ⟨shr lo (t - u).toNat, shr hi (t - u).toNat, ?_, ?_, ?_, ?_⟩
  · have := shr_mono (t - u).toNat h1; rwa [shr_zero_left] at this
  · have := shr_mono (t - u).toNat h2; rwa [shr_zero_left] at this
  · exact shr_fit_mono maxSize lo hi (by omega) 0 _ (by omega) (by rw [shr_zero, shr_zero]; exact h3)
  · intro x hx
    have := hco.shift x (hA x hx) t (t - u).toNat ht (by omega)
    rw [show t - ((t - u).toNat : Int) = u by omega] at this
    rw [this]
    exact ⟨shr_mono _ (h4 x hx).1, shr_mono _ (h4 x hx).2⟩

theorem run_cumulative {idx : Int → α → Int} {V : α → Prop} (hco : Coherent idx V) (l : List (Op α)) (s : Agg α) (since : Int)
    (here old : List α) (first : Bool) (h : Cur idx s here) (hp : Prev idx s old first) (hV : ∀ v ∈ here, v ≠ 0 → V (mag v))
    (hV' : ∀ v ∈ old, v ≠ 0 → V (mag v)) (hl : OkHist V l) :
    ∃ (s' : Agg α) (os : List (Outcome (Point α))), run idx .cumulative s l = some (s', os) ∧ os.length = (cyclesFrom since here (old ++ here) l).length ∧
      (∀ (i : Nat) (c : Cycle α), (cyclesFrom since here (old ++ here) l)[i]? = some c → (∀ j, j < i → os[j]? ≠ some .raised) →
        (∃ (p : Point α) (sc : Int), os[i]? = some (.returned (some p)) ∧ p.start = s.start ∧ p.time = c.time ∧ Describes idx s.maxSize p sc c.all ∧
          (∀ (x : Int), s.prevScale = some x → sc ≤ x) ∧ (nonzero c.here ≠ [] → sc ≤ s.mapScale)) ∨
        (os[i]? = some .raised ∧ (0 < i ∨ first = false) ∧ ∃ (earlier : List α) (sc : Int), c.all = earlier ++ c.here ∧ -10 ≤ sc ∧
          (nonzero c.here ≠ [] → sc ≤ s.mapScale) ∧
          ((positives earlier = [] ∧ ¬ NearZero idx s.maxSize sc (positives c.here)) ∨
           (negatives earlier = [] ∧ ¬ NearZero idx s.maxSize sc (negatives c.here))))) ∧
      (∀ (i j : Nat), i < j → j < os.length → (∀ k, k ≤ j → os[k]? ≠ some .raised) →
        ∃ (p q : Point α) (x y : Int), os[i]? = some (.returned (some p)) ∧ os[j]? = some (.returned (some q)) ∧ p.scale = some x ∧ q.scale = some y ∧ y ≤ x) := by
  induction l generalizing s since here old first with
  | nil => exact ⟨s, [], rfl, rfl, by simp [cyclesFrom], by simp⟩
  | cons o l ih =>
    cases o with
    | meas v =>
      obtain ⟨hv, hl'⟩ := okHist_meas hl
      obtain ⟨s', e, h', e1, e2, e3, e4, e5, e6, e7, e8, e9, e10, e11, e12, e13⟩ := aggregate_spec hco h hV v hv
      have hp' : Prev idx s' old first := by
        refine ⟨?_, ?_, by rw [e9]; exact hp.sum, by rw [e10]; exact hp.count, by rw [e11]; exact hp.zero, by rw [e7]; exact hp.min, by rw [e8]; exact hp.max⟩
        · rw [e5, e6, e12]; exact hp.yes
        · rw [e5, e6, e12, e2]; exact hp.no
      obtain ⟨s'', os, r1, r2, r3, r4⟩ := ih s' since (here ++ [v]) old first h' hp' (ok_snoc hV hv) hV' hl'
      rw [← List.append_assoc] at r2 r3
      refine ⟨s'', os, by rw [run, e]; exact r1, r2, ?_, r4⟩
      intro i c hc hj
      rw [e12, e2, e3] at r3
      rcases r3 i c hc hj with ⟨p, sc, g1, g2, g3, g4, g5, g6⟩ | ⟨g1, g2, earlier, sc, g3, g4, g5, g6⟩
      · exact Or.inl ⟨p, sc, g1, g2, g3, g4, g5, fun hn => le_trans (g6 hn) e1⟩
      · exact Or.inr ⟨g1, g2, earlier, sc, g3, g4, fun hn => le_trans (g5 hn) e1, g6⟩
    | coll now =>
      obtain ⟨ms, m1, m2, m3, h', m4, m5, m6, mm⟩ := collect_spec hco h hp hV hV' now
      rcases mm with ⟨_, _, ⟨p, k1, k2, k3, k4⟩, hp'⟩ | ⟨k1, k2⟩
      · have hV'' : ∀ v ∈ old ++ here, v ≠ 0 → V (mag v) := by
          intro w hw; rw [List.mem_append] at hw
          rcases hw with hw | hw
          · exact hV' w hw
          · exact hV w hw
        have hps : (s.collect .cumulative now).2.prevScale = some ms := by
          obtain ⟨_, _, ps, _, _, e, _⟩ := hp'.no rfl
          have hd := k4.scale_eq
          -- the previous scale is the scale of the point
          have : (s.collect .cumulative now).2.prevScale = p.scale := by
            revert k1
            unfold Agg.collect
            rw [h.inst]
            simp only
            unfold Agg.collectCumulative
            simp only
            repeat' split
            all_goals first
              | (intro hk; cases hk; done)
              | (intro hk; cases hk; rfl)
          rw [this, hd]
        obtain ⟨s'', os, r1, r2, r3, r4⟩ := ih _ now [] (old ++ here) false h' hp' (by simp) hV'' (okHist_coll hl)
        rw [List.append_nil, m4, m5, m6, hps] at r3
        rw [List.append_nil] at r2
        refine ⟨s'', (s.collect .cumulative now).1 :: os, by rw [run, r1], by simp [cyclesFrom, r2], ?_, ?_⟩
        · intro i c hc hj
          rw [cyclesFrom] at hc
          cases i with
          | zero =>
            simp only [List.getElem?_cons_zero, Option.some.injEq] at hc
            subst hc
            exact Or.inl ⟨p, ms, by simp [k1], k2, k3, k4, m3, m2⟩
          | succ i =>
            simp only [List.getElem?_cons_succ] at hc ⊢
            rcases r3 i c hc (fun j hji => by have := hj (j + 1) (by omega); simpa using this) with ⟨q, sc, g1, g2, g3, g4, g5, g6⟩ | ⟨g1, g2, earlier, sc, g3, g4, g5, g6⟩
            · refine Or.inl ⟨q, sc, g1, g2, g3, g4, fun x hx => ?_, g6⟩
              have := g5 ms rfl
              have := m3 x hx
              omega
            · exact Or.inr ⟨g1, Or.inl (by omega), earlier, sc, g3, g4, g5, g6⟩
        · intro i j hij hjl hno
          cases j with
          | zero => omega
          | succ j =>
            have hno' : ∀ k, k ≤ j → os[k]? ≠ some .raised := fun k hk => by have := hno (k + 1) (by omega); simpa using this
            simp only [List.length_cons] at hjl
            cases i with
            | zero =>
              have hc : ∃ c, (cyclesFrom now [] (old ++ here) l)[j]? = some c := by
                rw [r2] at hjl
                exact ⟨_, List.getElem?_eq_getElem (by omega)⟩
              obtain ⟨c, hc⟩ := hc
              rcases r3 j c hc (fun k hk => hno' k (by omega)) with ⟨q, sc, g1, g2, g3, g4, g5, g6⟩ | ⟨g1, _⟩
              · exact ⟨p, q, ms, sc, by simp [k1], by simpa using g1, k4.scale_eq, g4.scale_eq, g5 ms rfl⟩
              · exact absurd g1 (hno' j le_rfl)
            | succ i =>
              simp only [List.getElem?_cons_succ]
              exact r4 i j (by omega) (by omega) hno'
      · -- this collection raises
        obtain ⟨s'', os, r1, r2⟩ := run_total hco .cumulative l _ now [] (old ++ here) h' (by simp) (okHist_coll hl)
        refine ⟨s'', (s.collect .cumulative now).1 :: os, by rw [run, r1], by simp [cyclesFrom, r2], ?_, ?_⟩
        · intro i c hc hj
          rw [cyclesFrom] at hc
          cases i with
          | zero =>
            simp only [List.getElem?_cons_zero, Option.some.injEq] at hc
            subst hc
            right
            refine ⟨by simp [k2], ?_⟩
            have hlate : (¬ LateFits idx s.maxSize ms first (positives here) (positives old)) ∨ (¬ LateFits idx s.maxSize ms first (negatives here) (negatives old)) := by
              tauto
            rcases hlate with hlate | hlate
            · unfold LateFits Late at hlate
              simp only [Classical.not_imp] at hlate
              obtain ⟨⟨q1, q2, q3⟩, q4⟩ := hlate
              exact ⟨Or.inr (by simpa using q1), old, ms, rfl, m1, m2, Or.inl ⟨q2, q4⟩⟩
            · unfold LateFits Late at hlate
              simp only [Classical.not_imp] at hlate
              obtain ⟨⟨q1, q2, q3⟩, q4⟩ := hlate
              exact ⟨Or.inr (by simpa using q1), old, ms, rfl, m1, m2, Or.inr ⟨q2, q4⟩⟩
          | succ i => exact absurd (show _ = _ by simp [k2]) (hj 0 (by omega))
        · intro i j hij hjl hno
          exact absurd (show _ = _ by simp [k2]) (hno 0 (by omega))

/-- **C37 (partial)** Up to the first collection that raises, every cumulative point describes exactly all measurements since the
stream was created, at scales that never increase. A collection can raise only if it is not the first one, and one sign is measured
for the first time in its cycle, with magnitudes too far from 1 (index 0). *Missing*: that collection never raises, which is false
(`C37_zero_then_large_raises`, `C37_measurements_lost`). -/
theorem C37_cumulative_partial {idx : Int → α → Int} {V : α → Prop} (hco : Coherent idx V) (start maxSize maxScale : Int) (s : Agg α)
    (hs : Agg.new .delta start maxSize maxScale = some s) (l : List (Op α)) (hl : OkHist V l) :
    ∃ (s' : Agg α) (os : List (Outcome (Point α))), run idx .cumulative s l = some (s', os) ∧ os.length = (cycles start l).length ∧
      (∀ (i : Nat) (c : Cycle α), (cycles start l)[i]? = some c → (∀ j, j < i → os[j]? ≠ some .raised) →
        (∃ (p : Point α) (sc : Int), os[i]? = some (.returned (some p)) ∧ p.start = start ∧ p.time = c.time ∧ Describes idx maxSize.toNat p sc c.all) ∨
        (os[i]? = some .raised ∧ 0 < i ∧ ∃ (earlier : List α) (sc : Int), c.all = earlier ++ c.here ∧ -10 ≤ sc ∧ sc ≤ 20 ∧
          ((positives earlier = [] ∧ ¬ NearZero idx maxSize sc (positives c.here)) ∨
           (negatives earlier = [] ∧ ¬ NearZero idx maxSize sc (negatives c.here))))) ∧
      (∀ (i j : Nat), i < j → j < os.length → (∀ k, k ≤ j → os[k]? ≠ some .raised) →
        ∃ (p q : Point α) (x y : Int), os[i]? = some (.returned (some p)) ∧ os[j]? = some (.returned (some q)) ∧ p.scale = some x ∧ q.scale = some y ∧ y ≤ x) := by
  obtain ⟨h, hp, e1, e2, e3, _⟩ := new_cur idx hs
  obtain ⟨s', os, r1, r2, r3, r4⟩ := run_cumulative hco l s start [] [] true h hp (by simp) (by simp) hl
  have hm : maxSize.toNat = s.maxSize := by omega
  refine ⟨s', os, r1, r2, ?_, r4⟩
  intro i c hc hj
  rcases r3 i c hc hj with ⟨p, sc, g1, g2, g3, g4, _, _⟩ | ⟨g1, g2, earlier, sc, g3, g4, g5, g6⟩
  · exact Or.inl ⟨p, sc, g1, by rw [g2, e3], g3, by rw [hm]; exact g4⟩
  · right
    have hnz : nonzero c.here ≠ [] := by
      intro hz
      obtain ⟨z1, z2⟩ := (nonzero_nil_parts c.here).1 hz
      have hnear : NearZero idx s.maxSize sc ([] : List α) := ⟨0, 0, le_rfl, le_rfl, by have := h.size2; omega, by simp⟩
      rw [z1, z2] at g6
      rcases g6 with ⟨_, g6⟩ | ⟨_, g6⟩ <;> exact g6 hnear
    have := g5 hnz
    have := h.high
    rw [← e2]
    exact ⟨g1, g2.resolve_right (by simp), earlier, sc, g3, g4, by omega, g6⟩

/-- **C37 (partial)** If a sign that is ever measured is measured before the first collection, or its magnitudes are near 1 at the
maximum scale, collection never raises and every cumulative point describes all measurements. -/
theorem C37_no_late_start_partial {idx : Int → α → Int} {V : α → Prop} (hco : Coherent idx V) (start maxSize maxScale : Int) (s : Agg α)
    (hs : Agg.new .delta start maxSize maxScale = some s) (l : List (Op α)) (hl : OkHist V l)
    (hearly : ∀ (i : Nat) (c : Cycle α) (earlier : List α), 0 < i → (cycles start l)[i]? = some c → c.all = earlier ++ c.here →
      (positives earlier = [] → NearZero idx maxSize maxScale (positives c.here)) ∧
      (negatives earlier = [] → NearZero idx maxSize maxScale (negatives c.here))) :
    ∃ (s' : Agg α) (os : List (Outcome (Point α))), run idx .cumulative s l = some (s', os) ∧ ∀ (i : Nat) (c : Cycle α), (cycles start l)[i]? = some c →
      ∃ (p : Point α) (sc : Int), os[i]? = some (.returned (some p)) ∧ p.start = start ∧ p.time = c.time ∧ Describes idx maxSize.toNat p sc c.all := by
  obtain ⟨h, hp, e1, e2, e3, _⟩ := new_cur idx hs
  obtain ⟨s', os, r1, r2, r3, _⟩ := run_cumulative hco l s start [] [] true h hp (by simp) (by simp) hl
  have hm : maxSize.toNat = s.maxSize := by omega
  refine ⟨s', os, r1, ?_⟩
  have key : ∀ (i : Nat) (c : Cycle α), (cycles start l)[i]? = some c →
      (∃ (p : Point α) (sc : Int), os[i]? = some (.returned (some p)) ∧ p.start = start ∧ p.time = c.time ∧ Describes idx maxSize.toNat p sc c.all) := by
    intro i
    induction i using Nat.strong_induction_on with
    | _ i ih =>
      intro c hc
      have hj : ∀ j, j < i → os[j]? ≠ some .raised := by
        intro j hji
        have hlt : j < (cycles start l).length := by
          have := (List.getElem?_eq_some_iff.1 hc).1; omega
        obtain ⟨p, sc, g1, _⟩ := ih j hji _ (List.getElem?_eq_getElem hlt)
        rw [g1]; simp
      rcases r3 i c hc hj with ⟨p, sc, g1, g2, g3, g4, _, _⟩ | ⟨g1, g2, earlier, sc, g3, g4, g5, g6⟩
      · exact ⟨p, sc, g1, by rw [g2, e3], g3, by rw [hm]; exact g4⟩
      · exfalso
        obtain ⟨f1, f2⟩ := hearly i c earlier (g2.resolve_right (by simp)) hc g3
        have hok : ∀ v ∈ c.here, v ≠ 0 → V (mag v) := by
          intro v hv
          apply hl
          have hall := cyclesFrom_all l start [] [] i c hc
          have hin : v ∈ c.all := by rw [g3]; simp [hv]
          have hsub : ∀ (l : List (Op α)) (since : Int) (here all : List α) (i : Nat) (c : Cycle α) (v : α), (cyclesFrom since here all l)[i]? = some c → v ∈ c.all → v ∈ all ∨ v ∈ measurements l := by
            intro l
            induction l with
            | nil => intro since here all i c v hc; simp [cyclesFrom] at hc
            | cons o l ih =>
              intro since here all i c v hc hv
              cases o with
              | meas w =>
                rw [cyclesFrom] at hc
                have := ih _ _ _ i c v hc hv
                simp [measurements] at this ⊢
                tauto
              | coll t =>
                rw [cyclesFrom] at hc
                cases i with
                | zero => simp at hc; subst hc; exact Or.inl hv
                | succ i => simp only [List.getElem?_cons_succ] at hc; exact ih _ _ _ i c v hc hv
          have := hsub l start [] [] i c v hc hin
          simpa using this
        obtain ⟨okp, okn⟩ := magnitudes_ok hok
        have hnz : nonzero c.here ≠ [] := by
          intro hz
          obtain ⟨z1, z2⟩ := (nonzero_nil_parts c.here).1 hz
          have hnear : NearZero idx s.maxSize sc ([] : List α) := ⟨0, 0, le_rfl, le_rfl, by have := h.size2; omega, by simp⟩
          rw [z1, z2] at g6
          rcases g6 with ⟨_, g6⟩ | ⟨_, g6⟩ <;> exact g6 hnear
        have g5 := g5 hnz
        rw [← e1, ← e2] at f1 f2
        rcases g6 with ⟨g6, g7⟩ | ⟨g6, g7⟩
        · exact g7 ((f1 g6).lower hco okp g4 g5 h.high)
        · exact g7 ((f2 g6).lower hco okn g4 g5 h.high)
  exact key

end Agg

end Exp
end Metrics
end Otel
