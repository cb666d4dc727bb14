import Verif.Lemmas.ExpDownscale
/-!
# Recording one value
-/
namespace Otel
namespace Metrics
namespace Exp

/-! ## Scale changes -/

theorem scaleChange_spec (maxSize : Nat) (h2 : 2 ≤ maxSize) (fuel : Nat) (low high : Int) (hf : high - low < fuel) :
    shr high (scaleChange maxSize fuel low high) - shr low (scaleChange maxSize fuel low high) < maxSize ∧
    ∀ c, c < scaleChange maxSize fuel low high → (maxSize : Int) ≤ shr high c - shr low c := by
  induction fuel generalizing low high with
  | zero => simp [scaleChange, shr_zero]; omega
  | succ fuel ih =>
    rw [scaleChange]
    by_cases hc : high - low ≥ maxSize
    · rw [if_pos hc]
      have hlt : shr high 1 - shr low 1 < fuel := by
        unfold shr; simp only [pow_one]; push_cast; omega
      obtain ⟨i1, i2⟩ := ih (shr low 1) (shr high 1) hlt
      rw [shr_shr, shr_shr, Nat.add_comm 1] at i1
      refine ⟨i1, ?_⟩
      intro c hcc
      cases c with
      | zero => rw [shr_zero, shr_zero]; exact hc
      | succ c =>
        have := i2 c (by omega)
        rw [shr_shr, shr_shr, Nat.add_comm 1] at this
        exact this
    · rw [if_neg hc, shr_zero, shr_zero]
      exact ⟨by omega, by intro c h; omega⟩

theorem scaleChange_fit (maxSize : Nat) (h2 : 2 ≤ maxSize) (low high : Int) :
    shr high (scaleChange maxSize (scaleFuel low high) low high) - shr low (scaleChange maxSize (scaleFuel low high) low high) < maxSize ∧
    ∀ c, c < scaleChange maxSize (scaleFuel low high) low high → (maxSize : Int) ≤ shr high c - shr low c :=
  scaleChange_spec maxSize h2 _ low high (by unfold scaleFuel; omega)

/-- Once the distance fits it keeps fitting. -/
theorem shr_fit_mono (maxSize : Nat) (low high : Int) (hlh : low ≤ high) (c d : Nat) (hcd : c ≤ d) (h : shr high c - shr low c < maxSize) :
    shr high d - shr low d < maxSize := by
  obtain ⟨e, rfl⟩ := Nat.exists_eq_add_of_le hcd
  rw [← shr_shr, ← shr_shr]
  have hm := shr_mono c hlh
  have := shr_sub_le e (shr low c) (shr high c - shr low c).toNat
  rw [show shr low c + ((shr high c - shr low c).toNat : Int) = shr high c by omega] at this
  omega

/-! ## The mapping -/

variable {α : Type}

/-- What is required of the mapping on the values of `V`: lowering the scale by `c` shifts the index by `c`, and at the lowest
scale, `-10`, all values are in the buckets `-1` and `0`. -/
structure Coherent (idx : Int → α → Int) (V : α → Prop) : Prop where
  shift : ∀ v, V v → ∀ (s : Int) (c : Nat), s ≤ 20 → -10 ≤ s - c → idx (s - c) v = shr (idx s v) c
  low : ∀ v, V v → idx (-10) v = -1 ∨ idx (-10) v = 0

/-- An index that, at scale `s`, lies within the range of the mapping. -/
def InRange (s : Int) (x : Int) : Prop := shr x (s + 10).toNat = -1 ∨ shr x (s + 10).toNat = 0

theorem Coherent.inRange {idx : Int → α → Int} {V : α → Prop} (h : Coherent idx V) {v : α} (hv : V v) {s : Int} (h1 : -10 ≤ s) (h2 : s ≤ 20) :
    InRange s (idx s v) := by
  unfold InRange
  rw [← h.shift v hv s (s + 10).toNat h2 (by omega), show s - ((s + 10).toNat : Int) = -10 by omega]
  exact h.low v hv

theorem inRange_zero (s : Int) : InRange s 0 := Or.inr (shr_zero_left _)

theorem InRange.shift {s x : Int} (h : InRange s x) (c : Nat) (hc : -10 ≤ s - c) : InRange (s - c) (shr x c) := by
  unfold InRange at *
  rw [shr_shr, show c + (s - c + 10).toNat = (s + 10).toNat by omega]
  exact h

/-- Between two indices in range the scale change does not go below `-10`. -/
theorem scaleChange_inRange (maxSize : Nat) (h2 : 2 ≤ maxSize) (s low high : Int) (hs : -10 ≤ s) (hl : InRange s low) (hh : InRange s high) :
    -10 ≤ s - (scaleChange maxSize (scaleFuel low high) low high : Int) := by
  obtain ⟨_, hm⟩ := scaleChange_fit maxSize h2 low high
  by_contra hc
  have := hm (s + 10).toNat (by omega)
  unfold InRange at hl hh
  omega

/-! ## One side -/

/-- The buckets of one sign represent the magnitudes `A` at scale `s`. -/
structure Side (idx : Int → α → Int) (maxSize : Nat) (s : Int) (b : Buckets) (A : List α) : Prop where
  holds : b.Holds (A.map (idx s))
  size : b.counts.length ≤ maxSize
  empty : A = [] → b = Buckets.new
  startIn : A ≠ [] → b.start ∈ A.map (idx s)
  stopIn : A ≠ [] → b.stop ∈ A.map (idx s)

theorem side_new (idx : Int → α → Int) (maxSize : Nat) (h : 2 ≤ maxSize) (s : Int) : Side idx maxSize s Buckets.new [] :=
  ⟨Buckets.holds_new, by simp [Buckets.new]; omega, fun _ => rfl, fun h => absurd rfl h, fun h => absurd rfl h⟩

theorem new_downscale (a : Nat) : Buckets.new.downscale a = Buckets.new := by
  obtain ⟨h, hl, _, _⟩ := Buckets.holds_new.downscale a
  have hv := h.val (Buckets.new.downscale a).start le_rfl (by rw [hl]; simp [Buckets.new])
  have hb : (Buckets.new.downscale a).base = (Buckets.new.downscale a).start := rfl
  have hp : (Buckets.new.downscale a).posOf (Buckets.new.downscale a).start = 0 := by
    unfold Buckets.posOf; rw [hb]; simp
  rw [hp] at hv
  simp at hv
  have hc : (Buckets.new.downscale a).counts = [0] := by
    match hcc : (Buckets.new.downscale a).counts with
    | [] => rw [hcc] at hl; simp [Buckets.new] at hl
    | [x] => rw [hcc] at hv; simp at hv; rw [hv]
    | _ :: _ :: _ => rw [hcc] at hl; simp [Buckets.new] at hl
  have h1 : (Buckets.new.downscale a).start = 0 := shr_zero_left a
  have h2 : (Buckets.new.downscale a).stop = 0 := shr_zero_left a
  cases hn : Buckets.new.downscale a with
  | mk c ba st sp =>
    rw [hn] at hc h1 h2 hb
    simp only at hc h1 h2 hb
    subst hc h1 h2 hb
    rfl

theorem map_idx_shift {idx : Int → α → Int} {V : α → Prop} (hco : Coherent idx V) {A : List α} (hA : ∀ v ∈ A, V v) {s : Int} (hs : s ≤ 20)
    (c : Nat) (hc : -10 ≤ s - c) : A.map (idx (s - c)) = (A.map (idx s)).map (fun x => shr x c) := by
  rw [List.map_map]
  apply List.map_congr_left
  intro v hv
  exact hco.shift v (hA v hv) s c hs hc

theorem Side.downscale {idx : Int → α → Int} {V : α → Prop} (hco : Coherent idx V) {maxSize : Nat} {s : Int} {b : Buckets} {A : List α}
    (h : Side idx maxSize s b A) (hA : ∀ v ∈ A, V v) (hs : s ≤ 20) (c : Nat) (hc : -10 ≤ s - c) :
    Side idx maxSize (s - c) (b.downscale c) A := by
  obtain ⟨d1, d2, d3, d4⟩ := h.holds.downscale c
  have e := map_idx_shift hco hA hs c hc
  refine ⟨by rw [e]; exact d1, by rw [d2]; exact h.size, ?_, ?_, ?_⟩
  · intro hn; rw [h.empty hn]; exact new_downscale c
  · intro hn; rw [e, d3]; exact List.mem_map_of_mem (h.startIn hn)
  · intro hn; rw [e, d4]; exact List.mem_map_of_mem (h.stopIn hn)

theorem Side.downscale' {idx : Int → α → Int} {V : α → Prop} (hco : Coherent idx V) {maxSize : Nat} {s : Int} {b : Buckets} {A : List α}
    (h : Side idx maxSize s b A) (hA : ∀ v ∈ A, V v) (hs : s ≤ 20) (c : Nat) (hc : -10 ≤ s - c) :
    Side idx maxSize (s - c) (if c = 0 then b else b.downscale c) A := by
  by_cases h0 : c = 0
  · rw [if_pos h0]; subst h0; simpa using h
  · rw [if_neg h0]; exact h.downscale hco hA hs c hc

theorem Side.len_eq {idx : Int → α → Int} {maxSize : Nat} {s : Int} {b : Buckets} {A : List α} (h : Side idx maxSize s b A) :
    b.len = 0 ↔ A = [] := by
  constructor
  · intro hl
    by_contra hn
    have h1 := h.holds.sb; have h2 := h.holds.bs; have h3 := h.holds.len
    unfold Buckets.len at hl
    rw [if_neg (by omega)] at hl
    by_cases hc : b.stop = b.start ∧ b.getItem 0 = 0
    · have hv := h.holds.val b.start le_rfl (by omega)
      have hpos : b.posOf b.start = 0 := by
        unfold Buckets.posOf
        rw [if_neg (by omega)]; omega
      have hb : b.bias = 0 := by unfold Buckets.bias; omega
      have hg := hc.2
      unfold Buckets.getItem at hg
      rw [hb] at hg
      simp only [Nat.cast_zero, lt_irrefl, if_false, Int.sub_zero, Int.toNat_zero] at hg
      rw [hpos, hg] at hv
      have := List.count_pos_iff.2 (h.startIn hn)
      omega
    · rw [if_neg hc] at hl
      omega
  · intro hn
    rw [h.empty hn]; rfl

/-- Recording an index that fits. -/
theorem Side.record {idx : Int → α → Int} {maxSize : Nat} {s : Int} {b : Buckets} {A : List α} (h : Side idx maxSize s b A) (hn : A ≠ [])
    (v : α) (h1 : b.stop - idx s v < maxSize) (h2 : idx s v - b.start < maxSize) :
    ∃ b', (b.extend (idx s v) maxSize).add (idx s v) 1 = some b' ∧ Side idx maxSize s b' (A ++ [v]) := by
  obtain ⟨e1, e2, e3, e4⟩ := h.holds.extend (idx s v) maxSize h.size h1 h2
  obtain ⟨b', a1, a2, a3, a4, a5⟩ := e1.add (idx s v) 1 (by rw [e3]; exact min_le_right _ _) (by rw [e4]; exact le_max_right _ _)
  refine ⟨b', a1, ⟨a2.perm ?_, by omega, by simp, ?_, ?_⟩⟩
  · intro x; simp [List.count_append, List.count_cons]
  · intro _
    rw [a4, e3]
    rcases min_choice b.start (idx s v) with hm | hm
    · rw [hm]; simpa using Or.inl (by simpa using h.startIn hn)
    · rw [hm]; simp
  · intro _
    rw [a5, e4]
    rcases max_choice b.stop (idx s v) with hm | hm
    · rw [hm]; simpa using Or.inl (by simpa using h.stopIn hn)
    · rw [hm]; simp

theorem Side.start_le_stop {idx : Int → α → Int} {maxSize : Nat} {s : Int} {b : Buckets} {A : List α} (h : Side idx maxSize s b A) :
    b.start ≤ b.stop := le_trans h.holds.sb h.holds.bs

/-- Recording a value always succeeds; the scale is lowered just enough for the values of this side. -/
theorem insert_spec {idx : Int → α → Int} {V : α → Prop} (hco : Coherent idx V) {maxSize : Nat} (hm : 2 ≤ maxSize) {s : Int} (hs1 : -10 ≤ s)
    (hs2 : s ≤ 20) {this other : Buckets} {A B : List α} (ht : Side idx maxSize s this A) (hother : Side idx maxSize s other B)
    (hA : ∀ v ∈ A, V v) (hB : ∀ v ∈ B, V v) (v : α) (hv : V v) :
    ∃ this' other' s', insert idx maxSize s this other v = some (this', other', s') ∧ Side idx maxSize s' this' (A ++ [v]) ∧
      Side idx maxSize s' other' B ∧ -10 ≤ s' ∧ s' ≤ s ∧
      ∀ t, s' < t → t ≤ s → ∃ x ∈ A ++ [v], ∃ y ∈ A ++ [v], (maxSize : Int) ≤ idx t y - idx t x := by
  unfold insert
  simp only
  by_cases hn : A = []
  · rw [if_pos (ht.len_eq.2 hn), ht.empty hn]
    subst hn
    have hh : Buckets.Holds { Buckets.new with start := idx s v, stop := idx s v, base := idx s v } [] := by
      refine ⟨le_rfl, le_rfl, by simp [Buckets.new], by simp, ?_⟩
      intro x h1 h2
      simp only [Buckets.new, List.length_singleton] at h1 h2
      obtain rfl : x = idx s v := by omega
      simp [Buckets.posOf, Buckets.new]
    obtain ⟨b', a1, a2, a3, a4, a5⟩ := hh.add (idx s v) 1 le_rfl le_rfl
    have hext : Buckets.extend { Buckets.new with start := idx s v, stop := idx s v, base := idx s v } (idx s v) maxSize =
        { Buckets.new with start := idx s v, stop := idx s v, base := idx s v } := by
      unfold Buckets.extend
      rw [if_neg (lt_irrefl _), if_neg (lt_irrefl _)]
    refine ⟨b', other, s, ?_, ⟨?_, ?_, by simp, ?_, ?_⟩, hother, hs1, le_rfl, by intro t h1 h2; omega⟩
    · show (do let this ← Buckets.add (Buckets.extend _ (idx s v) maxSize) (idx s v) 1; pure (this, other, s)) = _
      rw [hext, a1]; rfl
    · simpa using a2
    · rw [a3]; simp [Buckets.new]; omega
    · intro _; rw [a4]; simp
    · intro _; rw [a5]; simp
  · rw [if_neg (fun h => hn (ht.len_eq.1 h))]
    have hss := ht.start_le_stop
    by_cases hr : (rescale this (idx s v) maxSize) = none
    · rw [hr]
      have h1 : this.stop - idx s v < maxSize ∧ idx s v - this.start < maxSize := by
        unfold rescale at hr
        split at hr
        · cases hr
        · split at hr
          · cases hr
          · rename_i g1 g2
            constructor
            · by_contra hc; by_cases hlt : idx s v < this.start
              · exact g1 ⟨hlt, by omega⟩
              · have := ht.holds.len; have := ht.size; omega
            · by_contra hc; by_cases hlt : idx s v > this.stop
              · exact g2 ⟨hlt, by omega⟩
              · have := ht.holds.len; have := ht.size; omega
      obtain ⟨b', r1, r2⟩ := ht.record hn v h1.1 h1.2
      refine ⟨b', other, s, ?_, r2, hother, hs1, le_rfl, by intro t h1 h2; omega⟩
      show (do let this ← Buckets.add _ (idx s v) 1; pure (this, other, s)) = _
      rw [r1]; rfl
    · obtain ⟨⟨low, high⟩, hlh⟩ := Option.ne_none_iff_exists'.1 hr
      rw [hlh]
      simp only
      have hall : ∀ x ∈ A ++ [v], V x := by
        intro x hx; rw [List.mem_append] at hx
        rcases hx with hx | hx
        · exact hA x hx
        · rw [List.mem_singleton.1 hx]; exact hv
      -- low and high are indices of recorded values
      have hends : ∃ x ∈ A ++ [v], ∃ y ∈ A ++ [v], low = idx s x ∧ high = idx s y ∧ low ≤ high ∧ low = min this.start (idx s v) ∧
          high = max this.stop (idx s v) := by
        obtain ⟨xa, hxa, exa⟩ := List.mem_map.1 (ht.startIn hn)
        obtain ⟨ya, hya, eya⟩ := List.mem_map.1 (ht.stopIn hn)
        unfold rescale at hlh
        split at hlh
        · rename_i g
          simp only [Option.some.injEq, Prod.mk.injEq] at hlh
          obtain ⟨rfl, rfl⟩ := hlh
          exact ⟨v, by simp, ya, by simp [hya], rfl, eya.symm, by omega, by omega, by omega⟩
        · split at hlh
          · rename_i g
            simp only [Option.some.injEq, Prod.mk.injEq] at hlh
            obtain ⟨rfl, rfl⟩ := hlh
            exact ⟨xa, by simp [hxa], v, by simp, exa.symm, rfl, by omega, by omega, by omega⟩
          · cases hlh
      obtain ⟨x, hx, y, hy, el, eh, hle, emin, emax⟩ := hends
      obtain ⟨f1, f2⟩ := scaleChange_fit maxSize hm low high
      have hc := scaleChange_inRange maxSize hm s low high hs1 (el ▸ hco.inRange (hall x hx) hs1 hs2) (eh ▸ hco.inRange (hall y hy) hs1 hs2)
      generalize scaleChange maxSize (scaleFuel low high) low high = c at f1 f2 hc ⊢
      have ht' := ht.downscale' hco hA hs2 c hc
      have ho' := hother.downscale' hco hB hs2 c hc
      have hiv : idx (s - c) v = shr (idx s v) c := hco.shift v hv s c hs2 hc
      have hst : ∀ b : Buckets, (if c = 0 then b else b.downscale c).start = shr b.start c ∧
          (if c = 0 then b else b.downscale c).stop = shr b.stop c ∨ ¬ ∃ M, b.Holds M := by
        intro b
        by_cases hb : ∃ M, b.Holds M
        · left
          obtain ⟨M, hM⟩ := hb
          by_cases h0 : c = 0
          · rw [if_pos h0]; subst h0; simp [shr_zero]
          · rw [if_neg h0]; obtain ⟨_, _, d3, d4⟩ := hM.downscale c; exact ⟨d3, d4⟩
        · exact Or.inr hb
      have hthis := (hst this).resolve_right (fun h => h ⟨_, ht.holds⟩)
      have hlo : shr low c ≤ shr this.start c ∧ shr low c ≤ shr (idx s v) c := ⟨shr_mono c (by omega), shr_mono c (by omega)⟩
      have hhi : shr this.stop c ≤ shr high c ∧ shr (idx s v) c ≤ shr high c := ⟨shr_mono c (by omega), shr_mono c (by omega)⟩
      obtain ⟨b', r1, r2⟩ := ht'.record hn v (by rw [hthis.2, hiv]; omega) (by rw [hthis.1, hiv]; omega)
      refine ⟨b', _, s - c, ?_, r2, ho', hc, by omega, ?_⟩
      · have hnew : newMapping (s - c) = some (s - c) := by unfold newMapping; rw [if_pos ⟨hc, by omega⟩]
        show (do let scale ← newMapping (s - c); let this ← Buckets.add _ (idx scale v) 1; pure (this, _, scale)) = _
        rw [hnew]
        show (do let this ← Buckets.add _ (idx (s - c) v) 1; pure (this, _, s - (c : Int))) = _
        rw [r1]; rfl
      · intro t h1 h2
        refine ⟨x, hx, y, hy, ?_⟩
        have h3 := f2 (s - t).toNat (by omega)
        rw [el, eh, ← hco.shift x (hall x hx) s _ hs2 (by omega), ← hco.shift y (hall y hy) s _ hs2 (by omega)] at h3
        rw [show s - ((s - t).toNat : Int) = t by omega] at h3
        exact h3

end Exp
end Metrics
end Otel
