import Verif.Lemmas.ExpBuckets
/-!
# Downscaling a bucket array
-/
namespace Otel
namespace Metrics
namespace Exp
namespace Buckets

/-- One step of the collapse: move position `j` to where its bucket goes. -/
def cstep (a : Nat) (s : Int) (c : List Nat) (j : Nat) : List Nat :=
  let o := (shr (s + j) a - shr s a).toNat
  if o ≠ j then (c.set o (c.getD o 0 + c.getD j 0)).set j 0 else c

theorem range'_cons (j n : Nat) (h : 0 < n) : List.range' j n = j :: List.range' (j + 1) (n - 1) := by
  cases n with
  | zero => omega
  | succ n => rw [List.range'_succ]; rfl

theorem inner_eq (a : Nat) (s : Int) (size o fuel : Nat) (c : List Nat) (i : Nat) (index : Nat)
    (hi : i ≤ size) (hf : size - i ≤ fuel)
    (hx : (index : Int) = s + i - (2 ^ a : Nat) * (shr s a + o)) (hx' : index ≤ 2 ^ a) :
    ∃ i', i ≤ i' ∧ i' ≤ size ∧ (i < size → index < 2 ^ a → i < i') ∧
      (i' = size ∨ s + i' = (2 ^ a : Nat) * (shr s a + o + 1)) ∧
      inner (2 ^ a) size o fuel c i (s + i) index = ((List.range' i (i' - i)).foldl (cstep a s) c, i', s + i') := by
  induction fuel generalizing c i index with
  | zero =>
    refine ⟨i, le_rfl, hi, by omega, Or.inl (by omega), ?_⟩
    simp [inner]
  | succ fuel ih =>
    rw [inner]
    by_cases hc : index < 2 ^ a ∧ i < size
    · rw [if_pos hc]
      have hp : (0 : Int) < ((2 ^ a : Nat) : Int) := by positivity
      have hsh : shr (s + i) a = shr s a + o := by
        unfold shr at *
        have e : s + i = index + (s / ((2 ^ a : Nat) : Int) + o) * ((2 ^ a : Nat) : Int) := by
          rw [hx, mul_comm (((2 ^ a : Nat) : Int))]; omega
        rw [e, Int.add_mul_ediv_right _ _ (Int.ne_of_gt hp), Int.ediv_eq_zero_of_lt (by omega) (by exact_mod_cast hc.1)]
        omega
      have hstep : (if o ≠ i then (c.set o (c.getD o 0 + c.getD i 0)).set i 0 else c) = cstep a s c i := by
        unfold cstep
        have : (shr (s + i) a - shr s a).toNat = o := by omega
        simp only [this]
      simp only [hstep]
      have hcast : s + (i : Int) + 1 = s + ((i + 1 : Nat) : Int) := by push_cast; omega
      rw [hcast]
      obtain ⟨i', h1, h2, h3, h4, h5⟩ := ih (cstep a s c i) (i + 1) (index + 1) (by omega) (by omega)
        (by rw [Nat.cast_add, Nat.cast_add, hx]; omega) (by omega)
      refine ⟨i', by omega, h2, by omega, h4, ?_⟩
      rw [h5, range'_cons i (i' - i) (by omega), List.foldl_cons]
      rw [show i' - (i + 1) = i' - i - 1 by omega]
    · rw [if_neg hc]
      refine ⟨i, le_rfl, hi, fun h1 h2 => absurd ⟨h2, h1⟩ hc, ?_, by simp⟩
      by_cases hs : i < size
      · right
        have : index = 2 ^ a := by
          by_contra hne
          exact hc ⟨by omega, hs⟩
        rw [this] at hx
        rw [mul_add, mul_one]
        omega
      · left; omega

theorem outer_eq (a : Nat) (s : Int) (size : Nat) (fuel : Nat) (c : List Nat) (i o : Nat)
    (hi : i ≤ size) (hf : size - i ≤ fuel) (ho : i = size ∨ shr (s + i) a = shr s a + o) :
    outer (2 ^ a) size (s + size - 1) fuel c i o (s + i) = (List.range' i (size - i)).foldl (cstep a s) c := by
  have hp : (0 : Int) < ((2 ^ a : Nat) : Int) := by positivity
  induction fuel generalizing c i o with
  | zero =>
    have : size - i = 0 := by omega
    simp [outer, this]
  | succ fuel ih =>
    rw [outer]
    by_cases hc : i < size
    · rw [if_pos (by omega)]
      have ho' : shr (s + i) a = shr s a + o := by omega
      have hmod : (((s + i) % ((2 ^ a : Nat) : Int)).toNat : Int) = s + i - (2 ^ a : Nat) * (shr s a + o) := by
        rw [← ho', Int.toNat_of_nonneg (Int.emod_nonneg _ (Int.ne_of_gt hp)), Int.emod_def]; rfl
      have hlt : ((s + i) % ((2 ^ a : Nat) : Int)).toNat < 2 ^ a := by
        have := Int.emod_lt_of_pos (s + i) hp
        omega
      obtain ⟨i', h1, h2, h3, h4, h5⟩ := inner_eq a s size o size c i _ hi (by omega) hmod (by omega)
      simp only [h5]
      have := h3 hc hlt
      rw [ih _ i' (o + 1) h2 (by omega) ?_]
      · rw [← List.foldl_append]
        congr 1
        have := List.range'_append (s := i) (m := i' - i) (n := size - i') (step := 1)
        rw [show i + 1 * (i' - i) = i' by omega, show i' - i + (size - i') = size - i by omega] at this
        exact this
      · rcases h4 with h4 | h4
        · exact Or.inl h4
        · right
          rw [h4]
          unfold shr
          rw [Int.mul_ediv_cancel_left _ (Int.ne_of_gt hp)]
          push_cast; omega
    · rw [if_neg (by omega)]
      have : size - i = 0 := by omega
      simp [this]

theorem getD_set (l : List Nat) (i j v : Nat) (hi : i < l.length) : (l.set i v).getD j 0 = if i = j then v else l.getD j 0 := by
  rw [List.getD_eq_getElem?_getD, List.getElem?_set]
  by_cases h : i = j
  · subst h; simp [hi]
  · simp [h, List.getD_eq_getElem?_getD]

/-- The loop invariant of the collapse after processing positions `< k`. -/
def CInv (a : Nat) (s : Int) (M : List Int) (n k : Nat) (c : List Nat) : Prop :=
  c.length = n ∧ ∀ x, x < n → c.getD x 0 =
    ((M.filter (fun y => decide (y < s + k))).map (fun y => shr y a)).count (shr s a + x) +
    (if k ≤ x then M.count (s + x) else 0)

theorem count_filter_succ (a : Nat) (s : Int) (M : List Int) (k : Nat) (z : Int) :
    ((M.filter (fun y => decide (y < s + (k + 1 : Nat)))).map (fun y => shr y a)).count z =
    ((M.filter (fun y => decide (y < s + k))).map (fun y => shr y a)).count z +
    (if shr (s + k) a = z then M.count (s + k) else 0) := by
  induction M with
  | nil => simp
  | cons y M ih =>
    rw [List.count_cons]
    rcases lt_trichotomy y (s + k) with h | h | h
    · rw [List.filter_cons_of_pos (by simp; omega), List.filter_cons_of_pos (by simp; omega), List.map_cons, List.map_cons,
        List.count_cons, List.count_cons, ih]
      have : ¬ (y == s + (k : Int)) = true := by simp; omega
      simp only [this]
      simp
      omega
    · rw [List.filter_cons_of_pos (by simp; omega), List.filter_cons_of_neg (by simp; omega), List.map_cons,
        List.count_cons, ih]
      subst h
      by_cases hz : shr (s + k) a = z <;> simp [hz]
      omega
    · rw [List.filter_cons_of_neg (by simp; omega), List.filter_cons_of_neg (by simp; omega), ih]
      have : ¬ (y == s + (k : Int)) = true := by simp; omega
      simp only [this]
      simp

theorem cinv_step (a : Nat) (s : Int) (M : List Int) (n k : Nat) (c : List Nat) (hk : k < n) (hM : ∀ x ∈ M, s ≤ x)
    (h : CInv a s M n k c) : CInv a s M n (k + 1) (cstep a s c k) := by
  obtain ⟨hl, hv⟩ := h
  have h0 : shr s a ≤ shr (s + k) a := shr_mono a (by omega)
  have hle := shr_sub_le a s k
  -- indices below k land below k
  have hbelow : ∀ x : Nat, k ≤ x → ((M.filter (fun y => decide (y < s + k))).map (fun y => shr y a)).count (shr s a + x) = 0 := by
    intro x hx
    rw [List.count_eq_zero]
    intro hm
    obtain ⟨y, hy, e⟩ := List.mem_map.1 hm
    rw [List.mem_filter] at hy
    have h1 := hM y hy.1
    have h2 : y < s + k := by simpa using hy.2
    have h3 := shr_sub_le a s (y - s).toNat
    rw [show s + ((y - s).toNat : Int) = y by omega] at h3
    omega
  unfold cstep
  simp only
  generalize ho : (shr (s + k) a - shr s a).toNat = o
  have ho' : shr (s + k) a = shr s a + o := by omega
  have hok : o ≤ k := by omega
  refine ⟨by split <;> simp [hl], ?_⟩
  intro x hx
  rw [count_filter_succ, ho']
  by_cases hne : o = k
  · rw [if_neg (by simpa using hne), hv x hx]
    subst hne
    by_cases hxo : x = o
    · subst hxo
      rw [if_pos le_rfl, if_pos rfl, if_neg (by omega)]
      omega
    · rw [if_neg (show ¬ (shr s a + (o : Int) = shr s a + (x : Int)) by omega)]
      by_cases hox : o ≤ x
      · rw [if_pos hox, if_pos (by omega)]; rfl
      · rw [if_neg hox, if_neg (by omega)]
  · rw [if_pos hne, getD_set _ _ _ _ (by simp; omega), getD_set _ _ _ _ (by omega)]
    by_cases hxk : k = x
    · subst hxk
      rw [if_pos rfl, hbelow k le_rfl, if_neg (by omega), if_neg (by omega)]
    · rw [if_neg hxk]
      by_cases hxo : o = x
      · subst hxo
        rw [if_pos rfl, if_pos rfl, if_neg (by omega), hv o hx, hv k hk, hbelow k le_rfl, if_neg (by omega), if_pos le_rfl]
        omega
      · rw [if_neg hxo, if_neg (by omega), hv x hx]
        by_cases hkx : k ≤ x
        · rw [if_pos hkx, if_pos (by omega)]; rfl
        · rw [if_neg hkx, if_neg (by omega)]

theorem cinv_fold (a : Nat) (s : Int) (M : List Int) (n size : Nat) (c : List Nat) (hM : ∀ x ∈ M, s ≤ x) (k m : Nat) (hkm : k + m = size)
    (hs : size ≤ n) (h : CInv a s M n k c) : CInv a s M n size ((List.range' k m).foldl (cstep a s) c) := by
  induction m generalizing c k with
  | zero => have : k = size := by omega
            subst this; exact h
  | succ m ih =>
    rw [List.range'_succ, List.foldl_cons]
    exact ih _ (k + 1) (by omega) (cinv_step a s M n k c (by omega) hM h)

theorem Holds.rotate {b : Buckets} {M : List Int} (h : Holds b M) :
    Holds b.rotate M ∧ b.rotate.base = b.start ∧ b.rotate.start = b.start ∧ b.rotate.stop = b.stop ∧
    b.rotate.counts = b.offsetCounts := by
  have h1 := h.sb; have h2 := h.bs; have h3 := h.len
  have hcounts : b.rotate.counts = b.offsetCounts := by
    unfold Buckets.rotate offsetCounts
    by_cases hb : b.bias = 0
    · rw [if_pos hb, hb]; simp
    · rw [if_neg hb]
      simp only [List.reverse_take, List.reverse_drop, List.length_reverse, List.reverse_reverse]
  have hbase : b.rotate.base = b.start ∧ b.rotate.start = b.start ∧ b.rotate.stop = b.stop := by
    unfold Buckets.rotate
    by_cases hb : b.bias = 0
    · rw [if_pos hb]
      refine ⟨?_, rfl, rfl⟩
      unfold bias at hb; omega
    · rw [if_neg hb]; exact ⟨rfl, rfl, rfl⟩
  obtain ⟨e1, e2, e3⟩ := hbase
  refine ⟨⟨by omega, by omega, ?_, by rw [e2, e3]; exact h.mem, ?_⟩, e1, e2, e3, hcounts⟩
  · rw [hcounts, Holds.offset_length, e2, e3]; exact h3
  · intro x hx1 hx2
    rw [e2] at hx1
    rw [hcounts, Holds.offset_length, e2] at hx2
    rw [hcounts]
    have : b.rotate.posOf x = (x - b.start).toNat := by
      unfold posOf
      rw [e1, if_neg (by omega)]
    rw [this, h.offset _ (by omega)]
    congr 1; omega

/-- Downscaling shifts every index. -/
theorem Holds.downscale {b : Buckets} {M : List Int} (h : Holds b M) (a : Nat) :
    Holds (b.downscale a) (M.map (fun x => shr x a)) ∧ (b.downscale a).counts.length = b.counts.length ∧
    (b.downscale a).start = shr b.start a ∧ (b.downscale a).stop = shr b.stop a := by
  obtain ⟨hr, e1, e2, e3, ec⟩ := h.rotate
  have h1 := h.sb; have h2 := h.bs; have h3 := h.len
  have hlen : b.rotate.counts.length = b.counts.length := by rw [ec, Holds.offset_length]
  generalize hsize : (1 + b.stop - b.start).toNat = size
  have hc0 : CInv a b.start M b.counts.length 0 b.rotate.counts := by
    refine ⟨hlen, ?_⟩
    intro x hx
    have : (M.filter (fun y => decide (y < b.start + (0 : Nat)))) = [] := by
      rw [List.filter_eq_nil_iff]
      intro y hy; have := h.mem y hy; simp; omega
    rw [this, ec, h.offset x hx]
    simp
  have hcounts : (b.downscale a).counts = (List.range' 0 size).foldl (cstep a b.start) b.rotate.counts := by
    have : (b.downscale a).counts = outer (2 ^ a) size b.stop size b.rotate.counts 0 0 b.start := by
      unfold Buckets.downscale
      simp only [e2, e3, hsize]
    rw [this]
    have := outer_eq a b.start size size b.rotate.counts 0 0 (by omega) (by omega) (Or.inr (by simp))
    rw [show b.start + (size : Int) - 1 = b.stop by omega] at this
    simpa using this
  have hfin := cinv_fold a b.start M b.counts.length size b.rotate.counts (fun x hx => (h.mem x hx).1) 0 size (by omega) (by omega) hc0
  rw [← hcounts] at hfin
  obtain ⟨f1, f2⟩ := hfin
  have d1 : (b.downscale a).start = shr b.start a := by unfold Buckets.downscale; simp only [e2]
  have d2 : (b.downscale a).stop = shr b.stop a := by unfold Buckets.downscale; simp only [e3]
  have d3 : (b.downscale a).base = shr b.start a := by unfold Buckets.downscale; simp only [e2]
  refine ⟨⟨by omega, ?_, ?_, ?_, ?_⟩, f1, d1, d2⟩
  · rw [d3, d2]; exact shr_mono a (by omega)
  · rw [d1, d2, f1]
    have := shr_sub_le a b.start (b.stop - b.start).toNat
    rw [show b.start + ((b.stop - b.start).toNat : Int) = b.stop by omega] at this
    omega
  · intro x hx
    obtain ⟨y, hy, rfl⟩ := List.mem_map.1 hx
    have := h.mem y hy
    rw [d1, d2]
    exact ⟨shr_mono a this.1, shr_mono a this.2⟩
  · intro x hx1 hx2
    rw [d1] at hx1; rw [d1, f1] at hx2
    have hpos : (b.downscale a).posOf x = (x - shr b.start a).toNat := by
      unfold posOf; rw [d3, if_neg (by omega)]
    rw [hpos, f2 _ (by omega)]
    have hfil : M.filter (fun y => decide (y < b.start + size)) = M := by
      rw [List.filter_eq_self]
      intro y hy; have := h.mem y hy; simp; omega
    rw [hfil, show shr b.start a + ((x - shr b.start a).toNat : Int) = x by omega]
    split
    · rw [h.count_out (Or.inr (by omega))]; rfl
    · rfl

end Buckets
end Exp
end Metrics
end Otel
