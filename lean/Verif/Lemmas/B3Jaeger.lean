import Verif.Model.B3Jaeger
import Verif.Spec.B3
import Verif.Lemmas.TraceContext
import Verif.Lemmas.Baggage
/-! Helper lemmas for the B3 and Jaeger propagators. -/
namespace Otel
open TraceContext Spec

theorem isLowerHex_ascii (c : Char) (h : isLowerHex c = true) : c.toNat < 128 ∧ Url.isHexDigit c = true := by
  simp only [isLowerHex, isDig, Bool.or_eq_true, inRange_iff] at h
  simp only [Url.isHexDigit, isDig, Bool.or_eq_true, inRange_iff]
  omega

theorem hexDigit?_lower (U : DigitTable) (c : Char) (h : isLowerHex c = true) :
    hexDigit? U c = some (hexDigitVal c) := by
  have := isLowerHex_ascii c h
  simp [hexDigit?, this.1, this.2]

theorem hexDigit?_lt (U : DigitTable) (c : Char) (n : Nat) (h : hexDigit? U c = some n) : n < 16 := by
  unfold hexDigit? at h
  split at h
  · split at h
    · cases h; exact hexDigitVal_lt c
    · cases h
  · cases hu : U c with
    | none => simp [hu] at h
    | some m => simp [hu] at h; omega

theorem hexValU_lower (U : DigitTable) (s : Str) (h : ∀ c ∈ s, isLowerHex c = true) : hexValU U s = hexVal s := by
  unfold hexValU hexVal
  suffices H : ∀ a, s.foldl (fun acc c => acc * 16 + (hexDigit? U c).getD 0) a =
      s.foldl (fun acc c => acc * 16 + hexDigitVal c) a from H 0
  induction s with
  | nil => intro a; rfl
  | cons c cs ih =>
    intro a
    simp only [List.foldl_cons, hexDigit?_lower U c (h c (by simp)), Option.getD_some]
    exact ih (fun c hc => h c (List.mem_cons_of_mem _ hc)) _

theorem hexValU_lt (U : DigitTable) (s : Str) : hexValU U s < 16 ^ s.length := by
  have key : ∀ (s : Str) (a k : Nat), a < 16 ^ k →
      s.foldl (fun acc c => acc * 16 + (hexDigit? U c).getD 0) a < 16 ^ (k + s.length) := by
    intro s
    induction s with
    | nil => intro a k h; simpa using h
    | cons c cs ih =>
      intro a k h
      simp only [List.foldl_cons, List.length_cons]
      have : (hexDigit? U c).getD 0 < 16 := by
        cases hd : hexDigit? U c with
        | none => simp
        | some n => simpa using hexDigit?_lt U c n hd
      have h2 : a * 16 + (hexDigit? U c).getD 0 < 16 ^ (k + 1) := by
        rw [Nat.pow_succ]; omega
      have := ih _ _ h2
      rwa [Nat.add_assoc, Nat.add_comm 1] at this
  have := key s 0 0 (by simp)
  rw [Nat.zero_add] at this
  exact this

namespace B3

theorem hexN_iff (U : DigitTable) (n : Nat) (s : Str) :
    hexN U n s = true ↔ s.length = n ∧ ∀ c ∈ s, (hexDigit? U c).isSome = true := by
  simp [hexN]

theorem hexN_lower (U : DigitTable) (n : Nat) (s : Str) (h : s.length = n) (hl : ∀ c ∈ s, isLowerHex c = true) :
    hexN U n s = true := by
  rw [hexN_iff]; exact ⟨h, fun c hc => by rw [hexDigit?_lower U c (hl c hc)]; rfl⟩

theorem firstOr_some (c : Carrier) (k v : Str) : firstOr c k = some v ↔ HeaderIs c k v := by
  unfold firstOr first HeaderIs
  cases h : c.get k with
  | none => simp
  | some l =>
    cases l with
    | nil => simp
    | cons x xs =>
      cases x with
      | nil =>
        simp only [Option.some.injEq, List.cons.injEq]
        constructor
        · intro h; cases h
        · rintro ⟨⟨m, rfl, _⟩, hn⟩; exact absurd rfl hn
      | cons y ys =>
        simp only [Option.some.injEq, List.cons.injEq]
        constructor
        · intro h; cases h; exact ⟨⟨xs, rfl, rfl⟩, by simp⟩
        · rintro ⟨⟨m, rfl, _⟩, hn⟩; rfl

theorem firstOr_none (c : Carrier) (k : Str) : firstOr c k = none ↔ ∀ v, ¬ HeaderIs c k v := by
  constructor
  · intro h v hv; rw [← firstOr_some, h] at hv; cases hv
  · intro h
    cases hf : firstOr c k with
    | none => rfl
    | some v => exact absurd ((firstOr_some c k v).mp hf) (h v)

theorem accept_iff (x : Str) : x ∈ samplePropagate ↔ B3Accept x := by
  simp only [samplePropagate, B3Accept, List.mem_cons, List.not_mem_nil, or_false]

theorem fields_some (c : Carrier) (t s x : Str) (f : Option Str) (h : fields c = (some t, some s, x, f)) :
    ∃ P, B3Headers c t s P ∧ (P ↔ (x ∈ samplePropagate ∨ f = some "1".toList)) := by
  unfold fields at h
  split at h
  · rename_i hd hf
    rw [firstOr_some] at hf
    have hsp := joinS_splitC '-' hd
    have hnm := splitC_parts_not_mem '-' hd
    split at h
    · cases h
    · rename_i t' s' e
      cases h
      rw [e] at hsp hnm
      refine ⟨True, .single2 t s (hnm _ (by simp)) (hnm _ (by simp)) (show HeaderIs c singleKey (t ++ '-' :: s) by simpa [joinS, ← hsp] using hf), ?_⟩
      simp [samplePropagate]
    · rename_i t' s' x' e
      cases h
      rw [e] at hsp hnm
      refine ⟨_, .single3 t s x (hnm _ (by simp)) (hnm _ (by simp)) (hnm _ (by simp)) (show HeaderIs c singleKey (t ++ '-' :: (s ++ '-' :: x)) by simpa [joinS, ← hsp] using hf), ?_⟩
      rw [accept_iff]; simp
    · rename_i t' s' x' p e
      cases h
      rw [e] at hsp hnm
      refine ⟨_, .single4 t s x p (hnm _ (by simp)) (hnm _ (by simp)) (hnm _ (by simp)) (hnm _ (by simp)) (show HeaderIs c singleKey (t ++ '-' :: (s ++ '-' :: (x ++ '-' :: p))) by simpa [joinS, ← hsp] using hf), ?_⟩
      rw [accept_iff]; simp
    · cases h
  · rename_i hf
    rw [firstOr_none] at hf
    injection h with h1 h
    injection h with h2 h
    injection h with h3 h4
    rw [firstOr_some] at h1 h2
    refine ⟨_, .multi t s hf h1 h2, ?_⟩
    rw [accept_iff]
    rw [← h4, firstOr_some]
    apply or_congr _ Iff.rfl
    constructor
    · rintro ⟨y, hy, ha⟩
      have := (firstOr_some _ _ _).mpr hy
      rw [show firstOr c sampledKey = some y from this] at h3
      simp only [Option.getD_some] at h3
      rwa [← h3]
    · intro ha
      cases hy : firstOr c sampledKey with
      | none => rw [hy] at h3; simp only [Option.getD_none] at h3; subst h3; rcases ha with h | h | h | h <;> exact absurd h (by decide)
      | some y => rw [hy] at h3; simp only [Option.getD_some] at h3; subst h3; exact ⟨y, (firstOr_some _ _ _).mp hy, ha⟩

theorem fields_of_headers (c : Carrier) (t s : Str) (P : Prop) (h : B3Headers c t s P) :
    ∃ x f, fields c = (some t, some s, x, f) ∧ (P ↔ (x ∈ samplePropagate ∨ f = some "1".toList)) := by
  cases h with
  | single2 h1 h2 hh =>
    rw [← firstOr_some] at hh
    refine ⟨"1".toList, none, ?_, by simp [samplePropagate]⟩
    unfold fields
    have e : splitC '-' (t ++ '-' :: s) = [t, s] := by
      have := splitC_joinS '-' [t, s] (by simp [h1, h2]) (by simp)
      simpa [joinS] using this
    simp only [show firstOr c singleKey = _ from hh, e]
  | single3 x h1 h2 h3 hh =>
    rw [← firstOr_some] at hh
    refine ⟨x, none, ?_, by simp [accept_iff]⟩
    unfold fields
    have e : splitC '-' (t ++ '-' :: (s ++ '-' :: x)) = [t, s, x] := by
      have := splitC_joinS '-' [t, s, x] (by simp [h1, h2, h3]) (by simp)
      simpa [joinS] using this
    simp only [show firstOr c singleKey = _ from hh, e]
  | single4 x p h1 h2 h3 h4 hh =>
    rw [← firstOr_some] at hh
    refine ⟨x, none, ?_, by simp [accept_iff]⟩
    unfold fields
    have e : splitC '-' (t ++ '-' :: (s ++ '-' :: (x ++ '-' :: p))) = [t, s, x, p] := by
      have := splitC_joinS '-' [t, s, x, p] (by simp [h1, h2, h3, h4]) (by simp)
      simpa [joinS] using this
    simp only [show firstOr c singleKey = _ from hh, e]
  | multi h0 h1 h2 =>
    rw [← firstOr_none] at h0
    rw [← firstOr_some] at h1 h2
    have e : fields c = (some t, some s, (firstOr c sampledKey).getD "0".toList, firstOr c flagsKey) := by
      unfold fields
      simp only [show firstOr c singleKey = _ from h0, show firstOr c traceIdKey = _ from h1, show firstOr c spanIdKey = _ from h2]
    refine ⟨_, _, e, ?_⟩
    obtain ⟨P', hP, hiff⟩ := fields_some c t s _ _ e
    have : P' = ((∃ x, HeaderIs c "x-b3-sampled".toList x ∧ B3Accept x) ∨
        HeaderIs c "x-b3-flags".toList "1".toList) := by
      cases hP with
      | multi => rfl
      | single2 _ _ hh => exact absurd hh ((firstOr_none _ _).mp h0 _)
      | single3 _ _ _ _ hh => exact absurd hh ((firstOr_none _ _).mp h0 _)
      | single4 _ _ _ _ _ _ hh => exact absurd hh ((firstOr_none _ _).mp h0 _)
    rw [← this]; exact hiff

end B3
end Otel
