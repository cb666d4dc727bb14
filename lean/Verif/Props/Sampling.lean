import Verif.Model.Sampling
import Verif.Props.Span
import Mathlib.Tactic.Linarith
import Mathlib.Tactic.NormNum
import Mathlib.Algebra.Order.Floor.Ring
import Mathlib.Algebra.Order.Field.Rat
import Mathlib.Data.Nat.Count
/-!
# C21–C23: sampling and span creation
-/
namespace Otel
namespace Sampling

theorem round_bounds (q : ℚ) : (roundHalfEven q : ℚ) - 1/2 ≤ q ∧ q ≤ (roundHalfEven q : ℚ) + 1/2 := by
  have h1 := Int.floor_le q
  have h2 := Int.lt_floor_add_one q
  unfold roundHalfEven
  dsimp only
  split
  · constructor <;> linarith
  · split
    · push_cast; constructor <;> linarith
    · split
      · constructor <;> linarith
      · push_cast; constructor <;> linarith

/-- On a tie the result is even. -/
theorem round_tie (q : ℚ) (h : |q - roundHalfEven q| = 1/2) : roundHalfEven q % 2 = 0 := by
  have h1 := Int.floor_le q
  have h2 := Int.lt_floor_add_one q
  unfold roundHalfEven at h ⊢
  dsimp only at h ⊢
  split at h
  · rename_i h3
    rw [abs_of_nonneg (by linarith)] at h; linarith
  · rename_i h3
    split at h
    · rename_i h4
      push_cast at h
      rw [abs_of_nonpos (by linarith)] at h; linarith
    · rename_i h4
      rw [if_neg h3, if_neg h4]
      split
      · assumption
      · omega

theorem round_int (n : ℤ) : roundHalfEven (n : ℚ) = n := by
  unfold roundHalfEven
  simp

theorem round_mono (p q : ℚ) (h : p ≤ q) : roundHalfEven p ≤ roundHalfEven q := by
  have hf : ⌊p⌋ ≤ ⌊q⌋ := Int.floor_mono h
  by_cases he : ⌊p⌋ = ⌊q⌋
  · unfold roundHalfEven
    dsimp only
    rw [he]
    split
    · split
      · exact le_refl _
      · split
        · omega
        · split <;> omega
    · rename_i h1
      have h1' : ¬ (q - ⌊q⌋ < 1/2) := by linarith
      rw [if_neg h1']
      split
      · rename_i h2
        rw [if_pos (by linarith)]
      · by_cases h3 : 1/2 < q - ⌊q⌋
        · rw [if_pos h3]; split <;> omega
        · rw [if_neg h3]
  · have hlt : ⌊p⌋ + 1 ≤ ⌊q⌋ := by omega
    have b1 : roundHalfEven p ≤ ⌊p⌋ + 1 := by
      unfold roundHalfEven; dsimp only
      split; · omega
      split; · omega
      split <;> omega
    have b2 : ⌊q⌋ ≤ roundHalfEven q := by
      unfold roundHalfEven; dsimp only
      split; · omega
      split; · omega
      split <;> omega
    omega

theorem bound_range (r : ℚ) (h0 : 0 ≤ r) (h1 : r ≤ 1) : 0 ≤ boundForRate r ∧ boundForRate r ≤ 2 ^ 64 := by
  constructor
  · have := round_mono 0 (r * 2 ^ 64) (by positivity)
    rw [show (0 : ℚ) = ((0 : ℤ) : ℚ) by simp, round_int] at this
    exact this
  · have := round_mono (r * 2 ^ 64) (2 ^ 64) (by nlinarith)
    rw [show (2 ^ 64 : ℚ) = ((2 ^ 64 : ℤ) : ℚ) by push_cast; rfl, round_int] at this
    unfold boundForRate
    rw [show (2 ^ 64 : ℚ) = ((2 ^ 64 : ℤ) : ℚ) by push_cast; rfl]
    exact this

/-- **C21 (constructor).** Exactly the rates in [0, 1] are accepted. -/
theorem C21_accepts_iff (f : PyFloat) : (ratio f).isSome ↔ ∃ q : ℚ, f = .fin q ∧ 0 ≤ q ∧ q ≤ 1 := by
  cases f with
  | nan => simp [ratio]
  | inf n => simp [ratio]
  | fin q =>
    simp only [ratio]
    split
    · rename_i h
      simp only [Option.isSome_none, Bool.false_eq_true, PyFloat.fin.injEq, exists_eq_left', false_iff]
      rintro ⟨h0, h1⟩
      rcases h with h | h <;> linarith
    · rename_i h
      rw [not_or] at h
      simp only [Option.isSome_some, PyFloat.fin.injEq, exists_eq_left', true_iff]
      exact ⟨by linarith [h.1], by linarith [h.2]⟩

/-- **C21 (threshold).** The decision depends on nothing but the low 64 bits of the trace id: it samples exactly the
ids below the rate's share of `2^64`, rounded to the nearest integer, a tie to the even one. -/
theorem C21_threshold (rate : ℚ) (S : Sampler) (h : ratio (.fin rate) = some S) :
    ∃ bound : ℤ, 0 ≤ bound ∧ bound ≤ 2 ^ 64 ∧ |rate * 2 ^ 64 - bound| ≤ 1/2 ∧
      (|rate * 2 ^ 64 - bound| = 1/2 → bound % 2 = 0) ∧
      ∀ q, (S q).decision = if q.traceId % 2 ^ 64 < bound then .recordAndSample else .drop := by
  simp only [ratio] at h
  split at h
  · simp at h
  · rename_i hr
    rw [not_or] at hr
    simp only [Option.some.injEq] at h
    subst h
    obtain ⟨b1, b2⟩ := bound_range rate (by linarith [hr.1]) (by linarith [hr.2])
    obtain ⟨r1, r2⟩ := round_bounds (rate * 2 ^ 64)
    refine ⟨boundForRate rate, b1, b2, ?_, round_tie _, fun q => rfl⟩
    rw [abs_le]
    unfold boundForRate
    constructor <;> linarith

/-- **C21 (deterministic).** Two samplers of the same rate agree on every two queries with equal trace ids. -/
theorem C21_deterministic (f : PyFloat) (S S' : Sampler) (h : ratio f = some S) (h' : ratio f = some S')
    (q q' : Query) (hid : q.traceId = q'.traceId) : (S q).decision = (S' q').decision := by
  rw [h] at h'
  simp only [Option.some.injEq] at h'
  subst h'
  cases f with
  | nan => simp [ratio] at h
  | inf n => simp [ratio] at h
  | fin r =>
    obtain ⟨b, _, _, _, _, hb⟩ := C21_threshold r S h
    rw [hb, hb, hid]

/-- **C21 (monotone).** A trace sampled at a rate is sampled at every higher rate. -/
theorem C21_monotone (r r' : ℚ) (S S' : Sampler) (h : ratio (.fin r) = some S) (h' : ratio (.fin r') = some S')
    (hr : r ≤ r') (q q' : Query) (hid : q.traceId = q'.traceId) (hs : (S q).decision.isSampled = true) :
    (S' q').decision.isSampled = true := by
  simp only [ratio] at h h'
  split at h
  · simp at h
  · split at h'
    · simp at h'
    · simp only [Option.some.injEq] at h h'
      subst h; subst h'
      have hb : boundForRate r ≤ boundForRate r' := round_mono _ _ (by nlinarith)
      simp only [ratioWithBound] at hs ⊢
      split at hs
      · rename_i hlt
        rw [if_pos (by rw [← hid]; omega)]
        rfl
      · simp [Decision.isSampled] at hs

/-- **C21 (extremes).** Rate 0 samples nothing, rate 1 everything. -/
theorem C21_extremes : (∃ S, ratio (.fin 0) = some S ∧ ∀ q, (S q).decision = .drop) ∧
    (∃ S, ratio (.fin 1) = some S ∧ ∀ q, (S q).decision = .recordAndSample) := by
  constructor
  · refine ⟨ratioWithBound (boundForRate 0), by simp [ratio], fun q => ?_⟩
    have : boundForRate 0 = 0 := by
      unfold boundForRate
      rw [show (0 * 2 ^ 64 : ℚ) = ((0 : ℤ) : ℚ) by norm_num, round_int]
    simp only [ratioWithBound, this]
    have := Int.emod_nonneg q.traceId (show (2 ^ 64 : ℤ) ≠ 0 by norm_num)
    rw [if_neg (by omega)]
  · refine ⟨ratioWithBound (boundForRate 1), by simp [ratio], fun q => ?_⟩
    have : boundForRate 1 = 2 ^ 64 := by
      unfold boundForRate
      rw [show (1 * 2 ^ 64 : ℚ) = ((2 ^ 64 : ℤ) : ℚ) by push_cast; ring, round_int]
    simp only [ratioWithBound, this]
    have := Int.emod_lt_of_pos q.traceId (show (0 : ℤ) < 2 ^ 64 by norm_num)
    rw [if_pos this]

/-- **C21 (count).** Among the `2^64` values of the low 64 bits, exactly `bound` are sampled, and `bound` is the
rate's share within a half. -/
theorem C21_count (rate : ℚ) (S : Sampler) (h : ratio (.fin rate) = some S) (q : Query) :
    |rate * 2 ^ 64 - (Nat.count (fun n : ℕ => (S { q with traceId := (n : ℤ) }).decision = .recordAndSample) (2 ^ 64) : ℕ)| ≤ 1/2 := by
  obtain ⟨b, h0, h1, h2, _, h3⟩ := C21_threshold rate S h
  have hc : ∀ N : ℕ, N ≤ 2 ^ 64 →
      Nat.count (fun n : ℕ => (S { q with traceId := (n : ℤ) }).decision = .recordAndSample) N = min N b.toNat := by
    intro N
    induction N with
    | zero => intro _; simp
    | succ N ih =>
      intro hN
      rw [Nat.count_succ, ih (by omega)]
      have hm : (N : ℤ) % 2 ^ 64 = N := Int.emod_eq_of_lt (by omega) (by exact_mod_cast hN)
      have : ((S { q with traceId := (N : ℤ) }).decision = .recordAndSample) ↔ (N : ℤ) < b := by
        rw [h3]; simp only [hm]; split <;> simp_all
      simp only [this]
      split <;> omega
  rw [hc (2 ^ 64) (le_refl _)]
  have : ((min (2 ^ 64) b.toNat : ℕ) : ℚ) = (b : ℚ) := by
    have : ((min (2 ^ 64) b.toNat : ℕ) : ℤ) = b := by
      have h1' : b.toNat ≤ 2 ^ 64 := by
        have : (b.toNat : ℤ) ≤ 2 ^ 64 := by omega
        exact_mod_cast this
      rw [min_eq_right h1']; omega
    exact_mod_cast this
  rw [this]; exact h2

/-- The attributes a dropped span gets are none; the trace state is the valid parent's. -/
theorem C21_result (f : PyFloat) (S : Sampler) (h : ratio f = some S) (q : Query) :
    (S q).attributes = (if (S q).decision = .drop then [] else q.attributes) ∧
    (S q).traceState = (if q.ctx.currentSpan.isValid then some q.ctx.currentSpan.traceState else none) := by
  cases f with
  | nan => simp [ratio] at h
  | inf n => simp [ratio] at h
  | fin r =>
    simp only [ratio] at h
    split at h
    · simp at h
    · simp only [Option.some.injEq] at h; subst h; exact ⟨rfl, rfl⟩

example : ∃ S, ratio (.fin (1/2)) = some S := by
  have := (C21_accepts_iff (.fin (1/2))).mpr ⟨1/2, rfl, by norm_num, by norm_num⟩
  exact Option.isSome_iff_exists.mp this

/-! ## ParentBased -/

/-- **C22 (delegation).** With no valid parent the root sampler answers; otherwise exactly the delegate for the
parent's (remote, sampled) pair. -/
theorem C22_delegates (root rs rn ls ln : Sampler) (q : Query) :
    (q.ctx.currentSpan.isValid = false → parentBased root rs rn ls ln q = root q) ∧
    (q.ctx.currentSpan.isValid = true → q.ctx.currentSpan.isRemote = true → q.ctx.currentSpan.sampled = true →
      parentBased root rs rn ls ln q = rs q) ∧
    (q.ctx.currentSpan.isValid = true → q.ctx.currentSpan.isRemote = true → q.ctx.currentSpan.sampled = false →
      parentBased root rs rn ls ln q = rn q) ∧
    (q.ctx.currentSpan.isValid = true → q.ctx.currentSpan.isRemote = false → q.ctx.currentSpan.sampled = true →
      parentBased root rs rn ls ln q = ls q) ∧
    (q.ctx.currentSpan.isValid = true → q.ctx.currentSpan.isRemote = false → q.ctx.currentSpan.sampled = false →
      parentBased root rs rn ls ln q = ln q) := by
  simp only [parentBased]
  refine ⟨?_, ?_, ?_, ?_, ?_⟩ <;> intros <;> simp_all

/-- **C22 (default).** With the default delegates the decision for a child equals the parent's sampled flag. -/
theorem C22_default_follows_parent (root : Sampler) (q : Query) (hv : q.ctx.currentSpan.isValid = true) :
    (parentBasedDefault root q).decision = if q.ctx.currentSpan.sampled then .recordAndSample else .drop := by
  simp only [parentBasedDefault, parentBased, hv, if_true, alwaysOn, alwaysOff, static]
  cases q.ctx.currentSpan.isRemote <;> cases q.ctx.currentSpan.sampled <;> rfl

theorem genId_spec (l : List Nat) (n : Nat) (r : List Nat) (h : genId l = some (n, r)) :
    n ≠ 0 ∧ ∃ z, l = List.replicate z 0 ++ n :: r := by
  induction l with
  | nil => simp [genId] at h
  | cons a l ih =>
    cases a with
    | zero =>
      obtain ⟨h1, z, h2⟩ := ih h
      exact ⟨h1, z + 1, by rw [h2]; rfl⟩
    | succ a =>
      simp only [genId, Option.some.injEq, Prod.mk.injEq] at h
      obtain ⟨rfl, rfl⟩ := h
      exact ⟨by simp, 0, rfl⟩

/-- Everything `start_span` determines, in one place. -/
theorem startSpan_spec (sampler : Sampler) (lim : SpanLimits) (td sd : List Nat) (ctx : Ctx) (name : Str)
    (kind : Nat) (attributes : Span.RawAttrs) (links : RawLinks) (time : Int) (out : Started)
    (h : startSpan sampler lim td sd ctx name kind attributes links time = some out) :
    ∃ (traceId : Int) (sid : Nat) (rest : List Nat), genId sd = some (sid, rest) ∧
      (ctx.currentSpan.isValid = true → traceId = ctx.currentSpan.traceId) ∧
      (ctx.currentSpan.isValid = false → ∃ (t : Nat) (r : List Nat), genId td = some (t, r) ∧ traceId = t) ∧
      (let res := sampler ⟨ctx, traceId, name, kind, attributes, links⟩
       let sc : SpanContext := ⟨traceId, sid, false, if res.decision.isSampled then 1 else 0, res.traceState.getD []⟩
       out = if res.decision.isRecording then
           .recording ([Span.Step.start time, .notifyStart].foldl Span.step
              (Span.init lim name sc (if ctx.currentSpan.isValid then some ctx.currentSpan else none) res.attributes [] links))
         else .nonRecording sc) := by
  unfold startSpan at h
  dsimp only at h
  cases hv : ctx.currentSpan.isValid with
  | true =>
    simp only [hv, if_true] at h
    rw [Option.bind_some] at h
    cases hs : genId sd with
    | none => rw [hs] at h; simp at h
    | some x =>
      obtain ⟨sid, rest⟩ := x
      rw [hs, Option.bind_some] at h
      refine ⟨ctx.currentSpan.traceId, sid, rest, rfl, fun _ => rfl, by simp, ?_⟩
      dsimp only
      split at h <;> rename_i hr
      · rw [if_pos hr]; simpa using h.symm
      · rw [if_neg hr]; simpa using h.symm
  | false =>
    simp only [hv, Bool.false_eq_true, if_false] at h
    cases ht : genId td with
    | none => rw [ht] at h; simp at h
    | some y =>
      obtain ⟨t, r⟩ := y
      rw [ht, Option.map_some, Option.bind_some] at h
      cases hs : genId sd with
      | none => rw [hs] at h; simp at h
      | some x =>
        obtain ⟨sid, rest⟩ := x
        rw [hs, Option.bind_some] at h
        refine ⟨t, sid, rest, rfl, by simp, fun _ => ⟨t, r, rfl, rfl⟩, ?_⟩
        dsimp only at h ⊢
        split at h <;> rename_i hr
        · rw [if_pos hr]; simpa using h.symm
        · rw [if_neg hr]; simpa using h.symm

theorem started_ctx (d : Decision) (lim : SpanLimits) (name : Str) (sc : SpanContext) (parent : Option SpanContext)
    (attrs : Span.RawAttrs) (links : RawLinks) (time : Int) :
    (if d.isRecording then Started.recording ([Span.Step.start time, .notifyStart].foldl Span.step
      (Span.init lim name sc parent attrs [] links)) else .nonRecording sc).ctx = sc := by
  split
  · exact (Span.C17_identity_fixed lim name sc parent attrs [] links [Span.Step.start time, .notifyStart]).1
  · rfl

/-- **C23 (identity of a child).** A span started under a valid parent has the parent's trace id and, if it
records, that parent. -/
theorem C23_child (sampler : Sampler) (lim : SpanLimits) (td sd : List Nat) (ctx : Ctx) (name : Str)
    (kind : Nat) (attributes : Span.RawAttrs) (links : RawLinks) (time : Int) (out : Started)
    (h : startSpan sampler lim td sd ctx name kind attributes links time = some out)
    (hv : ctx.currentSpan.isValid = true) :
    out.ctx.traceId = ctx.currentSpan.traceId ∧ ∀ s, out = .recording s → s.data.parent = some ctx.currentSpan := by
  obtain ⟨t, sid, rest, h1, h2, h3, h4⟩ := startSpan_spec _ _ _ _ _ _ _ _ _ _ _ h
  dsimp only at h4
  refine ⟨?_, ?_⟩
  · rw [h4, started_ctx]; exact h2 hv
  · intro s hs
    rw [h4] at hs
    split at hs
    · simp only [Started.recording.injEq] at hs
      rw [← hs]
      exact (Span.C17_identity_fixed lim name _ (some ctx.currentSpan) _ [] links
        [Span.Step.start time, .notifyStart]).2
    · simp at hs

/-- **C23 (identity of a root).** Without a valid parent the trace id is the first non-zero random draw and there
is no parent. -/
theorem C23_root (sampler : Sampler) (lim : SpanLimits) (td sd : List Nat) (ctx : Ctx) (name : Str)
    (kind : Nat) (attributes : Span.RawAttrs) (links : RawLinks) (time : Int) (out : Started)
    (h : startSpan sampler lim td sd ctx name kind attributes links time = some out)
    (hv : ctx.currentSpan.isValid = false) :
    (∃ (z t : Nat) (r : List Nat), td = List.replicate z 0 ++ t :: r ∧ t ≠ 0 ∧ out.ctx.traceId = t) ∧
    ∀ s, out = .recording s → s.data.parent = none := by
  obtain ⟨t, sid, rest, h1, h2, h3, h4⟩ := startSpan_spec _ _ _ _ _ _ _ _ _ _ _ h
  dsimp only at h4
  obtain ⟨t', r, g1, g2⟩ := h3 hv
  obtain ⟨n1, z, n2⟩ := genId_spec _ _ _ g1
  refine ⟨⟨z, t', r, n2, n1, ?_⟩, ?_⟩
  · rw [h4, started_ctx]; exact g2
  · intro s hs
    rw [h4] at hs
    split at hs
    · simp only [Started.recording.injEq] at hs
      rw [← hs]
      exact ((Span.C17_identity_fixed lim name _ (if ctx.currentSpan.isValid then some ctx.currentSpan else none) _ []
        links [Span.Step.start time, .notifyStart]).2).trans
        (if_neg (by rw [hv]; simp))
    · simp at hs

/-- **C23 (fresh ids are valid).** With draws of 128 and 64 bits the new span context is always valid and local, and
the span id is the first non-zero draw. -/
theorem C23_valid (sampler : Sampler) (lim : SpanLimits) (td sd : List Nat) (ctx : Ctx) (name : Str)
    (kind : Nat) (attributes : Span.RawAttrs) (links : RawLinks) (time : Int) (out : Started)
    (htd : ∀ n ∈ td, n < 2 ^ 128) (hsd : ∀ n ∈ sd, n < 2 ^ 64)
    (h : startSpan sampler lim td sd ctx name kind attributes links time = some out) :
    out.ctx.isValid = true ∧ out.ctx.isRemote = false ∧
    ∃ (z s : Nat) (r : List Nat), sd = List.replicate z 0 ++ s :: r ∧ s ≠ 0 ∧ out.ctx.spanId = s := by
  obtain ⟨t, sid, rest, h1, h2, h3, h4⟩ := startSpan_spec _ _ _ _ _ _ _ _ _ _ _ h
  dsimp only at h4
  obtain ⟨n1, z, n2⟩ := genId_spec _ _ _ h1
  have hsid : sid < 2 ^ 64 := hsd sid (by rw [n2]; simp)
  have ht : 0 < t ∧ t ≤ 2 ^ 128 - 1 := by
    cases hv : ctx.currentSpan.isValid with
    | true =>
      rw [h2 hv]
      simp only [SpanContext.isValid, Bool.and_eq_true, decide_eq_true_eq] at hv
      exact ⟨hv.1.1.1, hv.1.1.2⟩
    | false =>
      obtain ⟨t', r, g1, g2⟩ := h3 hv
      obtain ⟨m1, z', m2⟩ := genId_spec _ _ _ g1
      have hlt : t' < 2 ^ 128 := htd t' (by rw [m2]; simp)
      have hlt' : (t' : Int) < 2 ^ 128 := by exact_mod_cast hlt
      rw [g2]; omega
  have hs' : (sid : Int) < 2 ^ 64 := by exact_mod_cast hsid
  refine ⟨?_, ?_, z, sid, rest, n2, n1, ?_⟩
  · rw [h4, started_ctx]
    simp only [SpanContext.isValid, Bool.and_eq_true, decide_eq_true_eq]
    omega
  · rw [h4, started_ctx]
  · rw [h4, started_ctx]

/-- **C23 (flags, recording, attributes).** The sampled flag is exactly the sampler's RECORD_AND_SAMPLE (no other
bit is set), the span records exactly when the sampler says other than DROP, and a recording span starts with the
sampler's attributes (bounded), the given name and links, started, not ended, status UNSET, and with one
`on_start`. -/
theorem C23_sampler_result (sampler : Sampler) (lim : SpanLimits) (td sd : List Nat) (ctx : Ctx) (name : Str)
    (kind : Nat) (attributes : Span.RawAttrs) (links : RawLinks) (time : Int) (out : Started)
    (h : startSpan sampler lim td sd ctx name kind attributes links time = some out) :
    let res := sampler ⟨ctx, out.ctx.traceId, name, kind, attributes, links⟩
    out.ctx.flags = (if res.decision = .recordAndSample then 1 else 0) ∧
    out.ctx.traceState = res.traceState.getD [] ∧
    (match (generalizing := false) out with
      | .nonRecording _ => res.decision = .drop
      | .recording s => res.decision ≠ .drop ∧ s.data.name = name ∧ s.data.startTime = some time ∧
        s.data.endTime = none ∧ s.data.status = ⟨.unset, none⟩ ∧ s.data.events.items = [] ∧
        s.data.attrs.d = Spec.newest lim.maxSpanAttributes (Spec.lastAssignments
          (res.attributes.filterMap (BAttrs.stored lim.maxSpanAttributeLength))) ∧
        s.data.links.items = Spec.newest lim.maxLinks ((links.filterMap fun x => x.bind Spec.validLink).map
          fun e => Span.mkLink lim e.1 e.2) ∧
        s.log = [.started]) := by
  obtain ⟨t, sid, rest, h1, h2, h3, h4⟩ := startSpan_spec _ _ _ _ _ _ _ _ _ _ _ h
  dsimp only at h4
  have hc := congrArg Started.ctx h4
  rw [started_ctx] at hc
  dsimp only
  rw [hc]
  dsimp only
  generalize hres : sampler ⟨ctx, t, name, kind, attributes, links⟩ = res at h4
  refine ⟨?_, rfl, ?_⟩
  · cases res.decision <;> simp [Decision.isSampled]
  · cases hd : res.decision with
    | drop => rw [hd] at h4; simp only [Decision.isRecording, Bool.false_eq_true, if_false] at h4; rw [h4]
    | recordOnly =>
      rw [hd] at h4; simp only [Decision.isRecording, if_true] at h4; rw [h4]
      refine ⟨by simp, rfl, rfl, rfl, rfl, rfl, ?_, ?_, rfl⟩
      · refine Eq.trans (Span.C19_attributes lim name _ (if ctx.currentSpan.isValid then some ctx.currentSpan else none)
          res.attributes [] links [Span.Step.start time, .notifyStart]) ?_
        simp [Spec.recorded, Spec.givenAttributes]
      · refine Eq.trans (Span.C19_links lim name _ (if ctx.currentSpan.isValid then some ctx.currentSpan else none)
          res.attributes [] links [Span.Step.start time, .notifyStart]).1 ?_
        simp [Spec.recorded, Spec.givenLinks]
    | recordAndSample =>
      rw [hd] at h4; simp only [Decision.isRecording, if_true] at h4; rw [h4]
      refine ⟨by simp, rfl, rfl, rfl, rfl, rfl, ?_, ?_, rfl⟩
      · refine Eq.trans (Span.C19_attributes lim name _ (if ctx.currentSpan.isValid then some ctx.currentSpan else none)
          res.attributes [] links [Span.Step.start time, .notifyStart]) ?_
        simp [Spec.recorded, Spec.givenAttributes]
      · refine Eq.trans (Span.C19_links lim name _ (if ctx.currentSpan.isValid then some ctx.currentSpan else none)
          res.attributes [] links [Span.Step.start time, .notifyStart]).1 ?_
        simp [Spec.recorded, Spec.givenLinks]

/-- A chain of descendants: each span is started under the previous one, which reached it locally or over the wire
(a propagator keeps ids and flags and marks it remote). -/
inductive Descends (root : Sampler) : SpanContext → SpanContext → Prop
  | refl (sc) : Descends root sc sc
  | child (a b : SpanContext) (remote : Bool) (lim : SpanLimits) (td sd : List Nat) (ctx : Ctx) (name : Str)
      (kind : Nat) (attributes : Span.RawAttrs) (links : RawLinks) (time : Int) (out : Started) :
      Descends root a b → (∀ n ∈ td, n < 2 ^ 128) → (∀ n ∈ sd, n < 2 ^ 64) →
      ctx.currentSpan = { b with isRemote := remote } →
      startSpan (parentBasedDefault root) lim td sd ctx name kind attributes links time = some out →
      Descends root a out.ctx

/-- **C22 (a trace is sampled consistently).** Along any chain of descendants, local or remote, every span has the
trace id and the sampled flag of the first one. -/
theorem C22_consistent_chain (root : Sampler) (a b : SpanContext) (ha : a.isValid = true) (h : Descends root a b) :
    b.isValid = true ∧ b.traceId = a.traceId ∧ b.sampled = a.sampled := by
  induction h with
  | refl => exact ⟨ha, rfl, rfl⟩
  | child b remote lim td sd ctx name kind attributes links time out _ htd hsd hc hs ih =>
    obtain ⟨i1, i2, i3⟩ := ih
    have hv : ctx.currentSpan.isValid = true := by rw [hc]; exact i1
    refine ⟨(C23_valid _ _ _ _ _ _ _ _ _ _ _ htd hsd hs).1, ?_, ?_⟩
    · rw [(C23_child _ _ _ _ _ _ _ _ _ _ _ hs hv).1, hc]; exact i2
    · have h1 := (C23_sampler_result _ _ _ _ _ _ _ _ _ _ _ hs).1
      rw [C22_default_follows_parent root _ hv, hc] at h1
      have : ({ b with isRemote := remote } : SpanContext).sampled = b.sampled := rfl
      rw [this] at h1
      rw [← i3]
      cases hb : b.sampled
      · rw [hb] at h1; simp at h1
        simp [SpanContext.sampled, h1]
      · rw [hb] at h1; simp at h1
        simp [SpanContext.sampled, h1]

example : ∃ out, startSpan (parentBasedDefault alwaysOn) Span.exLim [0, 7] [0, 0, 9] [] ['n'] 0 [] [] 3 = some out ∧
    out.ctx = ⟨7, 9, false, 1, []⟩ := ⟨_, rfl, rfl⟩

/-! ## Environment -/

/-- **C58 (names).** The sampler named by the environment: a known name (any case) gives that sampler, anything else
(or nothing) `parentbased_always_on`. -/
theorem C58_names (floatOf : Str → Option PyFloat) (arg : Option Str) (n : Str) :
    (EnvHeaders.lowerAscii n = "always_on".toList → fromEnv floatOf (some n) arg = some alwaysOn) ∧
    (EnvHeaders.lowerAscii n = "always_off".toList → fromEnv floatOf (some n) arg = some alwaysOff) ∧
    (EnvHeaders.lowerAscii n = "parentbased_always_on".toList → fromEnv floatOf (some n) arg = some (parentBasedDefault alwaysOn)) ∧
    (EnvHeaders.lowerAscii n = "parentbased_always_off".toList → fromEnv floatOf (some n) arg = some (parentBasedDefault alwaysOff)) ∧
    ((EnvHeaders.lowerAscii n ∉ ["always_on".toList, "always_off".toList, "parentbased_always_on".toList,
        "parentbased_always_off".toList, "traceidratio".toList, "parentbased_traceidratio".toList]) →
      fromEnv floatOf (some n) arg = some (parentBasedDefault alwaysOn)) ∧
    fromEnv floatOf none arg = some (parentBasedDefault alwaysOn) := by
  unfold fromEnv
  dsimp only [Option.getD_some]
  refine ⟨?_, ?_, ?_, ?_, ?_, rfl⟩
  · intro h; rw [h]; rfl
  · intro h; rw [h]; rfl
  · intro h; rw [h]; rfl
  · intro h; rw [h]; rfl
  · intro h
    simp only [List.mem_cons, List.not_mem_nil, or_false, not_or] at h
    rw [if_neg h.1, if_neg h.2.1, if_neg h.2.2.2.1, if_neg h.2.2.2.2.1, if_neg h.2.2.2.2.2]

/-- **C58 (ratio).** `traceidratio` uses the argument as rate, or 1 when it is absent or not a number. -/
theorem C58_ratio_partial (floatOf : Str → Option PyFloat) (arg : Option Str) (n : Str)
    (hn : EnvHeaders.lowerAscii n = "traceidratio".toList) :
    (arg.bind floatOf = none → fromEnv floatOf (some n) arg = ratio (.fin 1)) ∧
    (∀ q : ℚ, arg.bind floatOf = some (.fin q) → 0 ≤ q → q ≤ 1 →
      fromEnv floatOf (some n) arg = some (ratioWithBound (boundForRate q))) := by
  unfold fromEnv
  dsimp only [Option.getD_some]
  rw [hn]
  refine ⟨fun h => ?_, fun q h h0 h1 => ?_⟩
  · rw [h]; rfl
  · rw [h]
    show ratio (.fin q) = _
    simp only [ratio]
    rw [if_neg]
    rw [not_or]; constructor <;> linarith

/-- **C58 (parent-based ratio).** `parentbased_traceidratio` follows the parent, and samples roots with the rate as above. -/
theorem C58_parentbased_ratio (floatOf : Str → Option PyFloat) (arg : Option Str) (n : Str)
    (hn : EnvHeaders.lowerAscii n = "parentbased_traceidratio".toList) :
    (arg.bind floatOf = none → fromEnv floatOf (some n) arg = some (parentBasedDefault (ratioWithBound (2 ^ 64)))) ∧
    (∀ q : ℚ, arg.bind floatOf = some (.fin q) → 0 ≤ q → q ≤ 1 →
      fromEnv floatOf (some n) arg = some (parentBasedDefault (ratioWithBound (boundForRate q)))) := by
  unfold fromEnv
  dsimp only [Option.getD_some]
  rw [hn]
  have hb : boundForRate 1 = 2 ^ 64 := by
    have := round_int (2 ^ 64)
    unfold boundForRate
    rw [one_mul]
    exact_mod_cast this
  refine ⟨fun h => ?_, fun q h h0 h1 => ?_⟩
  · rw [h, ← hb]
    show (ratio (.fin 1)).map parentBasedDefault = _
    simp [ratio]
  · rw [h]
    show (ratio (.fin q)).map parentBasedDefault = _
    simp only [ratio]
    rw [if_neg]
    · rfl
    · rw [not_or]; constructor <;> linarith

/-- **C58 (exactly when it fails).** Choosing the sampler raises exactly for a ratio sampler whose argument is a number that is not in [0, 1]. -/
theorem C58_raises_iff (floatOf : Str → Option PyFloat) (name arg : Option Str) :
    fromEnv floatOf name arg = none ↔ (∃ n, name = some n ∧
      (EnvHeaders.lowerAscii n = "traceidratio".toList ∨ EnvHeaders.lowerAscii n = "parentbased_traceidratio".toList)) ∧
      ∃ a f, arg = some a ∧ floatOf a = some f ∧ ¬ ∃ q : ℚ, f = .fin q ∧ 0 ≤ q ∧ q ≤ 1 := by
  have hr : ratio ((arg.bind floatOf).getD (.fin 1)) = none ↔ ∃ a f, arg = some a ∧ floatOf a = some f ∧ ¬ ∃ q : ℚ, f = .fin q ∧ 0 ≤ q ∧ q ≤ 1 := by
    have key := C21_accepts_iff ((arg.bind floatOf).getD (.fin 1))
    rw [← Option.not_isSome_iff_eq_none, key]
    cases arg with
    | none => simp
    | some a =>
      cases hf : floatOf a with
      | none => simp [hf]
      | some f => simp [hf]
  cases name with
  | none =>
    constructor
    · intro h
      have e : fromEnv floatOf none arg = some (parentBasedDefault alwaysOn) := (C58_names floatOf arg []).2.2.2.2.2
      rw [e] at h; cases h
    · rintro ⟨⟨n, h, _⟩, _⟩; cases h
  | some n =>
    unfold fromEnv
    dsimp only [Option.getD_some]
    generalize hm : EnvHeaders.lowerAscii n = m
    by_cases h1 : m = "traceidratio".toList
    · subst h1
      show ratio _ = none ↔ _
      rw [hr]
      simp only [Option.some.injEq]
      constructor
      · intro h; exact ⟨⟨n, rfl, .inl hm⟩, h⟩
      · intro h; exact h.2
    · by_cases h2 : m = "parentbased_traceidratio".toList
      · subst h2
        show (ratio _).map _ = none ↔ _
        rw [Option.map_eq_none_iff, hr]
        simp only [Option.some.injEq]
        constructor
        · intro h; exact ⟨⟨n, rfl, .inr hm⟩, h⟩
        · intro h; exact h.2
      · rw [if_neg h1, if_neg h2]
        constructor
        · intro h
          split at h
          · cases h
          split at h
          · cases h
          split at h <;> cases h
        · rintro ⟨⟨_, e, h | h⟩, _⟩
          · injection e with e; subst e; exact absurd (hm.symm.trans h) h1
          · injection e with e; subst e; exact absurd (hm.symm.trans h) h2

/-- **C58 violated.** A numeric argument outside [0, 1] (or `nan`) is not ignored: choosing the sampler raises, so
the tracer provider cannot be constructed. -/
theorem C58_out_of_range_violated (floatOf : Str → Option PyFloat) (a : Str)
    (h : floatOf a = some (.fin 2) ∨ floatOf a = some .nan) :
    fromEnv floatOf (some "traceidratio".toList) (some a) = none := by
  have e : fromEnv floatOf (some "traceidratio".toList) (some a) = ratio ((floatOf a).getD (.fin 1)) := rfl
  rw [e]
  rcases h with h | h
  · rw [h]; simp [ratio]
  · rw [h]; rfl

/-- **C21** The built-in samplers give a dropped span no attributes and any other span exactly the given ones, and pass on the
parent's trace state (none without a valid parent). -/
theorem C21_builtin_result (S : Sampler) (hS : S = alwaysOn ∨ S = alwaysOff ∨ ∃ f, ratio f = some S) (q : Query) :
    ((S q).decision = .drop → (S q).attributes = []) ∧ ((S q).decision ≠ .drop → (S q).attributes = q.attributes) ∧
    (q.ctx.currentSpan.isValid = true → (S q).traceState = some q.ctx.currentSpan.traceState) ∧
    (q.ctx.currentSpan.isValid = false → (S q).traceState = none) := by
  rcases hS with rfl | rfl | ⟨f, hf⟩
  · simp [alwaysOn, static, parentTraceState]
  · simp [alwaysOff, static, parentTraceState]
  · have : ∃ b, S = ratioWithBound b := by
      cases f with
      | nan => simp [ratio] at hf
      | inf n => simp [ratio] at hf
      | fin r =>
        simp only [ratio] at hf
        split at hf
        · cases hf
        · exact ⟨_, (Option.some.inj hf).symm⟩
    obtain ⟨b, rfl⟩ := this
    simp only [ratioWithBound, parentTraceState]
    refine ⟨fun h => if_pos h, fun h => if_neg h, fun h => if_pos h, fun h => if_neg (by simp [h])⟩

end Sampling
end Otel
