import Verif.Lemmas.TraceContext
import Verif.Props.TraceState
/-!
# C04, C05: the W3C trace-context propagator
-/
namespace Otel
namespace TraceContext
open Spec

/-- The span context `extract` must install for accepted fields: the numeric values of the fields,
remote, with the trace state parsed from the `tracestate` headers. -/
def extracted (carrier : Carrier) (tid sid fl : Str) : SpanContext :=
  { traceId := hexVal tid, spanId := hexVal sid, isRemote := true, flags := hexVal fl,
    traceState := match carrier.get tracestateName with
      | none => []
      | some hs => TraceState.fromHeader hs }

/-- **C05 (acceptance).** If the first `traceparent` header is acceptable, `extract` installs exactly
the span context it denotes and changes nothing else. -/
theorem C05_extract_accepts (carrier : Carrier) (ctx : Ctx) (h : Str) (more : List Str)
    (hc : carrier.get traceparentName = some (h :: more))
    (ver tid sid fl : Str) (ha : AcceptableTraceparent h ver tid sid fl) :
    extract carrier ctx = ctx.setSpan (extracted carrier tid sid fl) := by
  obtain ⟨ext, ht, hff, h00, hz1, hz2⟩ := ha
  obtain ⟨r, hm, hr⟩ := match_ok _ _ _ _ _ _ ht
  simp only [extract, hc, hm, hz1, hz2, or_self, if_false, hff]
  rw [if_neg (by rintro ⟨h1, h2⟩; exact h2 (hr (h00 h1)))]
  rfl

/-- **C05 (rejection).** In every other case (no header, or a first header that is not acceptable)
`extract` returns the context unchanged. -/
theorem C05_extract_rejects (carrier : Carrier) (ctx : Ctx)
    (hrej : ∀ h more ver tid sid fl, carrier.get traceparentName = some (h :: more) →
      ¬ AcceptableTraceparent h ver tid sid fl) :
    extract carrier ctx = ctx := by
  unfold extract
  split
  · rfl
  · rfl
  · rename_i h more hc
    split
    · rfl
    · rename_i g hm
      have ht := match_sound _ _ hm
      split; · rfl
      rename_i hz
      split; · rfl
      rename_i h00
      split; · rfl
      rename_i hff
      exfalso
      refine hrej h more g.version g.traceId g.spanId g.flags hc ⟨g.rest, ht, hff, ?_, ?_, ?_⟩
      · intro hv
        rcases Classical.em (g.rest = []) with hr | hr
        · exact hr
        · exact absurd ⟨hv, hr⟩ h00
      · exact fun h1 => hz (Or.inl h1)
      · exact fun h1 => hz (Or.inr h1)

/-- **C05 (validity).** Whatever the headers, the current span after `extract` is either the one
before, or a valid remote one with one byte of flags. -/
theorem C05_extract_valid_or_unchanged (carrier : Carrier) (ctx : Ctx) :
    extract carrier ctx = ctx ∨
    ((extract carrier ctx).currentSpan.isValid = true ∧ (extract carrier ctx).currentSpan.isRemote = true ∧
      (extract carrier ctx).currentSpan.flags < 256 ∧
      TSWellFormed (extract carrier ctx).currentSpan.traceState ∧
      ∀ k, k ≠ CtxKey.span → (extract carrier ctx).getValue k = ctx.getValue k) := by
  rcases Classical.em (∃ h more ver tid sid fl, carrier.get traceparentName = some (h :: more) ∧
    AcceptableTraceparent h ver tid sid fl) with ⟨h, more, ver, tid, sid, fl, hc, ha⟩ | hno
  · right
    rw [C05_extract_accepts carrier ctx h more hc ver tid sid fl ha, currentSpan_setSpan]
    obtain ⟨ext, ht, _, _, hz1, hz2⟩ := ha
    obtain ⟨pre, post, _, _, hv, htid, hsid, hfl, _, _⟩ := ht
    have p1 := hex_pos 32 tid htid hz1
    have p2 := hex_pos 16 sid hsid hz2
    have p3 := hexVal_lt fl
    rw [hfl.1] at p3
    refine ⟨?_, rfl, p3, ?_, ?_⟩
    · rw [isValid_iff]
      have e1 : (16 : Nat) ^ 32 = 2 ^ 128 := by norm_num
      have e2 : (16 : Nat) ^ 16 = 2 ^ 64 := by norm_num
      rw [e1] at p1; rw [e2] at p2
      show (0 : Int) < (hexVal tid : Int) ∧ (hexVal tid : Int) < 2 ^ 128 ∧
        (0 : Int) < (hexVal sid : Int) ∧ (hexVal sid : Int) < 2 ^ 64
      omega
    · show TSWellFormed (match carrier.get tracestateName with
        | none => []
        | some hs => TraceState.fromHeader hs)
      split
      · exact ⟨by simp, by simp, by simp⟩
      · rename_i hs _; exact TraceState.C01_tracestate_wellformed (.header hs) []
    · intro k hk
      exact Dict.get?_set_ne _ _ (Ne.symm hk)
  · left
    exact C05_extract_rejects carrier ctx (fun h more ver tid sid fl hc ha => hno ⟨h, more, ver, tid, sid, fl, hc, ha⟩)

/-- Non-vacuity: an acceptable header of a future version with an extension and padding. -/
example : AcceptableTraceparent " 01-0af7651916cd43dd8448eb211c80319c-b7ad6b7169203331-01-xyz \n".toList
    "01".toList "0af7651916cd43dd8448eb211c80319c".toList "b7ad6b7169203331".toList "01".toList := by
  refine ⟨"-xyz".toList, ⟨" ".toList, " \n".toList, by decide, ?_, ?_, ?_, ?_, ?_, ?_, ?_⟩, by decide, by decide,
    by decide, by decide⟩
  · intro c hc; simp at hc; simp [hc]
  all_goals try (rw [hex_iff]; decide)
  · exact Or.inr ⟨"xyz".toList, by decide, by decide⟩
  · refine ⟨" ".toList, ?_, Or.inr (by decide)⟩
    intro c hc; simp at hc; simp [hc]

/-- Tests: rejected headers. -/
example : extract [(traceparentName, ["00-0af7651916cd43dd8448eb211c80319c-b7ad6b7169203331-01-x".toList])] [] = [] := by
  decide
example : extract [(traceparentName, ["00-0AF7651916cd43dd8448eb211c80319c-b7ad6b7169203331-01".toList])] [] = [] := by
  decide

/-- What `inject` writes for a span context with in-range ids is acceptable and denotes it. -/
theorem traceparent_acceptable (sc : SpanContext) (hv : sc.isValid = true) (hf : sc.flags < 256) :
    ∃ tid sid fl, AcceptableTraceparent (traceparent sc) "00".toList tid sid fl ∧
      hexVal tid = sc.traceId ∧ hexVal sid = sc.spanId ∧ hexVal fl = sc.flags := by
  rw [isValid_iff] at hv
  obtain ⟨t1, t2, s1, s2⟩ := hv
  obtain ⟨t, ht⟩ := Int.eq_ofNat_of_zero_le (Int.le_of_lt t1)
  obtain ⟨s, hs⟩ := Int.eq_ofNat_of_zero_le (Int.le_of_lt s1)
  have ht' : t < 16 ^ 32 := by have : (16 : Nat) ^ 32 = 2 ^ 128 := by norm_num
                               omega
  have hs' : s < 16 ^ 16 := by have : (16 : Nat) ^ 16 = 2 ^ 64 := by norm_num
                               omega
  obtain ⟨a1, a2, a3⟩ := hexFmt_spec 32 t (by omega) ht'
  obtain ⟨b1, b2, b3⟩ := hexFmt_spec 16 s (by omega) hs'
  obtain ⟨c1, c2, c3⟩ := hexFmt_spec 2 sc.flags (by omega) (by omega)
  refine ⟨hexFmt 32 t, hexFmt 16 s, hexFmt 2 sc.flags, ⟨[], ⟨[], [], ?_, by simp [Blanks], ?_, ?_, ?_, ?_, Or.inl rfl,
    [], by simp [Blanks], Or.inl rfl⟩, by decide, fun _ => rfl, ?_, ?_⟩, ?_, ?_, ?_⟩
  · simp [traceparent, formatTraceId, formatSpanId, ht, hs]
  · rw [hex_iff]; decide
  · rw [hex_iff]; exact ⟨a2, a3⟩
  · rw [hex_iff]; exact ⟨b2, b3⟩
  · rw [hex_iff]; exact ⟨c2, c3⟩
  · intro h; rw [h, hexVal_zeros] at a1; omega
  · intro h; rw [h, hexVal_zeros] at b1; omega
  · rw [a1, ht]
  · rw [b1, hs]
  · exact c1

/-- **C04.** Injecting a context whose current span context is valid (with one byte of flags and a
well-formed trace state) and extracting yields the same span context, marked remote. The carrier may
already contain other headers, provided it does not hold a `tracestate` that would be taken for ours. -/
theorem C04_inject_extract_roundtrip (carrier : Carrier) (ctx ctx' : Ctx) (sc : SpanContext)
    (hsc : ctx.currentSpan = sc) (hv : sc.isValid = true) (hf : sc.flags < 256)
    (hts : TraceState.Reachable sc.traceState)
    (hstale : sc.traceState ≠ [] ∨ carrier.get tracestateName = none) :
    extract (inject carrier ctx) ctx' = ctx'.setSpan { sc with isRemote := true } := by
  have hne : sc ≠ SpanContext.invalid := by rintro rfl; exact absurd hv (by decide)
  obtain ⟨tid, sid, fl, ha, e1, e2, e3⟩ := traceparent_acceptable sc hv hf
  have hnames : tracestateName ≠ traceparentName := by decide
  have hget : (inject carrier ctx).get traceparentName = some [traceparent sc] := by
    simp only [inject, hsc, hne, if_false]
    split
    · simp only [Carrier.get, Carrier.put]
      rw [Dict.get?_set_ne _ _ hnames, Dict.get?_set_self]
    · simp [Carrier.get, Carrier.put]
  rw [C05_extract_accepts _ ctx' _ [] hget _ _ _ _ ha]
  congr 1
  have hst : (match (inject carrier ctx).get tracestateName with
      | none => []
      | some hs => TraceState.fromHeader hs) = sc.traceState := by
    simp only [inject, hsc, hne, if_false]
    by_cases h0 : sc.traceState = []
    case neg =>
      simp only [ne_eq, h0, not_false_eq_true, if_true, Carrier.get, Carrier.put, Dict.get?_set_self]
      exact TraceState.C02_tracestate_header_roundtrip _ hts
    case pos =>
      simp only [ne_eq, h0, not_true_eq_false, if_false]
      rcases hstale with h1 | h1
      · exact absurd h0 h1
      · simp only [Carrier.get, Carrier.put] at h1 ⊢
        rw [Dict.get?_set_ne _ _ (Ne.symm hnames), h1]
  unfold extracted
  rw [hst, e1, e2, e3]

/-- Non-vacuity of C04: a valid context with a non-empty trace state, and the header it produces. -/
example : (⟨0xaf7651916cd43dd8448eb211c80319c, 1, false, 1, [("a".toList, "b".toList)]⟩ : SpanContext).isValid = true
    ∧ traceparent ⟨0xaf7651916cd43dd8448eb211c80319c, 1, false, 1, []⟩
      = "00-0af7651916cd43dd8448eb211c80319c-0000000000000001-01".toList
    ∧ TraceState.Reachable [("a".toList, "b".toList)] :=
  ⟨by decide, by decide, ⟨.ctor [("a".toList, "b".toList)], [], by decide⟩⟩

/-- The hypothesis on the carrier is needed: with an empty trace state, `inject` leaves a stale
`tracestate` header of the carrier in place and the extracted context acquires it. -/
theorem C04_stale_tracestate_violation :
    ∃ (carrier : Carrier) (ctx : Ctx) (sc : SpanContext), ctx.currentSpan = sc ∧ sc.isValid = true ∧ sc.flags < 256 ∧
      sc.traceState = [] ∧ (extract (inject carrier ctx) []).currentSpan.traceState ≠ [] :=
  ⟨[(tracestateName, ["old=1".toList])], Ctx.setSpan [] ⟨1, 1, false, 1, []⟩, ⟨1, 1, false, 1, []⟩,
    by decide, by decide, by decide, rfl, by decide⟩

/-- The flags bound is needed: a flags value above one byte is injected with three digits and cannot
be extracted. -/
theorem C04_wide_flags_violation :
    extract (inject [] (Ctx.setSpan [] ⟨1, 1, false, 256, []⟩)) [] = [] := by decide

/-- An invalid (zero) span context is not injected. -/
theorem C04_invalid_not_injected (carrier : Carrier) (ctx : Ctx) (h : ctx.currentSpan = SpanContext.invalid) :
    inject carrier ctx = carrier := by simp [inject, h]

end TraceContext
end Otel
