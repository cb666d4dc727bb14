import Verif.Lemmas.Jaeger
import Verif.Props.TraceContext
import Verif.Props.Baggage
/-!
# C10–C13: B3, Jaeger and composite propagators
-/
namespace Otel
namespace B3
open Spec TraceContext

/-- The span context a B3 receiver reconstructs: B3 carries the ids and one sampling bit. -/
def received (sc : SpanContext) : SpanContext :=
  { traceId := sc.traceId, spanId := sc.spanId, isRemote := true, flags := if sc.sampled then 1 else 0,
    traceState := [] }

theorem fmt_ok (U : DigitTable) (w : Nat) (hw : 0 < w) (i : Int) (h0 : 0 < i) (h1 : i < 16 ^ w) :
    hexN U w (hexFmt w i) = true ∧ (hexValU U (hexFmt w i) : Int) = i ∧ '-' ∉ hexFmt w i ∧ hexFmt w i ≠ [] := by
  obtain ⟨n, rfl⟩ := Int.eq_ofNat_of_zero_le (Int.le_of_lt h0)
  have hn : n < 16 ^ w := by exact_mod_cast h1
  obtain ⟨a1, a2, a3⟩ := hexFmt_spec w n hw hn
  refine ⟨hexN_lower U w _ a2 a3, ?_, ?_, ?_⟩
  · rw [show hexValU U (hexFmt w (n : Int)) = hexVal (hexFmt w (n : Int)) from hexValU_lower U _ a3]
    exact congrArg Int.ofNat a1
  · intro h; exact absurd (a3 _ h) (by decide)
  · exact hexFmt_ne_nil w n

theorem ids_ok (U : DigitTable) (sc : SpanContext) (hv : sc.isValid = true) :
    (traceIdRe U (formatTraceId sc.traceId) = true ∧ (hexValU U (formatTraceId sc.traceId) : Int) = sc.traceId ∧
      '-' ∉ formatTraceId sc.traceId ∧ formatTraceId sc.traceId ≠ []) ∧
    (spanIdRe U (formatSpanId sc.spanId) = true ∧ (hexValU U (formatSpanId sc.spanId) : Int) = sc.spanId ∧
      '-' ∉ formatSpanId sc.spanId ∧ formatSpanId sc.spanId ≠ []) := by
  rw [isValid_iff] at hv
  obtain ⟨t1, t2, s1, s2⟩ := hv
  have h1 := fmt_ok U 32 (by omega) sc.traceId t1 (by norm_num; omega)
  have h2 := fmt_ok U 16 (by omega) sc.spanId s1 (by norm_num; omega)
  refine ⟨⟨?_, h1.2⟩, ⟨?_, h2.2⟩⟩
  · simp only [traceIdRe, formatTraceId, h1.1, Bool.or_true]
  · simp only [spanIdRe, formatSpanId, h2.1]

/-- **C11 (acceptance).** Given B3 headers with ids of 16 or 32 (trace) and 16 (span) hex digits, `extract`
installs the remote span with exactly these ids and sampling decision. -/
theorem C11_extract_accepts (U : DigitTable) (carrier : Carrier) (ctx : Ctx) (t s : Str) (P : Prop) [Decidable P]
    (h : B3Headers carrier t s P) (ht : traceIdRe U t = true) (hs : spanIdRe U s = true) :
    extract U carrier ctx = ctx.setSpan ⟨hexValU U t, hexValU U s, true, if P then 1 else 0, []⟩ := by
  obtain ⟨x, f, e, hiff⟩ := fields_of_headers carrier t s P h
  simp only [extract, e, ht, hs]
  simp only [Bool.not_true, Bool.or_self, Bool.false_eq_true, if_false]
  congr 2
  exact if_congr hiff.symm rfl rfl

/-- **C11 (rejection).** Otherwise the context is returned unchanged. -/
theorem C11_extract_rejects (U : DigitTable) (carrier : Carrier) (ctx : Ctx)
    (h : ∀ t s P, B3Headers carrier t s P → ¬ (traceIdRe U t = true ∧ spanIdRe U s = true)) :
    extract U carrier ctx = ctx := by
  unfold extract
  split
  · rename_i t s x f e
    obtain ⟨P, hP, _⟩ := fields_some carrier t s x f e
    have := h t s P hP
    split
    · rfl
    · rename_i hn
      simp only [Bool.or_eq_true, Bool.not_eq_true', not_or, Bool.not_eq_false] at hn
      exact absurd hn this
  · rfl

/-- **C11, partial.** Whatever the headers, the context is unchanged or its current span becomes a remote
span with in-range ids taken from the headers; it is valid unless an id is all zeros. Missing: an all-zero
id text is accepted, see `C11_all_zero_violation`. -/
theorem C11_valid_or_unchanged_partial (U : DigitTable) (carrier : Carrier) (ctx : Ctx) :
    extract U carrier ctx = ctx ∨
    ∃ t s P, B3Headers carrier t s P ∧ (t.length = 16 ∨ t.length = 32) ∧ s.length = 16 ∧
      (extract U carrier ctx).currentSpan.traceId = hexValU U t ∧
      (extract U carrier ctx).currentSpan.spanId = hexValU U s ∧
      (extract U carrier ctx).currentSpan.isRemote = true ∧
      ((extract U carrier ctx).currentSpan.sampled = true ↔ P) ∧
      ((extract U carrier ctx).currentSpan.isValid = true ↔ hexValU U t ≠ 0 ∧ hexValU U s ≠ 0) ∧
      ∀ k, k ≠ CtxKey.span → (extract U carrier ctx).getValue k = ctx.getValue k := by
  classical
  rcases Classical.em (∃ t s P, B3Headers carrier t s P ∧ traceIdRe U t = true ∧ spanIdRe U s = true) with
    ⟨t, s, P, hP, ht, hs⟩ | hno
  · right
    have hlen : (t.length = 16 ∨ t.length = 32) ∧ s.length = 16 := by
      simp only [traceIdRe, spanIdRe, Bool.or_eq_true, hexN_iff] at ht hs
      exact ⟨ht.imp And.left And.left, hs.1⟩
    refine ⟨t, s, P, hP, hlen.1, hlen.2, ?_⟩
    rw [C11_extract_accepts U carrier ctx t s P hP ht hs, currentSpan_setSpan]
    refine ⟨rfl, rfl, rfl, ?_, ?_, ?_⟩
    · simp only [SpanContext.sampled]; split <;> simp_all
    · have b1 := hexValU_lt U t
      have b2 := hexValU_lt U s
      have b1' : hexValU U t < 2 ^ 128 := by
        rcases hlen.1 with e | e <;> rw [e] at b1 <;> norm_num at b1 ⊢ <;> omega
      have b2' : hexValU U s < 2 ^ 64 := by
        rw [hlen.2] at b2; norm_num at b2 ⊢; omega
      rw [isValid_iff]
      show (0 : Int) < (hexValU U t : Int) ∧ (hexValU U t : Int) < 2 ^ 128 ∧
        (0 : Int) < (hexValU U s : Int) ∧ (hexValU U s : Int) < 2 ^ 64 ↔ _
      omega
    · intro k hk; exact Dict.get?_set_ne _ _ (Ne.symm hk)
  · left
    exact C11_extract_rejects U carrier ctx (fun t s P hP h => hno ⟨t, s, P, hP, h⟩)

/-- The full C11 claim is false: an all-zero trace id is accepted, and an invalid span replaces the valid
current one. -/
theorem C11_all_zero_violation (U : DigitTable) :
    ∃ (carrier : Carrier) (ctx : Ctx), ctx.currentSpan.isValid = true ∧
      (extract U carrier ctx).currentSpan.isValid = false :=
  ⟨[(singleKey, ["0000000000000000-0000000000000000-1".toList])], Ctx.setSpan [] ⟨1, 1, false, 1, []⟩,
    by decide, by
    have hl : ∀ c ∈ "0000000000000000".toList, isLowerHex c = true := by decide
    have hN := hexN_lower U 16 _ (by decide) hl
    rw [C11_extract_accepts U _ _ "0000000000000000".toList "0000000000000000".toList True
      ?_ (by simp only [traceIdRe, hN, Bool.true_or]) (by simp only [spanIdRe, hN]), currentSpan_setSpan, hexValU_lower U _ hl]
    · decide
    · have := B3Headers.single3 (c := [(singleKey, ["0000000000000000-0000000000000000-1".toList])])
        "0000000000000000".toList "0000000000000000".toList "1".toList (by decide) (by decide) (by decide)
        ⟨⟨[], by decide⟩, by decide⟩
      rwa [show B3Accept "1".toList = True from eq_true (Or.inl rfl)] at this⟩

/-- Non-vacuity of C11: a single header with four fields, and multi headers. -/
example : B3Headers [(singleKey, ["00f067aa0ba902b7-00f067aa0ba902b7-d-05e3ac9a4f6e3b90".toList])]
    "00f067aa0ba902b7".toList "00f067aa0ba902b7".toList (B3Accept "d".toList) ∧
    ∀ U, traceIdRe U "00f067aa0ba902b7".toList = true := by
  refine ⟨.single4 _ _ "d".toList "05e3ac9a4f6e3b90".toList (by decide) (by decide) (by decide) (by decide)
    ⟨⟨[], by decide⟩, by decide⟩, fun U => ?_⟩
  simp only [traceIdRe, Bool.or_eq_true]
  exact Or.inl (hexN_lower U 16 _ (by decide) (by decide))

/-- **C10 (single header).** -/
theorem C10_single_roundtrip (U : DigitTable) (carrier : Carrier) (ctx ctx' : Ctx) (sc : SpanContext)
    (hsc : ctx.currentSpan = sc) (hv : sc.isValid = true) :
    extract U (injectSingle carrier ctx) ctx' = ctx'.setSpan (received sc) := by
  have hne : sc ≠ SpanContext.invalid := by rintro rfl; exact absurd hv (by decide)
  obtain ⟨⟨t1, t2, t3, t4⟩, s1, s2, s3, s4⟩ := ids_ok U sc hv
  have hx : '-' ∉ sampledText sc := by unfold sampledText; split <;> decide
  have hh : HeaderIs (injectSingle carrier ctx) "b3".toList
      (formatTraceId sc.traceId ++ '-' :: (formatSpanId sc.spanId ++ '-' :: sampledText sc)) := by
    refine ⟨⟨[], ?_⟩, by simp⟩
    simp only [injectSingle, hsc, hne, if_false, Carrier.get, Carrier.put]
    rw [show "b3".toList = singleKey from rfl, Dict.get?_set_self]
    simp [joinS]
  haveI : Decidable (B3Accept (sampledText sc)) := Classical.dec _
  rw [C11_extract_accepts U _ ctx' _ _ _ (.single3 _ _ _ t3 s3 hx hh) t1 s1]
  have hP : B3Accept (sampledText sc) ↔ sc.sampled = true := by
    unfold sampledText; split <;> simp_all [B3Accept]
  unfold received
  rw [t2, s2]
  congr 2
  exact if_congr hP rfl rfl

/-- **C10 (multiple headers).** The carrier must not already hold a `b3` header (it would take precedence) or
a debug flag. -/
theorem C10_multi_roundtrip (U : DigitTable) (carrier : Carrier) (ctx ctx' : Ctx) (sc : SpanContext)
    (hsc : ctx.currentSpan = sc) (hv : sc.isValid = true)
    (hb3 : carrier.get "b3".toList = none) (hfl : carrier.get "x-b3-flags".toList = none) :
    extract U (injectMulti carrier ctx) ctx' = ctx'.setSpan (received sc) := by
  have hne : sc ≠ SpanContext.invalid := by rintro rfl; exact absurd hv (by decide)
  obtain ⟨⟨t1, t2, t3, t4⟩, s1, s2, s3, s4⟩ := ids_ok U sc hv
  have e : injectMulti carrier ctx = ((carrier.put traceIdKey (formatTraceId sc.traceId)).put spanIdKey
      (formatSpanId sc.spanId)).put sampledKey (sampledText sc) := by
    simp only [injectMulti, hsc, hne, if_false]
  have gt : (injectMulti carrier ctx).get traceIdKey = some [formatTraceId sc.traceId] := by
    rw [e]; simp only [Carrier.get, Carrier.put]
    rw [Dict.get?_set_ne _ _ (by decide), Dict.get?_set_ne _ _ (by decide), Dict.get?_set_self]
  have gs : (injectMulti carrier ctx).get spanIdKey = some [formatSpanId sc.spanId] := by
    rw [e]; simp only [Carrier.get, Carrier.put]
    rw [Dict.get?_set_ne _ _ (by decide), Dict.get?_set_self]
  have gx : (injectMulti carrier ctx).get sampledKey = some [sampledText sc] := by
    rw [e]; simp only [Carrier.get, Carrier.put]
    rw [Dict.get?_set_self]
  have gb : (injectMulti carrier ctx).get singleKey = none := by
    rw [e]; simp only [Carrier.get, Carrier.put]
    rw [Dict.get?_set_ne _ _ (by decide), Dict.get?_set_ne _ _ (by decide), Dict.get?_set_ne _ _ (by decide)]
    exact hb3
  have gf : (injectMulti carrier ctx).get flagsKey = none := by
    rw [e]; simp only [Carrier.get, Carrier.put]
    rw [Dict.get?_set_ne _ _ (by decide), Dict.get?_set_ne _ _ (by decide), Dict.get?_set_ne _ _ (by decide)]
    exact hfl
  have hP : B3Headers (injectMulti carrier ctx) (formatTraceId sc.traceId) (formatSpanId sc.spanId) _ :=
    .multi _ _ (by rintro v ⟨⟨m, hm⟩, _⟩; exact absurd (gb.symm.trans hm) (by simp)) ⟨⟨[], gt⟩, t4⟩ ⟨⟨[], gs⟩, s4⟩
  have hiff : ((∃ x, HeaderIs (injectMulti carrier ctx) "x-b3-sampled".toList x ∧ B3Accept x) ∨
        HeaderIs (injectMulti carrier ctx) "x-b3-flags".toList "1".toList) ↔ sc.sampled = true := by
    constructor
    · rintro (⟨x, ⟨⟨m, hm⟩, _⟩, ha⟩ | ⟨⟨m, hm⟩, _⟩)
      · have := gx.symm.trans hm
        simp only [Option.some.injEq, List.cons.injEq] at this
        rw [← this.1] at ha
        unfold sampledText at ha
        split at ha
        · assumption
        · rcases ha with h | h | h | h <;> exact absurd h (by decide)
      · exact absurd (gf.symm.trans hm) (by simp)
    · intro hs
      refine Or.inl ⟨sampledText sc, ⟨⟨[], gx⟩, ?_⟩, ?_⟩ <;> simp only [sampledText, hs, if_true]
      · decide
      · exact Or.inl rfl
  classical
  rw [C11_extract_accepts U _ ctx' _ _ _ hP t1 s1]
  unfold received
  rw [t2, s2]
  congr 2
  exact if_congr hiff rfl rfl

/-- **C10 (what the receiver sees).** Same ids, same sampled decision, remote, valid. -/
theorem C10_received (sc : SpanContext) (hv : sc.isValid = true) :
    (received sc).traceId = sc.traceId ∧ (received sc).spanId = sc.spanId ∧
    (received sc).sampled = sc.sampled ∧ (received sc).isRemote = true ∧ (received sc).isValid = true := by
  refine ⟨rfl, rfl, ?_, rfl, hv⟩
  unfold received SpanContext.sampled
  dsimp only
  split <;> simp_all

/-- Both hypotheses of the multi-header round trip are needed: a stale `b3` header wins, and a stale debug flag
turns an unsampled context into a sampled one. -/
theorem C10_stale_headers_violation (U : DigitTable) :
    (extract U (injectMulti [(singleKey, ["0".toList])] (Ctx.setSpan [] ⟨1, 1, false, 1, []⟩)) [] = []) ∧
    (extract U (injectMulti [(flagsKey, ["1".toList])] (Ctx.setSpan [] ⟨1, 1, false, 0, []⟩)) []).currentSpan.sampled
      = true := ⟨rfl, rfl⟩

example : (⟨0xaf7651916cd43dd8448eb211c80319c, 0xb7ad6b7169203331, false, 1, []⟩ : SpanContext).isValid = true ∧
    injectSingle [] (Ctx.setSpan [] ⟨0xaf7651916cd43dd8448eb211c80319c, 0xb7ad6b7169203331, false, 1, []⟩) =
      [(singleKey, ["0af7651916cd43dd8448eb211c80319c-b7ad6b7169203331-1".toList])] := by decide

end B3

namespace Jaeger
open Spec TraceContext

/-- What a Jaeger receiver reconstructs of the span context: the ids and the sampling bit. -/
def received (sc : SpanContext) : SpanContext :=
  { traceId := sc.traceId, spanId := sc.spanId, isRemote := true, flags := sc.flags % 2, traceState := [] }

/-- The full C12 claim for one span context and baggage. -/
def RoundTrips (U : DigitTable) (sc : SpanContext) (d : Dict Str Str) : Prop :=
  ∀ (ctx ctx' : Ctx) (parent : Int), ctx.currentSpan = sc → Baggage.getAll ctx = d → Baggage.getAll ctx' = [] →
    ∃ c, extract U (inject [] ctx parent) ctx' = some c ∧ c.currentSpan = received sc ∧ Baggage.getAll c = d

theorem foldl_set_getAll (d : Dict Str Str) (c : Ctx) (h : Baggage.getAll c = []) (hn : d.keys.Nodup) :
    Baggage.getAll (d.foldl (fun c kv => Baggage.set c kv.1 kv.2) c) = d := by
  have := Baggage.getAll_foldl c d id
  simp only [id] at this
  rw [this, h]
  have := Baggage.foldl_set_fresh [] d (by simpa using hn)
  simpa using this

/-- **C12, partial.** Round trip for every valid span context, every parent id and every baggage whose
names do not contain `uberctx-` and whose values have no outer white space. Missing: the other baggage, for
which the claim is false (`C12_prefix_violation`, `C12_whitespace_violation`). -/
theorem C12_roundtrip_partial (U : DigitTable) (sc : SpanContext) (hv : sc.isValid = true) (d : Dict Str Str)
    (hn : (d.map Prod.fst).Nodup) (hi : ∀ kv ∈ d, ¬ "uberctx-".toList <:+: kv.1)
    (hs : ∀ kv ∈ d, pyStrip kv.2 = kv.2) : RoundTrips U sc d := by
  intro ctx ctx' parent hsc hd hd'
  have hne : sc ≠ SpanContext.invalid := by rintro rfl; exact absurd hv (by decide)
  have hfresh : ∀ k : Str, prefixText ++ k ≠ traceIdKey := by
    intro k h
    have h2 : (prefixText ++ k)[4]? = traceIdKey[4]? := by rw [h]
    rw [List.getElem?_append_left (by decide)] at h2
    exact absurd h2 (by decide)
  have hinj : inject [] ctx parent = (traceIdKey, [formatHeader sc parent]) ::
      d.map (fun kv => (prefixText ++ kv.1, [Url.quote kv.2])) := by
    simp only [inject, hsc, hne, if_false, hd]
    rw [inject_puts _ d hn]
    · rfl
    · intro kv _ hm
      simp only [Carrier.put, Dict.set, Dict.keys_cons, Dict.keys_nil, List.mem_singleton] at hm
      exact hfresh _ hm
  have hget : (inject [] ctx parent).get traceIdKey = some [formatHeader sc parent] := by
    rw [hinj]; simp [Carrier.get, Dict.get?]
  have hkeys : ((inject [] ctx parent).keys.filter (fun k => prefixText.isPrefixOf k)) =
      d.map (fun kv => prefixText ++ kv.1) := by
    rw [hinj, Dict.keys_cons, List.filter_cons_of_neg (show ¬ (prefixText.isPrefixOf traceIdKey = true) by decide)]
    simp only [Dict.keys, List.map_map, Function.comp_def]
    rw [List.filter_eq_self]
    intro k hk
    obtain ⟨kv, _, rfl⟩ := List.mem_map.mp hk
    rw [List.isPrefixOf_iff_prefix]; exact List.prefix_append _ _
  have hbag : extractBaggage (inject [] ctx parent) ctx' =
      some (d.foldl (fun c kv => Baggage.set c kv.1 kv.2) ctx') := by
    unfold extractBaggage
    rw [hkeys]
    apply extract_fold _ _ _ _ hi hs
    intro kv hkv
    rw [hinj, Carrier.get, show ((traceIdKey, [formatHeader sc parent]) ::
      d.map (fun kv => (prefixText ++ kv.1, [Url.quote kv.2]))) = [(traceIdKey, [formatHeader sc parent])] ++
      d.map (fun kv => (prefixText ++ kv.1, [Url.quote kv.2])) from rfl, get?_append_left]
    · exact get?_map d hn kv hkv
    · simp only [Dict.keys_cons, Dict.keys_nil, List.mem_singleton]; exact hfresh _
  rw [isValid_iff] at hv
  have hp := parse_format U sc parent (by omega) (by omega)
  refine ⟨(d.foldl (fun c kv => Baggage.set c kv.1 kv.2) ctx').setSpan (received sc), ?_, ?_, ?_⟩
  · simp only [extract, hget, hbag, hp]
    rw [if_neg (by omega), outFlags_mod]
    rfl
  · rw [currentSpan_setSpan]
  · have : ∀ c : Ctx, Baggage.getAll (c.setSpan (received sc)) = Baggage.getAll c := by
      intro c
      unfold Baggage.getAll Ctx.getValue Ctx.setSpan Ctx.setValue
      rw [Dict.get?_set_ne _ _ (by decide)]
    rw [this]
    exact foldl_set_getAll d ctx' hd' hn

theorem C12_received (sc : SpanContext) : (received sc).traceId = sc.traceId ∧ (received sc).spanId = sc.spanId ∧
    (received sc).sampled = sc.sampled ∧ (received sc).isRemote = true :=
  ⟨rfl, rfl, by simp [received, SpanContext.sampled], rfl⟩

/-- A baggage name containing the prefix is mangled: every occurrence is removed. -/
theorem C12_prefix_violation (U : DigitTable) :
    ¬ RoundTrips U ⟨1, 1, false, 1, []⟩ [("uberctx-a".toList, "v".toList)] := by
  intro h
  obtain ⟨c, h1, _, h3⟩ := h (Baggage.set (Ctx.setSpan [] ⟨1, 1, false, 1, []⟩) "uberctx-a".toList "v".toList) [] 0
    (by decide) (by decide) (by decide)
  have e : extract U (inject [] (Baggage.set (Ctx.setSpan [] ⟨1, 1, false, 1, []⟩) "uberctx-a".toList "v".toList) 0) [] =
    some ((Baggage.set [] "a".toList "v".toList).setSpan (received ⟨1, 1, false, 1, []⟩)) := rfl
  rw [e] at h1
  cases h1
  exact absurd h3 (by decide)

/-- Outer white space of a value is lost. -/
theorem C12_whitespace_violation (U : DigitTable) :
    ¬ RoundTrips U ⟨1, 1, false, 1, []⟩ [("a".toList, " v".toList)] := by
  intro h
  obtain ⟨c, h1, _, h3⟩ := h (Baggage.set (Ctx.setSpan [] ⟨1, 1, false, 1, []⟩) "a".toList " v".toList) [] 0
    (by decide) (by decide) (by decide)
  have e : extract U (inject [] (Baggage.set (Ctx.setSpan [] ⟨1, 1, false, 1, []⟩) "a".toList " v".toList) 0) [] =
    some ((Baggage.set [] "a".toList "v".toList).setSpan (received ⟨1, 1, false, 1, []⟩)) := rfl
  rw [e] at h1
  cases h1
  exact absurd h3 (by decide)

/-- Jaeger extraction accepts ids outside the valid range (here a negative one) and installs an invalid span. -/
theorem C12_negative_id_violation (U : DigitTable) :
    ∃ c, extract U [(traceIdKey, ["-1:1:0:1".toList])] (Ctx.setSpan [] ⟨1, 1, false, 1, []⟩) = some c ∧
      c.currentSpan.isValid = false :=
  ⟨Ctx.setSpan (Ctx.setSpan [] ⟨1, 1, false, 1, []⟩) ⟨-1, 1, true, 1, []⟩, rfl, by decide⟩

/-- Extraction raises only for a carrier that maps a baggage key to an empty list of values. -/
theorem C12_extract_total (U : DigitTable) (carrier : Carrier) (ctx : Ctx)
    (h : ∀ k, carrier.get k ≠ some []) : ∃ c, extract U carrier ctx = some c := by
  have hb : ∃ c, extractBaggage carrier ctx = some c := by
    unfold extractBaggage
    have hk : ∀ k ∈ carrier.keys.filter (fun k => prefixText.isPrefixOf k), k ∈ carrier.keys :=
      fun k hk => (List.mem_filter.mp hk).1
    revert hk
    generalize carrier.keys.filter (fun k => prefixText.isPrefixOf k) = ks
    intro hk
    induction ks generalizing ctx with
    | nil => exact ⟨ctx, rfl⟩
    | cons k ks ih =>
      simp only [List.foldl_cons]
      have hm := hk k (by simp)
      cases hg : carrier.get k with
      | none => exact absurd hm ((Dict.get?_eq_none_iff _ _).mp hg)
      | some l =>
        cases l with
        | nil => exact absurd hg (h k)
        | cons v vs =>
          simp only [B3.first]
          exact ih _ (fun k hk' => hk k (List.mem_cons_of_mem _ hk'))
  obtain ⟨c, hc⟩ := hb
  unfold extract
  split
  · exact ⟨_, rfl⟩
  · exact ⟨_, rfl⟩
  · simp only [hc]
    split <;> exact ⟨_, rfl⟩

theorem set_span (c : Ctx) (k v : Str) : (Baggage.set c k v).currentSpan = c.currentSpan := by
  simp [Ctx.currentSpan, Baggage.set, Ctx.setValue, Ctx.getValue, Dict.get?_set]

theorem extractBaggage_span (carrier : Carrier) (ctx c : Ctx) (h : extractBaggage carrier ctx = some c) :
    c.currentSpan = ctx.currentSpan := by
  unfold extractBaggage at h
  generalize carrier.keys.filter (fun k => prefixText.isPrefixOf k) = ks at h
  revert h
  induction ks generalizing ctx with
  | nil => intro h; cases h; rfl
  | cons k ks ih =>
    intro h
    simp only [List.foldl_cons] at h
    cases hf : B3.first (carrier.get k) with
    | none =>
      rw [hf] at h
      exfalso
      simp only at h
      clear ih hf
      induction ks with
      | nil => cases h
      | cons a l ih => exact ih h
    | some v =>
      rw [hf] at h
      rw [ih _ h, set_span]

/-- A header with four fields whose trace id, span id and flags are integers, the ids not zero, as `int(_, 16)` reads them. -/
def Usable (U : DigitTable) (carrier : Carrier) (t s f : Int) : Prop :=
  ∃ h hs a b p g, carrier.get "uber-trace-id".toList = some (h :: hs) ∧ splitC ':' h = [a, b, p, g] ∧
    pyInt16 U a = some t ∧ pyInt16 U b = some s ∧ pyInt16 U g = some f ∧ t ≠ 0 ∧ s ≠ 0

/-- **C12** A usable header puts exactly its span into the context. -/
theorem C12_extract_accepts (U : DigitTable) (carrier : Carrier) (ctx c : Ctx) (t s f : Int) (hu : Usable U carrier t s f)
    (h : extract U carrier ctx = some c) : c.currentSpan = ⟨t, s, true, (f % 2).toNat, []⟩ := by
  obtain ⟨x, xs, a, b, p, g, h1, h2, h3, h4, h5, h6, h7⟩ := hu
  have h1' : carrier.get traceIdKey = some (x :: xs) := h1
  have hp : parseHeader U x = (t, s, f) := by simp [parseHeader, h2, h3, h4, h5]
  simp only [extract, h1', hp] at h
  cases hb : extractBaggage carrier ctx with
  | none => simp [hb] at h
  | some c' =>
    simp only [hb, h6, h7, or_self, if_false, Option.some.injEq] at h
    subst h
    rw [currentSpan_setSpan]

/-- **C12** Any other header, or none, leaves the span of the context alone. -/
theorem C12_extract_rejects (U : DigitTable) (carrier : Carrier) (ctx c : Ctx) (hu : ∀ t s f, ¬ Usable U carrier t s f)
    (h : extract U carrier ctx = some c) : c.currentSpan = ctx.currentSpan := by
  unfold extract at h
  split at h
  · cases h; rfl
  · cases h; rfl
  · rename_i x xs h1
    cases hb : extractBaggage carrier ctx with
    | none => simp [hb] at h
    | some c' =>
      simp only [hb] at h
      split at h
      · simp only [Option.some.injEq] at h; subst h; exact extractBaggage_span _ _ _ hb
      · rename_i hz
        exfalso
        rw [not_or] at hz
        revert hz
        unfold parseHeader
        split
        · rename_i a b p g h2
          cases h5 : pyInt16 U g with
          | none => simp
          | some f =>
            cases h3 : pyInt16 U a with
            | none => simp
            | some t =>
              cases h4 : pyInt16 U b with
              | none => simp
              | some s => intro hz; exact hu t s f ⟨x, xs, a, b, p, g, h1, h2, h3, h4, h5, by simpa using hz.1, by simpa using hz.2⟩
        · simp

example (U : DigitTable) : Usable U [(traceIdKey, ["1a:2:0:1".toList])] 26 2 1 :=
  ⟨_, _, "1a".toList, "2".toList, "0".toList, "1".toList, rfl, rfl, rfl, rfl, rfl, by decide, by decide⟩

/-- Non-vacuity of C12. -/
example : (⟨0xaf7651916cd43dd8448eb211c80319c, 1, false, 1, []⟩ : SpanContext).isValid = true ∧
    ([("k é".toList, "v%".toList)].map Prod.fst).Nodup ∧ pyStrip "v%".toList = "v%".toList := by decide

end Jaeger

namespace Composite

/-- A propagator whose inject writes a list of key/value pairs that depends on the context only. -/
def Writes (p : Propagator) (w : Ctx → List (Str × Str)) : Prop :=
  ∀ carrier ctx, p.inject carrier ctx = (w ctx).foldl (fun c kv => c.put kv.1 kv.2) carrier

/-- The last pair with key `k`. -/
def lastWrite (k : Str) (ws : List (Str × Str)) : Option Str :=
  ((ws.filter (fun kv => kv.1 = k)).getLast?).map Prod.snd

theorem get_foldl_put (ws : List (Str × Str)) (carrier : Carrier) (k : Str) :
    (ws.foldl (fun c kv => Carrier.put c kv.1 kv.2) carrier).get k =
      match lastWrite k ws with
      | some v => some [v]
      | none => carrier.get k := by
  induction ws generalizing carrier with
  | nil => rfl
  | cons kv ws ih =>
    simp only [List.foldl_cons]
    rw [ih]
    unfold lastWrite
    by_cases h : kv.1 = k
    · rw [List.filter_cons_of_pos (by simpa using h)]
      cases hl : (ws.filter (fun kv => kv.1 = k)).getLast? with
      | none =>
        have : ws.filter (fun kv => kv.1 = k) = [] := List.getLast?_eq_none_iff.mp hl
        simp only [this, Option.map_none, List.getLast?_singleton, Option.map_some, Carrier.get, Carrier.put]
        rw [h, Dict.get?_set_self]
      | some x =>
        rw [List.getLast?_cons, hl]
        simp
    · rw [List.filter_cons_of_neg (by simpa using h)]
      cases hl : (ws.filter (fun kv => kv.1 = k)).getLast? with
      | none =>
        simp only [Option.map_none, Carrier.get, Carrier.put]
        exact Dict.get?_set_ne _ _ h
      | some x => rfl

/-- **C13 (inject).** For propagators that write (`ws`, in order), the composite's carrier holds for every key the
value written last, and keeps what it had for keys nobody writes. -/
theorem C13_inject_last_wins (pw : List (Propagator × (Ctx → List (Str × Str))))
    (h : ∀ x ∈ pw, Writes x.1 x.2) (carrier : Carrier) (ctx : Ctx) (k : Str) :
    (inject (pw.map Prod.fst) carrier ctx).get k =
      match lastWrite k (pw.flatMap fun x => x.2 ctx) with
      | some v => some [v]
      | none => carrier.get k := by
  have key : inject (pw.map Prod.fst) carrier ctx =
      (pw.flatMap fun x => x.2 ctx).foldl (fun c kv => Carrier.put c kv.1 kv.2) carrier := by
    unfold inject
    induction pw generalizing carrier with
    | nil => rfl
    | cons x pw ih =>
      simp only [List.map_cons, List.foldl_cons, List.flatMap_cons, List.foldl_append]
      rw [h x (by simp)]
      exact ih (fun y hy => h y (List.mem_cons_of_mem _ hy)) _
  rw [key, get_foldl_put]

/-- **C13 (fields).** The fields are the union of the propagators' fields, each once. -/
theorem C13_fields_union (ps : List Propagator) :
    (fields ps).Nodup ∧ ∀ f, f ∈ fields ps ↔ ∃ p ∈ ps, f ∈ p.fields := by
  have inner : ∀ (fs : List Str) (acc : List Str), acc.Nodup →
      (fs.foldl (fun acc f => if f ∈ acc then acc else acc ++ [f]) acc).Nodup ∧
      ∀ f, f ∈ fs.foldl (fun acc f => if f ∈ acc then acc else acc ++ [f]) acc ↔ f ∈ acc ∨ f ∈ fs := by
    intro fs
    induction fs with
    | nil => intro acc h; exact ⟨h, by simp⟩
    | cons g fs ih =>
      intro acc h
      simp only [List.foldl_cons]
      split
      · rename_i hg
        obtain ⟨a, b⟩ := ih acc h
        refine ⟨a, fun f => ?_⟩
        rw [b, List.mem_cons]
        constructor
        · rintro (h | h); exacts [Or.inl h, Or.inr (Or.inr h)]
        · rintro (h | rfl | h); exacts [Or.inl h, Or.inl hg, Or.inr h]
      · rename_i hg
        obtain ⟨a, b⟩ := ih (acc ++ [g]) (by
          rw [List.nodup_append]; refine ⟨h, by simp, ?_⟩
          intro x hx y hy; simp at hy; subst hy; rintro rfl; exact hg hx)
        refine ⟨a, fun f => ?_⟩
        rw [b, List.mem_append, List.mem_singleton, List.mem_cons, or_assoc]
  have outer : ∀ (ps : List Propagator) (acc : List Str), acc.Nodup →
      (ps.foldl (fun acc p => p.fields.foldl (fun acc f => if f ∈ acc then acc else acc ++ [f]) acc) acc).Nodup ∧
      ∀ f, f ∈ ps.foldl (fun acc p => p.fields.foldl (fun acc f => if f ∈ acc then acc else acc ++ [f]) acc) acc ↔
        f ∈ acc ∨ ∃ p ∈ ps, f ∈ p.fields := by
    intro ps
    induction ps with
    | nil => intro acc h; exact ⟨h, by simp⟩
    | cons p ps ih =>
      intro acc h
      simp only [List.foldl_cons]
      obtain ⟨a, b⟩ := inner p.fields acc h
      obtain ⟨a', b'⟩ := ih _ a
      refine ⟨a', fun f => ?_⟩
      rw [b', b, or_assoc]
      simp
  obtain ⟨a, b⟩ := outer ps [] List.nodup_nil
  exact ⟨a, fun f => by unfold fields; rw [b]; simp⟩

/-- **C13 (extract).** The propagators run left to right, each on the context of the previous ones; one that
returns its context unchanged can be left out. -/
theorem C13_extract_in_order (ps qs : List Propagator) (p : Propagator) (carrier : Carrier) (ctx c : Ctx)
    (hc : extract ps carrier ctx = some c) :
    extract (ps ++ p :: qs) carrier ctx =
      match p.extract carrier c with
      | none => none
      | some c' => extract qs carrier c' := by
  unfold extract at hc ⊢
  rw [List.foldlM_append, hc]
  simp only [Option.bind_eq_bind, Option.bind_some, List.foldlM_cons]
  cases p.extract carrier c <;> rfl

theorem C13_silent_propagator_is_neutral (ps qs : List Propagator) (p : Propagator) (carrier : Carrier) (ctx : Ctx)
    (hp : ∀ c, p.extract carrier c = some c) :
    extract (ps ++ p :: qs) carrier ctx = extract (ps ++ qs) carrier ctx := by
  cases hc : extract ps carrier ctx with
  | none =>
    unfold extract at hc ⊢
    rw [List.foldlM_append, List.foldlM_append, hc]; rfl
  | some c =>
    rw [C13_extract_in_order ps qs p carrier ctx c hc, hp]
    unfold extract at hc ⊢
    rw [List.foldlM_append, hc]; rfl

/-- The W3C propagators as members of a composite. -/
def w3cTrace : Propagator :=
  { extract := fun ca c => some (TraceContext.extract ca c), inject := TraceContext.inject,
    fields := [TraceContext.traceparentName, TraceContext.tracestateName] }
def w3cBaggage : Propagator :=
  { extract := fun ca c => some (Baggage.extract ca c), inject := Baggage.inject, fields := [Baggage.headerName] }

theorem w3cTrace_writes : Writes w3cTrace (fun ctx =>
    let sc := ctx.currentSpan
    if sc = SpanContext.invalid then []
    else if sc.traceState ≠ [] then [(TraceContext.traceparentName, TraceContext.traceparent sc),
        (TraceContext.tracestateName, TraceState.toHeader sc.traceState)]
    else [(TraceContext.traceparentName, TraceContext.traceparent sc)]) := by
  intro carrier ctx
  simp only [w3cTrace, TraceContext.inject]
  split
  · rfl
  · split <;> rfl

theorem w3cBaggage_writes : Writes w3cBaggage (fun ctx =>
    if (Baggage.getAll ctx).isEmpty then [] else [(Baggage.headerName, Baggage.format (Baggage.getAll ctx))]) := by
  intro carrier ctx
  simp only [w3cBaggage, Baggage.inject]
  split <;> rfl

/-- `Baggage.extract` reads only its own header. -/
theorem baggage_extract_congr (c c' : Carrier) (h : c.get Baggage.headerName = c'.get Baggage.headerName) (ctx : Ctx) :
    Baggage.extract c ctx = Baggage.extract c' ctx := by
  unfold Baggage.extract; rw [h]

theorem baggage_getAll_setSpan (c : Ctx) (sc : SpanContext) : Baggage.getAll (c.setSpan sc) = Baggage.getAll c := by
  unfold Baggage.getAll Ctx.getValue Ctx.setSpan Ctx.setValue
  rw [Dict.get?_set_ne _ _ (by decide)]

theorem loop_getAll_congr (l : Nat) (c c' : Ctx) (h : Baggage.getAll c = Baggage.getAll c') (es : List Str) :
    Baggage.getAll (Baggage.extractLoop l c es) = Baggage.getAll (Baggage.extractLoop l c' es) := by
  induction es generalizing l c c' with
  | nil => exact h
  | cons e es ih =>
    unfold Baggage.extractLoop
    split; · exact ih l c c' h
    split; · exact ih l c c' h
    split
    · exact ih l c c' h
    · split
      · exact ih l c c' h
      · rename_i name value _ _
        have h2 : Baggage.getAll (Baggage.set c (pyStrip (Url.unquotePlus name)) (pyStrip (Url.unquotePlus value))) =
            Baggage.getAll (Baggage.set c' (pyStrip (Url.unquotePlus name)) (pyStrip (Url.unquotePlus value))) := by
          rw [Baggage.getAll_set, Baggage.getAll_set, h]
        dsimp only
        split
        · exact h2
        · exact ih _ _ _ h2

theorem loop_span (l : Nat) (c : Ctx) (es : List Str) :
    (Baggage.extractLoop l c es).currentSpan = c.currentSpan := by
  induction es generalizing l c with
  | nil => rfl
  | cons e es ih =>
    have hset : ∀ k v, (Baggage.set c k v).currentSpan = c.currentSpan := by
      intro k v
      unfold Baggage.set Ctx.currentSpan Ctx.getValue Ctx.setValue
      rw [Dict.get?_set_ne _ _ (by decide)]
    unfold Baggage.extractLoop
    split; · exact ih l c
    split; · exact ih l c
    split
    · exact ih l c
    · split
      · exact ih l c
      · dsimp only
        split
        · exact hset _ _
        · rw [ih, hset]

theorem baggage_extract_span (ca : Carrier) (c : Ctx) : (Baggage.extract ca c).currentSpan = c.currentSpan := by
  unfold Baggage.extract
  split
  · rfl
  · rfl
  · split
    · rfl
    · split
      · rfl
      · exact loop_span _ _ _

theorem baggage_extract_getAll (ca : Carrier) (c c' : Ctx) (h : Baggage.getAll c = Baggage.getAll c') :
    Baggage.getAll (Baggage.extract ca c) = Baggage.getAll (Baggage.extract ca c') := by
  unfold Baggage.extract
  split
  · exact h
  · exact h
  · split
    · exact h
    · split
      · exact h
      · exact loop_getAll_congr _ _ _ h _

/-- **C13 (default propagator).** With the default `tracecontext,baggage` composite, what a client injects a server
extracts: the same span context (remote) and the same baggage; neither propagator disturbs the other. -/
theorem C13_default_composite_roundtrip (ctx : Ctx) (sc : SpanContext) (d : Dict Str Str)
    (hsc : ctx.currentSpan = sc) (hv : sc.isValid = true) (hf : sc.flags < 256)
    (hts : TraceState.Reachable sc.traceState) (hd : Baggage.getAll ctx = d) (hrt : Baggage.RoundTrips d) :
    ∃ c, extract [w3cTrace, w3cBaggage] (inject [w3cTrace, w3cBaggage] [] ctx) [] = some c ∧
      c.currentSpan = { sc with isRemote := true } ∧ Baggage.getAll c = d := by
  have hne : sc ≠ SpanContext.invalid := by rintro rfl; exact absurd hv (by decide)
  have hi : inject [w3cTrace, w3cBaggage] [] ctx = Baggage.inject (TraceContext.inject [] ctx) ctx := rfl
  have g1 : ∀ k, k ≠ Baggage.headerName →
      (Baggage.inject (TraceContext.inject [] ctx) ctx).get k = (TraceContext.inject [] ctx).get k := by
    intro k hk
    unfold Baggage.inject
    dsimp only
    split
    · rfl
    · exact Dict.get?_set_ne _ _ (Ne.symm hk)
  have g2 : (Baggage.inject (TraceContext.inject [] ctx) ctx).get Baggage.headerName =
      (Baggage.inject [] ctx).get Baggage.headerName := by
    have g0 : (TraceContext.inject [] ctx).get Baggage.headerName = none := by
      unfold TraceContext.inject
      simp only [hsc, hne, if_false]
      split
      · simp only [Carrier.get, Carrier.put]
        rw [Dict.get?_set_ne _ _ (by decide), Dict.get?_set_ne _ _ (by decide)]; rfl
      · simp only [Carrier.get, Carrier.put]
        rw [Dict.get?_set_ne _ _ (by decide)]; rfl
    unfold Baggage.inject
    dsimp only
    split
    · rw [g0]; rfl
    · simp only [Carrier.get, Carrier.put, Dict.get?_set_self]
  have ht : TraceContext.extract (Baggage.inject (TraceContext.inject [] ctx) ctx) [] =
      Ctx.setSpan [] { sc with isRemote := true } := by
    rw [← TraceContext.C04_inject_extract_roundtrip [] ctx [] sc hsc hv hf hts (Or.inr rfl)]
    unfold TraceContext.extract
    rw [g1 _ (by decide), g1 _ (by decide)]
  refine ⟨Baggage.extract (Baggage.inject (TraceContext.inject [] ctx) ctx) (Ctx.setSpan [] { sc with isRemote := true }), ?_, ?_, ?_⟩
  · rw [hi]
    show some _ = _
    rw [ht]
  · rw [baggage_extract_span, TraceContext.currentSpan_setSpan]
  · rw [baggage_extract_congr _ _ g2, baggage_extract_getAll _ _ [] (baggage_getAll_setSpan [] _)]
    exact hrt ctx hd

/-- Non-vacuity: two propagators writing the same key. -/
example : ∃ p q : Propagator, Writes p (fun _ => [("k".toList, "1".toList)]) ∧ Writes q (fun _ => [("k".toList, "2".toList)]) ∧
    lastWrite "k".toList ([("k".toList, "1".toList)] ++ [("k".toList, "2".toList)]) = some "2".toList :=
  ⟨⟨fun _ c => some c, fun ca _ => ca.put "k".toList "1".toList, []⟩,
   ⟨fun _ c => some c, fun ca _ => ca.put "k".toList "2".toList, []⟩, fun _ _ => rfl, fun _ _ => rfl, by decide⟩

end Composite
end Otel
