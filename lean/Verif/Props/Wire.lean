import Verif.Props.TraceContext
import Verif.Props.IdFormat
import Verif.Props.B3Jaeger
import Mathlib.Data.List.Induction
/-!
# C04, C08, C10, C12: the headers on the wire
-/
namespace Otel

theorem hput (c : Carrier) (k k' v : Str) : (c.put k v).get k' = if k' = k then some [v] else c.get k' := by
  unfold Carrier.put Carrier.get
  rw [Dict.get?_set]
  simp only [eq_comm]

namespace TraceContext

/-- **C04** What `inject` writes for a span context that is not the invalid one: the header `traceparent` is `00-`, the 32 digits of the trace
id, the 16 of the span id and two of the flags, separated by dashes; `tracestate` is written if and only if the trace state is not empty; no
other header is touched. -/
theorem C04_wire (carrier : Carrier) (ctx : Ctx) (sc : SpanContext) (hsc : ctx.currentSpan = sc) (hne : sc ≠ ⟨0, 0, false, 0, []⟩) :
    (∃ t s f, (inject carrier ctx).get "traceparent".toList = some ["00-".toList ++ t ++ '-' :: s ++ '-' :: f] ∧
      HexOf 32 sc.traceId t ∧ HexOf 16 sc.spanId s ∧ HexOf 2 sc.flags f) ∧
    (inject carrier ctx).get "tracestate".toList =
      (if sc.traceState = [] then carrier.get "tracestate".toList else some [TraceState.toHeader sc.traceState]) ∧
    ∀ k, k ≠ "traceparent".toList → k ≠ "tracestate".toList → (inject carrier ctx).get k = carrier.get k := by
  have e : inject carrier ctx = if sc.traceState ≠ [] then
      (carrier.put "traceparent".toList (traceparent sc)).put "tracestate".toList (TraceState.toHeader sc.traceState)
      else carrier.put "traceparent".toList (traceparent sc) := by
    simp only [inject, hsc]
    rw [if_neg (show ¬ sc = SpanContext.invalid from hne)]
    rfl
  have hd : ("traceparent".toList : Str) ≠ "tracestate".toList := by decide
  refine ⟨⟨formatTraceId sc.traceId, formatSpanId sc.spanId, hexFmt 2 (Int.ofNat sc.flags), ?_, (C87_format _).1, (C87_format _).2,
    hexFmt_hexOf 2 (by decide) _⟩, ?_, ?_⟩
  · rw [e]
    have : ["00-".toList ++ formatTraceId sc.traceId ++ '-' :: formatSpanId sc.spanId ++ '-' :: hexFmt 2 (Int.ofNat sc.flags)] = [traceparent sc] := by
      simp [traceparent]
    rw [this]
    split
    · rw [hput, if_neg hd, hput, if_pos rfl]
    · rw [hput, if_pos rfl]
  · rw [e]
    by_cases h : sc.traceState = []
    · rw [if_neg (by simpa using h), if_pos h]
      rw [hput, if_neg (Ne.symm hd)]
    · rw [if_pos h, if_neg h, hput, if_pos rfl]
  · intro k h1 h2
    rw [e]
    split
    · rw [hput, if_neg h2, hput, if_neg h1]
    · rw [hput, if_neg h1]

/-- **C04** `extract` reads only the headers `traceparent` and `tracestate`. -/
theorem C04_reads (c c' : Carrier) (ctx : Ctx) (h1 : c.get "traceparent".toList = c'.get "traceparent".toList)
    (h2 : c.get "tracestate".toList = c'.get "tracestate".toList) : extract c ctx = extract c' ctx := by
  simp only [extract, show traceparentName = "traceparent".toList from rfl, show tracestateName = "tracestate".toList from rfl, h1, h2]

example : (inject [] (Ctx.setSpan [] ⟨-5, 0xabc, false, 1, []⟩)).get "traceparent".toList =
    some ["00--0000000000000000000000000000005-0000000000000abc-01".toList] := by decide

end TraceContext

namespace Baggage

/-- **C08** Baggage travels in the header `baggage`, and only there: `name=value` pairs separated by commas. -/
theorem C08_wire (carrier : Carrier) (ctx : Ctx) :
    (∀ k, k ≠ "baggage".toList → (inject carrier ctx).get k = carrier.get k) ∧
    ((inject carrier ctx).get "baggage".toList = if getAll ctx = [] then carrier.get "baggage".toList else
      some [joinS ",".toList ((getAll ctx).map (fun kv => Url.quotePlus kv.1 ++ "=".toList ++ Url.quotePlus kv.2))]) ∧
    ∀ c' : Carrier, carrier.get "baggage".toList = c'.get "baggage".toList → extract carrier ctx = extract c' ctx := by
  refine ⟨?_, ?_, ?_⟩
  · intro k hk
    simp only [inject]
    split
    · rfl
    · rw [show headerName = "baggage".toList from rfl, hput, if_neg hk]
  · simp only [inject, List.isEmpty_iff]
    split
    · rfl
    · rw [show headerName = "baggage".toList from rfl, hput, if_pos rfl]; rfl
  · intro c' h
    simp only [extract, show headerName = "baggage".toList from rfl, h]

end Baggage

namespace B3

/-- **C10** The headers of the B3 formats. -/
theorem C10_wire (carrier : Carrier) (ctx : Ctx) (sc : SpanContext) (hsc : ctx.currentSpan = sc) (hne : sc ≠ ⟨0, 0, false, 0, []⟩) :
    ∃ t s, HexOf 32 sc.traceId t ∧ HexOf 16 sc.spanId s ∧
      (∀ k, (injectSingle carrier ctx).get k = if k = "b3".toList then
          some [t ++ '-' :: s ++ '-' :: (if sc.flags % 2 = 1 then "1" else "0").toList] else carrier.get k) ∧
      (∀ k, (injectMulti carrier ctx).get k = if k = "x-b3-traceid".toList then some [t] else if k = "x-b3-spanid".toList then some [s]
        else if k = "x-b3-sampled".toList then some [(if sc.flags % 2 = 1 then "1" else "0").toList] else carrier.get k) := by
  have ht : sampledText sc = (if sc.flags % 2 = 1 then "1" else "0").toList := by
    unfold sampledText SpanContext.sampled
    by_cases h : sc.flags % 2 = 1 <;> simp [h]
  refine ⟨_, _, (C87_format sc.traceId).1, (C87_format sc.spanId).2, ?_, ?_⟩
  · intro k
    simp only [injectSingle, hsc]
    rw [if_neg (show ¬ sc = SpanContext.invalid from hne), hput, ← ht]
    simp only [joinS, show singleKey = "b3".toList from rfl, List.append_assoc, List.cons_append, List.nil_append]
  · intro k
    simp only [injectMulti, hsc]
    rw [if_neg (show ¬ sc = SpanContext.invalid from hne), hput, hput, hput, ← ht]
    simp only [show traceIdKey = "x-b3-traceid".toList from rfl, show spanIdKey = "x-b3-spanid".toList from rfl,
      show sampledKey = "x-b3-sampled".toList from rfl]
    have d1 : "x-b3-traceid".toList ≠ "x-b3-spanid".toList := by decide
    have d2 : "x-b3-traceid".toList ≠ "x-b3-sampled".toList := by decide
    have d3 : "x-b3-spanid".toList ≠ "x-b3-sampled".toList := by decide
    generalize "x-b3-traceid".toList = k1 at d1 d2 ⊢
    generalize "x-b3-spanid".toList = k2 at d1 d3 ⊢
    generalize "x-b3-sampled".toList = k3 at d2 d3 ⊢
    by_cases h1 : k = k1
    · rw [if_neg (by rw [h1]; exact d2), if_neg (by rw [h1]; exact d1), if_pos h1, if_pos h1]
    · rw [if_neg h1, if_neg h1]
      by_cases h2 : k = k2
      · rw [if_neg (by rw [h2]; exact d3), if_pos h2, if_pos h2]
      · rw [if_neg h2, if_neg h2]

end B3

namespace Jaeger

theorem get_foldl_prefix (pre k : Str) (l : List (Str × Str)) (c : Carrier) :
    (l.foldl (fun (c : Carrier) kv => c.put (pre ++ kv.1) (Url.quote kv.2)) c).get k =
      match (l.filter (fun kv => pre ++ kv.1 = k)).getLast? with
      | some kv => some [Url.quote kv.2]
      | none => c.get k := by
  induction l using List.reverseRecOn generalizing c with
  | nil => rfl
  | append_singleton l x ih =>
    rw [List.foldl_append, List.filter_append]
    simp only [List.foldl_cons, List.foldl_nil]
    rw [hput]
    by_cases hx : pre ++ x.1 = k
    · rw [if_pos hx.symm, List.filter_cons_of_pos (by simpa using hx)]
      simp
    · rw [if_neg (Ne.symm hx), List.filter_cons_of_neg (by simpa using hx), ih]
      simp

/-- **C12** The Jaeger headers: `uber-trace-id` with four fields, and one header `uberctx-` followed by the name for each baggage entry. -/
theorem C12_wire (carrier : Carrier) (ctx : Ctx) (parent : Int) (sc : SpanContext) (hsc : ctx.currentSpan = sc)
    (hne : sc ≠ ⟨0, 0, false, 0, []⟩) (k : Str) :
    (inject carrier ctx parent).get k =
      match ((Baggage.getAll ctx).filter (fun kv => "uberctx-".toList ++ kv.1 = k)).getLast? with
      | some kv => some [Url.quote kv.2]
      | none => if k = "uber-trace-id".toList then some [joinS ":".toList [formatTraceId sc.traceId, formatSpanId sc.spanId, formatSpanId parent,
          hexFmt 2 (if sc.flags % 2 = 1 then sc.flags ||| 2 else sc.flags : Nat)]] else carrier.get k := by
  simp only [inject, hsc]
  rw [if_neg (show ¬ sc = SpanContext.invalid from hne)]
  rw [show prefixText = "uberctx-".toList from rfl, get_foldl_prefix, hput]
  have e : formatHeader sc parent = joinS ":".toList [formatTraceId sc.traceId, formatSpanId sc.spanId, formatSpanId parent,
          hexFmt 2 (if sc.flags % 2 = 1 then sc.flags ||| 2 else sc.flags : Nat)] := by
    have : outFlags sc = (if sc.flags % 2 = 1 then sc.flags ||| 2 else sc.flags) := by
      unfold outFlags SpanContext.sampled
      by_cases h : sc.flags % 2 = 1 <;> simp [h]
    unfold formatHeader
    rw [this]
    simp [joinS]
  rw [e]
  rfl

end Jaeger
end Otel
