import Verif.Model.Baggage
/-!
# B3 and Jaeger propagators, and the composite propagator
Models `propagator/opentelemetry-propagator-b3/src/opentelemetry/propagators/b3/__init__.py`,
`propagator/opentelemetry-propagator-jaeger/src/opentelemetry/propagators/jaeger/__init__.py` and
`opentelemetry-api/src/opentelemetry/propagators/composite.py`.

Python's `\d` and `int` also accept the non-ASCII Unicode decimal digits. The table of these is a parameter
`U` of the model (every theorem holds for every table): `U c` is the value of the non-ASCII digit `c`.
-/
namespace Otel

/-- Table of the non-ASCII decimal digits and their values. -/
abbrev DigitTable := Char → Option Nat

/-- Value of a character as a hexadecimal digit for `int(_, 16)`, and membership in `[\da-fA-F]`. -/
def hexDigit? (U : DigitTable) (c : Char) : Option Nat :=
  if c.toNat < 128 then (if Url.isHexDigit c then some (hexDigitVal c) else none)
  else (U c).map (· % 10)

/-- `int(s, 16)` for a string all of whose characters are in `[\da-fA-F]`. -/
def hexValU (U : DigitTable) (s : Str) : Nat := s.foldl (fun acc c => acc * 16 + (hexDigit? U c).getD 0) 0

/-- The digits of `int(_, 16)`: single underscores may stand between digits. The first argument says
whether the previous character was a digit. -/
def intDigits (U : DigitTable) : Bool → Nat → Str → Option Nat
  | pd, acc, [] => if pd then some acc else none
  | pd, acc, c :: cs =>
    if c = '_' then (if pd then intDigits U false acc cs else none)
    else match hexDigit? U c with
      | some d => intDigits U true (acc * 16 + d) cs
      | none => none

/-- The unsigned part of `int(_, 16)`: an optional `0x`/`0X` prefix (with an optional underscore). -/
def intBody (U : DigitTable) (s : Str) : Option Nat :=
  match s with
  | '0' :: 'x' :: '_' :: r => intDigits U false 0 r
  | '0' :: 'X' :: '_' :: r => intDigits U false 0 r
  | '0' :: 'x' :: r => intDigits U false 0 r
  | '0' :: 'X' :: r => intDigits U false 0 r
  | r => intDigits U false 0 r

/-- Python `int(s, 16)`; `none` is `ValueError`. -/
def pyInt16 (U : DigitTable) (s : Str) : Option Int :=
  match pyStrip s with
  | '-' :: r => (intBody U r).map fun n => -(n : Int)
  | '+' :: r => (intBody U r).map fun n => (n : Int)
  | r => (intBody U r).map fun n => (n : Int)

namespace B3

/-- `SINGLE_HEADER_KEY` … `FLAGS_KEY` (b3/__init__.py:40–44). -/
def singleKey : Str := "b3".toList
def traceIdKey : Str := "x-b3-traceid".toList
def spanIdKey : Str := "x-b3-spanid".toList
def sampledKey : Str := "x-b3-sampled".toList
def flagsKey : Str := "x-b3-flags".toList

/-- `_SAMPLE_PROPAGATE_VALUES` (b3/__init__.py:45). -/
def samplePropagate : List Str := ["1".toList, "True".toList, "true".toList, "d".toList]

/-- `_extract_first_element` (b3/__init__.py:205–210). -/
def first (items : Option (List Str)) : Option Str :=
  match items with
  | none => none
  | some [] => none
  | some (x :: _) => some x

/-- `_extract_first_element(getter.get(carrier, key)) or default`: the first element if non-empty. -/
def firstOr (carrier : Carrier) (key : Str) : Option Str :=
  match first (carrier.get key) with
  | some [] => none
  | r => r

/-- `[\da-fA-F]{n}` full match. -/
def hexN (U : DigitTable) (n : Nat) (s : Str) : Bool :=
  s.length == n && s.all fun c => (hexDigit? U c).isSome

/-- `_trace_id_regex` (b3/__init__.py:46). -/
def traceIdRe (U : DigitTable) (s : Str) : Bool := hexN U 16 s || hexN U 32 s
/-- `_span_id_regex` (b3/__init__.py:47). -/
def spanIdRe (U : DigitTable) (s : Str) : Bool := hexN U 16 s

/-- What the headers give: `trace_id`, `span_id` (`none` = the integer 0 they start with), `sampled`,
`flags` (b3/__init__.py:57–97). `split("-", 4)` yields at most five fields; five or more dashes and exactly
four dashes both end in the case where nothing is assigned. -/
def fields (carrier : Carrier) : Option Str × Option Str × Str × Option Str :=
  match firstOr carrier singleKey with
  | some h =>
    match splitC '-' h with
    | [x] => (none, none, x, none)
    | [t, s] => (some t, some s, "1".toList, none)
    | [t, s, x] => (some t, some s, x, none)
    | [t, s, x, _] => (some t, some s, x, none)
    | _ => (none, none, "1".toList, none)
  | none =>
    (firstOr carrier traceIdKey, firstOr carrier spanIdKey,
     (firstOr carrier sampledKey).getD "0".toList, firstOr carrier flagsKey)

/-- `B3MultiFormat.extract`, also used by `B3SingleFormat` (b3/__init__.py:49–128). -/
def extract (U : DigitTable) (carrier : Carrier) (ctx : Ctx) : Ctx :=
  match fields carrier with
  | (some t, some s, sampled, flags) =>
    if !traceIdRe U t || !spanIdRe U s then ctx
    else
      let options := if sampled ∈ samplePropagate ∨ flags = some "1".toList then 1 else 0
      ctx.setSpan { traceId := hexValU U t, spanId := hexValU U s, isRemote := true,
                    flags := options, traceState := [] }
  | _ => ctx

/-- `"1" if sampled else "0"` (b3/__init__.py:151, 186). -/
def sampledText (sc : SpanContext) : Str := if sc.sampled then "1".toList else "0".toList

/-- `B3MultiFormat.inject` (b3/__init__.py:130–151). -/
def injectMulti (carrier : Carrier) (ctx : Ctx) : Carrier :=
  let sc := ctx.currentSpan
  if sc = SpanContext.invalid then carrier
  else ((carrier.put traceIdKey (formatTraceId sc.traceId)).put spanIdKey (formatSpanId sc.spanId)).put
    sampledKey (sampledText sc)

/-- `B3SingleFormat.inject` (b3/__init__.py:169–189). -/
def injectSingle (carrier : Carrier) (ctx : Ctx) : Carrier :=
  let sc := ctx.currentSpan
  if sc = SpanContext.invalid then carrier
  else carrier.put singleKey
    (joinS ['-'] [formatTraceId sc.traceId, formatSpanId sc.spanId, sampledText sc])

end B3

namespace Jaeger

/-- `TRACE_ID_KEY` (jaeger/__init__.py:37). -/
def traceIdKey : Str := "uber-trace-id".toList
/-- `BAGGAGE_PREFIX` (jaeger/__init__.py:38). -/
def prefixText : Str := "uberctx-".toList

/-- Python `s.replace(pat, "")` for a non-empty `pat`; the counter is what is left to skip of a match. -/
def removeGo (pat : Str) : Nat → Str → Str
  | _, [] => []
  | k + 1, _ :: cs => removeGo pat k cs
  | 0, c :: cs => if pat.isPrefixOf (c :: cs) then removeGo pat (pat.length - 1) cs else c :: removeGo pat 0 cs

/-- `_extract_baggage` (jaeger/__init__.py:115–128); `none` is the `TypeError` of `unquote(None)` for a
key whose value list is empty. -/
def extractBaggage (carrier : Carrier) (ctx : Ctx) : Option Ctx :=
  (carrier.keys.filter (fun k => prefixText.isPrefixOf k)).foldl (fun acc k =>
    match acc with
    | none => none
    | some c =>
      match B3.first (carrier.get k) with
      | none => none
      | some v => some (Baggage.set c (removeGo prefixText 0 k) (pyStrip (Url.unquote v)))) (some ctx)

/-- `_parse_trace_id_header` (jaeger/__init__.py:143–163) on the first header. -/
def parseHeader (U : DigitTable) (h : Str) : Int × Int × Int :=
  match splitC ':' h with
  | [t, s, _, f] =>
    match pyInt16 U f with
    | none => (0, 0, 0)
    | some fl => ((pyInt16 U t).getD 0, (pyInt16 U s).getD 0, fl)
  | _ => (0, 0, 0)

/-- `JaegerPropagator.extract` (jaeger/__init__.py:41–70); `none` is an exception. -/
def extract (U : DigitTable) (carrier : Carrier) (ctx : Ctx) : Option Ctx :=
  match carrier.get traceIdKey with
  | none => some ctx
  | some [] => some ctx
  | some (h :: _) =>
    match extractBaggage carrier ctx with
    | none => none
    | some c =>
      let r := parseHeader U h
      if r.1 = 0 ∨ r.2.1 = 0 then some c
      else some (c.setSpan { traceId := r.1, spanId := r.2.1, isRemote := true,
                             flags := (r.2.2 % 2).toNat, traceState := [] })

/-- The value of `trace_flags` written: `|= DEBUG_FLAG` when sampled (jaeger/__init__.py:87–89). -/
def outFlags (sc : SpanContext) : Nat := if sc.sampled then sc.flags ||| 2 else sc.flags

/-- `_format_uber_trace_id` (jaeger/__init__.py:131–132). -/
def formatHeader (sc : SpanContext) (parent : Int) : Str :=
  formatTraceId sc.traceId ++ ':' :: (formatSpanId sc.spanId ++ ':' :: (formatSpanId parent ++ ':' ::
    hexFmt 2 (Int.ofNat (outFlags sc))))

/-- `JaegerPropagator.inject` (jaeger/__init__.py:72–109). `parent` is the parent span id of a recording
span that has a parent, else 0. -/
def inject (carrier : Carrier) (ctx : Ctx) (parent : Int) : Carrier :=
  let sc := ctx.currentSpan
  if sc = SpanContext.invalid then carrier
  else
    (Baggage.getAll ctx).foldl (fun c kv => c.put (prefixText ++ kv.1) (Url.quote kv.2))
      (carrier.put traceIdKey (formatHeader sc parent))

end Jaeger

/-! ## Composite propagator -/

/-- A propagator as the composite sees it. `extract` may raise (`none`). -/
structure Propagator where
  extract : Carrier → Ctx → Option Ctx
  inject : Carrier → Ctx → Carrier
  fields : List Str

namespace Composite

/-- `CompositePropagator.extract` (composite.py:38–53). -/
def extract (ps : List Propagator) (carrier : Carrier) (ctx : Ctx) : Option Ctx :=
  ps.foldlM (fun c p => p.extract carrier c) ctx

/-- `CompositePropagator.inject` (composite.py:55–69). -/
def inject (ps : List Propagator) (carrier : Carrier) (ctx : Ctx) : Carrier :=
  ps.foldl (fun c p => p.inject c ctx) carrier

/-- `CompositePropagator.fields` (composite.py:72–85): a set, here in insertion order. -/
def fields (ps : List Propagator) : List Str :=
  ps.foldl (fun acc p => p.fields.foldl (fun acc f => if f ∈ acc then acc else acc ++ [f]) acc) []

end Composite
end Otel
