import Verif.Model.Context
/-!
# W3C TraceContext propagator
Models `opentelemetry-api/src/opentelemetry/trace/propagation/tracecontext.py` and the default
getter/setter of `propagators/textmap.py` 74–122.
-/
namespace Otel

/-- A carrier seen through the default getter: each key maps to the list of its values
(`DefaultGetter.get`, textmap.py:75–91, turns a single `str` into a one-element list). -/
abbrev Carrier := Dict Str (List Str)

namespace Carrier
/-- `default_getter.get(carrier, key)` -/
def get (c : Carrier) (k : Str) : Option (List Str) := Dict.get? c k
/-- `default_setter.set(carrier, key, value)` (textmap.py:103–119) -/
def put (c : Carrier) (k v : Str) : Carrier := Dict.set c k [v]
end Carrier

namespace TraceContext

/-- `_TRACEPARENT_HEADER_NAME` (tracecontext.py:28). -/
def traceparentName : Str := "traceparent".toList
/-- `_TRACESTATE_HEADER_NAME` (tracecontext.py:29). -/
def tracestateName : Str := "tracestate".toList

/-- `[0-9a-f]` -/
def isLowerHex (c : Char) : Bool := isDig c || inRange 0x61 0x66 c

/-- Takes exactly `n` lower-case hex digits. -/
def takeHex : Nat → Str → Option (Str × Str)
  | 0, s => some ([], s)
  | _ + 1, [] => none
  | n + 1, c :: cs =>
    if isLowerHex c then (takeHex n cs).map fun p => (c :: p.1, p.2) else none

/-- Takes a literal `-`. -/
def takeDash : Str → Option Str
  | '-' :: cs => some cs
  | _ => none

/-- `$` after which nothing or one final newline remains. -/
def atEnd (s : Str) : Bool := s.isEmpty || s == ['\n']

/-- `(-.*)?[ \t]*$` on what follows the flags: the value of group 5 (`[]` when the group does not
take part), or `none` when there is no match. `.` does not match a newline. -/
def tailMatch (s : Str) : Option Str :=
  match s with
  | '-' :: cs =>
    let body := cs.takeWhile (· != '\n')
    if atEnd (cs.dropWhile (· != '\n')) then some ('-' :: body) else none
  | _ => if atEnd (s.dropWhile isBlank) then some [] else none

/-- Groups 1–5 of `_TRACEPARENT_HEADER_FORMAT` (tracecontext.py:30–34) matched by `re.search` at the
start of the string. -/
structure Groups where
  version : Str
  traceId : Str
  spanId : Str
  flags : Str
  rest : Str
deriving DecidableEq, Repr

/-- `re.search(_TRACEPARENT_HEADER_FORMAT_RE, header)` (tracecontext.py:54). -/
def matchTraceparent (h : Str) : Option Groups :=
  let s0 := h.dropWhile isBlank
  match takeHex 2 s0 with
  | none => none
  | some (v, s1) =>
  match takeDash s1 with
  | none => none
  | some s2 =>
  match takeHex 32 s2 with
  | none => none
  | some (t, s3) =>
  match takeDash s3 with
  | none => none
  | some s4 =>
  match takeHex 16 s4 with
  | none => none
  | some (p, s5) =>
  match takeDash s5 with
  | none => none
  | some s6 =>
  match takeHex 2 s6 with
  | none => none
  | some (f, s7) =>
  match tailMatch s7 with
  | none => none
  | some r => some ⟨v, t, p, f, r⟩

/-- `TraceContextTextMapPropagator.extract` (tracecontext.py:36–87). The `context is None` default is
the empty context and is the caller's `[]`. -/
def extract (carrier : Carrier) (ctx : Ctx) : Ctx :=
  match carrier.get traceparentName with
  | none => ctx
  | some [] => ctx
  | some (header :: _) =>
    match matchTraceparent header with
    | none => ctx
    | some g =>
      if g.traceId = List.replicate 32 '0' ∨ g.spanId = List.replicate 16 '0' then ctx
      else if g.version = "00".toList ∧ g.rest ≠ [] then ctx
      else if g.version = "ff".toList then ctx
      else
        let ts := match carrier.get tracestateName with
          | none => []
          | some hs => TraceState.fromHeader hs
        ctx.setSpan { traceId := hexVal g.traceId, spanId := hexVal g.spanId, isRemote := true,
                      flags := hexVal g.flags, traceState := ts }

/-- The `traceparent` text (tracecontext.py:103). -/
def traceparent (sc : SpanContext) : Str :=
  "00-".toList ++ formatTraceId sc.traceId ++ ['-'] ++ formatSpanId sc.spanId ++ ['-'] ++
    hexFmt 2 (Int.ofNat sc.flags)

/-- `TraceContextTextMapPropagator.inject` (tracecontext.py:89–109). `==` on span contexts is tuple
equality; `if span_context.trace_state` is non-emptiness. -/
def inject (carrier : Carrier) (ctx : Ctx) : Carrier :=
  let sc := ctx.currentSpan
  if sc = SpanContext.invalid then carrier
  else
    let c1 := carrier.put traceparentName (traceparent sc)
    if sc.traceState ≠ [] then c1.put tracestateName (TraceState.toHeader sc.traceState) else c1

end TraceContext
end Otel
