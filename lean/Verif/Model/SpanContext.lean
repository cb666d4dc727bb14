import Verif.Model.TraceState
/-!
# `SpanContext`, `TraceFlags`, id formatting
Models `opentelemetry-api/src/opentelemetry/trace/span.py` 197–222, 421–511, 577–608.
-/
namespace Otel

/-- A lower-case hexadecimal digit. -/
def hexDigit (n : Nat) : Char := if n < 10 then Char.ofNat (48 + n) else Char.ofNat (87 + n)

/-- Hexadecimal digits of `n`, most significant first; the fuel is the number of binary digits. -/
def toHexAux : Nat → Nat → Str
  | 0, n => [hexDigit (n % 16)]
  | fuel + 1, n => if n < 16 then [hexDigit n] else toHexAux fuel (n / 16) ++ [hexDigit (n % 16)]

/-- Python `format(n, "x")` for `n ≥ 0`. -/
def toHex (n : Nat) : Str := toHexAux (n.log2 + 1) n

/-- Left padding with `'0'` to width `w`. -/
def zeroPad (w : Nat) (s : Str) : Str := List.replicate (w - s.length) '0' ++ s

/-- Python `format(n, "0<w>x")`: zero padded to total width `w`, the sign first. -/
def hexFmt (w : Nat) : Int → Str
  | .ofNat n => zeroPad w (toHex n)
  | .negSucc n => '-' :: zeroPad (w - 1) (toHex (n + 1))

/-- `format_trace_id` (span.py:589–597). -/
def formatTraceId (n : Int) : Str := hexFmt 32 n
/-- `format_span_id` (span.py:600–608). -/
def formatSpanId (n : Int) : Str := hexFmt 16 n

/-- Value of a hexadecimal digit of either case (0 for other characters). -/
def hexDigitVal (c : Char) : Nat :=
  if isDig c then c.toNat - 48
  else if inRange 0x61 0x66 c then c.toNat - 87
  else if inRange 0x41 0x46 c then c.toNat - 55
  else 0

/-- Python `int(s, 16)` for a string of hexadecimal digits (used where a regex guarantees that). -/
def hexVal (s : Str) : Nat := s.foldl (fun acc c => acc * 16 + hexDigitVal c) 0

/-- `SpanContext` (span.py:425–511); `is_valid` is computed below. `trace_flags` is a `TraceFlags(int)`,
modelled as a natural number. -/
structure SpanContext where
  traceId : Int
  spanId : Int
  isRemote : Bool
  flags : Nat
  traceState : TraceState.TS
deriving DecidableEq, Repr

namespace SpanContext
/-- `is_valid` as computed in `SpanContext.__new__` (span.py:454–457; constants 421–422, 577–578). -/
def isValid (sc : SpanContext) : Bool :=
  decide (0 < sc.traceId) && decide (sc.traceId ≤ 2 ^ 128 - 1) &&
  decide (0 < sc.spanId) && decide (sc.spanId ≤ 2 ^ 64 - 1)

/-- `INVALID_SPAN_CONTEXT` (span.py:579–585). -/
def invalid : SpanContext := ⟨0, 0, false, 0, []⟩

/-- `TraceFlags.sampled` (span.py:217–219): bit 0. -/
def sampled (sc : SpanContext) : Bool := sc.flags % 2 == 1
end SpanContext
end Otel
