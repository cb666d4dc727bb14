import Verif.Model.B3Jaeger
/-!
# Limit configuration
Models `SpanLimits` (`opentelemetry-sdk/src/opentelemetry/sdk/trace/__init__.py` 567–726) and `LogLimits`
(`opentelemetry-sdk/src/opentelemetry/sdk/_logs/_internal/__init__.py` 75–163). Arguments are `None` or `int`
(as annotated). `int(str)` is modelled without CPython's limit on the number of digits.
-/
namespace Otel

/-- Value of a decimal digit (ASCII or from the table of other Unicode digits). -/
def decDigit? (U : DigitTable) (c : Char) : Option Nat :=
  if c.toNat < 128 then (if isDig c then some (c.toNat - 48) else none) else (U c).map (· % 10)

/-- Digits of `int(_)`, with single underscores between digits. -/
def decDigits (U : DigitTable) : Bool → Nat → Str → Option Nat
  | pd, acc, [] => if pd then some acc else none
  | pd, acc, c :: cs =>
    if c = '_' then (if pd then decDigits U false acc cs else none)
    else match decDigit? U c with
      | some d => decDigits U true (acc * 10 + d) cs
      | none => none

/-- An optional sign and digits. -/
def signDigits (U : DigitTable) : Str → Option Int
  | '-' :: r => (decDigits U false 0 r).map fun n : Nat => -(n : Int)
  | '+' :: r => (decDigits U false 0 r).map fun n : Nat => (n : Int)
  | r => (decDigits U false 0 r).map fun n : Nat => (n : Int)

/-- Python `int(s)`; `none` is `ValueError`. -/
def pyInt10 (U : DigitTable) (s : Str) : Option Int := signDigits U (pyStrip s)

namespace Limits

/-- The outcome of resolving a limit: `ValueError`, or a limit (`none` = unlimited). -/
inductive Res (α : Type) where
  | raised
  | ok (a : α)
deriving DecidableEq, Repr

def Res.bind {α β : Type} : Res α → (α → Res β) → Res β
  | .raised, _ => .raised
  | .ok a, f => f a

/-- `SpanLimits._from_env_if_absent` / `LogLimits._from_env_if_absent` (trace/__init__.py:688–714,
_logs/_internal/__init__.py:131–157). `UNSET` is −1; `_ENV_VALUE_UNSET` is the empty string (line 89), so a blank
environment value means unlimited. -/
def fromEnvIfAbsent (U : DigitTable) (value : Option Int) (env : Option Str) (default : Option Nat) : Res (Option Nat) :=
  match value with
  | some v =>
    if v = -1 then .ok none
    else if v < 0 then .raised else .ok (some v.toNat)
  | none =>
    match env with
    | none => .ok default
    | some s =>
      let t := EnvHeaders.lowerAscii (pyStrip s)
      if t = [] then .ok none
      else match pyInt10 U t with
        | none => .raised
        | some v => if v < 0 then .raised else .ok (some v.toNat)

/-- The arguments of `SpanLimits` and the environment variables they fall back to. -/
structure Args where
  maxAttributes : Option Int := none
  maxEvents : Option Int := none
  maxLinks : Option Int := none
  maxSpanAttributes : Option Int := none
  maxEventAttributes : Option Int := none
  maxLinkAttributes : Option Int := none
  maxAttributeLength : Option Int := none
  maxSpanAttributeLength : Option Int := none

/-- The environment: `OTEL_ATTRIBUTE_COUNT_LIMIT` etc. -/
structure Env where
  attributeCount : Option Str := none
  spanEventCount : Option Str := none
  spanLinkCount : Option Str := none
  spanAttributeCount : Option Str := none
  eventAttributeCount : Option Str := none
  linkAttributeCount : Option Str := none
  attributeValueLength : Option Str := none
  spanAttributeValueLength : Option Str := none

end Limits

/-- A resolved `SpanLimits` object; `none` = unlimited. -/
structure SpanLimits where
  maxAttributes : Option Nat
  maxEvents : Option Nat
  maxLinks : Option Nat
  maxSpanAttributes : Option Nat
  maxEventAttributes : Option Nat
  maxLinkAttributes : Option Nat
  maxAttributeLength : Option Nat
  maxSpanAttributeLength : Option Nat
deriving DecidableEq, Repr

namespace Limits

/-- `x if x is not None else 128`. -/
def orDefault (x : Option Nat) : Option Nat := match x with | some n => some n | none => some 128

/-- `SpanLimits.__init__` (trace/__init__.py:612–683; defaults 81–86). -/
def spanLimits (U : DigitTable) (a : Args) (e : Env) : Res SpanLimits :=
  (fromEnvIfAbsent U a.maxEvents e.spanEventCount (some 128)).bind fun ev =>
  (fromEnvIfAbsent U a.maxLinks e.spanLinkCount (some 128)).bind fun li =>
  (fromEnvIfAbsent U a.maxAttributes e.attributeCount none).bind fun g =>
  (fromEnvIfAbsent U a.maxSpanAttributes e.spanAttributeCount (orDefault g)).bind fun sa =>
  (fromEnvIfAbsent U a.maxEventAttributes e.eventAttributeCount (orDefault g)).bind fun ea =>
  (fromEnvIfAbsent U a.maxLinkAttributes e.linkAttributeCount (orDefault g)).bind fun la =>
  (fromEnvIfAbsent U a.maxAttributeLength e.attributeValueLength none).bind fun al =>
  (fromEnvIfAbsent U a.maxSpanAttributeLength e.spanAttributeValueLength al).bind fun sl =>
  .ok { maxAttributes := orDefault g, maxEvents := ev, maxLinks := li, maxSpanAttributes := sa,
        maxEventAttributes := ea, maxLinkAttributes := la, maxAttributeLength := al, maxSpanAttributeLength := sl }

/-- `_UnsetLimits` (trace/__init__.py:717–726). -/
def unsetArgs : Args := ⟨some (-1), some (-1), some (-1), some (-1), some (-1), some (-1), some (-1), some (-1)⟩

/-- `LogLimits.__init__` (_logs/_internal/__init__.py:107–126): the attribute count and length limits. -/
def logLimits (U : DigitTable) (maxAttributes maxAttributeLength : Option Int) (e : Env) :
    Res (Option Nat × Option Nat) :=
  (fromEnvIfAbsent U maxAttributes e.attributeCount none).bind fun g =>
  (fromEnvIfAbsent U maxAttributeLength e.attributeValueLength none).bind fun al =>
  .ok (orDefault g, al)

end Limits
end Otel
