import Verif.Model.Zipkin
import Verif.Model.B3Jaeger
/-!
# `json.dumps` and `json.loads`
The standard library's JSON writer (`ensure_ascii`, with and without `indent`) and reader, as `to_json` of
`opentelemetry-sdk/src/opentelemetry/sdk/` (`trace/__init__.py` 486–521, `_logs/_internal/__init__.py` 221–251, `resources/__init__.py` 300–311,
`util/instrumentation.py` 156–167, `metrics/_internal/point.py`) use them. The reader of objects does not merge repeated keys; the objects read
by the code come from Python dictionaries, which have none.
-/
namespace Otel
namespace Json

/-- A JSON document. Floats are opaque. -/
inductive J where
  | null
  | bool (b : Bool)
  | int (i : Int)
  | float (id : Nat)
  | str (s : Str)
  | arr (l : List J)
  | obj (l : List (Str × J))

/-! ## Numbers -/

/-- A decimal digit. -/
def digit (n : Nat) : Char := Char.ofNat (48 + n)

/-- Decimal digits of `n`, most significant first; the fuel is at least the number of digits less one. -/
def toDecAux : Nat → Nat → Str
  | 0, n => [digit (n % 10)]
  | fuel + 1, n => if n < 10 then [digit n] else toDecAux fuel (n / 10) ++ [digit (n % 10)]

/-- `int.__repr__`. -/
def decimal : Int → Str
  | .ofNat n => toDecAux n n
  | .negSucc n => '-' :: toDecAux (n + 1) (n + 1)

/-- `int(text)` for a run of digits. -/
def decVal (s : Str) : Nat := s.foldl (fun acc c => acc * 10 + (c.toNat - 48)) 0

/-- The digits of `(0|[1-9]\d*)` (the integer part of a number). -/
def isIntPart (s : Str) : Bool := s.all isDig && (s == ['0'] || (!s.isEmpty && s.head? != some '0'))

/-- The value of `-?(0|[1-9]\d*)`. -/
def readInt : Str → Option Int
  | '-' :: r => if isIntPart r then some (-(decVal r : Int)) else none
  | r => if isIntPart r then some (decVal r : Int) else none

/-- The characters of a number, and those of `NaN` and `Infinity`, which `json.loads` reads too. -/
def numChar (c : Char) : Bool := isDig c || c ∈ "+-.eENaInfity".toList

/-- Python's text of floats and how it reads them. That reading what was written gives the number back is a property of `float.__repr__`. -/
structure Floats where
  repr : Nat → Str
  parse : Str → Option Nat
  parse_repr : ∀ n, parse (repr n) = some n
  chars : ∀ n, ∀ c ∈ repr n, numChar c = true
  not_int : ∀ n, readInt (repr n) = none
  /-- Floats begin with a digit or a sign, or are `NaN` or `Infinity`. -/
  head : ∀ n, ∃ c r, repr n = c :: r ∧ (isDig c = true ∨ c ∈ "-NI".toList)

/-! ## Writing -/

/-- The line break and indentation of level `lvl`; nothing without `indent`. -/
def newline (indent : Option Nat) (lvl : Nat) : Str :=
  match indent with
  | none => []
  | some k => '\n' :: List.replicate (k * lvl) ' '

/-- The separator of items at level `lvl`. -/
def sep (indent : Option Nat) (lvl : Nat) : Str :=
  match indent with
  | none => ", ".toList
  | some _ => ',' :: newline indent lvl

mutual
/-- `json.dumps(j, indent=indent)` at nesting level `lvl`. -/
def write (F : Floats) (indent : Option Nat) (lvl : Nat) : J → Str
  | .null => "null".toList
  | .bool true => "true".toList
  | .bool false => "false".toList
  | .int i => decimal i
  | .float f => F.repr f
  | .str s => Zipkin.quote s
  | .arr [] => "[]".toList
  | .arr (x :: l) => '[' :: newline indent (lvl + 1) ++ (write F indent (lvl + 1) x ++ writeItems F indent (lvl + 1) l) ++ newline indent lvl ++ [']']
  | .obj [] => "{}".toList
  | .obj ((k, x) :: l) => '{' :: newline indent (lvl + 1) ++
      (Zipkin.quote k ++ ": ".toList ++ write F indent (lvl + 1) x ++ writePairs F indent (lvl + 1) l) ++ newline indent lvl ++ ['}']
/-- The items after the first, each after a separator. -/
def writeItems (F : Floats) (indent : Option Nat) (lvl : Nat) : List J → Str
  | [] => []
  | x :: l => sep indent lvl ++ write F indent lvl x ++ writeItems F indent lvl l
/-- The pairs after the first. -/
def writePairs (F : Floats) (indent : Option Nat) (lvl : Nat) : List (Str × J) → Str
  | [] => []
  | (k, x) :: l => sep indent lvl ++ Zipkin.quote k ++ ": ".toList ++ write F indent lvl x ++ writePairs F indent lvl l
end

/-- `json.dumps(j, indent=indent)`. -/
def dumps (F : Floats) (indent : Option Nat) (j : J) : Str := write F indent 0 j

/-! ## Reading -/

/-- Blanks: space, tab, line feed, carriage return. -/
def isBlank (c : Char) : Bool := c == ' ' || c == '\t' || c == '\n' || c == '\r'

/-- After the blanks. -/
def skip (s : Str) : Str := s.dropWhile isBlank

/-- The four hexadecimal digits after `\u`, in either case. -/
def readHex4 : Str → Option (Nat × Str)
  | a :: b :: c :: d :: r => if [a, b, c, d].all Url.isHexDigit then some (hexVal [a, b, c, d], r) else none
  | _ => none

/-- The escapes of one character. -/
def simpleEscape (e : Char) : Option Nat :=
  if e = '"' then some 34
  else if e = '\\' then some 92
  else if e = '/' then some 47
  else if e = 'n' then some 10
  else if e = 'r' then some 13
  else if e = 't' then some 9
  else if e = 'f' then some 12
  else if e = 'b' then some 8
  else none

/-- The UTF-16 unit (or the code point) that begins with `c`, and what follows. -/
def readOne (c : Char) (r : Str) : Option (Nat × Str) :=
  if c = '\\' then
    match r with
    | [] => none
    | e :: r' => if e = 'u' then readHex4 r' else (simpleEscape e).map fun n => (n, r')
  else if c.toNat < 32 then none
  else some (c.toNat, r)

/-- The units up to the closing quote, and what follows it. -/
def readChars : Nat → Str → Option (List Nat × Str)
  | 0, _ => none
  | _ + 1, [] => none
  | f + 1, c :: r =>
    if c = '"' then some ([], r)
    else match readOne c r with
      | none => none
      | some (n, r') => (readChars f r').map fun p => (n :: p.1, p.2)

/-- Surrogate pairs are joined. -/
def joinUnits : List Nat → Str
  | [] => []
  | [n] => [Char.ofNat n]
  | h :: l :: r =>
    if 0xd800 ≤ h ∧ h < 0xdc00 ∧ 0xdc00 ≤ l ∧ l < 0xe000 then Char.ofNat (0x10000 + (h - 0xd800) * 0x400 + (l - 0xdc00)) :: joinUnits r
    else Char.ofNat h :: joinUnits (l :: r)

/-- A string after its opening quote, and what follows. -/
def readString (r : Str) : Option (Str × Str) := (readChars (r.length + 1) r).map fun p => (joinUnits p.1, p.2)

/-- A number: the longest run of its characters. -/
def readNumber (F : Floats) (s : Str) : Option (J × Str) :=
  let t := s.takeWhile numChar
  let r := s.dropWhile numChar
  match readInt t with
  | some i => some (.int i, r)
  | none => (F.parse t).map fun f => (.float f, r)

mutual
/-- A value, and what follows it. The fuel bounds the nesting and the number of items. -/
def readValue (F : Floats) : Nat → Str → Option (J × Str)
  | 0, _ => none
  | f + 1, s =>
    match skip s with
    | [] => none
    | c :: r =>
      if c = '"' then (readString r).map fun p => (.str p.1, p.2)
      else if c = '[' then
        match skip r with
        | ']' :: r' => some (.arr [], r')
        | _ => (readItems F f r).map fun p => (.arr p.1, p.2)
      else if c = '{' then
        match skip r with
        | '}' :: r' => some (.obj [], r')
        | _ => (readPairs F f r).map fun p => (.obj p.1, p.2)
      else if "null".toList.isPrefixOf (c :: r) then some (.null, (c :: r).drop 4)
      else if "true".toList.isPrefixOf (c :: r) then some (.bool true, (c :: r).drop 4)
      else if "false".toList.isPrefixOf (c :: r) then some (.bool false, (c :: r).drop 5)
      else readNumber F (c :: r)
/-- Items up to the closing bracket. -/
def readItems (F : Floats) : Nat → Str → Option (List J × Str)
  | 0, _ => none
  | f + 1, s =>
    match readValue F f s with
    | none => none
    | some (x, r) =>
      match skip r with
      | ',' :: r' => (readItems F f r').map fun p => (x :: p.1, p.2)
      | ']' :: r' => some ([x], r')
      | _ => none
/-- Pairs up to the closing brace. -/
def readPairs (F : Floats) : Nat → Str → Option (List (Str × J) × Str)
  | 0, _ => none
  | f + 1, s =>
    match skip s with
    | '"' :: r =>
      match readString r with
      | none => none
      | some (k, r') =>
        match skip r' with
        | ':' :: r'' =>
          match readValue F f r'' with
          | none => none
          | some (x, r3) =>
            match skip r3 with
            | ',' :: r4 => (readPairs F f r4).map fun p => ((k, x) :: p.1, p.2)
            | '}' :: r4 => some ([(k, x)], r4)
            | _ => none
        | _ => none
    | _ => none
end

/-- `json.loads(s)`; `none` is `JSONDecodeError`. -/
def loads (F : Floats) (s : Str) : Option J :=
  match readValue F (s.length + 1) s with
  | some (j, r) => if (skip r).isEmpty then some j else none
  | none => none

end Json
end Otel
