import Verif.Model.Py
/-!
# `opentelemetry.trace.span.TraceState`
Models `opentelemetry-api/src/opentelemetry/trace/span.py`, lines 17–54 and 224–420.
Only `str` keys and values are modelled (the `isinstance` tests of `_is_valid_pair` reject the rest);
log messages are not modelled.
-/
namespace Otel
namespace TraceState

/-- `[_0-9a-z\-\*\/]` (span.py:23). -/
def keyChar (c : Char) : Bool :=
  c == '_' || isDig c || isLower c || c == '-' || c == '*' || c == '/'

/-- `[a-z0-9]` (span.py:24). -/
def lcOrDig (c : Char) : Bool := isLower c || isDig c

/-- `_KEY_FORMAT` (span.py:22–25). -/
def keyRe : Re :=
  .alt (.seq (.cls isLower) (.rep keyChar 0 255))
       (.seq (.cls lcOrDig) (.seq (.rep keyChar 0 240)
         (.seq (.chr '@') (.seq (.cls isLower) (.rep keyChar 0 13)))))

/-- `[\x21-\x2b\x2d-\x3c\x3e-\x7e]` (span.py:36). -/
def nblkChar (c : Char) : Bool := inRange 0x21 0x2b c || inRange 0x2d 0x3c c || inRange 0x3e 0x7e c

/-- `[\x20-\x2b\x2d-\x3c\x3e-\x7e]` (span.py:36). -/
def valChar (c : Char) : Bool := inRange 0x20 0x2b c || inRange 0x2d 0x3c c || inRange 0x3e 0x7e c

/-- `_VALUE_FORMAT` (span.py:35–37). -/
def valueRe : Re := .seq (.rep valChar 0 255) (.cls nblkChar)

/-- `_TRACECONTEXT_MAXIMUM_TRACESTATE_KEYS` (span.py:41). -/
def maxKeys : Nat := 32

/-- `_is_valid_pair` (span.py:47–53), for string arguments. -/
def validPair (k v : Str) : Bool := keyRe.fullmatch k && valueRe.fullmatch v

/-- A `TraceState` object, i.e. its `_dict`. -/
abbrev TS := Dict Str Str

/-- The loop of `TraceState.__init__` (span.py:251–260). -/
def mkLoop : TS → List (Str × Str) → TS
  | d, [] => d
  | d, (k, v) :: rest =>
    if validPair k v then
      if Dict.has d k then mkLoop d rest else mkLoop (Dict.set d k v) rest
    else mkLoop d rest

/-- `TraceState.__init__(entries)` (span.py:235–260). -/
def mk (entries : List (Str × Str)) : TS :=
  if entries.length > maxKeys then [] else mkLoop [] entries

/-- `TraceState.add` (span.py:281–310). -/
def add (ts : TS) (k v : Str) : TS :=
  if !validPair k v then ts
  else if ts.length ≥ maxKeys then ts
  else if Dict.has ts k then ts
  else mk ((k, v) :: ts)

/-- `TraceState.update` (span.py:312–335). -/
def update (ts : TS) (k v : Str) : TS :=
  if !validPair k v then ts
  else mk ((k, v) :: Dict.erase ts k)

/-- `TraceState.delete` (span.py:337–356). -/
def delete (ts : TS) (k : Str) : TS :=
  if !Dict.has ts k then ts else mk (Dict.erase ts k)

/-- `TraceState.to_header` (span.py:358–365). -/
def toHeader (ts : TS) : Str := joinS [','] (ts.map fun kv => kv.1 ++ ['='] ++ kv.2)

/-- Pieces that follow a comma: blanks after that comma are consumed by the delimiter, and blanks
before the next one if there is one. -/
def trimRest : List Str → List Str
  | [] => []
  | [p] => [lstripBy isBlank p]
  | p :: q :: r => stripBy isBlank p :: trimRest (q :: r)

/-- `re.split(_delimiter_pattern, header)` with `_delimiter_pattern = [ \t]*,[ \t]*` (span.py:42, 386).
Simplification: splitting at commas and removing the blanks adjacent to each comma is what the greedy
regex does (every comma belongs to exactly one match and the blanks around it belong to that match). -/
def delimSplit (h : Str) : List Str :=
  match splitC ',' h with
  | [] => []
  | [p] => [p]
  | p :: q :: r => rstripBy isBlank p :: trimRest (q :: r)

/-- `_member_pattern.fullmatch(member)` and its groups 1 and 3 (span.py:43, 391–399). The pattern is
`(KEY)(=)(VALUE)[ \t]*`; KEY contains no `=`, so group 1 is what precedes the first `=`; VALUE ends in a
non-blank and the rest is blanks, so group 3 is the remainder without trailing blanks. -/
def memberMatch (m : Str) : Option (Str × Str) :=
  match cutC '=' m with
  | (_, none) => none
  | (k, some rest) =>
    let v := rstripBy isBlank rest
    if keyRe.fullmatch k && valueRe.fullmatch v then some (k, v) else none

/-- The inner loop of `from_header` over the members of one header (span.py:387–403); `none` stands
for the early `return cls()`. -/
def membersLoop : TS → List Str → Option TS
  | d, [] => some d
  | d, m :: ms =>
    if m.isEmpty then membersLoop d ms
    else match memberMatch m with
      | none => none
      | some (k, v) => if Dict.has d k then none else membersLoop (Dict.set d k v) ms

/-- The outer loop of `from_header` (span.py:385–403). -/
def headersLoop : TS → List Str → Option TS
  | d, [] => some d
  | d, h :: hs =>
    match membersLoop d (delimSplit h) with
    | none => none
    | some d' => headersLoop d' hs

/-- `TraceState.from_header` (span.py:367–404). -/
def fromHeader (headers : List Str) : TS :=
  match headersLoop [] headers with
  | none => []
  | some d => mk d

/-- The edits of the public interface, for histories. -/
inductive Op where
  | add (k v : Str)
  | update (k v : Str)
  | delete (k : Str)

/-- One edit. -/
def apply (ts : TS) : Op → TS
  | .add k v => add ts k v
  | .update k v => update ts k v
  | .delete k => delete ts k

end TraceState
end Otel
