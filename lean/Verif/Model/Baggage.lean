import Verif.Model.Url
import Verif.Model.TraceContext
/-!
# Baggage
Models `opentelemetry-api/src/opentelemetry/baggage/__init__.py`, `baggage/propagation/__init__.py` and the
regexes of `util/re.py` 24–46. Baggage values are strings (for other objects the propagator uses
`str(value)`). The `context=None` default (the current context) is the caller's explicit argument.
-/
namespace Otel
namespace Baggage

/-- `_get_baggage_value` (baggage/__init__.py:113–117). -/
def getAll (ctx : Ctx) : Dict Str Str :=
  match ctx.getValue .baggage with
  | some (.baggage d) => d
  | _ => []

/-- `get_baggage` (baggage/__init__.py:50–64). -/
def get (ctx : Ctx) (name : Str) : Option Str := Dict.get? (getAll ctx) name

/-- `set_baggage` (baggage/__init__.py:67–82). -/
def set (ctx : Ctx) (name value : Str) : Ctx :=
  ctx.setValue .baggage (.baggage (Dict.set (getAll ctx) name value))

/-- `remove_baggage` (baggage/__init__.py:85–98). -/
def remove (ctx : Ctx) (name : Str) : Ctx :=
  ctx.setValue .baggage (.baggage (Dict.erase (getAll ctx) name))

/-- `clear` (baggage/__init__.py:101–110). -/
def clear (ctx : Ctx) : Ctx := ctx.setValue .baggage (.baggage [])

/-- Key character of `_KEY_FORMAT` (util/re.py:29–31). -/
def keyCh (c : Char) : Bool :=
  c.toNat == 0x21 || inRange 0x23 0x27 c || c.toNat == 0x2a || c.toNat == 0x2b || c.toNat == 0x2d ||
  c.toNat == 0x2e || inRange 0x30 0x39 c || inRange 0x41 0x5a c || inRange 0x5e 0x7a c ||
  c.toNat == 0x7c || c.toNat == 0x7e

/-- Value character of `_VALUE_FORMAT` (util/re.py:34). -/
def valCh (c : Char) : Bool :=
  c.toNat == 0x21 || inRange 0x23 0x2b c || inRange 0x2d 0x3a c || inRange 0x3c 0x5b c || inRange 0x5d 0x7e c

/-- Value character of `_LIBERAL_VALUE_FORMAT` (util/re.py:36): also the space. -/
def libValCh (c : Char) : Bool := c.toNat == 0x20 || valCh c

/-- `_OWS` (util/re.py:27). -/
def ows : Re := .star (.cls isBlank)
/-- `_KEY_FORMAT` (util/re.py:29–31). -/
def keyFormat : Re := .seq (.cls keyCh) (.star (.cls keyCh))
/-- `_VALUE_FORMAT` (util/re.py:34). -/
def valueFormat : Re := .star (.cls valCh)
/-- `_KEY_VALUE_FORMAT` (util/re.py:38). -/
def keyValueFormat : Re :=
  .seq ows (.seq keyFormat (.seq ows (.seq (.chr '=') (.seq ows (.seq valueFormat ows)))))
/-- `_LIBERAL_HEADER_PATTERN` (util/re.py:41–43). -/
def liberalFormat : Re :=
  .seq ows (.seq keyFormat (.seq ows (.seq (.chr '=') (.seq ows (.seq (.star (.cls libValCh)) ows)))))
/-- `_BAGGAGE_PROPERTY_FORMAT` (util/re.py:46). -/
def propertyFormat : Re := .alt keyValueFormat (.seq ows (.seq keyFormat ows))

/-- `_is_valid_key` (baggage/__init__.py:120–121). -/
def validKey (name : Str) : Bool := keyFormat.fullmatch name

/-- `_is_valid_value` (baggage/__init__.py:124–132). -/
def validValue (value : Str) : Bool :=
  match splitC ';' value with
  | [] => false
  | p :: ps => valueFormat.fullmatch p && ps.all propertyFormat.fullmatch

/-- `_is_valid_pair` (baggage/__init__.py:135–136). -/
def validPair (k v : Str) : Bool := validKey k && validValue v

/-- `_MAX_HEADER_LENGTH`, `_MAX_PAIR_LENGTH`, `_MAX_PAIRS` (baggage/propagation/__init__.py:32–34). -/
def maxHeader : Nat := 8192
def maxPair : Nat := 4096
def maxPairs : Nat := 180
/-- `_BAGGAGE_HEADER_NAME` (baggage/propagation/__init__.py:35). -/
def headerName : Str := "baggage".toList

/-- The loop of `extract` (baggage/propagation/__init__.py:75–106); `left` is
`total_baggage_entries`. -/
def extractLoop : Nat → Ctx → List Str → Ctx
  | _, ctx, [] => ctx
  | left, ctx, e :: es =>
    if e.length > maxPair then extractLoop left ctx es
    else if e.isEmpty then extractLoop left ctx es
    else match cutC '=' e with
      | (_, none) => extractLoop left ctx es
      | (name, some value) =>
        if !validPair name value then extractLoop left ctx es
        else
          let ctx' := set ctx (pyStrip (Url.unquotePlus name)) (pyStrip (Url.unquotePlus value))
          if left - 1 = 0 then ctx' else extractLoop (left - 1) ctx' es

/-- `W3CBaggagePropagator.extract` (baggage/propagation/__init__.py:37–108). -/
def extract (carrier : Carrier) (ctx : Ctx) : Ctx :=
  match carrier.get headerName with
  | none => ctx
  | some [] => ctx
  | some (header :: _) =>
    if header.isEmpty then ctx
    else if header.length > maxHeader then ctx
    else extractLoop maxPairs ctx (TraceState.delimSplit header)

/-- `_format_baggage` (baggage/propagation/__init__.py:134–138). -/
def format (d : Dict Str Str) : Str :=
  joinS [','] (d.map fun kv => Url.quotePlus kv.1 ++ ['='] ++ Url.quotePlus kv.2)

/-- `W3CBaggagePropagator.inject` (baggage/propagation/__init__.py:110–126). -/
def inject (carrier : Carrier) (ctx : Ctx) : Carrier :=
  let d := getAll ctx
  if d.isEmpty then carrier else carrier.put headerName (format d)

end Baggage

/-! ## `parse_env_headers` (util/re.py:67–118) -/
namespace EnvHeaders
open Baggage

/-- `str.lower()`. Simplification: ASCII only (the names that pass the strict and liberal patterns are
ASCII before unquoting; after unquoting a strict name may contain other letters, whose lower-casing is
not modelled). -/
def lowerAscii (s : Str) : Str := s.map fun c => if isUpper c then Char.ofNat (c.toNat + 32) else c

/-- One member (util/re.py:79–116): the name and value to set, or `none` when it is skipped. -/
def parseMember (liberal : Bool) (m : Str) : Option (Str × Str) :=
  if m.isEmpty then none
  else
    let t := pyStrip m
    if keyValueFormat.fullmatch t then
      match cutC '=' t with
      | (name, some value) => some (lowerAscii (pyStrip (Url.unquote name)), pyStrip (Url.unquote value))
      | (_, none) => none   -- impossible: the pattern contains `=`
    else if !liberal then none
    else if liberalFormat.fullmatch t then
      match cutC '=' t with
      | (name, some value) => some (lowerAscii (pyStrip name), pyStrip value)
      | (_, none) => none
    else none

/-- `parse_env_headers` (util/re.py:67–118). -/
def parse (s : Str) (liberal : Bool) : Dict Str Str :=
  (TraceState.delimSplit s).foldl (fun d m =>
    match parseMember liberal m with
    | none => d
    | some kv => Dict.set d kv.1 kv.2) []

end EnvHeaders
end Otel
