/-!
# Python basics used by the model

Strings are lists of Unicode scalar values, dictionaries are insertion-ordered association lists.
These definitions model the Python run-time (not a file of the repository); each says what it stands for.
-/
namespace Otel

/-- Python `str`: a sequence of code points (lone surrogates are not modelled). -/
abbrev Str := List Char

/-- Python `s.split(sep)` for a one-character separator. -/
def splitC (sep : Char) : Str → List Str
  | [] => [[]]
  | c :: cs =>
    if c = sep then [] :: splitC sep cs
    else match splitC sep cs with
      | [] => [[c]]
      | p :: ps => (c :: p) :: ps

/-- Python `s.split(sep, 1)` / `partition`: the part before the first separator and, if the
separator occurs, the part after it. -/
def cutC (sep : Char) : Str → Str × Option Str
  | [] => ([], none)
  | c :: cs => if c = sep then ([], some cs) else ((c :: (cutC sep cs).1), (cutC sep cs).2)

/-- Python `sep.join(parts)`. -/
def joinS (sep : Str) : List Str → Str
  | [] => []
  | [p] => p
  | p :: q :: r => p ++ sep ++ joinS sep (q :: r)

/-- `s.lstrip(chars)` for the characters satisfying `p`. -/
def lstripBy (p : Char → Bool) (s : Str) : Str := s.dropWhile p
/-- `s.rstrip(chars)` for the characters satisfying `p`. -/
def rstripBy (p : Char → Bool) (s : Str) : Str := (s.reverse.dropWhile p).reverse
/-- `s.strip(chars)` for the characters satisfying `p`. -/
def stripBy (p : Char → Bool) (s : Str) : Str := rstripBy p (lstripBy p s)

/-- Membership of a character in an inclusive code-point range, as in a regex class. -/
def inRange (lo hi : Nat) (c : Char) : Bool := decide (lo ≤ c.toNat) && decide (c.toNat ≤ hi)

/-- `[a-z]` -/
def isLower (c : Char) : Bool := inRange 0x61 0x7a c
/-- `[A-Z]` -/
def isUpper (c : Char) : Bool := inRange 0x41 0x5a c
/-- `[0-9]` -/
def isDig (c : Char) : Bool := inRange 0x30 0x39 c
/-- `[ \t]` -/
def isBlank (c : Char) : Bool := c == ' ' || c == '\t'

/-- Python `str.isspace` for one character, the set removed by `str.strip()` (the Unicode
White_Space characters plus the four information separators U+001C..U+001F). -/
def isPySpace (c : Char) : Bool :=
  inRange 0x09 0x0d c || inRange 0x1c 0x20 c || c.toNat == 0x85 || c.toNat == 0xa0 ||
  c.toNat == 0x1680 || inRange 0x2000 0x200a c || c.toNat == 0x2028 || c.toNat == 0x2029 ||
  c.toNat == 0x202f || c.toNat == 0x205f || c.toNat == 0x3000

/-- Python `s.strip()`. -/
def pyStrip (s : Str) : Str := stripBy isPySpace s

/-! ## Insertion-ordered dictionaries -/

/-- Python `dict`: insertion-ordered association list. -/
abbrev Dict (κ ν : Type) := List (κ × ν)

namespace Dict
variable {κ ν : Type} [DecidableEq κ]

/-- `d.get(k)` -/
def get? : Dict κ ν → κ → Option ν
  | [], _ => none
  | (k', v) :: d, k => if k' = k then some v else get? d k

/-- `k in d` -/
def has (d : Dict κ ν) (k : κ) : Bool := (get? d k).isSome

/-- `d[k] = v`: replaces in place when present, appends at the end otherwise. -/
def set : Dict κ ν → κ → ν → Dict κ ν
  | [], k, v => [(k, v)]
  | (k', v') :: d, k, v => if k' = k then (k, v) :: d else (k', v') :: set d k v

/-- `d.pop(k, None)` / `del d[k]` (no effect when absent). -/
def erase : Dict κ ν → κ → Dict κ ν
  | [], _ => []
  | (k', v) :: d, k => if k' = k then d else (k', v) :: erase d k

/-- `d.keys()` -/
def keys (d : Dict κ ν) : List κ := d.map Prod.fst

/-- `d.update(e)` -/
def update (d e : Dict κ ν) : Dict κ ν := e.foldl (fun acc kv => set acc kv.1 kv.2) d

end Dict

/-! ## Regular expressions (the fragment used, with `fullmatch`) -/

/-- Regular expressions over character classes. `rep p lo hi` is `p{lo,hi}` for one class `p`. -/
inductive Re where
  | empty
  | eps
  | cls (p : Char → Bool)
  | rep (p : Char → Bool) (lo hi : Nat)
  | seq (a b : Re)
  | alt (a b : Re)
  | star (a : Re)

namespace Re

/-- Literal character. -/
def chr (c : Char) : Re := cls (fun x => x == c)
/-- Literal string. -/
def lit : Str → Re
  | [] => eps
  | c :: cs => seq (chr c) (lit cs)

/-- The empty string matches. -/
def nullable : Re → Bool
  | empty => false
  | eps => true
  | cls _ => false
  | rep _ lo _ => lo == 0
  | seq a b => a.nullable && b.nullable
  | alt a b => a.nullable || b.nullable
  | star _ => true

/-- Brzozowski derivative. -/
def deriv (c : Char) : Re → Re
  | empty => empty
  | eps => empty
  | cls p => if p c then eps else empty
  | rep p lo hi => if p c && decide (0 < hi) then rep p (lo - 1) (hi - 1) else empty
  | seq a b => if a.nullable then alt (seq (deriv c a) b) (deriv c b) else seq (deriv c a) b
  | alt a b => alt (deriv c a) (deriv c b)
  | star a => seq (deriv c a) (star a)

/-- Python `re.fullmatch(r, s) is not None` (matching of the whole string; which of several
possible matches is found is irrelevant here). -/
def fullmatch (r : Re) : Str → Bool
  | [] => r.nullable
  | c :: cs => fullmatch (deriv c r) cs

end Re
end Otel
