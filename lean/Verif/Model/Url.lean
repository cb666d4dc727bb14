import Verif.Model.SpanContext
/-!
# URL quoting
Models the parts of Python's `urllib.parse` used by the repository: `quote`, `quote_plus`, `unquote`,
`unquote_plus` (default UTF-8; decoding errors are replaced by U+FFFD). Bytes are natural numbers < 256.
-/
namespace Otel
namespace Url

/-- UTF-8 encoding of one character. -/
def encodeChar (c : Char) : List Nat :=
  let n := c.toNat
  if n < 0x80 then [n]
  else if n < 0x800 then [0xC0 + n / 64, 0x80 + n % 64]
  else if n < 0x10000 then [0xE0 + n / 4096, 0x80 + n / 64 % 64, 0x80 + n % 64]
  else [0xF0 + n / 262144, 0x80 + n / 4096 % 64, 0x80 + n / 64 % 64, 0x80 + n % 64]

/-- `s.encode("utf-8")` -/
def encodeUtf8 (s : Str) : List Nat := s.flatMap encodeChar

/-- Continuation byte. -/
def isCont (b : Nat) : Bool := decide (0x80 ≤ b) && decide (b < 0xC0)

/-- The replacement character. -/
def repl : Char := Char.ofNat 0xFFFD

/-- Second byte allowed after lead byte `b0` of a 3-byte sequence. -/
def ok3 (b0 b1 : Nat) : Bool :=
  isCont b1 && (decide (b0 ≠ 0xE0) || decide (0xA0 ≤ b1)) && (decide (b0 ≠ 0xED) || decide (b1 < 0xA0))

/-- Second byte allowed after lead byte `b0` of a 4-byte sequence. -/
def ok4 (b0 b1 : Nat) : Bool :=
  isCont b1 && (decide (b0 ≠ 0xF0) || decide (0x90 ≤ b1)) && (decide (b0 ≠ 0xF4) || decide (b1 < 0x90))

/-- One decoding step of `bytes.decode("utf-8", "replace")`: the character produced and the number of
bytes consumed *after the first*; a maximal ill-formed subpart gives one U+FFFD. -/
def decodeStep (b0 : Nat) (rest : List Nat) : Char × Nat :=
  if b0 < 0x80 then (Char.ofNat b0, 0)
  else if 0xC2 ≤ b0 ∧ b0 < 0xE0 then
    match rest with
    | b1 :: _ => if isCont b1 then (Char.ofNat ((b0 - 0xC0) * 64 + (b1 - 0x80)), 1) else (repl, 0)
    | [] => (repl, 0)
  else if 0xE0 ≤ b0 ∧ b0 < 0xF0 then
    match rest with
    | b1 :: b2 :: _ =>
      if ok3 b0 b1 then
        if isCont b2 then (Char.ofNat ((b0 - 0xE0) * 4096 + (b1 - 0x80) * 64 + (b2 - 0x80)), 2) else (repl, 1)
      else (repl, 0)
    | [b1] => if ok3 b0 b1 then (repl, 1) else (repl, 0)
    | [] => (repl, 0)
  else if 0xF0 ≤ b0 ∧ b0 < 0xF5 then
    match rest with
    | b1 :: b2 :: b3 :: _ =>
      if ok4 b0 b1 then
        if isCont b2 then
          if isCont b3 then
            (Char.ofNat ((b0 - 0xF0) * 262144 + (b1 - 0x80) * 4096 + (b2 - 0x80) * 64 + (b3 - 0x80)), 3)
          else (repl, 2)
        else (repl, 1)
      else (repl, 0)
    | [b1, b2] => if ok4 b0 b1 then (if isCont b2 then (repl, 2) else (repl, 1)) else (repl, 0)
    | [b1] => if ok4 b0 b1 then (repl, 1) else (repl, 0)
    | [] => (repl, 0)
  else (repl, 0)

/-- `bytes.decode("utf-8", "replace")`; the first argument is the number of bytes still to skip. -/
def decodeGo : Nat → List Nat → Str
  | _, [] => []
  | 0, b :: bs => (decodeStep b bs).1 :: decodeGo (decodeStep b bs).2 bs
  | k + 1, _ :: bs => decodeGo k bs

/-- `bytes.decode("utf-8", "replace")` -/
def decodeUtf8 (bs : List Nat) : Str := decodeGo 0 bs

/-- `_ALWAYS_SAFE` of `urllib.parse`: letters, digits and `_.-~`. -/
def alwaysSafe (c : Char) : Bool :=
  isUpper c || isLower c || isDig c || c == '_' || c == '.' || c == '-' || c == '~'

/-- Upper-case hexadecimal digit. -/
def hexUpper (n : Nat) : Char := if n < 10 then Char.ofNat (48 + n) else Char.ofNat (55 + n)

/-- `%XX` for one byte. -/
def pctByte (b : Nat) : Str := ['%', hexUpper (b / 16), hexUpper (b % 16)]

/-- Quoting of one character: kept if safe, else its UTF-8 bytes as `%XX`. -/
def quoteChar (safe : Char → Bool) (c : Char) : Str :=
  if alwaysSafe c || safe c then [c] else (encodeChar c).flatMap pctByte

/-- `urllib.parse.quote(s)` with its default `safe='/'`. -/
def quote (s : Str) : Str := s.flatMap (quoteChar (· == '/'))

/-- `urllib.parse.quote_plus(s)`: like `quote` with nothing extra safe, spaces become `+`. -/
def quotePlus (s : Str) : Str := s.flatMap fun c => if c = ' ' then ['+'] else quoteChar (fun _ => false) c

/-- A hexadecimal digit of either case. -/
def isHexDigit (c : Char) : Bool := isDig c || inRange 0x41 0x46 c || inRange 0x61 0x66 c

/-- `urllib.parse.unquote_to_bytes` on an ASCII string. -/
def unquoteBytes : Str → List Nat
  | [] => []
  | '%' :: a :: b :: r =>
    if isHexDigit a && isHexDigit b then (hexDigitVal a * 16 + hexDigitVal b) :: unquoteBytes r
    else 0x25 :: unquoteBytes (a :: b :: r)
  | c :: r => c.toNat :: unquoteBytes r

/-- `urllib.parse.unquote`: each maximal ASCII run is unquoted to bytes and decoded, other characters
pass through. The first argument is the reversed current run. -/
def unquoteGo : Str → Str → Str
  | acc, [] => decodeUtf8 (unquoteBytes acc.reverse)
  | acc, c :: cs =>
    if c.toNat < 128 then unquoteGo (c :: acc) cs
    else decodeUtf8 (unquoteBytes acc.reverse) ++ c :: unquoteGo [] cs

/-- `urllib.parse.unquote(s)` -/
def unquote (s : Str) : Str := unquoteGo [] s

/-- `urllib.parse.unquote_plus(s)` -/
def unquotePlus (s : Str) : Str := unquote (s.map fun c => if c = '+' then ' ' else c)

end Url
end Otel
