import Verif.Model.HttpWire
import Verif.Props.OtlpConfig
/-!
# What a server makes of a request
-/
namespace Otel
namespace HttpWire
open OtlpConfig (header Http Compression)

/-- What a server can decompress. -/
structure Decoder (D : Type) where
  gunzip : D → Option D
  inflate : D → Option D

/-- The decoder understands what the encoder made. -/
def Decoder.Of {D : Type} (d : Decoder D) (k : Codec D) : Prop := (∀ x, d.gunzip (k.gzip x) = some x) ∧ ∀ x, d.inflate (k.deflate x) = some x

def contentEncoding : Str := "Content-Encoding".toList

/-- The data in a request, decoded as its header says. -/
def Request.data {D : Type} (d : Decoder D) (r : Request D) : Option D :=
  match header r.headers contentEncoding with
  | none => some r.body
  | some v => if v = "gzip".toList then d.gunzip r.body else if v = "deflate".toList then d.inflate r.body else none

/-- What should be declared of a body. -/
def declared : Compression → Option Str
  | .noCompression => none
  | c => some c.value

/-- The headers of a configuration declare its compression, and nothing else. -/
def Honest (c : Http) : Prop := header c.headers contentEncoding = declared c.compression

/-- The requests of an exporter. -/
def State.of {D : Type} (st : State D) (i : Nat) : List (Request D) := st.requests.filter fun r => r.exporter = i

/-- A program that does not itself declare an encoding: neither sessions nor assignments to their headers name it. -/
def Plain {D : Type} : Ev D → Prop
  | .session ds => header ds contentEncoding = none
  | .header _ n _ => EnvHeaders.lowerAscii n ≠ EnvHeaders.lowerAscii contentEncoding
  | .make _ cfg _ ds => header ds contentEncoding = none ∧ Honest cfg
  | _ => True

/-- No assignment to the headers of the session. -/
def Untouched {D : Type} (s : Nat) (evs : List (Ev D)) : Prop := ∀ n v, Ev.header s n v ∉ evs

/-- The answer 200, always. -/
def fine : Nat → Export.HttpAnswer := fun _ => .status 200

end HttpWire
end Otel
