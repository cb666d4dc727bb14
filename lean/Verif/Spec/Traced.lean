import Verif.Spec.Tasks
import Verif.Model.Otlp
import Mathlib.Data.List.Forall2
/-!
# What the wire should carry for a traced program
Read off the text of the program. `num` reads a big-endian number.
-/
namespace Otel
namespace Traced
open Tasks (Site)
open UseSpan (Esc)

/-- A big-endian number. -/
def num (bs : List Nat) : Int := bs.foldl (fun (a : Int) (b : Nat) => a * 256 + (b : Int)) 0

/-- So many bytes. -/
def Octets (n : Nat) (bs : List Nat) : Prop := bs.length = n ∧ ∀ b ∈ bs, b < 256

/-- The trace a span of the text belongs to: that of its outermost block. -/
inductive InTrace (sites : List Site) : Site → Int → Prop
  | root (x : Site) (h : x.around = none) : InTrace sites x (x.opts.traceDraw + 1)
  | inner (x y : Site) (l : Nat) (n : Int) (h : x.around = some l) (hy : y ∈ sites) (hl : y.line = l) (ht : InTrace sites y n) : InTrace sites x n

/-- A span on the wire is that of a block of the text: its own identifier, its trace, the span of the block around as parent; the block's name and times; the
status that the exception leaving the block gives. -/
structure Describes (sites : List Site) (x : Site) (p : Otlp.PBSpan) : Prop where
  id : Octets 8 p.spanId ∧ num p.spanId = x.opts.spanDraw + 1
  trace : Octets 16 p.traceId ∧ InTrace sites x (num p.traceId)
  parent : match x.around with
    | none => p.parentSpanId = []
    | some l => ∃ y ∈ sites, y.line = l ∧ Octets 8 p.parentSpanId ∧ num p.parentSpanId = y.opts.spanDraw + 1
  name : p.name = x.opts.name
  start : p.start = x.opts.tStart.toNat
  finish : p.finish = x.opts.tEnd.toNat
  status : (p.status, p.description) = match x.leaves with
    | some (some (Esc.exception _ text)) => if x.opts.setStatusOnException then (2, text) else (0, [])
    | _ => (0, [])

/-- A value of Python and what is read from the wire. -/
def Means : Atom → Otlp.PyVal → Prop
  | .bool b, .bool b' => b' = b
  | .int i _, .int i' => i' = i
  | .float i _, .float i' => i' = i
  | .str s _, .str s' => s' = s
  | .bytes b _, .bytes b' => b' = b
  | _, _ => False

/-- A value protobuf can hold. -/
def Fits : Atom → Prop
  | .int i _ => -(2 ^ 63) ≤ i ∧ i < 2 ^ 63
  | .none | .other _ => False
  | _ => True

/-- Attributes on the wire: in order, the same keys and values. -/
def ValueMeans : Val → Otlp.PyVal → Prop
  | .atom a, v => Means a v
  | .seq l, .seq l' => List.Forall₂ Means l l'
  | .seq _, _ => False

def ValueFits : Val → Prop
  | .atom a => Fits a
  | .seq l => ∀ a ∈ l, Fits a

/-- The attributes and the count of those dropped. -/
def Sent (b : BAttrs) (attrs : List (Str × Otlp.PyVal)) (dropped : Nat) : Prop :=
  dropped = b.dropped ∧ List.Forall₂ (fun kv kp => kp.1 = kv.1 ∧ ValueMeans kv.2 kp.2) b.d attrs

end Traced
end Otel
