import Verif.Spec.Traced
/-!
# What the wire should carry for the logging calls of a traced program
Read off the text of the program.
-/
namespace Otel
namespace Correlated
open Tasks (Site)
open Traced (num InTrace Octets)

/-- The identifiers on a log record are those of the span of the innermost block around the logging call: those that the span itself has on the wire. With no block
around, there are none. -/
def Identified (sites : List Site) (around : Option Nat) (p : Otlp.PBLog) : Prop :=
  match around with
  | none => p.traceId = [] ∧ p.spanId = []
  | some l => ∃ y ∈ sites, y.line = l ∧ (Octets 8 p.spanId ∧ num p.spanId = y.opts.spanDraw + 1) ∧ Octets 16 p.traceId ∧ InTrace sites y (num p.traceId)

/-- The blocks of the text are numbered. -/
def Numbered (sites : List Site) : Prop := (sites.map Site.line).Nodup

end Correlated
end Otel
