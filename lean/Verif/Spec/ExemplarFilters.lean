import Verif.Model.ExemplarFilters
/-!
# Specification for C132
-/
namespace Otel
namespace ExemplarFilters
open Metrics Exemplar
variable {α : Type}

/-- The measurements reader `r` has been given since its last collection, each with the flag of its span. -/
def given (r : Nat) (es : List (Event α)) : List (Offer α × Bool) :=
  es.foldl (fun acc e =>
    match e with
    | .record o sampled _ => acc ++ [(o, sampled)]
    | .observe r' o sampled _ => if r' = r then acc ++ [(o, sampled)] else acc
    | .collect r' => if r' = r then [] else acc) []

/-- Those of them that the filter accepts. -/
def eligible (keep : Decide α) (r : Nat) (es : List (Event α)) : List (Offer α) :=
  ((given r es).filter (fun m => keep m.1 m.2)).map Prod.fst

/-- What the streams show when reader `r` collects after `es`, by number of the stream. -/
def shown [Zero α] [LinearOrder α] (streams : List (Stream α)) (keep : Decide α) (es : List (Event α)) (r : Nat) : List (Nat × List (Ex α)) :=
  (run streams keep (es ++ [.collect r])).out.drop (run streams keep es).out.length

/-- The exemplar of a point that describes a measurement entirely. -/
def describes (point : MAttrs) (o : Offer α) : Ex α :=
  ⟨filtered point o.attrs, o.value, o.time, o.span.map Prod.fst, o.span.map Prod.snd⟩

/-- A usable reservoir has room. -/
def Shape.Roomy : Shape α → Prop
  | .simple size => 0 < size
  | .aligned _ => True

end ExemplarFilters
end Otel
