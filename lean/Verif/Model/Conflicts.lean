import Verif.Model.Views
/-!
# Warnings about streams that cannot be told apart
Models `_ViewInstrumentMatch.conflicts` (`opentelemetry-sdk/src/opentelemetry/sdk/metrics/_internal/_view_instrument_match.py` 37–88) and the part of `MetricReaderStorage`
(`metric_reader_storage.py` 78–114, 250–287) that logs them: an instrument's streams are made when it is measured for the first time. Exponential histograms are left out (`Verif.Model.Views`).
-/
namespace Otel
namespace Conflicts
open Metrics
variable {α : Type}

/-- A `_ViewInstrumentMatch`: a view applied to an instrument. -/
structure Stream (α : Type) where
  view : View α
  instr : Instr α

/-- The class of the aggregation made for a stream (52–67; aggregation.py 1232–1312, 1324–1475), with `_instrument_is_monotonic` and `_instrument_aggregation_temporality` for sums. -/
inductive Cls where
  | drop
  | last
  | sum (monotonic : Bool) (t : Temporality)
  | hist
deriving DecidableEq

/-- The class the default aggregation has for an instrument (aggregation.py 1232–1312). -/
def defaultCls : Kind → Cls
  | .counter => .sum true .delta
  | .upDown => .sum false .delta
  | .obsCounter => .sum true .cumulative
  | .obsUpDown => .sum false .cumulative
  | .histogram => .hist
  | .gauge | .obsGauge => .last

/-- `_create_aggregation(...).__class__` and what `conflicts` asks of sums. -/
def clsOf (conf : AggConf α) (k : Kind) : Cls :=
  match conf with
  | .default => defaultCls k
  | .sum => .sum k.monotonic k.temporality
  | .last => .last
  | .drop => .drop
  | .hist _ _ => .hist

/-- `self._view._name or self._instrument.name` (48). -/
def Stream.name (s : Stream α) : Str :=
  match s.view.name with
  | some (c :: cs) => c :: cs
  | _ => s.instr.name

/-- The aggregation of a stream (52–67): the view's, unless it is the default one, then the reader's for the class of the instrument. -/
def Stream.cls (table : Kind → AggConf α) (s : Stream α) : Cls :=
  clsOf (match s.view.agg with | .default => table s.instr.kind | c => c) s.instr.kind

/-- Are two aggregations of the same class? (76) -/
def sameClass : Cls → Cls → Bool
  | .drop, .drop | .last, .last | .sum _ _, .sum _ _ | .hist, .hist => true
  | _, _ => false

/-- `_SumAggregation._instrument_is_monotonic`; `none`: `AttributeError`. -/
def Cls.monotonic? : Cls → Option Bool
  | .sum m _ => some m
  | _ => none

/-- `_SumAggregation._instrument_aggregation_temporality`; `none`: `AttributeError`. -/
def Cls.temporality? : Cls → Option Temporality
  | .sum _ t => some t
  | _ => none

/-- `conflicts` (69–88); `none`: an exception. -/
def conflicts (table : Kind → AggConf α) (self other : Stream α) : Option Bool :=
  let result := self.name == other.name && self.instr.unit == other.instr.unit && sameClass (self.cls table) (other.cls table)
  match self.cls table with
  | .sum m t =>
    if result then
      match (other.cls table).monotonic? with
      | none => none
      | some m' => if m == m' then (other.cls table).temporality?.map (t == ·) else some false
    else some false
  | _ => some result

/-- The storage of a reader: the streams of the instruments measured so far, in the order of their first measurements, and the pairs of streams warnings were logged about. `failed`: a
measurement raised. -/
structure St (α : Type) where
  known : List (Nat × List (Stream α))
  warnings : List (Stream α × Stream α)
  failed : Bool

def init : St α := ⟨[], [], false⟩

/-- The streams views are applied in (255–263, 287). -/
def viewStreams (fnm : Str → Str → Bool) (views : List (View α)) (i : Instr α) : List (Stream α) :=
  (views.filter fun w => w.matches fnm i && w.compatible i).map (⟨·, i⟩)

/-- Is the warning of 276–285 logged for an existing and a new stream? -/
def warned (table : Kind → AggConf α) (old new : Stream α) : Bool := conflicts table old new == some true

/-- `_get_or_init_view_instrument_match` (78–114), the first part of `consume_measurement`. -/
def measure (fnm : Str → Str → Bool) (table : Kind → AggConf α) (views : List (View α)) (st : St α) (i : Instr α) : St α :=
  if st.known.any (fun e => e.1 == i.id) then st
  else
    let new := viewStreams fnm views i
    { known := st.known ++ [(i.id, if new.isEmpty then [⟨defaultView, i⟩] else new)]
      warnings := st.warnings ++ new.flatMap fun n => (st.known.flatMap (·.2)).filter (warned table · n) |>.map (·, n)
      failed := st.failed || new.any fun n => (st.known.flatMap (·.2)).any fun e => (conflicts table e n).isNone }

/-- Measurements of these instruments, in this order. -/
def run (fnm : Str → Str → Bool) (table : Kind → AggConf α) (views : List (View α)) (is : List (Instr α)) : St α := is.foldl (measure fnm table views) init

end Conflicts
end Otel
