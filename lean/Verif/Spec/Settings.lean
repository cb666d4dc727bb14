import Verif.Model.Settings
/-!
# Where a setting comes from
-/
namespace Otel
namespace Settings
open Metrics (Fl)

/-- A setting comes from the argument; else from the environment, if the variable is set and can be parsed; else it is the
default. -/
inductive From {α : Type} (arg : Option α) (env : Option Str) (parse : Str → Option α) (dflt : α) : α → Prop where
  | argument (v : α) : arg = some v → From arg env parse dflt v
  | variable (s : Str) (v : α) : arg = none → env = some s → parse s = some v → From arg env parse dflt v
  | unset : arg = none → env = none → From arg env parse dflt dflt
  | invalid (s : Str) : arg = none → env = some s → parse s = none → From arg env parse dflt dflt

/-- The four settings that the arguments and the environment stand for. -/
structure Meant (U : DigitTable) (a : Args) (e : Env) (b : Batching) : Prop where
  queue : From a.queue e.queue (pyInt10 U) 2048 b.queue
  delay : From a.delay e.delay (fun s => (pyInt10 U s).map fun n : Int => Fl.fin n) (Fl.fin 5000) b.delay
  batch : From a.batch e.batch (pyInt10 U) 512 b.batch
  timeout : From a.timeout e.timeout (fun s => (pyInt10 U s).map fun n : Int => Fl.fin n) (Fl.fin 30000) b.timeout

/-- Greater than zero, or NaN. -/
def NotSmall : Fl → Prop
  | .fin q => 0 < q
  | .pinf => True
  | .ninf => False
  | .nan => True

/-- Settings a processor can work with: a delay that is not zero or less, and between one and `queue` records at a time. -/
def Sound (b : Batching) : Prop := 0 < b.queue ∧ NotSmall b.delay ∧ 0 < b.batch ∧ b.batch ≤ b.queue

end Settings
end Otel
