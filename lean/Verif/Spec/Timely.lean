import Verif.Model.Timely
/-!
# Deadlines
-/
namespace Otel
namespace Timely
variable {σ : Type}

/-- What the constructor accepts. -/
structure Sound (c : Cfg) : Prop where
  batch : 1 ≤ c.batch
  room : c.batch ≤ c.room
  delay : 1 ≤ c.delay

/-- When a span is passed to the exporter at the latest: the full batches before it each take the exporter's time, and then it waits for the delay or the export in progress, whichever is longer. -/
def due (c : Cfg) (i : Item σ) : Nat := i.time + i.ahead / c.batch * c.slow + max c.delay c.slow

/-- How many batches a full queue makes. -/
def rounds (c : Cfg) : Nat := (c.room + c.batch - 1) / c.batch

/-- Steps that the worker takes without the rest of the program. -/
def Own : Act σ → Prop
  | .work | .exported => True
  | _ => False

/-- `n` full batches of spans end at the beginning, and the program shuts down; each export takes all its time. -/
def sluggish (c : Cfg) (s : σ) (n : Nat) : List (Act σ) :=
  List.replicate (n * c.batch) (.finish s) ++ [.shutdown, .work] ++ (List.replicate n [.work, .tick c.slow, .exported]).flatten ++ [.work]

/-- A span ends as the first one's export begins; that export takes all its time, and then the delay is waited for. -/
def latecomer (c : Cfg) (s : σ) : List (Act σ) :=
  [.finish s, .work, .tick c.delay, .work, .work, .finish s, .tick c.slow, .exported, .work, .tick (c.delay - c.slow), .work, .work]

end Timely
end Otel
