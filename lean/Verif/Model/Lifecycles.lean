import Verif.Model.Py
/-!
# Spans that start and end while span processors are added
Models `Span.start` and `Span.end` (`opentelemetry-sdk/src/opentelemetry/sdk/trace/__init__.py` 923–950), `SynchronousMultiSpanProcessor.add_span_processor`,
`on_start` and `on_end` (160–175) and `TracerProvider.add_span_processor` (1270–1278), for any number of threads, spans and processors. Not modelled:
the other operations on spans (see `Span`), spans that are not recording (nobody is told of them), processors that end the span they are told of.
-/
namespace Otel
namespace Lifecycles
variable {P : Type}

/-- What the processors are told: `on_start` of a span, `on_end` of a span. -/
inductive Ev (P : Type) where
  | started (s : Nat) (p : P)
  | ended (s : Nat) (p : P)
deriving DecidableEq

/-- Where a call is. -/
inductive PC (P : Type) where
  | begun
  | claimed               -- `end`: has set `_end_time`, and has not read the tuple of processors yet
  | telling (l : List P)  -- these are still to be told
  | ret
  | ignored               -- `end`: returned with the warning "Calling end() on an ended span."
  | raised                -- a processor raised, and so did the call
deriving DecidableEq

/-- A call: `start_span` (`none`), or `end` of a span. Spans are numbered by the call of `start_span`. -/
structure Call (P : Type) where
  what : Option Nat
  pc : PC P
deriving DecidableEq

/-- The state: the tuple `_span_processors`, the calls, the spans whose `_end_time` is set, what the processors were told. -/
structure St (P : Type) where
  procs : List P
  calls : List (Call P)
  ended : List Nat
  log : List (Ev P)

/-- At first. -/
def init : St P := ⟨[], [], [], []⟩

/-- The scheduler's choices. `add_span_processor` replaces the tuple under a lock, and those who read it do not take the lock, so that the assignment
is all there is to it (see `Multi` for its steps). -/
inductive Act (P : Type) where
  | add (p : P)
  | start
  | finish (s : Nat)
  | next (i : Nat) (raises : Bool)

/-- A call goes on. -/
def goto (s : St P) (i : Nat) (t : Call P) (pc : PC P) : St P := { s with calls := s.calls.set i { t with pc := pc } }

/-- `sp.on_start(…)` (171) or `sp.on_end(…)` (175). -/
def tell (i : Nat) (t : Call P) (p : P) : Ev P :=
  match t.what with
  | none => .started i p
  | some sp => .ended sp p

/-- The next step of a call; `raises`: whether the processor that is told raises. -/
def advance (s : St P) (i : Nat) (t : Call P) (raises : Bool) : St P :=
  match t.pc with
  | .begun =>
    match t.what with
    | none => goto s i t (.telling s.procs)                                     -- 928–936, and the tuple is read (170)
    | some sp =>
      if sp ∈ s.ended then goto s i t .ignored                                  -- 942–944
      else goto { s with ended := s.ended ++ [sp] } i t .claimed                -- 946
  | .claimed => goto s i t (.telling s.procs)                                   -- 948, 174
  | .telling [] => goto s i t .ret
  | .telling (p :: l) =>
    goto { s with log := s.log ++ [tell i t p] } i t (if raises then .raised else .telling l)
  | .ret => s
  | .ignored => s
  | .raised => s

/-- One step of the system. The application has a span to end once `start_span` has returned it. -/
def step (s : St P) : Act P → St P
  | .add p => { s with procs := s.procs ++ [p] }
  | .start => { s with calls := s.calls ++ [⟨none, .begun⟩] }
  | .finish sp =>
    match s.calls[sp]? with
    | some ⟨none, .ret⟩ => { s with calls := s.calls ++ [⟨some sp, .begun⟩] }
    | _ => s
  | .next i raises =>
    match s.calls[i]? with
    | none => s
    | some t => advance s i t raises

/-- A schedule. -/
def run (acts : List (Act P)) : St P := acts.foldl step init

end Lifecycles
end Otel
