import Verif.Model.Py
/-!
# Creating asynchronous instruments while collections are made
Models `create_observable_counter` and its siblings (`opentelemetry-sdk/src/opentelemetry/sdk/metrics/_internal/__init__.py` 156–195, 291–363) with
`_register_instrument` (`opentelemetry-api/src/opentelemetry/metrics/_internal/__init__.py` 235–277), `register_asynchronous_instrument` and the loop
over the instruments in `collect` (`sdk/metrics/_internal/measurement_consumer.py` 94–141), by any number of threads on any number of meters of one
provider.
-/
namespace Otel
namespace Observables
variable {K C : Type}

/-- Where a call is. -/
inductive PC where
  | start
  | registered (already : Bool)   -- `_register_instrument` returned
  | constructed (n : Nat)         -- the instrument object exists
  | enrolled (n : Nat)            -- `register_asynchronous_instrument` returned
  | ret (n : Nat)                 -- returned the instrument `n`
  | keyError                      -- the lookup raised
  | invalid                       -- the constructor raised
deriving DecidableEq

/-- A call: the identity (the meter, and the name, kind, unit and description as joined), whether the constructor accepts the arguments (a valid name
and unit; every generator among the callbacks reaches a first `yield`), the callbacks. -/
structure Call (K C : Type) where
  key : K
  valid : Bool
  cbs : List C
  pc : PC
deriving DecidableEq

/-- An instrument object; `maker` is the call that made it (not in the code). -/
structure Obj (K C : Type) where
  key : K
  maker : Nat
  cbs : List C

/-- The state of a provider and of the calls. `log`: for each collection, what was run: for each instrument the call that made it, and its
callbacks. -/
structure St (K C : Type) where
  calls : List (Call K C)
  /-- `_instrument_ids` of all meters -/
  ids : List K
  /-- `_instrument_id_instrument` of all meters -/
  store : Dict K Nat
  objs : List (Obj K C)
  /-- `_async_instruments` -/
  regs : List Nat
  log : List (List (Nat × List C))

/-- A new provider. -/
def init : St K C := ⟨[], [], [], [], [], []⟩

/-- The scheduler's choices. A collection holds the consumer's lock (measurement_consumer.py:108), which `register_asynchronous_instrument` takes
(99), so that it is one step here. (A callback that creates an asynchronous instrument waits for ever: see `Locks`.) -/
inductive Act (K C : Type) where
  | call (key : K) (valid : Bool) (cbs : List C)
  | next (i : Nat)
  | collect

/-- A call goes on. -/
def goto (s : St K C) (i : Nat) (t : Call K C) (pc : PC) : St K C := { s with calls := s.calls.set i { t with pc := pc } }

/-- What a collection runs: the callbacks of the instruments in `_async_instruments`, in this order (measurement_consumer.py:116). -/
def entry (s : St K C) : List (Nat × List C) := s.regs.filterMap (fun n => s.objs[n]?.map (fun o => (o.maker, o.cbs)))

variable [DecidableEq K]

/-- The next step of a call. -/
def advance (s : St K C) (i : Nat) (t : Call K C) : St K C :=
  match t.pc with
  | .start =>
    if t.key ∈ s.ids then goto s i t (.registered true)
    else goto { s with ids := s.ids ++ [t.key] } i t (.registered false)
  | .registered true =>
    match Dict.get? s.store t.key with
    | some n => goto s i t (.ret n)
    | none => goto s i t .keyError
  | .registered false =>
    if t.valid then goto { s with objs := s.objs ++ [⟨t.key, i, t.cbs⟩] } i t (.constructed s.objs.length)
    else goto s i t .invalid
  | .constructed n => goto { s with regs := s.regs ++ [n] } i t (.enrolled n)
  | .enrolled n => goto { s with store := Dict.set s.store t.key n } i t (.ret n)
  | .ret _ => s
  | .keyError => s
  | .invalid => s

/-- One step of the system. -/
def step (s : St K C) : Act K C → St K C
  | .call k v cbs => { s with calls := s.calls ++ [⟨k, v, cbs, .start⟩] }
  | .next i =>
    match s.calls[i]? with
    | none => s
    | some t => advance s i t
  | .collect => { s with log := s.log ++ [entry s] }

/-- A schedule. -/
def run (acts : List (Act K C)) : St K C := acts.foldl step init

end Observables
end Otel
