import Verif.Model.Once
/-!
# The global providers
Models `get_tracer_provider` and `set_tracer_provider` (`opentelemetry-api/src/opentelemetry/trace/__init__.py` 527–560) and their twins for meters
(`metrics/_internal/__init__.py` 852–889) and loggers (`_logs/_internal/__init__.py` 235–270), called by any number of threads, with `_load_provider`
(`util/_providers.py` 28–52). A step is one access to the global variable or to the environment, one call of `_load_provider`, or a step of `Once.do_once` (`Verif.Model.Once`).
What a provider's constructor does is not modelled (in particular it does not ask for the global provider itself).
-/
namespace Otel
namespace Globals

/-- A provider: given by the program to `set_…_provider`, or loaded because of the environment variable. -/
inductive Prov where
  | given (n : Nat)
  | loaded (n : Nat)
deriving DecidableEq

/-- Where a call of `get_…_provider` is, or how it ended. -/
inductive GPc where
  /-- `if _TRACER_PROVIDER is None` (549) -/
  | look
  /-- `if OTEL_PYTHON_TRACER_PROVIDER not in os.environ` (552) -/
  | env
  /-- `_load_provider` (555–557) -/
  | load
  /-- in `_set_tracer_provider` (558), in the `i`-th call of `do_once` -/
  | setting (i : Nat)
  /-- `return _TRACER_PROVIDER` (560) -/
  | again
  | got (p : Prov)
  /-- it returned the proxy provider -/
  | proxy
  /-- it returned `None` -/
  | nothing
  | raised
deriving DecidableEq

structure St where
  once : Once.St Prov
  gets : List GPc
  /-- How many providers were loaded. -/
  loads : Nat
  /-- Is the environment variable set? -/
  env : Bool

def init (env : Bool) : St := ⟨Once.init Prov, [], 0, env⟩

/-- The scheduler's choices: calls of `set_…_provider` and `get_…_provider`, the next step of a call of `do_once` (`ok`: the function does not raise) or of a call of `get_…_provider` (`ok`:
loading works), and changes of the environment. -/
inductive Act where
  | set (n : Nat)
  | next (i : Nat) (ok : Bool)
  | get
  | getNext (g : Nat) (ok : Bool)
  | setenv (b : Bool)

/-- `g` goes on to `pc`. -/
def St.goto (st : St) (g : Nat) (pc : GPc) : St := { st with gets := st.gets.set g pc }

/-- A step. -/
def step (st : St) : Act → St
  | .set n => { st with once := Once.step st.once (.call (.given n)) }
  | .next i ok => { st with once := Once.step st.once (.next i ok) }
  | .get => { st with gets := st.gets ++ [.look] }
  | .setenv b => { st with env := b }
  | .getNext g ok =>
    match st.gets[g]? with
    | some .look =>
      match st.once.glob with
      | some p => st.goto g (.got p)
      | none => st.goto g .env
    | some .env => st.goto g (if st.env then .load else .proxy)
    | some .load =>
      if ok then { st.goto g (.setting st.once.calls.length) with once := Once.step st.once (.call (.loaded st.loads)), loads := st.loads + 1 }
      else st.goto g .raised
    | some (.setting i) =>
      match st.once.calls[i]? with
      | some ⟨_, .ret _⟩ => st.goto g .again
      | some ⟨_, .raised⟩ => st.goto g .raised
      | _ => st
    | some .again =>
      match st.once.glob with
      | some p => st.goto g (.got p)
      | none => st.goto g .nothing
    | _ => st

/-- A run. -/
def runFrom (st : St) (acts : List Act) : St := acts.foldl step st
def run (env : Bool) (acts : List Act) : St := runFrom (init env) acts

end Globals
end Otel
