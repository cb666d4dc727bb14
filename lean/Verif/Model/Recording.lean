import Verif.Model.Py
import Mathlib.Logic.Function.Basic
/-!
# Recording and collecting in many threads
`Verif.Model.Storage` runs `consume_measurement` and `collect` as whole steps. Here they are interleaved: a step is one look at a dictionary, one acquisition or release of
a lock, one section of code that runs under a lock of its own. Models `measurement_consumer.py` 58–145, `metric_reader_storage.py` 61–248 and
`_view_instrument_match.py` 90–153 of `opentelemetry-sdk/src/opentelemetry/sdk/metrics/_internal/`. What a stream does with a measurement (`aggregation.py`, each `aggregate` and `collect` under
the aggregation's lock) is a parameter. Left out: unhashable attributes, timeouts of callbacks (see C61, C65), exemplars (outside the lock, see C39).
-/
namespace Otel
namespace Recording

/-- A stream set: the `j`-th view that applies to instrument `i`, in the storage of reader `r`. -/
structure Slot where
  r : Nat
  i : Nat
  j : Nat
deriving DecidableEq, Repr

/-- The locks: the consumer's (`Lock`, measurement_consumer.py:63), each reader storage's (`RLock`, metric_reader_storage.py:69, which is never taken twice, so it is treated as a
`Lock`), each stream set's (`Lock`, _view_instrument_match.py:46). -/
inductive Lk where
  | consumer
  | outer (r : Nat)
  | inner (s : Slot)
deriving DecidableEq, Repr

/-- What configures the SDK: the number of readers, the number of stream sets of an instrument, the stream of a measurement, and the aggregations:
creation (with the measurement that caused it), `aggregate`, `collect` (at a time). -/
structure Env (K I O S : Type) where
  readers : Nat
  arity : Nat → Nat → Nat
  key : Slot → I → K
  new : Slot → K → I → S
  feed : Slot → S → I → S
  coll : Slot → S → Int → O × S

/-- A call into the SDK: a measurement `x` by instrument `i`, a collection by reader `r` at a time, the creation of an observable instrument. -/
inductive Call (I : Type) where
  | record (i : Nat) (x : I)
  | collect (r : Nat) (now : Int)
  | register (a : Nat)
deriving DecidableEq

/-- What a callback does when it runs: calls into the SDK and observations, in any order. -/
abbrev Reply (I : Type) := List (Call I ⊕ (Nat × I))

/-- The code a thread has still to run. -/
inductive Micro (I : Type) where
  | call (c : Call I)
  | callbacks (r : Nat) (idx : Nat)
  | observe (r i : Nat) (x : I)
  | addAsync (a : Nat)
  | lookOuter (r i : Nat) (x : I)
  | putOuter (r i : Nat)
  | lookInner (s : Slot) (x : I)
  | putInner (s : Slot) (x : I)
  | aggregate (s : Slot) (x : I)
  | lock (l : Lk)
  | unlock (l : Lk)
  | iterStart (l : Lk) (now : Int)
  | iter (l : Lk) (n idx : Nat) (now : Int)
  | began (r : Nat)
  | ended (r : Nat)
deriving DecidableEq

/-- What happens, with the thread that does it. -/
inductive Ev (K I O : Type) where
  | called (t i : Nat) (x : I)
  | observed (t r i : Nat) (x : I)
  | created (s : Slot) (k : K) (x : I)
  | fed (t : Nat) (s : Slot) (k : K) (x : I)
  | collected (t : Nat) (s : Slot) (k : K) (now : Int) (out : O)
  | began (t r : Nat)
  | ended (t r : Nat)
deriving DecidableEq

/-- The shared state, the threads, and the history. `crashed`: a `KeyError`, or `RuntimeError: dictionary changed size during iteration`. -/
structure State (K I O S : Type) where
  owner : Lk → Option Nat
  insts : Nat → List Nat
  dict : Slot → List (K × S)
  asyncs : List Nat
  threads : List (List (Micro I))
  log : List (Ev K I O)
  crashed : Bool

variable {K I O S : Type} [DecidableEq K]

/-- Number of entries of the dictionary a lock protects. -/
def State.size (st : State K I O S) : Lk → Nat
  | .consumer => 0
  | .outer r => (st.insts r).length
  | .inner s => (st.dict s).length

/-- The loop over the stream sets of an instrument (metric_reader_storage.py:116–124). -/
def feeds (env : Env K I O S) (r i : Nat) (x : I) : List (Micro I) := (List.range (env.arity r i)).map fun j => .lookInner ⟨r, i, j⟩ x

/-- `dict[key] = f(dict[key])` for a key that is there. -/
def modify (k : K) (f : S → S) : List (K × S) → List (K × S)
  | [] => []
  | (k', s) :: l => if k' = k then (k', f s) :: l else (k', s) :: modify k f l

/-- A callback's doings as code (measurement_consumer.py:125–141: the generator runs the callback while its observations are consumed). -/
def replyCode (r : Nat) (reply : Reply I) : List (Micro I) :=
  reply.map fun | .inl c => .call c | .inr (i, x) => .observe r i x

/-- One step of thread `t` whose next piece of code is given: the new state and the code that comes next. `none`: blocked. -/
def exec (env : Env K I O S) (st : State K I O S) (t : Nat) (reply : Reply I) : Micro I → Option (State K I O S × List (Micro I))
  -- measurement_consumer.py:80–92
  | .call (.record i x) => some ({ st with log := st.log ++ [.called t i x] }, (List.range env.readers).map fun r => .lookOuter r i x)
  -- measurement_consumer.py:103–145, metric_reader_storage.py:126–248
  | .call (.collect r now) => some (st, [.lock .consumer, .callbacks r 0, .lock (.outer r), .began r, .iterStart (.outer r) now, .ended r, .unlock (.outer r), .unlock .consumer])
  -- measurement_consumer.py:94–101
  | .call (.register a) => some (st, [.lock .consumer, .addAsync a, .unlock .consumer])
  | .addAsync a => some ({ st with asyncs := st.asyncs ++ [a] }, [])
  -- measurement_consumer.py:117–141
  | .callbacks r idx => some (st, match st.asyncs[idx]? with | none => [] | some _ => replyCode r reply ++ [.callbacks r (idx + 1)])
  | .observe r i x => some ({ st with log := st.log ++ [.observed t r i x] }, [.lookOuter r i x])
  -- metric_reader_storage.py:78–114
  | .lookOuter r i x => some (st, if i ∈ st.insts r then feeds env r i x else .lock (.outer r) :: .putOuter r i :: .unlock (.outer r) :: feeds env r i x)
  | .putOuter r i => some (if i ∈ st.insts r then st else { st with insts := Function.update st.insts r (st.insts r ++ [i]) }, [])
  -- _view_instrument_match.py:108–139
  | .lookInner s x => some (st, if env.key s x ∈ (st.dict s).map Prod.fst then [.aggregate s x] else [.lock (.inner s), .putInner s x, .unlock (.inner s), .aggregate s x])
  | .putInner s x => some (if env.key s x ∈ (st.dict s).map Prod.fst then st else
      { st with dict := Function.update st.dict s (st.dict s ++ [(env.key s x, env.new s (env.key s x) x)]), log := st.log ++ [.created s (env.key s x) x] }, [])
  | .aggregate s x => some (if env.key s x ∈ (st.dict s).map Prod.fst then
      { st with dict := Function.update st.dict s (modify (env.key s x) (fun a => env.feed s a x) (st.dict s)), log := st.log ++ [.fed t s (env.key s x) x] }
    else { st with crashed := true }, [])
  | .lock l => if st.owner l = none then some ({ st with owner := Function.update st.owner l (some t) }, []) else none
  | .unlock l => some ({ st with owner := Function.update st.owner l none }, [])
  | .began r => some ({ st with log := st.log ++ [.began t r] }, [])
  | .ended r => some ({ st with log := st.log ++ [.ended t r] }, [])
  | .iterStart l now => some (st, [.iter l (st.size l) 0 now])
  -- metric_reader_storage.py:148–158
  | .iter (.outer r) n idx now =>
    if (st.insts r).length ≠ n then some ({ st with crashed := true }, [])
    else some (st, match (st.insts r)[idx]? with
      | none => []
      | some i => ((List.range (env.arity r i)).flatMap fun j => [.lock (.inner ⟨r, i, j⟩), .iterStart (.inner ⟨r, i, j⟩) now, .unlock (.inner ⟨r, i, j⟩)]) ++ [.iter (.outer r) n (idx + 1) now])
  -- _view_instrument_match.py:141–148
  | .iter (.inner s) n idx now =>
    if (st.dict s).length ≠ n then some ({ st with crashed := true }, [])
    else match (st.dict s)[idx]? with
      | none => some (st, [])
      | some (k, a) => some ({ st with dict := Function.update st.dict s ((st.dict s).set idx (k, (env.coll s a now).2)), log := st.log ++ [.collected t s k now (env.coll s a now).1] },
          [.iter (.inner s) n (idx + 1) now])
  | .iter .consumer _ _ _ => some (st, [])

/-- Thread `t` runs its next piece of code if it can; `reply` is what the callback does if that is a callback. -/
def step (env : Env K I O S) (st : State K I O S) (mv : Nat × Reply I) : State K I O S :=
  match st.threads[mv.1]? with
  | some (m :: rest) =>
    match exec env st mv.1 mv.2 m with
    | some (st', code) => { st' with threads := st'.threads.set mv.1 (code ++ rest) }
    | none => st
  | _ => st

/-- New readers, and threads with their calls. -/
def State.init (progs : List (List (Call I))) : State K I O S :=
  { owner := fun _ => none, insts := fun _ => [], dict := fun _ => [], asyncs := [], threads := progs.map fun p => p.map .call, log := [], crashed := false }

/-- A schedule. -/
def run (env : Env K I O S) (progs : List (List (Call I))) (sched : List (Nat × Reply I)) : State K I O S := sched.foldl (step env) (.init progs)

end Recording
end Otel
