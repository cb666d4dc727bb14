import Verif.Model.Py
/-!
# `Once` under concurrency, and the global provider it guards
Models `Once.do_once` (`opentelemetry-api/src/opentelemetry/util/_once.py` 23–47) called by any number of threads, with
the function bodies of `_set_tracer_provider` (`trace/__init__.py` 527–535: assigns the global) and `_set_meter_provider`
(`metrics/_internal/__init__.py` 852–864: assigns the global, then calls code that may raise). A step is one access to
`_done`, the lock, or the global.
-/
namespace Otel
namespace Once

/-- Where a caller is in `do_once` (_once.py:29–47). -/
inductive PC where
  | start                 -- `if self._done` outside the lock
  | want                  -- `with self._lock`
  | inside                -- `if not self._done` inside the lock
  | calling               -- about to run `func`
  | body                  -- `func` has assigned the global, not yet returned
  | setDone               -- `self._done = True`
  | releasing             -- leaving the `with` block
  | ret (did : Bool)      -- returned
  | raised                -- `func` raised; the lock was released
deriving DecidableEq

/-- A call: the provider it wants to set and where it is. -/
structure Call (V : Type) where
  value : V
  pc : PC

structure St (V : Type) where
  calls : List (Call V)
  lock : Option Nat
  done : Bool
  /-- The global provider. -/
  glob : Option V
  /-- ghost: the calls whose function returned normally, in order. -/
  completed : List Nat

/-- `Once()` (_once.py:25–27), no provider set. -/
def init (V : Type) : St V := { calls := [], lock := none, done := false, glob := none, completed := [] }

/-- The scheduler's choices: a new call, or the next step of call `i`; `ok` says whether `func` returns or raises. -/
inductive Act (V : Type) where
  | call (v : V)
  | next (i : Nat) (ok : Bool)

variable {V : Type}

/-- Move call `i` on. -/
def goto (s : St V) (i : Nat) (t : Call V) (pc : PC) : St V := { s with calls := s.calls.set i ⟨t.value, pc⟩ }

/-- One step (_once.py:37–47). -/
def step (s : St V) : Act V → St V
  | .call v => { s with calls := s.calls ++ [⟨v, .start⟩] }
  | .next i ok =>
    match s.calls[i]? with
    | none => s
    | some t =>
      match t.pc with
      | .start => goto s i t (if s.done then .ret false else .want)
      | .want =>
        match s.lock with
        | none => { goto s i t .inside with lock := some i }
        | some _ => s
      | .inside =>
        if s.done then { goto s i t (.ret false) with lock := none } else goto s i t .calling
      | .calling => { goto s i t .body with glob := some t.value }
      | .body =>
        if ok then { goto s i t .setDone with completed := s.completed ++ [i] }
        else { goto s i t .raised with lock := none }
      | .setDone => { goto s i t .releasing with done := true }
      | .releasing => { goto s i t (.ret true) with lock := none }
      | .ret _ => s
      | .raised => s

/-- A run. -/
def run (acts : List (Act V)) : St V := acts.foldl step (init V)

end Once
end Otel
