import Verif.Model.SpanContext
/-!
# Context
Models `opentelemetry-api/src/opentelemetry/context/__init__.py` 73–170, `context/context.py`,
`context/contextvars_context.py`, `trace/propagation/__init__.py`.

Keys made by `create_key` contain a fresh uuid; they are modelled as distinct constructors.
-/
namespace Otel

/-- Context keys: `_SPAN_KEY` (trace/propagation/__init__.py:21), `_BAGGAGE_KEY`
(baggage/__init__.py), and any other string. -/
inductive CtxKey where
  | span
  | baggage
  | user (s : Str)
deriving DecidableEq, Repr

/-- Objects stored in a context: a `Span` (only its span context and identity matter to the
propagators), a baggage mapping, or anything else. -/
inductive Obj where
  | span (sc : SpanContext)
  | baggage (d : Dict Str Str)
  | other (n : Nat)
deriving DecidableEq, Repr

/-- `Context`: a dict whose `__setitem__` raises; immutable here. -/
abbrev Ctx := Dict CtxKey Obj

namespace Ctx

/-- `get_value(key, context)` with an explicit context (context/__init__.py:85–97). -/
def getValue (c : Ctx) (k : CtxKey) : Option Obj := Dict.get? c k

/-- `set_value(key, value, context)` with an explicit context (context/__init__.py:100–120). -/
def setValue (c : Ctx) (k : CtxKey) (v : Obj) : Ctx := Dict.set c k v

/-- `set_span_in_context` (trace/propagation/__init__.py:24–35). -/
def setSpan (c : Ctx) (sc : SpanContext) : Ctx := setValue c .span (.span sc)

/-- `get_current_span(context).get_span_context()` (trace/propagation/__init__.py:38–51). -/
def currentSpan (c : Ctx) : SpanContext :=
  match getValue c .span with
  | some (.span sc) => sc
  | _ => SpanContext.invalid

end Ctx

/-! ## The runtime context: one `ContextVar` per thread -/

/-- A `contextvars.Token`: the thread (execution context) that created it, a unique number and the
value the variable had (`none` = no value). -/
structure Token where
  thread : Nat
  uid : Nat
  old : Option Ctx
deriving DecidableEq, Repr

/-- State of the `ContextVar` over all threads: the value per thread, and the tokens already used
(a token resets only once). -/
structure Runtime where
  value : Nat → Option Ctx
  nextUid : Nat
  used : List Nat

namespace Runtime
/-- Initially the variable has no value anywhere. -/
def init : Runtime := ⟨fun _ => none, 0, []⟩

/-- `get_current()`: the variable's value or its default `Context()`
(contextvars_context.py:29–32, 43–45). -/
def getCurrent (r : Runtime) (t : Nat) : Ctx := (r.value t).getD []

/-- `attach(context)` (context/__init__.py:134–144, contextvars_context.py:34–41): `ContextVar.set`. -/
def attach (r : Runtime) (t : Nat) (c : Ctx) : Runtime × Token :=
  ({ r with value := fun u => if u = t then some c else r.value u, nextUid := r.nextUid + 1 },
   ⟨t, r.nextUid, r.value t⟩)

/-- `detach(token)` (context/__init__.py:147–157): `ContextVar.reset`, which raises for a token of
another execution context or already used; the exception is logged and swallowed. -/
def detach (r : Runtime) (t : Nat) (tok : Token) : Runtime :=
  if tok.thread = t ∧ tok.uid ∉ r.used then
    { r with value := fun u => if u = t then tok.old else r.value u, used := tok.uid :: r.used }
  else r
end Runtime
end Otel
