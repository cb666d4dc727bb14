import Verif.Model.Py
/-!
# The global error handler
Models opentelemetry-sdk/src/opentelemetry/sdk/error_handler/__init__.py:78–143. The singleton (`__new__`) has no state and is left out.
-/
namespace Otel
namespace ErrorHandler

/-- The classes and errors of a program: the class of an error, `issubclass`, and which classes are subclasses of `Exception` (what `except Exception` catches). -/
structure World (C E : Type) where
  classOf : E → C
  issubclass : C → C → Bool
  isException : C → Bool

/-- What `entry_point.load()` returns (123): a class, something that is no class (`issubclass` raises `TypeError`, 125), or it raises. -/
inductive Load (C E : Type) where
  | cls (c : C)
  | notClass (typeError : E)
  | raises (e : E)

/-- An entry point of the group `opentelemetry_error_handler`: what it loads, and what `error_handler_class()._handle(e)` (127) does: return or raise. It may do something else every
time: the first argument counts what has happened so far. -/
structure Plugin (C E : Type) where
  load : Load C E
  handle : Nat → E → Option E

/-- What happens. -/
inductive Ev (E : Type) where
  /-- The program does something. -/
  | did (n : Nat)
  /-- `_handle` of the plugin at position `i` was called with `e` and returned (`true`), or raised. -/
  | called (i : Nat) (e : E) (ok : Bool)
  /-- "error while handling error" (132–138). -/
  | logged (i : Nat) (e : E) (error : E)
  /-- "Error handled by default error handler" (86–88). -/
  | default (e : E)
deriving DecidableEq

variable {C E : Type}

/-- The loop of `__exit__` (122–138) over the plugins from position `i`: what happens, and `plugin_handled` or the error that escapes. -/
def exitLoop (w : World C E) (e : E) : Nat → List (Plugin C E) → Bool → List (Ev E) → List (Ev E) × Except E Bool
  | _, [], handled, log => (log, .ok handled)
  | i, p :: rest, handled, log =>
    match p.load with
    | .raises x => (log, .error x)
    | .notClass x => (log, .error x)
    | .cls c =>
      if w.issubclass c (w.classOf e) then
        match p.handle log.length e with
        | none => exitLoop w e (i + 1) rest true (log ++ [.called i e true])
        | some x =>
          if w.isException (w.classOf x) then exitLoop w e (i + 1) rest handled (log ++ [.called i e false, .logged i e x])
          else (log ++ [.called i e false], .error x)
      else exitLoop w e (i + 1) rest handled log

/-- `__exit__` with an exception (116–143): the exception that escapes instead, if any (it returns `True` otherwise). -/
def exit (w : World C E) (plugins : List (Plugin C E)) (e : E) (log : List (Ev E)) : List (Ev E) × Option E :=
  match exitLoop w e 0 plugins false log with
  | (log, .error x) => (log, some x)
  | (log, .ok true) => (log, none)
  | (log, .ok false) => (log ++ [.default e], none)

/-- A program: it does something, raises, continues, tries one thing and then another in case of an error, and has blocks `with GlobalErrorHandler():`. -/
inductive Prog (E : Type) where
  | does (n : Nat)
  | throws (e : E)
  | seq (a b : Prog E)
  | tryCatch (a b : Prog E)
  | guarded (a : Prog E)

/-- What a program does, and the exception it ends with. A guarded block calls `__exit__` (113–114: without an exception nothing is done). -/
def exec (w : World C E) (plugins : List (Plugin C E)) : Prog E → List (Ev E) → List (Ev E) × Option E
  | .does n, log => (log ++ [.did n], none)
  | .throws e, log => (log, some e)
  | .seq a b, log =>
    match exec w plugins a log with
    | (log, none) => exec w plugins b log
    | r => r
  | .tryCatch a b, log =>
    match exec w plugins a log with
    | (log, some _) => exec w plugins b log
    | r => r
  | .guarded a, log =>
    match exec w plugins a log with
    | (log, none) => (log, none)
    | (log, some e) => exit w plugins e log

end ErrorHandler
end Otel
