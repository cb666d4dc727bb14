import Verif.Model.ErrorHandler
/-!
# What handling an error means
-/
namespace Otel
namespace ErrorHandler
variable {C E : Type}

/-- The plugin loads and its class is a subclass of the class of the error. -/
def Plugin.wants (w : World C E) (p : Plugin C E) (e : E) : Prop := ∃ c, p.load = .cls c ∧ w.issubclass c (w.classOf e) = true

/-- A well-behaved plugin: it loads, and what its handler raises is an `Exception`. -/
def Plugin.tame (w : World C E) (p : Plugin C E) : Prop := (∃ c, p.load = .cls c) ∧ ∀ n e x, p.handle n e = some x → w.isException (w.classOf x) = true

/-- The handlers called, in order: position, error and whether it returned. -/
def calls (l : List (Ev E)) : List (Nat × E × Bool) := l.filterMap fun | .called i e ok => some (i, e, ok) | _ => none
/-- The errors the default handler logged. -/
def defaults (l : List (Ev E)) : List E := l.filterMap fun | .default e => some e | _ => none
/-- The failures of handlers that were logged: position and the handler's error. -/
def failures (l : List (Ev E)) : List (Nat × E) := l.filterMap fun | .logged i e _ => some (i, e) | _ => none

/-- Every error raised in a guarded block was handled: by at least one plugin that returned, or by the default handler. -/
def HandledOnce (e : E) (l : List (Ev E)) : Prop := ((∃ i, (i, e, true) ∈ calls l) ∧ defaults l = []) ∨ ((∀ i, (i, e, true) ∉ calls l) ∧ defaults l = [e])

end ErrorHandler
end Otel
