import Verif.Model.B3Jaeger
import Verif.Model.TraceContext
import Verif.Model.Baggage
/-!
# The global propagator
Models `opentelemetry-api/src/opentelemetry/propagate/__init__.py` 83–167: the list of propagators configured by `OTEL_PROPAGATORS`, loaded when
the module is imported, and `extract`/`inject` with the global propagator. Entry points are a lookup function.
-/
namespace Otel
namespace Propagate

/-- The loop of lines 128–149; `none`: the import raises (unknown name, or the propagator cannot be loaded). -/
def load {P : Type} (registry : Str → Option P) (env : Option Str) : Option (List P) :=
  (splitC ',' (env.getD "tracecontext,baggage".toList)).mapM fun name => registry (pyStrip name)

/-- The propagators of this repository. -/
inductive Builtin where
  | tracecontext | baggage | b3 | b3multi | jaeger
deriving DecidableEq

/-- Their entry points (`opentelemetry-api/pyproject.toml` 48–50, `opentelemetry-propagator-b3/pyproject.toml` 35–37,
`opentelemetry-propagator-jaeger/pyproject.toml` 34–35). -/
def registered (name : Str) : Option Builtin :=
  if name = "tracecontext".toList then some .tracecontext
  else if name = "baggage".toList then some .baggage
  else if name = "b3".toList then some .b3
  else if name = "b3multi".toList then some .b3multi
  else if name = "jaeger".toList then some .jaeger
  else none

/-- The propagator objects. `parent` is the id of the parent of the current span, if it is recording, else 0 (only Jaeger sends it). -/
def Builtin.prop (U : DigitTable) (parent : Int) : Builtin → Propagator
  | .tracecontext => { extract := fun ca c => Option.some (TraceContext.extract ca c), inject := TraceContext.inject,
                       fields := [TraceContext.traceparentName, TraceContext.tracestateName] }
  | .baggage => { extract := fun ca c => Option.some (Baggage.extract ca c), inject := Baggage.inject, fields := [Baggage.headerName] }
  | .b3 => { extract := fun ca c => Option.some (B3.extract U ca c), inject := B3.injectSingle, fields := [B3.singleKey] }
  | .b3multi => { extract := fun ca c => Option.some (B3.extract U ca c), inject := B3.injectMulti,
                  fields := [B3.traceIdKey, B3.spanIdKey, B3.sampledKey] }
  | .jaeger => { extract := Jaeger.extract U, inject := fun ca c => Jaeger.inject ca c parent, fields := [Jaeger.traceIdKey] }

/-- `inject(carrier, context)` (104–122) with the global propagator made of `ps` (152). -/
def inject (U : DigitTable) (parent : Int) (ps : List Builtin) (carrier : Carrier) (ctx : Ctx) : Carrier :=
  Composite.inject (ps.map (Builtin.prop U parent)) carrier ctx

/-- `extract(carrier, context)` (83–101) with the global propagator made of `ps` (152); `none` is an exception. -/
def extract (U : DigitTable) (ps : List Builtin) (carrier : Carrier) (ctx : Ctx) : Option Ctx :=
  Composite.extract (ps.map (Builtin.prop U 0)) carrier ctx

/-- The context a propagator starts from if it is given none (tracecontext.py 46–47, b3/__init__.py 55–56, jaeger/__init__.py 47–48: the empty one;
baggage/propagation/__init__.py 49–50: the current one). -/
def Builtin.start (current : Ctx) : Builtin → Ctx
  | .baggage => current
  | _ => []

/-- The context the first propagator starts from. With no propagator at all the result of `extract` is `None`, which the functions of the API take for
the current context. -/
def startCtx (current : Ctx) : List Builtin → Ctx
  | b :: _ => b.start current
  | [] => current

/-- `extract(carrier)` without a context: `None` is handed to the first propagator (composite.py 38–53). -/
def extractDefault (U : DigitTable) (current : Ctx) (ps : List Builtin) (carrier : Carrier) : Option Ctx :=
  extract U ps carrier (startCtx current ps)

end Propagate
end Otel
