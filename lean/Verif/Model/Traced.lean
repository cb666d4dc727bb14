import Verif.Model.Tasks
import Verif.Model.Batch
import Verif.Model.Otlp
/-!
# A traced program with a batch processor and the OTLP exporter
The concurrent programs of `Verif.Model.Tasks` with a `BatchSpanProcessor` (`Verif.Model.Batch`) as span processor: every `on_end` call a task makes is
offered to the processor; its other threads and the completion of `on_end` (`append`) interleave arbitrarily with the tasks.
-/
namespace Otel
namespace Traced
open Sampling (Sampler)

/-- A span handed to `on_end`: its number (ghost) and its data. -/
abbrev Item := Nat × Span.Data

/-- The `on_end` calls among the calls of the processors. -/
def ends (l : List (Nat × Span.Note)) : List Item :=
  l.filterMap fun c => match c.2 with | .ended d => some (c.1, d) | .started => none

/-- The configuration of the processor; it takes the spans that are sampled (`opentelemetry-sdk/src/opentelemetry/sdk/trace/export/__init__.py` 211–219). -/
def cfg (maxQueue maxBatch : Nat) (pos : 0 < maxBatch) (le : maxBatch ≤ maxQueue) : Batch.Cfg Item :=
  { maxQueue := maxQueue, maxBatch := maxBatch, sampled := fun x => x.2.ctx.sampled, pos := pos, le := le }

/-- Program and processor. -/
structure State where
  tasks : Tasks.State
  batch : Batch.St Item

/-- The scheduler's choices: a task moves, or something happens in the processor (`offer` comes from the tasks only). -/
inductive Move where
  | task (t : Nat)
  | proc (a : Batch.Act Item)

/-- One step. -/
def step (S : Sampler) (lim : SpanLimits) (c : Batch.Cfg Item) (st : State) : Move → State
  | .task t =>
    let s := Tasks.step S lim st.tasks t
    ⟨s, (ends (s.world.log.drop st.tasks.world.log.length)).foldl (fun b x => Batch.step c b (.offer x)) st.batch⟩
  | .proc (.offer _) => st
  | .proc a => { st with batch := Batch.step c st.batch a }

/-- The steps of a schedule. -/
def steps (S : Sampler) (lim : SpanLimits) (c : Batch.Cfg Item) (st : State) (moves : List Move) : State := moves.foldl (step S lim c) st

/-- A process running `main` in its first thread, with a new processor. -/
def State.init (main : Tasks.Prog) : State := ⟨Tasks.State.init main, Batch.init Item⟩

/-! ## What the exporter sends -/

/-- A value of a span's attributes, as the encoder sees it (`trace_encoder/__init__.py` 115–134 reads `span.attributes`). -/
def ofAtom : Atom → Otlp.PyVal
  | .none => .none
  | .bool b => .bool b
  | .int i _ => .int i
  | .float i _ => .float i
  | .str s _ => .str s
  | .bytes b _ => .bytes b
  | .other i => .other i

def ofVal : Val → Otlp.PyVal
  | .atom a => ofAtom a
  | .seq l => .seq (l.map ofAtom)

def ofAttrs (b : BAttrs) : List (Str × Otlp.PyVal) := b.d.map fun kv => (kv.1, ofVal kv.2)

/-- The number of a status code. -/
def ofCode : StatusCode → Nat
  | .unset => 0
  | .ok => 1
  | .error => 2

/-- The span as the OTLP encoder reads it through the properties of `ReadableSpan` (`opentelemetry-sdk/src/opentelemetry/sdk/trace/__init__.py` 369–505). `kind` is
given separately. Times before 1970, which protobuf refuses, are read as 0. -/
def readable (kind : Otlp.Kind) (d : Span.Data) : Otlp.SdkSpan :=
  { ctx := d.ctx, parent := d.parent, name := d.name, kind := kind, start := d.startTime.map Int.toNat, finish := d.endTime.map Int.toNat
    attrs := ofAttrs d.attrs, events := d.events.items.map fun e => ⟨e.name, e.ts.toNat, ofAttrs e.attrs, e.attrs.dropped⟩
    links := d.links.items.map fun l => ⟨l.ctx, ofAttrs l.attrs, l.attrs.dropped⟩
    status := ofCode d.status.code, description := d.status.desc
    droppedAttrs := d.attrs.dropped, droppedEvents := d.events.dropped, droppedLinks := d.links.dropped }

/-- The request made of a batch (`trace_encoder/__init__.py` 52–112); all spans come from one tracer, so there is one resource and one scope. -/
def request (kind : Nat → Otlp.Kind) (batch : List Item) : Option (Dict Unit (Dict Unit (List Otlp.PBSpan))) :=
  Otlp.group (fun _ => ()) (fun _ => ()) (fun x => Otlp.encodeSpan (readable (kind x.1) x.2)) batch

/-- The spans in a request. -/
def spansOf (d : Dict Unit (Dict Unit (List Otlp.PBSpan))) : List Otlp.PBSpan := d.flatMap fun r => r.2.flatMap fun s => s.2

end Traced
end Otel
