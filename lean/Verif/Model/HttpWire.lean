import Verif.Model.OtlpConfig
import Verif.Model.OtlpExport
/-!
# The requests of the HTTP exporters
Models `__init__` (where it concerns the session), `_export`, `export` and `shutdown` of the OTLP exporters over HTTP
(`exporter/opentelemetry-exporter-otlp-proto-http/src/opentelemetry/exporter/otlp/proto/http/trace_exporter/__init__.py` 113–139, 152–198 and its metric and log twins) on sessions of
`requests` that exporters may share: a session may be given to a constructor. `Session.headers` is a `CaseInsensitiveDict`; it is kept here as the list of what was set, in order, of which
the last counts. `Session.close` closes pooled connections and does not keep the session from being used again; connections are not modelled.
-/
namespace Otel
namespace HttpWire
open OtlpConfig (Signal Http Compression)
open Export (HttpAnswer Outcome Act httpExport httpMetricExport)

/-- `gzip.GzipFile` and `zlib.compress`, on serialized data. -/
structure Codec (D : Type) where
  gzip : D → D
  deflate : D → D

/-- An exporter: its configuration (`OtlpConfig.http`), its session, and `_shutdown`. -/
structure Exporter where
  signal : Signal
  cfg : Http
  session : Nat
  down : Bool

/-- A request: whose it is, the session's headers, where it goes and its body. -/
structure Request (D : Type) where
  exporter : Nat
  headers : List (Str × Str)
  url : Str
  body : D

structure State (D : Type) where
  /-- The sessions: the headers set so far. -/
  sessions : List (List (Str × Str))
  exporters : List Exporter
  requests : List (Request D)
  /-- What each call of `export` returned, in order. -/
  results : List Outcome

/-- What a program does. -/
inductive Ev (D : Type) where
  /-- `requests.Session()`, whose default headers are given. -/
  | session (defaults : List (Str × Str))
  /-- `session.headers[name] = value` -/
  | header (s : Nat) (name value : Str)
  /-- An exporter is made, with a session; without one it makes its own (113), with the default headers. -/
  | make (signal : Signal) (cfg : Http) (s : Option Nat) (defaults : List (Str × Str))
  /-- `export`, with the serialized data and the answers that its attempts get. -/
  | send (e : Nat) (data : D) (answers : Nat → HttpAnswer)
  | shutdown (e : Nat)

variable {D : Type}

/-- The body (123–131). -/
def encode (k : Codec D) (c : Compression) (data : D) : D :=
  match c with
  | .noCompression => data
  | .gzip => k.gzip data
  | .deflate => k.deflate data

/-- `session.headers.update` (115–120). -/
def State.update (st : State D) (s : Nat) (hs : List (Str × Str)) : State D := { st with sessions := st.sessions.modify s (· ++ hs) }

/-- The result of `export` and what it does: the exporters of spans and logs look at `_shutdown`, that of metrics has no such flag (`OtlpExport`). -/
def attempts (e : Exporter) (answers : Nat → HttpAnswer) : Outcome × List Act :=
  match e.signal with
  | .metrics => httpMetricExport answers
  | _ => httpExport e.down answers

/-- How many requests. -/
def tries (acts : List Act) : Nat := (acts.filter fun | .attempt _ => true | .sleep _ => false).length

/-- What happens. A call of `export` is one step. (A session that does not exist cannot be given to a constructor.) -/
def step (k : Codec D) (st : State D) : Ev D → State D
  | .session ds => { st with sessions := st.sessions ++ [ds] }
  | .header s n v => st.update s [(n, v)]
  | .make sig cfg (some s) _ => if s < st.sessions.length then { st.update s cfg.headers with exporters := st.exporters ++ [⟨sig, cfg, s, false⟩] } else st
  | .make sig cfg none ds => { st with sessions := st.sessions ++ [ds ++ cfg.headers], exporters := st.exporters ++ [⟨sig, cfg, st.sessions.length, false⟩] }
  | .send i data answers =>
    match st.exporters[i]? with
    | none => st
    | some e =>
      let r := attempts e answers
      { st with
        requests := st.requests ++ List.replicate (tries r.2) ⟨i, (st.sessions[e.session]?).getD [], e.cfg.url, encode k e.cfg.compression data⟩
        results := st.results ++ [r.1] }
  | .shutdown i =>
    match st.exporters[i]? with
    | none => st
    | some e => if e.signal = .metrics then st else { st with exporters := st.exporters.set i { e with down := true } }

/-- A run. -/
def run (k : Codec D) (evs : List (Ev D)) : State D := evs.foldl (step k) ⟨[], [], [], []⟩

end HttpWire
end Otel
