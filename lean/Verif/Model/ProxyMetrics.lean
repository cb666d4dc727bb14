import Verif.Model.Py
/-!
# The API's proxy meters and instruments
Models `_ProxyMeterProvider`, `_ProxyMeter` (`opentelemetry-api/src/opentelemetry/metrics/_internal/__init__.py` 154–181, 502–649), the proxy
instruments (`metrics/_internal/instrument.py` 121–155 and the `_Proxy…` classes) and `_set_meter_provider` (`__init__.py` 853–864) while any
number of threads ask for meters, create instruments and record. `set_meter_provider` runs at most once (see `Verif.Model.Once`). A critical
section of another thread is one step, possible only while the lock is free; the setter's loop is one step per access.
-/
namespace Otel
namespace ProxyMetrics

inductive Kind where
  | counter | upDownCounter | histogram | gauge | observableCounter | observableUpDownCounter | observableGauge
deriving DecidableEq

/-- The arguments of `get_meter`; attributes are opaque. -/
structure MeterArgs where
  name : Str
  version : Option Str
  schema : Option Str
  attrs : Option Nat
deriving DecidableEq

/-- The arguments of `create_…`: callbacks (of observable instruments) and boundaries (of histograms) are opaque. -/
structure Spec where
  kind : Kind
  name : Str
  unit : Str
  description : Str
  callbacks : Option (List Nat)
  boundaries : Option (List Int)
deriving DecidableEq

/-- A meter as the user sees it: the `j`-th proxy meter, or a real one. -/
inductive MeterRef where
  | proxy (j : Nat)
  | real (a : MeterArgs)
deriving DecidableEq

/-- A proxy meter (502–512): the arguments it was asked for with, and `_real_meter`. -/
structure Proxy where
  args : MeterArgs
  real : Option MeterArgs
deriving DecidableEq

/-- An instrument as the user sees it: its meter and (*ghost*) what the meter was asked for with, its arguments, and the real instrument
behind it (for a real instrument, itself). -/
structure Handle where
  asked : MeterArgs
  meter : MeterRef
  spec : Spec
  real : Option Nat
deriving DecidableEq

/-- Where `set_meter_provider` is. -/
inductive Phase where
  | unset
  /-- the global is assigned; before `with self._lock` of the proxy provider -/
  | assigned
  /-- in the provider's lock, before `meter_provider.get_meter` for meter `j` -/
  | meter (j : Nat)
  /-- before `with self._lock` of meter `j`, with the real meter -/
  | got (j : Nat) (a : MeterArgs)
  /-- in meter `j`'s lock, before the `k`-th instrument -/
  | instr (j k : Nat) (a : MeterArgs)
  | done
  /-- a `create_…` of the real provider raised -/
  | raised
deriving DecidableEq

structure State where
  phase : Phase
  meters : List Proxy
  /-- the meters users have obtained, with what they asked for -/
  obtained : List (MeterArgs × MeterRef)
  handles : List Handle
  /-- the instruments created by real meters, in order -/
  created : List (MeterArgs × Spec)
  /-- measurements that reached a real instrument -/
  delivered : List (Nat × Nat)
  /-- *ghost*: measurements that went nowhere (handle, value) -/
  dropped : List (Nat × Nat)

def State.init : State := ⟨.unset, [], [], [], [], [], []⟩

/-- `_PROXY_METER_PROVIDER._real_meter_provider is not None`. -/
def State.hasReal (s : State) : Bool :=
  match s.phase with
  | .unset | .assigned => false
  | _ => true

/-- `_PROXY_METER_PROVIDER._lock` is held by the setter. -/
def State.providerLocked (s : State) : Bool :=
  match s.phase with
  | .meter _ | .got _ _ | .instr _ _ _ => true
  | _ => false

/-- Meter `j`'s lock is held by the setter. -/
def State.meterLocked (s : State) (j : Nat) : Bool :=
  match s.phase with
  | .instr i _ _ => i == j
  | _ => false

inductive Step where
  /-- `set_meter_provider` assigns the global -/
  | set
  /-- the setter goes on -/
  | next
  /-- `get_meter` of the proxy provider -/
  | proxyMeter (a : MeterArgs)
  /-- `get_meter` of the real provider (through the global) -/
  | realMeter (a : MeterArgs)
  /-- `create_…` on the `n`-th meter obtained -/
  | create (n : Nat) (x : Spec)
  /-- `add` / `record` / `set` on the `n`-th instrument -/
  | record (n : Nat) (v : Nat)
deriving DecidableEq

/-- `_create_real_instrument` of the seven proxy classes (`instrument.py` 188–…): the arguments passed to the real meter. Instruments without
callbacks or boundaries do not have that argument. -/
def createReal (x : Spec) : Spec :=
  match x.kind with
  | .counter | .upDownCounter | .gauge => ⟨x.kind, x.name, x.unit, x.description, none, none⟩
  | .histogram => ⟨x.kind, x.name, x.unit, x.description, none, x.boundaries⟩
  | .observableCounter | .observableUpDownCounter | .observableGauge => ⟨x.kind, x.name, x.unit, x.description, x.callbacks, none⟩

/-- `get_meter` of the real provider as the proxies call it (169–171, 520–522): without the attributes. -/
def realArgs (a : MeterArgs) : MeterArgs := { a with attrs := none }

/-- `create_…` of a real meter. -/
def createOn (valid : Spec → Bool) (s : State) (asked : MeterArgs) (m : MeterRef) (a : MeterArgs) (x : Spec) : State :=
  if valid x then { s with handles := s.handles ++ [⟨asked, m, x, some s.created.length⟩], created := s.created ++ [(a, x)] } else s

/-- One step. `valid` says whether the real provider creates the instrument or raises (bad name or unit, `sdk/metrics/_internal/instrument.py`
62–68). -/
def step (valid : Spec → Bool) (s : State) : Step → State
  | .set => match s.phase with
    | .unset => { s with phase := .assigned }
    | _ => s
  | .next =>
    match s.phase with
    | .assigned => { s with phase := .meter 0 }
    | .meter j =>
      match s.meters[j]? with
      | some p => { s with phase := .got j (realArgs p.args) }
      | none => { s with phase := .done }
    | .got j a =>
      match s.meters[j]? with
      | some p => { s with phase := .instr j 0 a, meters := s.meters.set j { p with real := some a } }
      | none => s
    | .instr j k a =>
      match s.handles[k]? with
      | some h =>
        if h.meter = .proxy j then
          if valid (createReal h.spec) then
            { s with phase := .instr j (k + 1) a, handles := s.handles.set k { h with real := some s.created.length }, created := s.created ++ [(a, createReal h.spec)] }
          else { s with phase := .raised }
        else { s with phase := .instr j (k + 1) a }
      | none => { s with phase := .meter (j + 1) }
    | _ => s
  | .proxyMeter a =>
    if s.providerLocked then s
    else if s.hasReal then { s with obtained := s.obtained ++ [(a, .real (realArgs a))] }
    else { s with meters := s.meters ++ [⟨a, none⟩], obtained := s.obtained ++ [(a, .proxy s.meters.length)] }
  | .realMeter a => if s.phase = .unset then s else { s with obtained := s.obtained ++ [(a, .real a)] }
  | .create n x =>
    match s.obtained[n]? with
    | none => s
    | some (asked, .real a) => createOn valid s asked (.real a) a x
    | some (asked, .proxy j) =>
      match s.meters[j]? with
      | none => s
      | some p =>
        if s.meterLocked j then s
        else
          match p.real with
          | some a => createOn valid s asked (.proxy j) a x
          | none => { s with handles := s.handles ++ [⟨asked, .proxy j, x, none⟩] }
  | .record n v =>
    match s.handles[n]? with
    | none => s
    | some h =>
      match h.real with
      | some k => { s with delivered := s.delivered ++ [(k, v)] }
      | none => { s with dropped := s.dropped ++ [(n, v)] }

end ProxyMetrics
end Otel
