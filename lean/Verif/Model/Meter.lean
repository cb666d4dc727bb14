import Verif.Model.Py
/-!
# Creating instruments
Models `Meter._register_instrument` and `Instrument._check_name_unit_description`
(`opentelemetry-api/src/opentelemetry/metrics/_internal/__init__.py` 235–277, `.../instrument.py` 44–118) and the
`create_*` methods of the SDK's `Meter` (`opentelemetry-sdk/src/opentelemetry/sdk/metrics/_internal/__init__.py` 92–377),
called by any number of threads.
-/
namespace Otel
namespace Meter

/-- `[a-zA-Z]`. -/
def isLetter (c : Char) : Bool := isLower c || isUpper c

/-- `[-_./a-zA-Z0-9]`. -/
def isNameChar (c : Char) : Bool := c == '-' || c == '_' || c == '.' || c == '/' || isLetter c || isDig c

/-- `_name_regex.fullmatch` (instrument.py:44, 101): a letter, then at most 254 name characters. -/
def validName : Str → Bool
  | [] => false
  | c :: s => isLetter c && s.all isNameChar && decide (s.length ≤ 254)

/-- `_unit_regex.fullmatch` (instrument.py:45, 108): at most 63 ASCII characters. -/
def validUnit (u : Str) : Bool := u.all (fun c => decide (c.toNat < 0x80)) && decide (u.length ≤ 63)

/-- `str.lower()` on one character; only ASCII letters change (a valid name is ASCII). -/
def lowerC (c : Char) : Char := if isUpper c then Char.ofNat (c.toNat + 32) else c

/-- `str.lower()`. -/
def lower (s : Str) : Str := s.map lowerC

/-- `instrument_id` (metrics/_internal/__init__.py:255–257). -/
def instrumentId (name type unit desc : Str) : Str := joinS [','] [lower (pyStrip name), type, unit, desc]

/-- Where a `create_*` call is. -/
inductive PC where
  | start
  | registered (already : Bool)   -- `_register_instrument` returned
  | constructed (n : Nat)         -- the instrument object exists but is not stored yet
  | ret (n : Nat)
  | keyError                      -- `self._instrument_id_instrument[status.instrument_id]` raised
  | invalid                       -- the constructor raised
deriving DecidableEq

structure Call where
  id : Str
  valid : Bool
  pc : PC
deriving DecidableEq

structure St where
  calls : List Call
  /-- `_instrument_ids` -/
  ids : List Str
  /-- `_instrument_id_instrument` -/
  store : Dict Str Nat
  /-- objects created so far, with the id they were created for -/
  objs : List Str
deriving DecidableEq

def init : St := { calls := [], ids := [], store := [], objs := [] }

/-- The scheduler's choices: a new call, or the next step of call `i`. -/
inductive Act where
  | call (id : Str) (valid : Bool)
  | next (i : Nat)
deriving DecidableEq

def goto (s : St) (i : Nat) (t : Call) (pc : PC) : St := { s with calls := s.calls.set i ⟨t.id, t.valid, pc⟩ }

/-- One step of a `create_*` call (sdk/metrics/_internal/__init__.py:92–120 and its siblings): registration under
`_instrument_ids_lock`; then, if already registered, a lookup under `_instrument_id_instrument_lock`, else construction (which
raises for an invalid name or unit) and storing under that lock. -/
def step (s : St) : Act → St
  | .call id v => { s with calls := s.calls ++ [⟨id, v, .start⟩] }
  | .next i =>
    match s.calls[i]? with
    | none => s
    | some t =>
      match t.pc with
      | .start =>
        if t.id ∈ s.ids then goto s i t (.registered true)
        else goto { s with ids := s.ids ++ [t.id] } i t (.registered false)
      | .registered true =>
        match Dict.get? s.store t.id with
        | some n => goto s i t (.ret n)
        | none => goto s i t .keyError
      | .registered false =>
        if t.valid then goto { s with objs := s.objs ++ [t.id] } i t (.constructed s.objs.length)
        else goto s i t .invalid
      | .constructed n => goto { s with store := Dict.set s.store t.id n } i t (.ret n)
      | _ => s

def run (acts : List Act) : St := acts.foldl step init

/-- One call made on its own: registration, then lookup or construction and storing. -/
def soloCall (s : St) (id : Str) (v : Bool) : St :=
  let k := s.calls.length
  step (step (step (step s (.call id v)) (.next k)) (.next k)) (.next k)

/-- `create_counter(name, unit, description)` and its siblings made on its own (sdk/metrics/_internal/__init__.py:92–120): the
identity is built from the arguments as given, the constructor checks the name and the unit (sdk instrument.py:60–78). A `None` unit or description, on which
`",".join` raises `TypeError`, is not modelled. -/
def create (s : St) (name type unit desc : Str) : St := soloCall s (instrumentId name type unit desc) (validName name && validUnit unit)

end Meter
end Otel
