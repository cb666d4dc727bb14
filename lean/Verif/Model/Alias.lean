import Verif.Model.Storage
/-!
# Attribute dictionaries are objects
`_ViewInstrumentMatch.consume_measurement` hands the caller's dictionary itself to the aggregation it creates when the view has no
`attribute_keys` (_view_instrument_match.py:94–129), and `_Aggregation` keeps it (aggregation.py:100) and puts it into every data point.
This model has a heap of dictionaries; `Verif.Model.Views` passes attributes by value.
-/
namespace Otel
namespace Metrics
variable {α : Type}

/-- The `_attributes` of an aggregation: a fresh dictionary, or the caller's object number `n`. -/
inductive Label where
  | fresh (a : MAttrs)
  | ref (n : Nat)
deriving DecidableEq

/-- What the dictionary contains now. -/
def Label.read (heap : List MAttrs) : Label → MAttrs
  | .fresh a => a
  | .ref n => heap.getD n []

/-- A measurement as it reaches a stream set. -/
structure RIn (α : Type) where
  now : Int
  label : Label
  value : α

/-- The streams, with dictionaries as objects (_view_instrument_match.py:91–153). -/
def rstreams [AddCommGroup α] [LinearOrder α] (dflt : List α) (table : Kind → AggConf α) (t : Temporality) (w : View α) (i : Instr α) :
    Members StreamKey (RIn α) (Option (Label × Pt α)) :=
  { S := Label × Agg α
    new := fun _ m => (m.label, (effective table w i).create dflt i m.now)
    feed := fun s m => (s.1, s.2.aggregate m.value)
    coll := fun s now => ((s.2.collect t now).1.map (s.1, ·), (s.1, (s.2.collect t now).2)) }

/-- What a program does: make a dictionary, change one, measure with one, collect. -/
inductive AOp (α : Type) where
  | alloc (a : MAttrs)
  | write (n : Nat) (a : MAttrs)
  | measure (n : Nat) (now : Int) (v : α)
  | coll (now : Int)

/-- Heap and streams. -/
structure AState (α : Type) where
  heap : List MAttrs
  dict : List (StreamKey × (Label × Agg α))

/-- The attributes a stream is created with (_view_instrument_match.py:94–103). -/
def labelFor (w : View α) (heap : List MAttrs) (n : Nat) : Label :=
  match w.keys with
  | some _ => .fresh (restrict w.keys (heap.getD n []))
  | none => .ref n

/-- One operation; a collection returns the points, each with what its dictionary contains then. -/
def AState.step [AddCommGroup α] [LinearOrder α] (dflt : List α) (table : Kind → AggConf α) (t : Temporality) (w : View α) (i : Instr α)
    (s : AState α) : AOp α → AState α × Option (List (StreamKey × Option (DataPoint α)))
  | .alloc a => ({ s with heap := s.heap ++ [a] }, none)
  | .write n a => ({ s with heap := s.heap.set n a }, none)
  | .measure n now v =>
    if n < s.heap.length then
      match streamKey (restrict w.keys (s.heap.getD n [])) with
      | some k => ({ s with dict := (rstreams dflt table t w i).feedAt k ⟨now, labelFor w s.heap n, v⟩ s.dict }, none)
      | none => (s, none)
    else (s, none)
  | .coll now =>
    let r := (rstreams dflt table t w i).step s.dict (.coll now)
    ({ s with dict := r.1 }, r.2.map (fun l => l.map (fun ko => (ko.1, ko.2.map (fun lp => ⟨lp.1.read s.heap, lp.2⟩)))))

/-- A history. -/
def AState.run [AddCommGroup α] [LinearOrder α] (dflt : List α) (table : Kind → AggConf α) (t : Temporality) (w : View α) (i : Instr α) :
    AState α → List (AOp α) → List (List (StreamKey × Option (DataPoint α)))
  | _, [] => []
  | s, o :: l =>
    let r := s.step dflt table t w i o
    r.2.toList ++ AState.run dflt table t w i r.1 l

end Metrics
end Otel
