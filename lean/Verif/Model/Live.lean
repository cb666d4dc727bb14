import Verif.Model.Attributes
/-!
# Reading the attributes of a span while they are being set
Models `Span.set_attributes`, `end` and the property `attributes` (`opentelemetry-sdk/src/opentelemetry/sdk/trace/__init__.py` 845–854,
938–949, 459–461) over `BoundedAttributes` (`opentelemetry-api/src/opentelemetry/attributes/__init__.py` 164–204) with any number of threads.
Writers hold the span's lock for the whole call and the lock of the collection for each key; `__getitem__` takes no lock (165–166), `__iter__`
takes that of the collection and copies (196–198). `attributes` gives a live view (`MappingProxyType`), or one of an empty dictionary if it finds
no entries (`self._attributes or {}`, `__len__` takes no lock, 200–201); `items()` of the view (of `collections.abc.Mapping`) iterates over the
keys and then gets each value. A step is one operation on the dictionary or the counter: a
thread may be suspended between any two. (The change from `dict` to `OrderedDict`, 180–181, is not a step: both have the same content.)

Fields marked *ghost* only record history for the statements.
-/
namespace Otel
namespace Live

/-- Where the thread that holds the span's lock is: between two keys, or inside `__setitem__` for the assignment `p`, having taken an entry out
with the counter still to be raised, or about to store. -/
inductive Phase where
  | ready
  | count (p : AKey × Val) (k : Str) (v : Val)
  | store (p : AKey × Val) (k : Str) (v : Val)

/-- A call of `span.attributes.items()`. -/
inductive Reader where
  /-- It has a live view and has not read the keys. -/
  | viewed
  /-- `start` (ghost): the number of assignments completed when it read the keys. -/
  | reading (start : Nat) (got : List (Str × Val)) (todo : List Str)
  | returned (start : Nat) (result : List (Str × Val))
  /-- `KeyError` -/
  | raised (start : Nat) (k : Str)

structure St where
  b : BAttrs
  /-- The call of `set_attributes` that holds the span's lock, with the assignments it has not begun. -/
  writer : Option (Phase × List (AKey × Val))
  ended : Bool
  readers : List Reader
  /-- ghost: the calls of `set_attributes` that found the span recording, in order. -/
  entered : List (List (AKey × Val))
  /-- ghost: how many assignments have been completed. -/
  completed : Nat

/-- A span with initial attributes `b`. -/
def init (b : BAttrs) : St := { b := b, writer := none, ended := false, readers := [], entered := [], completed := 0 }

/-- One step of the thread that holds the span's lock: sdk/trace/__init__.py:848–854 and attributes/__init__.py:171–188. -/
def write (s : St) : St :=
  match s.writer with
  | none => s
  | some (.ready, []) => { s with writer := none }
  | some (.ready, p :: todo) =>
    if s.b.maxlen = some 0 then
      { s with b := { s.b with dropped := s.b.dropped + 1 }, writer := some (.ready, todo), completed := s.completed + 1 }
    else
      match p.1, Attr.clean p.1 p.2 s.b.maxValueLen with
      | .str k, some v =>
        if Dict.has s.b.d k then { s with b := { s.b with d := Dict.erase s.b.d k }, writer := some (.store p k v, todo) }
        else if s.b.maxlen = some s.b.d.length then
          { s with b := { s.b with d := s.b.d.tail }, writer := some (.count p k v, todo) }
        else { s with b := { s.b with d := s.b.d ++ [(k, v)] }, writer := some (.ready, todo), completed := s.completed + 1 }
      | _, _ => { s with writer := some (.ready, todo), completed := s.completed + 1 }
  | some (.count p k v, todo) => { s with b := { s.b with dropped := s.b.dropped + 1 }, writer := some (.store p k v, todo) }
  | some (.store _ k v, todo) =>
    { s with b := { s.b with d := s.b.d ++ [(k, v)] }, writer := some (.ready, todo), completed := s.completed + 1 }

/-- Is the collection's lock free? -/
def unlocked (s : St) : Bool :=
  match s.writer with
  | none => true
  | some (.ready, _) => true
  | _ => false

/-- `span.attributes[k]` (attributes/__init__.py:165–166); `none` is `KeyError`. -/
def look (s : St) (k : Str) : Option Val := Dict.get? s.b.d k

/-- `list(span.attributes)` (196–198), if the lock is free. -/
def keys (s : St) : List Str := Dict.keys s.b.d

/-- The scheduler's choices. -/
inductive Act where
  /-- `set_attributes(l)` takes the span's lock. -/
  | set (l : List (AKey × Val))
  /-- The thread that has the span's lock goes on. -/
  | write
  /-- `end()` takes the span's lock, sets the end time and releases it. -/
  | «end»
  /-- `span.attributes.items()` is called: it looks whether there are entries. -/
  | items
  /-- The `i`-th call of `items()` goes on. -/
  | next (i : Nat)

/-- One step; a choice that is not enabled changes nothing. -/
def step (s : St) : Act → St
  | .set l => if s.writer.isNone && !s.ended then { s with writer := some (.ready, l), entered := s.entered ++ [l] } else s
  | .write => write s
  | .end => if s.writer.isNone then { s with ended := true } else s
  | .items => { s with readers := s.readers ++ [if s.b.d.length = 0 then .returned s.completed [] else .viewed] }
  | .next i =>
    match s.readers[i]? with
    | some .viewed => if unlocked s then { s with readers := s.readers.set i (.reading s.completed [] (keys s)) } else s
    | some (.reading start got []) => { s with readers := s.readers.set i (.returned start got) }
    | some (.reading start got (k :: todo)) =>
      match look s k with
      | some v => { s with readers := s.readers.set i (.reading start (got ++ [(k, v)]) todo) }
      | none => { s with readers := s.readers.set i (.raised start k) }
    | _ => s

def run (b : BAttrs) (acts : List Act) : St := acts.foldl step (init b)

end Live
end Otel
