import Verif.Model.Exemplar
import Mathlib.Data.List.Sort
/-!
# Exemplar reservoirs used by several threads
Models `opentelemetry-sdk/src/opentelemetry/sdk/metrics/_internal/exemplar/exemplar_reservoir.py` at the grain of single reads and writes of attributes: neither the reservoir nor its buckets
have a lock, and `_Aggregation._sample_exemplar` (`aggregation.py` 131–148) is called after the aggregation's lock was released (190–196, 418–421, 513–527, 716–822). Collections of one
aggregation do not overlap, since `_ViewInstrumentMatch.collect` (`_view_instrument_match.py` 136–153) holds its lock. `dict` operations that run no Python code are atomic.
-/
namespace Otel
namespace ExemplarRace
open Metrics Exemplar

/-- The two reservoirs: `SimpleFixedSizeExemplarReservoir(size)` and `AlignedHistogramBucketExemplarReservoir(boundaries)`. -/
inductive Kind (α : Type) where
  | simple (size : Nat)
  | aligned (boundaries : List α)

/-- Where a call of `offer` is. -/
inductive OPc where
  /-- `self._measurements_seen += 1` (275): the read. -/
  | load
  /-- The write. -/
  | store (n : Int)
  /-- `if self._measurements_seen < self._size` (276). -/
  | test
  /-- `return self._measurements_seen - 1` (277). -/
  | pick
  /-- `index = randrange(0, self._measurements_seen)` (279–283). -/
  | draw
  /-- `self._reservoir_storage[index]` (215). -/
  | find (i : Int)
  /-- The `defaultdict` has no such key: it calls `ExemplarBucket()`. -/
  | create (i : Int)
  /-- It stores the new bucket. -/
  | install (i : Int) (id : Nat)
  /-- The assignments of `ExemplarBucket.offer` that are left (109–118). -/
  | write (id : Nat) (ws : List Write)
  | done
  /-- `ValueError`: the range of `randrange` is empty. It is no `BucketIndexError`, so it is not caught (218–220). -/
  | raised
deriving DecidableEq

/-- A call of `offer`; `r` decides the random choice. -/
structure Act (α : Type) where
  o : Offer α
  r : Nat
  pc : OPc

/-- Where the collection is. The pairs are the buckets still to be visited: key and object. -/
inductive CPc (α : Type) where
  | idle
  /-- Before the next bucket (188–189). -/
  | next (rest : List (Int × Nat))
  /-- `if self.__attributes` (133). -/
  | test (i : Int) (id : Nat) (rest : List (Int × Nat))
  /-- `self.__attributes.items()` (130). -/
  | attrs (i : Int) (id : Nat) (rest : List (Int × Nat))
  /-- The reads of the other fields (137–143). -/
  | value (i : Int) (id : Nat) (rest : List (Int × Nat)) (a : Option MAttrs)
  | time (i : Int) (id : Nat) (rest : List (Int × Nat)) (a : Option MAttrs) (v : α)
  | span (i : Int) (id : Nat) (rest : List (Int × Nat)) (a : Option MAttrs) (v : α) (t : Int)
  | trace (i : Int) (id : Nat) (rest : List (Int × Nat)) (a : Option MAttrs) (v : α) (t : Int) (s : Option Nat)
  /-- The assignments of `__reset` that are left (148–155). -/
  | reset (id : Nat) (rest : List (Int × Nat)) (ws : List Write)

/-- A reservoir, the calls of `offer` and the collection. `storage` is `_reservoir_storage`, whose values are the numbers of the buckets; `out` are the exemplars of the collection in
progress with the keys of their buckets, `got` those of the finished ones; `failed` counts the collections that raised. -/
structure State (α : Type) where
  seen : Int
  storage : Dict Int Nat
  buckets : List (Bucket α)
  acts : List (Act α)
  coll : CPc α
  out : List (Int × Ex α)
  got : List (List (Int × Ex α))
  failed : Nat

/-- A new reservoir, and the calls of `offer` to come. -/
def State.init {α : Type} (offers : List (Offer α × Nat)) : State α := ⟨0, [], [], offers.map fun x => ⟨x.1, x.2, .load⟩, .idle, [], [], 0⟩

variable {α : Type} [Zero α] [LinearOrder α]

/-- The call `t` goes to `pc`. -/
def State.goto (st : State α) (t : Nat) (pc : OPc) : State α := { st with acts := st.acts.modify t fun a => { a with pc := pc } }

/-- `self._size`. -/
def Kind.size : Kind α → Nat
  | .simple n => n
  | .aligned bs => bs.length + 1

/-- The next step of the call `t` of `offer` (195–220, 268–283, 299–324). -/
def stepOffer (k : Kind α) (st : State α) (t : Nat) : State α :=
  match st.acts[t]? with
  | none => st
  | some a =>
    match a.pc with
    | .load =>
      match k with
      | .simple _ => st.goto t (.store st.seen)
      | .aligned bs => st.goto t (.find (alignedIndex a.o.value bs))
    | .store n => { st.goto t .test with seen := n + 1 }
    | .test => if st.seen < k.size then st.goto t .pick else st.goto t .draw
    | .pick => st.goto t (.find (st.seen - 1))
    | .draw =>
      if st.seen ≤ 0 then st.goto t .raised
      else if (a.r : Int) % st.seen < k.size then st.goto t (.find ((a.r : Int) % st.seen))
      else st.goto t .done
    | .find i =>
      match Dict.get? st.storage i with
      | some id => st.goto t (.write id (writes a.o))
      | none => st.goto t (.create i)
    | .create i => { st.goto t (.install i st.buckets.length) with buckets := st.buckets ++ [.empty] }
    | .install i id => { st.goto t (.write id (writes a.o)) with storage := Dict.set st.storage i id }
    | .write _ [] => st.goto t .done
    | .write id (w :: ws) => { st.goto t (.write id ws) with buckets := st.buckets.modify id fun b => b.write a.o w }
    | .done => st
    | .raised => st

/-- The assignments of `__reset` (150–155). -/
def clears : List Write := [.value, .attrs, .time, .spanId, .traceId, .offered]

/-- One of them. -/
def clear (b : Bucket α) : Write → Bucket α
  | .value => { b with value := 0 }
  | .attrs => { b with attrs := some [] }
  | .time => { b with time := 0 }
  | .spanId => { b with spanId := none }
  | .traceId => { b with traceId := none }
  | .offered => { b with offered := false }

/-- The bucket with this number. -/
def State.bucket (st : State α) (id : Nat) : Bucket α := st.buckets[id]?.getD .empty

/-- The next step of the collection: `FixedSizeExemplarReservoirABC.collect` (172–193), `ExemplarBucket.collect` (120–146), `_reset` (264–266). -/
def stepCollect (k : Kind α) (point : MAttrs) (st : State α) : State α :=
  match st.coll with
  | .idle => { st with coll := .next (st.storage.insertionSort fun a b => a.1 ≤ b.1), out := [] }
  | .next [] =>
    { st with coll := .idle, got := st.got ++ [st.out], seen := match k with | .simple _ => 0 | .aligned _ => st.seen }
  | .next ((i, id) :: rest) => if (st.bucket id).offered then { st with coll := .test i id rest } else { st with coll := .next rest }
  | .test i id rest =>
    match (st.bucket id).attrs with
    | some (_ :: _) => { st with coll := .attrs i id rest }
    | _ => { st with coll := .value i id rest none }
  | .attrs i id rest =>
    match (st.bucket id).attrs with
    | none => { st with coll := .idle, failed := st.failed + 1 }
    | some l => { st with coll := .value i id rest (some (l.filter fun kv => decide (kv.1 ∉ point.map Prod.fst))) }
  | .value i id rest a => { st with coll := .time i id rest a (st.bucket id).value }
  | .time i id rest a v => { st with coll := .span i id rest a v (st.bucket id).time }
  | .span i id rest a v t => { st with coll := .trace i id rest a v t (st.bucket id).spanId }
  | .trace i id rest a v t s => { st with coll := .reset id rest clears, out := st.out ++ [(i, ⟨a, v, t, s, (st.bucket id).traceId⟩)] }
  | .reset _ rest [] => { st with coll := .next rest }
  | .reset id rest (w :: ws) => { st with coll := .reset id rest ws, buckets := st.buckets.modify id fun b => clear b w }

/-- A step of the call `t`, or of the collection. -/
def step (k : Kind α) (point : MAttrs) (st : State α) : Option Nat → State α
  | some t => stepOffer k st t
  | none => stepCollect k point st

/-- The steps of a schedule. -/
def run (k : Kind α) (point : MAttrs) (st : State α) (sched : List (Option Nat)) : State α := sched.foldl (step k point) st

end ExemplarRace
end Otel
