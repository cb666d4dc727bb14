import Verif.Model.Views
/-!
# Exemplars
Models `opentelemetry-sdk/src/opentelemetry/sdk/metrics/_internal/exemplar/exemplar_reservoir.py` and `exemplar_filter.py`.
-/
namespace Otel
namespace Exemplar
open Metrics
variable {α : Type}

/-- An offered measurement. `span` is `none` if the current span of its context is `INVALID_SPAN`, else (span id, trace id). -/
structure Offer (α : Type) where
  value : α
  time : Int
  attrs : Option MAttrs
  span : Option (Nat × Nat)

/-- `Exemplar` (exemplar.py:46–50). -/
structure Ex (α : Type) where
  attrs : Option MAttrs
  value : α
  time : Int
  spanId : Option Nat
  traceId : Option Nat
deriving DecidableEq

/-- `ExemplarBucket` (exemplar_reservoir.py:85–92). -/
structure Bucket (α : Type) where
  value : α
  attrs : Option MAttrs
  time : Int
  spanId : Option Nat
  traceId : Option Nat
  offered : Bool

/-- `ExemplarBucket()`. -/
def Bucket.empty [Zero α] : Bucket α := ⟨0, none, 0, none, none, false⟩

/-- `ExemplarBucket.offer` (94–118): the ids are only written if there is a span. -/
def Bucket.offer (b : Bucket α) (o : Offer α) : Bucket α :=
  let b := { b with value := o.value, time := o.time, attrs := o.attrs }
  let b := match o.span with
    | some (sid, tid) => { b with spanId := some sid, traceId := some tid }
    | none => b
  { b with offered := true }

/-- The attributes an exemplar keeps (125–136): those the data point does not have; `None` if there were none at all. -/
def filtered (point : MAttrs) (a : Option MAttrs) : Option MAttrs :=
  match a with
  | some (x :: l) => some ((x :: l).filter (fun kv => decide (kv.1 ∉ point.map Prod.fst)))
  | _ => none

/-- `ExemplarBucket.collect` (120–146) and `__reset` (148–155). -/
def Bucket.collect [Zero α] (point : MAttrs) (b : Bucket α) : Option (Ex α) × Bucket α :=
  if b.offered then
    (some ⟨filtered point b.attrs, b.value, b.time, b.spanId, b.traceId⟩, ⟨0, some [], 0, none, none, false⟩)
  else (none, b)

/-- `FixedSizeExemplarReservoirABC` (162–248). `_reservoir_storage` is a `defaultdict`: `bucket i` is the bucket at `i` (a fresh one if the
key does not exist) and `bound` is above every existing key. `seen` is `_measurements_seen` of the simple reservoir. -/
structure Res (α : Type) where
  bucket : Nat → Bucket α
  bound : Nat
  seen : Nat

/-- A new reservoir. -/
def Res.new [Zero α] : Res α := ⟨fun _ => .empty, 0, 0⟩

/-- `self._reservoir_storage[index].offer(...)`. -/
def Res.put (s : Res α) (i : Nat) (o : Offer α) : Res α :=
  { s with bucket := Function.update s.bucket i ((s.bucket i).offer o), bound := max s.bound (i + 1) }

/-- `SimpleFixedSizeExemplarReservoir.offer` (195–220, 260–283). `r` is the random choice: `randrange(0, n)` is `r % n`. -/
def Res.offerSimple (size : Nat) (s : Res α) (o : Offer α) (r : Nat) : Res α :=
  let s := { s with seen := s.seen + 1 }
  if s.seen < size then s.put (s.seen - 1) o
  else
    let index := r % s.seen
    if index < size then s.put index o else s

/-- `AlignedHistogramBucketExemplarReservoir._find_bucket_index` (314–324). -/
def alignedIndex [LinearOrder α] (value : α) : List α → Nat
  | [] => 0
  | b :: l => if value ≤ b then 0 else alignedIndex value l + 1

/-- `AlignedHistogramBucketExemplarReservoir.offer` (299–312). -/
def Res.offerAligned [LinearOrder α] (bounds : List α) (s : Res α) (o : Offer α) : Res α := s.put (alignedIndex o.value bounds) o

/-- `collect` (172–193) and `_reset` (247–248, 264–266): the buckets by ascending key. -/
def Res.collect [Zero α] (point : MAttrs) (s : Res α) : List (Ex α) × Res α :=
  ((List.range s.bound).filterMap (fun i => ((s.bucket i).collect point).1),
   { s with bucket := fun i => ((s.bucket i).collect point).2, seen := 0 })

/-- What happens to a reservoir. -/
inductive Op (α : Type) where
  | offer (o : Offer α) (r : Nat)
  | collect (point : MAttrs)

/-- One call on a simple reservoir. -/
def stepSimple [Zero α] (size : Nat) (s : Res α) : Op α → Res α
  | .offer o r => s.offerSimple size o r
  | .collect point => (s.collect point).2

/-- One call on an aligned reservoir. -/
def stepAligned [Zero α] [LinearOrder α] (bounds : List α) (s : Res α) : Op α → Res α
  | .offer o _ => s.offerAligned bounds o
  | .collect point => (s.collect point).2

/-! ## Filters -/

/-- The exemplar filters (exemplar_filter.py). -/
inductive Filter where
  | alwaysOn | alwaysOff | traceBased
deriving DecidableEq

/-- `should_sample` (exemplar_filter.py:63–78, 90–105, 116–134); `span` is the current span of the measurement's context (`none`:
`INVALID_SPAN`), `sampled` its flag. -/
def Filter.sample : Filter → Option (Nat × Nat) → Bool → Bool
  | .alwaysOn, _, _ => true
  | .alwaysOff, _, _ => false
  | .traceBased, none, _ => false
  | .traceBased, some _, sampled => sampled

/-- A measurement reaching an aggregation (`measurement_consumer.py` 80–92, `aggregation.py` 131–148): it is offered if the filter
samples it. -/
def Filter.offers (f : Filter) (o : Offer α) (sampled : Bool) (r : Nat) : List (Op α) :=
  if f.sample o.span sampled then [.offer o r] else []

/-! ## Two threads
`_sample_exemplar` is called outside the aggregation's lock (aggregation.py:196), and the bucket has none. -/

/-- One of the assignments of `ExemplarBucket.offer`. -/
inductive Write where
  | value | time | attrs | spanId | traceId | offered
deriving DecidableEq

/-- The assignments `offer` performs, in order (109–118). -/
def writes (o : Offer α) : List Write :=
  [.value, .time, .attrs] ++ (if o.span.isSome then [.spanId, .traceId] else []) ++ [.offered]

/-- One assignment. -/
def Bucket.write (b : Bucket α) (o : Offer α) : Write → Bucket α
  | .value => { b with value := o.value }
  | .time => { b with time := o.time }
  | .attrs => { b with attrs := o.attrs }
  | .spanId => { b with spanId := o.span.map Prod.fst }
  | .traceId => { b with traceId := o.span.map Prod.snd }
  | .offered => { b with offered := true }

/-- A schedule of two offers: which one (`false` the first) does its next assignment. -/
def interleave (o p : Offer α) : List Write → List Write → List Bool → Bucket α → Bucket α
  | w :: ws, vs, false :: l, b => interleave o p ws vs l (b.write o w)
  | ws, v :: vs, true :: l, b => interleave o p ws vs l (b.write p v)
  | _, _, _, b => b

end Exemplar
end Otel
