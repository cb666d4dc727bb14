import Verif.Model.OcExporter
import Verif.Props.Otlp
import Verif.Lemmas.Dict
/-!
# C86: the OpenCensus exporter
-/
namespace Otel
namespace OcExporter
open Otlp (PyVal SdkSpan SdkEvent SdkLink Kind toBytes fromBytes toBytes_spec)

/-- A value OpenCensus can express: `bool`, a 64-bit `int`, `str`, `float`. -/
def Scalar : PyVal → Prop
  | .bool _ | .str _ | .float _ => True
  | .int i => -(2 ^ 63) ≤ i ∧ i < 2 ^ 63
  | _ => False

/-- What an OpenCensus value means. -/
def decode : AttrValue → PyVal
  | .bool b => .bool b
  | .int i => .int i
  | .str s => .str s
  | .double f => .float f

/-- The nanoseconds a timestamp denotes. -/
def Timestamp.toNanos (t : Timestamp) : Nat := t.seconds * 1000000000 + t.nanos

/-- Attributes that say the same as those of the SDK: those with scalar values as they are, the others as text; no other. -/
def Says (pyStr : PyVal → Str) (attrs : List (Str × PyVal)) (d : Dict Str AttrValue) : Prop :=
  (∀ k v, (k, v) ∈ attrs → ∃ a, Dict.get? d k = some a ∧ (Scalar v → decode a = v) ∧ (¬ Scalar v → a = .str (pyStr v))) ∧
  ∀ k, k ∉ attrs.map Prod.fst → Dict.get? d k = none

theorem attrValue_spec (pyStr : PyVal → Str) (v : PyVal) :
    (attrValue pyStr v = none ↔ ∃ i, v = .int i ∧ ¬ (-(2 ^ 63) ≤ i ∧ i < 2 ^ 63)) ∧
    ∀ a, attrValue pyStr v = some a → (Scalar v → decode a = v) ∧ (¬ Scalar v → a = .str (pyStr v)) := by
  cases v with
  | int i =>
    by_cases h : -(2 ^ 63) ≤ i ∧ i < 2 ^ 63
    · refine ⟨by simp only [attrValue, if_pos h, reduceCtorEq, PyVal.int.injEq, exists_eq_left', false_iff, Classical.not_not]; exact h, fun a ha => ?_⟩
      simp only [attrValue, if_pos h, Option.some.injEq] at ha
      subst ha
      exact ⟨fun _ => rfl, fun hn => absurd h hn⟩
    · refine ⟨by simp only [attrValue, if_neg h, PyVal.int.injEq, exists_eq_left', true_iff]; exact h, fun a ha => ?_⟩
      simp only [attrValue, if_neg h, reduceCtorEq] at ha
  | bool b => exact ⟨by simp [attrValue], fun a ha => by cases ha; exact ⟨fun _ => rfl, fun hn => absurd trivial hn⟩⟩
  | str b => exact ⟨by simp [attrValue], fun a ha => by cases ha; exact ⟨fun _ => rfl, fun hn => absurd trivial hn⟩⟩
  | float b => exact ⟨by simp [attrValue], fun a ha => by cases ha; exact ⟨fun _ => rfl, fun hn => absurd trivial hn⟩⟩
  | none => exact ⟨by simp [attrValue], fun a ha => by cases ha; exact ⟨fun h => h.elim, fun _ => rfl⟩⟩
  | bytes b => exact ⟨by simp [attrValue], fun a ha => by cases ha; exact ⟨fun h => h.elim, fun _ => rfl⟩⟩
  | seq b => exact ⟨by simp [attrValue], fun a ha => by cases ha; exact ⟨fun h => h.elim, fun _ => rfl⟩⟩
  | map b => exact ⟨by simp [attrValue], fun a ha => by cases ha; exact ⟨fun h => h.elim, fun _ => rfl⟩⟩
  | other b => exact ⟨by simp [attrValue], fun a ha => by cases ha; exact ⟨fun h => h.elim, fun _ => rfl⟩⟩

theorem attrMap_get (pyStr : PyVal → Str) (l : List (Str × PyVal)) (hn : (l.map Prod.fst).Nodup) (d d' : Dict Str AttrValue) (h : attrMap pyStr d l = some d') :
    (∀ k v, (k, v) ∈ l → Dict.get? d' k = attrValue pyStr v ∧ attrValue pyStr v ≠ none) ∧ ∀ k, k ∉ l.map Prod.fst → Dict.get? d' k = Dict.get? d k := by
  induction l generalizing d with
  | nil => simp only [attrMap, Option.some.injEq] at h; subst h; simp
  | cons kv l ih =>
    obtain ⟨k, v⟩ := kv
    simp only [attrMap] at h
    cases ha : attrValue pyStr v with
    | none => rw [ha] at h; cases h
    | some a =>
      rw [ha] at h
      dsimp only at h
      rw [List.map_cons, List.nodup_cons] at hn
      obtain ⟨h1, h2⟩ := ih hn.2 _ h
      constructor
      · intro k' v' hm
        rcases List.mem_cons.mp hm with e | hm
        · cases e
          rw [h2 k hn.1, Dict.get?_set, if_pos rfl, ha]
          exact ⟨rfl, by simp⟩
        · exact h1 k' v' hm
      · intro k' hk'
        simp only [List.map_cons, List.mem_cons, not_or] at hk'
        rw [h2 k' hk'.2, Dict.get?_set, if_neg (fun e => hk'.1 e.symm)]

theorem attrMap_says (pyStr : PyVal → Str) (l : List (Str × PyVal)) (hn : (l.map Prod.fst).Nodup) (d : Dict Str AttrValue) (h : attrMap pyStr [] l = some d) :
    Says pyStr l d := by
  obtain ⟨h1, h2⟩ := attrMap_get pyStr l hn [] d h
  refine ⟨fun k v hm => ?_, fun k hk => by rw [h2 k hk]; rfl⟩
  obtain ⟨g1, g2⟩ := h1 k v hm
  cases ha : attrValue pyStr v with
  | none => exact absurd ha g2
  | some a =>
    obtain ⟨s1, s2⟩ := (attrValue_spec pyStr v).2 a ha
    exact ⟨a, by rw [g1, ha], s1, s2⟩

theorem attrMap_some (pyStr : PyVal → Str) (l : List (Str × PyVal)) (d : Dict Str AttrValue) :
    (attrMap pyStr d l).isSome ↔ ∀ kv ∈ l, ∀ i, kv.2 = .int i → -(2 ^ 63) ≤ i ∧ i < 2 ^ 63 := by
  induction l generalizing d with
  | nil => simp [attrMap]
  | cons kv l ih =>
    obtain ⟨k, v⟩ := kv
    simp only [attrMap, List.forall_mem_cons]
    cases ha : attrValue pyStr v with
    | none =>
      obtain ⟨i, e, hi⟩ := ((attrValue_spec pyStr v).1).mp ha
      simp only [Option.isSome_none, Bool.false_eq_true, false_iff]
      intro h
      exact hi (h.1 i e)
    | some a =>
      dsimp only
      rw [ih]
      constructor
      · intro h
        refine ⟨fun i e => ?_, h⟩
        by_contra hc
        rw [((attrValue_spec pyStr v).1).mpr ⟨i, e, hc⟩] at ha
        cases ha
      · exact fun h => h.2

theorem mapM_forall₂ {α β : Type} (f : α → Option β) (l : List α) (l' : List β) (h : l.mapM f = some l') : List.Forall₂ (fun a b => f a = some b) l l' := by
  induction l generalizing l' with
  | nil => simp only [List.mapM_nil, Option.pure_def, Option.some.injEq] at h; subst h; exact .nil
  | cons x l ih =>
    simp only [List.mapM_cons, Option.bind_eq_bind, Option.bind_eq_some_iff, Option.pure_def, Option.some.injEq] at h
    obtain ⟨q, hq, l1, hl, rfl⟩ := h
    exact .cons hq (ih l1 hl)

theorem mapM_isSome {α β : Type} (f : α → Option β) (l : List α) : (l.mapM f).isSome ↔ ∀ x ∈ l, (f x).isSome := by
  induction l with
  | nil => simp
  | cons x ls ih =>
    simp only [List.mapM_cons, Option.bind_eq_bind, Option.pure_def, List.forall_mem_cons, ← ih]
    cases f x <;> cases ls.mapM f <;> simp

theorem timestamp_nanos (n : Option Nat) : (timestamp n).toNanos = n.getD 0 ∧ (timestamp n).nanos < 1000000000 := by
  cases n with
  | none => exact ⟨rfl, by decide⟩
  | some n =>
    simp only [timestamp, Timestamp.toNanos, Option.getD_some]
    exact ⟨by omega, Nat.mod_lt _ (by decide)⟩

/-- The attributes of a span, its events and its links have distinct keys (they are dictionaries). -/
def DistinctKeys (s : SdkSpan) : Prop :=
  (s.attrs.map Prod.fst).Nodup ∧ (∀ e ∈ s.events, (e.attrs.map Prod.fst).Nodup) ∧ ∀ l ∈ s.links, (l.attrs.map Prod.fst).Nodup

/-- **C86 (what is exported).** A translated span has the span's ids, name, start and end (to the nanosecond), trace state, parent id, attributes, and
all its events and links, in order, with their names, times, ids and attributes; a link is marked as a link to the parent exactly if it is one. -/
theorem C86_span (pyStr : PyVal → Str) (s : SdkSpan) (p : OcSpan) (hk : DistinctKeys s) (h : encodeSpan pyStr s = some p) :
    (fromBytes p.traceId : Int) = s.ctx.traceId ∧ p.traceId.length = 16 ∧ (fromBytes p.spanId : Int) = s.ctx.spanId ∧ p.spanId.length = 8 ∧
    (∀ c, s.parent = some c → (fromBytes p.parentSpanId : Int) = c.spanId) ∧ p.parentSpanId.length = 8 ∧
    p.tracestate = s.ctx.traceState ∧ p.name = s.name ∧ p.start.toNanos = s.start.getD 0 ∧ p.finish.toNanos = s.finish.getD 0 ∧
    p.statusMessage = s.description.getD [] ∧
    (p.kind = 1 ↔ s.kind = .server) ∧ (p.kind = 2 ↔ s.kind = .client) ∧ Says pyStr s.attrs p.attrs ∧
    List.Forall₂ (fun (e : SdkEvent) (q : OcEvent) => q.description = e.name ∧ q.time.toNanos = e.time ∧ Says pyStr e.attrs q.attrs) s.events p.events ∧
    List.Forall₂ (fun (l : SdkLink) (q : OcLink) => (fromBytes q.traceId : Int) = l.ctx.traceId ∧ (fromBytes q.spanId : Int) = l.ctx.spanId ∧
      (q.type = 2 ↔ ∃ c : SpanContext, s.parent = some c ∧ c.traceId = l.ctx.traceId ∧ c.spanId = l.ctx.spanId) ∧ (q.type = 2 ∨ q.type = 0) ∧
      Says pyStr l.attrs q.attrs) s.links p.links := by
  obtain ⟨k1, k2, k3⟩ := hk
  unfold encodeSpan at h
  split at h
  · rename_i t i par a es ls ht hi hp ha he hl
    injection h with h
    subst h
    obtain ⟨t1, -, t3⟩ := (toBytes_spec 16 _).2 t ht
    obtain ⟨i1, -, i3⟩ := (toBytes_spec 8 _).2 i hi
    obtain ⟨p1, -, p3⟩ := (toBytes_spec 8 _).2 par hp
    refine ⟨t3, t1, i3, i1, ?_, p1, rfl, rfl, (timestamp_nanos _).1, (timestamp_nanos _).1, rfl, ?_, ?_, attrMap_says pyStr _ k1 _ ha, ?_, ?_⟩
    · intro c hc
      dsimp only
      rw [p3, hc]
      rfl
    · cases s.kind <;> simp [spanKind]
    · cases s.kind <;> simp [spanKind]
    · have hf := mapM_forall₂ _ _ _ he
      dsimp only
      clear he
      generalize s.events = evs at hf k2
      induction hf with
      | nil => exact .nil
      | cons hx _ ih =>
        refine .cons ?_ (ih (fun e hm => k2 e (by simp [hm])))
        simp only [encodeEvent, Option.map_eq_some_iff] at hx
        obtain ⟨d, hd, rfl⟩ := hx
        exact ⟨rfl, (timestamp_nanos _).1, attrMap_says pyStr _ (k2 _ (by simp)) _ hd⟩
    · have hf := mapM_forall₂ _ _ _ hl
      dsimp only
      clear hl
      generalize s.links = lks at hf k3
      induction hf with
      | nil => exact .nil
      | @cons x q _ _ hx _ ih =>
        refine .cons ?_ (ih (fun e hm => k3 e (by simp [hm])))
        unfold encodeLink at hx
        split at hx
        · rename_i t' s' a' ht' hs' ha'
          injection hx with hx
          subst hx
          refine ⟨((toBytes_spec 16 _).2 t' ht').2.2, ((toBytes_spec 8 _).2 s' hs').2.2, ?_, ?_, attrMap_says pyStr _ (k3 _ (by simp)) _ ha'⟩
          · dsimp only [linkType]
            cases s.parent with
            | none => simp
            | some c =>
              dsimp only
              split
              · rename_i hc; simp [hc.1, hc.2]
              · rename_i hc
                constructor
                · intro e; cases e
                · rintro ⟨c', e, h1, h2⟩
                  cases e
                  exact absurd ⟨h2.symm, h1.symm⟩ hc
          · dsimp only [linkType]
            cases s.parent with
            | none => simp
            | some c => dsimp only; split <;> simp
        · cases hx
  · cases h

/-- The integers among the attributes have 64 bits. -/
def Ints64 (l : List (Str × PyVal)) : Prop := ∀ kv ∈ l, ∀ i, kv.2 = .int i → -(2 ^ 63) ≤ i ∧ i < 2 ^ 63

/-- Nothing in the span is too large for the message. -/
def Fits (s : SdkSpan) : Prop :=
  (0 ≤ s.ctx.traceId ∧ s.ctx.traceId < 2 ^ 128) ∧ (0 ≤ s.ctx.spanId ∧ s.ctx.spanId < 2 ^ 64) ∧
  (∀ c, s.parent = some c → 0 ≤ c.spanId ∧ c.spanId < 2 ^ 64) ∧ Ints64 s.attrs ∧ (∀ e ∈ s.events, Ints64 e.attrs) ∧
  ∀ l ∈ s.links, (0 ≤ l.ctx.traceId ∧ l.ctx.traceId < 2 ^ 128) ∧ (0 ≤ l.ctx.spanId ∧ l.ctx.spanId < 2 ^ 64) ∧ Ints64 l.attrs

/-- **C86 (which spans).** A span is translated exactly if its ids, its parent's and its links' are in range and all integers among the attributes have 64 bits. -/
theorem C86_span_iff (pyStr : PyVal → Str) (s : SdkSpan) : (encodeSpan pyStr s).isSome ↔ Fits s := by
  have e16 : ∀ n : Int, (toBytes 16 n).isSome ↔ 0 ≤ n ∧ n < 2 ^ 128 := fun n => (Otlp.C45_trace_id n).1
  have e8 : ∀ n : Int, (toBytes 8 n).isSome ↔ 0 ≤ n ∧ n < 2 ^ 64 := fun n => (Otlp.C45_span_id n).1
  have hp : (toBytes 8 (parentId s.parent)).isSome ↔ ∀ c, s.parent = some c → 0 ≤ c.spanId ∧ c.spanId < 2 ^ 64 := by
    rw [e8]
    cases s.parent with
    | none => simp [parentId]
    | some c => simp [parentId]
  have he : (s.events.mapM (encodeEvent pyStr)).isSome ↔ ∀ e ∈ s.events, Ints64 e.attrs := by
    rw [mapM_isSome]
    refine forall₂_congr (fun e _ => ?_)
    simp only [encodeEvent, Option.isSome_map]
    exact attrMap_some pyStr e.attrs []
  have hl : (s.links.mapM (encodeLink pyStr s.parent)).isSome ↔ ∀ l ∈ s.links, (0 ≤ l.ctx.traceId ∧ l.ctx.traceId < 2 ^ 128) ∧
      (0 ≤ l.ctx.spanId ∧ l.ctx.spanId < 2 ^ 64) ∧ Ints64 l.attrs := by
    rw [mapM_isSome]
    refine forall₂_congr (fun l _ => ?_)
    rw [← e16, ← e8, Ints64, ← attrMap_some pyStr l.attrs []]
    unfold encodeLink
    cases toBytes 16 l.ctx.traceId <;> cases toBytes 8 l.ctx.spanId <;> cases attrMap pyStr [] l.attrs <;> simp
  unfold Fits
  rw [← e16, ← e8, ← hp, ← he, ← hl, Ints64, ← attrMap_some pyStr s.attrs []]
  unfold encodeSpan
  cases toBytes 16 s.ctx.traceId <;> cases toBytes 8 s.ctx.spanId <;> cases toBytes 8 (parentId s.parent) <;> cases attrMap pyStr [] s.attrs <;>
    cases s.events.mapM (encodeEvent pyStr) <;> cases s.links.mapM (encodeLink pyStr s.parent) <;> simp

/-- **C86 (batches).** `export` reports success exactly if every span could be translated and the call ended normally; then exactly one request was sent, with all
spans of the batch in order, under the service name of the first span (or, if that has none, the name used last). Otherwise it reports failure, and nothing was
sent unless the call itself failed. -/
theorem C86_export (pyStr : PyVal → Str) (rpc : Rpc) (x : Exporter) (batch : List (SdkSpan × Option Str)) :
    ((exportBatch pyStr rpc x batch).2 = true ↔ (∀ s ∈ batch, Fits s.1) ∧ rpc = .ok) ∧
    ((∀ s ∈ batch, Fits s.1) → ∃ l, List.Forall₂ (fun s p => encodeSpan pyStr s.1 = some p) batch l ∧
      (exportBatch pyStr rpc x batch).1.sent = x.sent ++ [((exportBatch pyStr rpc x batch).1.service, l)]) ∧
    (¬ (∀ s ∈ batch, Fits s.1) → (exportBatch pyStr rpc x batch).1.sent = x.sent) ∧
    (∀ s n rest, batch = (s, some n) :: rest → n ≠ [] → (exportBatch pyStr rpc x batch).1.service = n) ∧
    (∀ s rest, batch = (s, none) :: rest ∨ batch = (s, some []) :: rest ∨ batch = [] → (exportBatch pyStr rpc x batch).1.service = x.service) := by
  have hsome : (translate pyStr (batch.map Prod.fst)).isSome ↔ ∀ s ∈ batch, Fits s.1 := by
    unfold translate
    rw [mapM_isSome]
    constructor
    · intro h s hs; exact (C86_span_iff pyStr _).mp (h _ (List.mem_map_of_mem hs))
    · intro h y hy
      obtain ⟨s, hs, rfl⟩ := List.mem_map.mp hy
      exact (C86_span_iff pyStr _).mpr (h s hs)
  have hserv : (exportBatch pyStr rpc x batch).1.service = nodeName x.service batch := by
    unfold exportBatch; dsimp only; split <;> rfl
  refine ⟨?_, ?_, ?_, ?_, ?_⟩
  · rw [← hsome]
    unfold exportBatch
    dsimp only
    cases translate pyStr (batch.map Prod.fst) with
    | none => simp
    | some l => simp
  · intro h
    rw [hserv]
    have h' := hsome.mpr h
    cases ht : translate pyStr (batch.map Prod.fst) with
    | none => rw [ht] at h'; cases h'
    | some l =>
      refine ⟨l, ?_, by simp only [exportBatch, ht]⟩
      have := mapM_forall₂ _ _ _ ht
      rw [List.forall₂_map_left_iff] at this
      exact this
  · intro h
    rw [← hsome] at h
    cases ht : translate pyStr (batch.map Prod.fst) with
    | none => simp only [exportBatch, ht]
    | some l => rw [ht] at h; exact absurd rfl h
  · rintro s n rest rfl hn
    rw [hserv]
    simp only [nodeName, if_neg hn]
  · rintro s rest (rfl | rfl | rfl)
    · rw [hserv]; rfl
    · rw [hserv]; simp [nodeName]
    · rw [hserv]; rfl

/-! ## What is false -/

/-- A span. -/
def exSpan (id : Int) (attrs : List (Str × PyVal)) : SdkSpan :=
  ⟨⟨0xabc, id, false, 1, []⟩, some ⟨0xabc, 7, true, 1, []⟩, "op".toList, .server, some 1500000000, some 2000000001, attrs, [⟨"e".toList, 1600000000, [], 0⟩],
    [⟨⟨0xabc, 7, true, 1, []⟩, [], 0⟩, ⟨⟨0xabc, 8, true, 1, []⟩, [], 0⟩], 0, none, 0, 0, 0⟩

/-- `C86_span` and `C86_span_iff` apply. -/
example : (encodeSpan (fun _ => []) (exSpan 5 [("k".toList, .int 3)])).map (fun p => (p.links.map OcLink.type, p.attrs, p.start, p.events.map OcEvent.time)) =
    some ([2, 0], [("k".toList, .int 3)], ⟨1, 500000000⟩, [⟨1, 600000000⟩]) := by decide
example : Fits (exSpan 5 [("k".toList, .int 3)]) := (C86_span_iff (fun _ => []) _).mp (by decide)

/-- The meaning of the status code in OpenCensus: that of gRPC. -/
inductive Grpc where
  | ok | cancelled | unknown | other
deriving DecidableEq

/-- The first gRPC codes. -/
def grpc : Nat → Grpc
  | 0 => .ok
  | 1 => .cancelled
  | 2 => .unknown
  | _ => .other

/-- **C86, violated:** the numbers of OpenTelemetry's status codes (0 unset, 1 ok, 2 error) are sent as gRPC codes: a span whose status is ok is reported as
cancelled, and a span without a status as ok. -/
theorem C86_status_violated (pyStr : PyVal → Str) (s : SdkSpan) (p : OcSpan) (h : encodeSpan pyStr s = some p) :
    (s.status = 1 → grpc p.statusCode = .cancelled) ∧ (s.status = 0 → grpc p.statusCode = .ok) ∧ (s.status = 2 → grpc p.statusCode = .unknown) := by
  have : p.statusCode = s.status := by
    unfold encodeSpan at h
    split at h
    · injection h with h; subst h; rfl
    · cases h
  rw [this]
  exact ⟨fun e => by rw [e]; rfl, fun e => by rw [e]; rfl, fun e => by rw [e]; rfl⟩

/-- **C86, violated:** a root span is exported with a parent id of eight zero bytes, where OpenCensus requires an empty field. -/
theorem C86_root_violated (pyStr : PyVal → Str) (s : SdkSpan) (p : OcSpan) (hr : s.parent = none) (h : encodeSpan pyStr s = some p) :
    p.parentSpanId = [0, 0, 0, 0, 0, 0, 0, 0] := by
  unfold encodeSpan at h
  rw [hr] at h
  split at h
  · rename_i hp _ _ _
    injection h with h
    subst h
    have e : toBytes 8 (parentId none) = some [0, 0, 0, 0, 0, 0, 0, 0] := by decide
    rw [e] at hp
    injection hp with hp
    exact hp.symm
  · cases h

/-- **C86, violated:** internal spans, producers and consumers all become "unspecified". -/
theorem C86_kind_violated : spanKind .internal = 0 ∧ spanKind .producer = 0 ∧ spanKind .consumer = 0 := ⟨rfl, rfl, rfl⟩

/-- **C86, violated:** one integer beyond 64 bits, in one attribute of one span, loses the whole batch. -/
theorem C86_one_attribute_violated (pyStr : PyVal → Str) (rpc : Rpc) (x : Exporter) (before after : List (SdkSpan × Option Str)) (s : SdkSpan) (n : Option Str)
    (k : Str) (i : Int) (hm : (k, .int i) ∈ s.attrs) (hi : 2 ^ 63 ≤ i) :
    (exportBatch pyStr rpc x (before ++ (s, n) :: after)).2 = false ∧ (exportBatch pyStr rpc x (before ++ (s, n) :: after)).1.sent = x.sent := by
  have hf : ¬ ∀ y ∈ before ++ (s, n) :: after, Fits y.1 := by
    intro h
    have := (h (s, n) (by simp)).2.2.2.1 _ hm i rfl
    omega
  obtain ⟨h1, -, h3, -⟩ := C86_export pyStr rpc x (before ++ (s, n) :: after)
  refine ⟨?_, h3 hf⟩
  cases hb : (exportBatch pyStr rpc x (before ++ (s, n) :: after)).2 with
  | false => rfl
  | true => exact absurd (h1.mp hb).1 hf

/-- **C86, violated:** a sequence is exported as the text of a tuple: it cannot be told from a string. -/
theorem C86_sequence_violated (pyStr : PyVal → Str) (l : List PyVal) : attrValue pyStr (.seq l) = attrValue pyStr (.str (pyStr (.seq l))) := rfl

/-- **C86, violated:** only the first span's service name is used for the whole batch. -/
theorem C86_service_violated (pyStr : PyVal → Str) :
    (exportBatch pyStr .ok ⟨[], []⟩ [(exSpan 1 [], some "a".toList), (exSpan 2 [], some "b".toList)]).1.sent.map (fun r => (r.1, r.2.length)) =
      [("a".toList, 2)] := rfl

end OcExporter
end Otel
