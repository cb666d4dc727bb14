import Verif.Model.Otlp
import Verif.Props.TraceState
import Verif.Lemmas.Dict
import Mathlib.Data.List.Perm.Basic
import Mathlib.Data.List.Flatten
/-!
# C43–C45: OTLP encoding
-/
namespace Otel
namespace Otlp

/-! ## C43: values -/

mutual
/-- What an `AnyValue` means. -/
def decodeValue : PB → PyVal
  | .unset => .none
  | .bool b => .bool b
  | .str s => .str s
  | .int i => .int i
  | .float i => .float i
  | .bytes b => .bytes b
  | .array l => .seq (decodeArray l)
  | .kvlist l => .map (decodeMap l)
def decodeArray : List PB → List PyVal
  | [] => []
  | p :: l => decodeValue p :: decodeArray l
def decodeMap : List (Str × Option PB) → List (Str × PyVal)
  | [] => []
  | (k, none) :: l => (k, .none) :: decodeMap l
  | (k, some p) :: l => (k, decodeValue p) :: decodeMap l
end

/-- A missing value means `None`. -/
def decodeOpt : Option PB → PyVal
  | none => .none
  | some p => decodeValue p

/-- The values OTLP can express: `None` only where allowed, integers of 64 bits, and lists and maps of such values. -/
inductive Encodable (allowNull : Bool) : PyVal → Prop
  | none (h : allowNull = true) : Encodable allowNull .none
  | bool (b : Bool) : Encodable allowNull (.bool b)
  | str (s : Str) : Encodable allowNull (.str s)
  | int (i : Int) (h : -(2 ^ 63) ≤ i ∧ i < 2 ^ 63) : Encodable allowNull (.int i)
  | float (i : Nat) : Encodable allowNull (.float i)
  | bytes (b : List Nat) : Encodable allowNull (.bytes b)
  | seq (l : List PyVal) (h : ∀ v ∈ l, Encodable allowNull v) : Encodable allowNull (.seq l)
  | map (l : List (Str × PyVal)) (h : ∀ kv ∈ l, Encodable allowNull kv.2) : Encodable allowNull (.map l)

mutual
theorem value_roundtrip (a : Bool) : ∀ (v : PyVal) (p : Option PB), encodeValue a v = some p → decodeOpt p = v
  | .none, p, h => by
    simp only [encodeValue] at h
    split at h
    · injection h with h; subst h; rfl
    · simp at h
  | .bool b, p, h => by simp only [encodeValue, Option.some.injEq] at h; subst h; rfl
  | .str b, p, h => by simp only [encodeValue, Option.some.injEq] at h; subst h; rfl
  | .int i, p, h => by
    simp only [encodeValue] at h
    split at h
    · injection h with h; subst h; rfl
    · simp at h
  | .float b, p, h => by simp only [encodeValue, Option.some.injEq] at h; subst h; rfl
  | .bytes b, p, h => by simp only [encodeValue, Option.some.injEq] at h; subst h; rfl
  | .seq l, p, h => by
    simp only [encodeValue, Option.map_eq_some_iff] at h
    obtain ⟨l', h1, rfl⟩ := h
    simp only [decodeOpt, decodeValue, array_roundtrip a l l' h1]
  | .map l, p, h => by
    simp only [encodeValue, Option.map_eq_some_iff] at h
    obtain ⟨l', h1, rfl⟩ := h
    simp only [decodeOpt, decodeValue, map_roundtrip a l l' h1]
  | .other n, p, h => by simp [encodeValue] at h
theorem array_roundtrip (a : Bool) : ∀ (l : List PyVal) (l' : List PB), encodeArray a l = some l' → decodeArray l' = l
  | [], l', h => by simp only [encodeArray, Option.some.injEq] at h; subst h; rfl
  | v :: l, l', h => by
    simp only [encodeArray] at h
    split at h
    · simp at h
    · rename_i p hp
      rw [Option.map_eq_some_iff] at h
      obtain ⟨l2, h2, rfl⟩ := h
      simp only [decodeArray, array_roundtrip a l l2 h2]
      have := value_roundtrip a v p hp
      cases p <;> simp_all [decodeOpt, decodeValue]
theorem map_roundtrip (a : Bool) : ∀ (l : List (Str × PyVal)) (l' : List (Str × Option PB)), encodeMap a l = some l' → decodeMap l' = l
  | [], l', h => by simp only [encodeMap, Option.some.injEq] at h; subst h; rfl
  | (k, v) :: l, l', h => by
    simp only [encodeMap] at h
    split at h
    · simp at h
    · rename_i p hp
      rw [Option.map_eq_some_iff] at h
      obtain ⟨l2, h2, rfl⟩ := h
      have := value_roundtrip a v p hp
      cases p <;> simp_all [decodeMap, decodeOpt, map_roundtrip a l l2 h2]
end

/-- **C43** Whatever is encoded decodes to the original value, at every depth; in particular a `bool` does not become an `int`. -/
theorem C43_roundtrip (allowNull : Bool) (v : PyVal) (p : Option PB) (h : encodeValue allowNull v = some p) : decodeOpt p = v :=
  value_roundtrip allowNull v p h

mutual
theorem value_encodable (a : Bool) : ∀ v : PyVal, (encodeValue a v).isSome ↔ Encodable a v
  | .none => by
    simp only [encodeValue]
    constructor
    · intro h; cases a
      · simp at h
      · exact .none rfl
    · intro h; cases h with | none h => simp [h]
  | .bool b => by simp only [encodeValue, Option.isSome_some, true_iff]; exact .bool b
  | .str b => by simp only [encodeValue, Option.isSome_some, true_iff]; exact .str b
  | .int i => by
    simp only [encodeValue]
    constructor
    · intro h
      split at h
      · rename_i h'; exact .int i h'
      · simp at h
    · intro h; cases h with | int _ h => rw [if_pos h]; rfl
  | .float b => by simp only [encodeValue, Option.isSome_some, true_iff]; exact .float b
  | .bytes b => by simp only [encodeValue, Option.isSome_some, true_iff]; exact .bytes b
  | .seq l => by
    simp only [encodeValue, Option.isSome_map]
    rw [array_encodable a l]
    exact ⟨fun h => .seq l h, fun h => by cases h with | seq _ h => exact h⟩
  | .map l => by
    simp only [encodeValue, Option.isSome_map]
    rw [map_encodable a l]
    exact ⟨fun h => .map l h, fun h => by cases h with | map _ h => exact h⟩
  | .other n => by
    simp only [encodeValue, Option.isSome_none, Bool.false_eq_true, false_iff]
    intro h; cases h
theorem array_encodable (a : Bool) : ∀ l : List PyVal, (encodeArray a l).isSome ↔ ∀ v ∈ l, Encodable a v
  | [] => by simp [encodeArray]
  | v :: l => by
    have h1 := value_encodable a v
    have h2 := array_encodable a l
    simp only [encodeArray, List.forall_mem_cons, ← h1, ← h2]
    cases encodeValue a v <;> simp
theorem map_encodable (a : Bool) : ∀ l : List (Str × PyVal), (encodeMap a l).isSome ↔ ∀ kv ∈ l, Encodable a kv.2
  | [] => by simp [encodeMap]
  | (k, v) :: l => by
    have h1 := value_encodable a v
    have h2 := map_encodable a l
    simp only [encodeMap, List.forall_mem_cons, ← h1, ← h2]
    cases encodeValue a v <;> simp
end

/-- **C43** Exactly the expressible values are encoded. -/
theorem C43_encodable (allowNull : Bool) (v : PyVal) : (encodeValue allowNull v).isSome ↔ Encodable allowNull v := value_encodable allowNull v

/-- **C43** The encoded attributes are, in order, one entry for each attribute whose value can be encoded, and each means the original
value; the others are left out and affect nothing else. -/
theorem C43_attributes (attrs : List (Str × PyVal)) :
    List.Sublist ((encodeAttributes attrs).map (fun kp => (kp.1, decodeOpt kp.2))) attrs ∧
    ((encodeAttributes attrs).map (fun kp => (kp.1, decodeOpt kp.2)) = attrs ↔ ∀ kv ∈ attrs, Encodable false kv.2) ∧
    ∀ k v, Encodable false v → ((k, v) ∈ (encodeAttributes attrs).map (fun kp => (kp.1, decodeOpt kp.2)) ↔ (k, v) ∈ attrs) := by
  have key : (encodeAttributes attrs).map (fun kp => (kp.1, decodeOpt kp.2)) = attrs.filter (fun kv => (encodeValue false kv.2).isSome) := by
    unfold encodeAttributes
    induction attrs with
    | nil => rfl
    | cons kv l ih =>
      rw [List.filterMap_cons, List.filter_cons]
      cases he : encodeValue false kv.2 with
      | none => simpa using ih
      | some p =>
        simp only [Option.map_some, List.map_cons, Option.isSome_some, if_true]
        rw [C43_roundtrip false kv.2 p he, ih]
  refine ⟨?_, ?_, ?_⟩
  · rw [key]; exact List.filter_sublist
  · rw [key, List.filter_eq_self]
    exact ⟨fun h kv hkv => (C43_encodable false kv.2).1 (h kv hkv), fun h kv hkv => (C43_encodable false kv.2).2 (h kv hkv)⟩
  · intro k v hv
    rw [key, List.mem_filter]
    exact ⟨fun h => h.1, fun h => ⟨h, (C43_encodable false v).2 hv⟩⟩

/-- **C43** (refutation for values the SDK accepts) A sequence attribute with a gap, which the SDK stores, is lost; so is an integer of more
than 64 bits. -/
theorem C43_gap_lost : encodeAttributes [(['a'], .seq [.int 1, .none]), (['b'], .int (2 ^ 63)), (['c'], .bool true)] =
    [(['c'], some (.bool true))] := rfl

/-- In the body of a log record the same value is fine. -/
example : encodeValue true (.seq [.int 1, .none]) = some (some (.array [.int 1, .unset])) := rfl
example : Encodable false (.map [(['k'], .seq [.bool true, .bytes [1, 2]])]) := .map _ (by simp; exact .seq _ (by simp; exact ⟨.bool _, .bytes _⟩))

/-! ## C45: ids and flags -/

/-- The number a big-endian byte string denotes. -/
def fromBytes (bs : List Nat) : Nat := bs.foldl (fun acc b => acc * 256 + b) 0

theorem fromBytes_toBytes (len m : Nat) : fromBytes ((List.range len).map (fun i => m / 256 ^ (len - 1 - i) % 256)) = m % 256 ^ len := by
  induction len generalizing m with
  | zero => simp [fromBytes, Nat.mod_one]
  | succ len ih =>
    rw [List.range_succ, List.map_append]
    have e : (List.range len).map (fun i => m / 256 ^ (len + 1 - 1 - i) % 256) = (List.range len).map (fun i => (m / 256) / 256 ^ (len - 1 - i) % 256) := by
      apply List.map_congr_left
      intro i hi
      rw [List.mem_range] at hi
      rw [Nat.div_div_eq_div_mul, ← Nat.pow_succ']
      congr 3
      omega
    rw [e]
    unfold fromBytes at ih ⊢
    rw [List.foldl_append, ih (m / 256)]
    simp only [List.map_cons, List.map_nil, List.foldl_cons, List.foldl_nil, Nat.add_sub_cancel, Nat.sub_self, Nat.pow_zero, Nat.div_one]
    rw [Nat.pow_succ', Nat.mod_mul]
    omega

theorem toBytes_spec (len : Nat) (n : Int) : (0 ≤ n ∧ n < 256 ^ len ↔ (toBytes len n).isSome) ∧
    ∀ bs, toBytes len n = some bs → bs.length = len ∧ (∀ b ∈ bs, b < 256) ∧ (fromBytes bs : Int) = n := by
  unfold toBytes
  split
  · rename_i h
    refine ⟨by simp [h], ?_⟩
    intro bs hbs
    injection hbs with hbs
    subst hbs
    refine ⟨by simp, ?_, ?_⟩
    · intro b hb
      obtain ⟨i, _, rfl⟩ := List.mem_map.1 hb
      exact Nat.mod_lt _ (by decide)
    · rw [fromBytes_toBytes]
      obtain ⟨h0, h1⟩ := h
      obtain ⟨m, rfl⟩ := Int.eq_ofNat_of_zero_le h0
      have : m < 256 ^ len := by
        have e : ((256 ^ len : Nat) : Int) = (256 : Int) ^ len := by rw [Int.natCast_pow]; rfl
        rw [← e] at h1
        exact Int.ofNat_lt.1 h1
      show (((m : Int).toNat % 256 ^ len : Nat) : Int) = (m : Int)
      rw [Int.toNat_natCast, Nat.mod_eq_of_lt this]
  · rename_i h
    exact ⟨by simp [h], by simp⟩

/-- **C45** A trace id is encoded exactly if it has 128 bits, as 16 bytes that denote it in big-endian order. -/
theorem C45_trace_id (n : Int) : ((encodeTraceId n).isSome ↔ 0 ≤ n ∧ n < 2 ^ 128) ∧
    ∀ bs, encodeTraceId n = some bs → bs.length = 16 ∧ (∀ b ∈ bs, b < 256) ∧ (fromBytes bs : Int) = n := by
  have h := toBytes_spec 16 n
  refine ⟨?_, h.2⟩
  rw [encodeTraceId, ← h.1, show (256 : Int) ^ 16 = 2 ^ 128 from by decide]

/-- **C45** A span id is encoded exactly if it has 64 bits, as 8 bytes that denote it in big-endian order. -/
theorem C45_span_id (n : Int) : ((encodeSpanId n).isSome ↔ 0 ≤ n ∧ n < 2 ^ 64) ∧
    ∀ bs, encodeSpanId n = some bs → bs.length = 8 ∧ (∀ b ∈ bs, b < 256) ∧ (fromBytes bs : Int) = n := by
  have h := toBytes_spec 8 n
  refine ⟨?_, h.2⟩
  rw [encodeSpanId, ← h.1, show (256 : Int) ^ 8 = 2 ^ 64 from by decide]

/-- **C45** The flags always say that `is_remote` is known, and say it is remote iff there is a remote parent; no other bit is set. -/
theorem C45_flags (parent : Option SpanContext) :
    (spanFlags parent).testBit 8 = true ∧ ((spanFlags parent).testBit 9 = true ↔ ∃ c, parent = some c ∧ c.isRemote = true) ∧
    ∀ i, i ≠ 8 → i ≠ 9 → (spanFlags parent).testBit i = false := by
  have hbits : ∀ i, i ≠ 8 → i ≠ 9 → (0x100 : Nat).testBit i = false ∧ (0x300 : Nat).testBit i = false := by
    intro i h8 h9
    constructor
    · rw [show (0x100 : Nat) = 2 ^ 8 from rfl, Nat.testBit_two_pow]; simp; omega
    · rw [show (0x300 : Nat) = 2 ^ 8 ||| 2 ^ 9 from rfl, Nat.testBit_or, Nat.testBit_two_pow, Nat.testBit_two_pow]; simp; omega
  cases parent with
  | none => exact ⟨by decide, by simp [spanFlags, hasIsRemote]; decide, fun i h8 h9 => (hbits i h8 h9).1⟩
  | some c =>
    cases hr : c.isRemote with
    | false =>
      simp only [spanFlags, hr, Bool.false_eq_true, if_false]
      exact ⟨by decide, by simp [hr, hasIsRemote]; decide, fun i h8 h9 => (hbits i h8 h9).1⟩
    | true =>
      simp only [spanFlags, hr, if_true]
      exact ⟨by decide, by simp [hr, hasIsRemote, isRemoteMask]; decide, fun i h8 h9 => (hbits i h8 h9).2⟩

/-- What an exported span says about the attributes. -/
def meaning (l : List (Str × Option PB)) : List (Str × PyVal) := l.map (fun kp => (kp.1, decodeOpt kp.2))

/-- The enumeration `SpanKind` of opentelemetry-proto: 0 is unspecified. -/
def protoKind : Nat → Option Kind
  | 1 => some .internal
  | 2 => some .server
  | 3 => some .client
  | 4 => some .producer
  | 5 => some .consumer
  | _ => none

theorem protoKind_number (k : Kind) : protoKind k.number = some k := by cases k <;> rfl

/-- **C45** Everything in an encoded span is what the span had: ids, parent, name, kind, times, status, counts, trace state, and, for
attributes that can be expressed, those of the span, its events and its links. -/
theorem C45_span (s : SdkSpan) (p : PBSpan) (h : encodeSpan s = some p) :
    (fromBytes p.traceId : Int) = s.ctx.traceId ∧ (fromBytes p.spanId : Int) = s.ctx.spanId ∧
    (p.parentSpanId = [] ↔ s.parent = none) ∧ (∀ c, s.parent = some c → (fromBytes p.parentSpanId : Int) = c.spanId) ∧
    p.name = s.name ∧ protoKind p.kind = some s.kind ∧ p.start = s.start.getD 0 ∧ p.finish = s.finish.getD 0 ∧ p.status = s.status ∧
    p.description = s.description.getD [] ∧ p.droppedAttrs = s.droppedAttrs ∧ p.droppedEvents = s.droppedEvents ∧
    p.droppedLinks = s.droppedLinks ∧ (p.flags.testBit 9 = true ↔ ∃ c : SpanContext, s.parent = some c ∧ c.isRemote = true) ∧
    (TraceState.Reachable s.ctx.traceState → TraceState.fromHeader [p.traceState] = s.ctx.traceState) ∧
    ((∀ kv ∈ s.attrs, Encodable false kv.2) → meaning p.attrs = s.attrs) ∧
    List.Forall₂ (fun (e : SdkEvent) (q : PBEvent) => q.name = e.name ∧ q.time = e.time ∧ q.dropped = e.dropped ∧
      ((∀ kv ∈ e.attrs, Encodable false kv.2) → meaning q.attrs = e.attrs)) s.events p.events ∧
    List.Forall₂ (fun (l : SdkLink) (q : PBLink) => (fromBytes q.traceId : Int) = l.ctx.traceId ∧ (fromBytes q.spanId : Int) = l.ctx.spanId ∧
      q.dropped = l.dropped ∧ (q.flags.testBit 9 = true ↔ l.ctx.isRemote = true) ∧
      ((∀ kv ∈ l.attrs, Encodable false kv.2) → meaning q.attrs = l.attrs)) s.links p.links := by
  have hattrs : ∀ a : List (Str × PyVal), (∀ kv ∈ a, Encodable false kv.2) → meaning (encodeAttributes a) = a :=
    fun a ha => ((C43_attributes a).2.1).2 ha
  unfold encodeSpan at h
  split at h
  · rename_i t i par l ht hi hp hl
    injection h with h
    subst h
    refine ⟨((C45_trace_id _).2 t ht).2.2, ((C45_span_id _).2 i hi).2.2, ?_, ?_, rfl, protoKind_number _, rfl, rfl, rfl, rfl, rfl, rfl, rfl,
      (C45_flags _).2.1, ?_, ?_, ?_, ?_⟩
    · cases hpar : s.parent with
      | none => rw [hpar] at hp; simp only [encodeParentId, Option.some.injEq] at hp; simp [← hp]
      | some c =>
        rw [hpar] at hp
        have := ((C45_span_id _).2 par hp).1
        simp only [reduceCtorEq, iff_false]
        intro he
        rw [he] at this
        simp at this
    · intro c hc
      rw [hc] at hp
      exact ((C45_span_id _).2 par hp).2.2
    · intro hr; exact TraceState.C02_tracestate_header_roundtrip _ hr
    · exact hattrs _
    · simp only [List.forall₂_map_right_iff]
      rw [List.forall₂_same]
      intro e _
      exact ⟨rfl, rfl, rfl, hattrs _⟩
    · clear ht hi hp
      generalize s.links = ls at hl
      induction ls generalizing l with
      | nil => simp only [List.mapM_nil, Option.pure_def, Option.some.injEq] at hl; subst hl; exact .nil
      | cons x ls ih =>
        simp only [List.mapM_cons, Option.bind_eq_bind, Option.bind_eq_some_iff, Option.pure_def, Option.some.injEq] at hl
        obtain ⟨q, hq, l', hl', rfl⟩ := hl
        refine .cons ?_ (ih l' hl')
        unfold encodeLink at hq
        split at hq
        · rename_i t i ht hi
          injection hq with hq
          subst hq
          exact ⟨((C45_trace_id _).2 t ht).2.2, ((C45_span_id _).2 i hi).2.2, rfl, by rw [(C45_flags _).2.1]; simp, hattrs _⟩
        · simp at hq
  · simp at h

/-- **C45** A span is encoded exactly if its own ids, the parent's and those of its links are in range. -/
theorem C45_span_encodable (s : SdkSpan) : (encodeSpan s).isSome ↔
    (0 ≤ s.ctx.traceId ∧ s.ctx.traceId < 2 ^ 128) ∧ (0 ≤ s.ctx.spanId ∧ s.ctx.spanId < 2 ^ 64) ∧
    (∀ c, s.parent = some c → 0 ≤ c.spanId ∧ c.spanId < 2 ^ 64) ∧
    ∀ l ∈ s.links, (0 ≤ l.ctx.traceId ∧ l.ctx.traceId < 2 ^ 128) ∧ (0 ≤ l.ctx.spanId ∧ l.ctx.spanId < 2 ^ 64) := by
  have hl : ∀ x : SdkLink, (encodeLink x).isSome ↔ (0 ≤ x.ctx.traceId ∧ x.ctx.traceId < 2 ^ 128) ∧ (0 ≤ x.ctx.spanId ∧ x.ctx.spanId < 2 ^ 64) := by
    intro x
    rw [← (C45_trace_id _).1, ← (C45_span_id _).1]
    unfold encodeLink
    cases encodeTraceId x.ctx.traceId <;> cases encodeSpanId x.ctx.spanId <;> simp
  have hls : ∀ ls : List SdkLink, (ls.mapM encodeLink).isSome ↔ ∀ x ∈ ls, (encodeLink x).isSome := by
    intro ls
    induction ls with
    | nil => simp
    | cons x ls ih =>
      simp only [List.mapM_cons, Option.bind_eq_bind, Option.pure_def, List.forall_mem_cons, ← ih]
      cases encodeLink x <;> cases ls.mapM encodeLink <;> simp
  have hp : (encodeParentId s.parent).isSome ↔ ∀ c, s.parent = some c → 0 ≤ c.spanId ∧ c.spanId < 2 ^ 64 := by
    cases s.parent with
    | none => simp [encodeParentId]
    | some c => simp only [encodeParentId, (C45_span_id _).1]; simp
  have hlk : (∀ l ∈ s.links, (0 ≤ l.ctx.traceId ∧ l.ctx.traceId < 2 ^ 128) ∧ (0 ≤ l.ctx.spanId ∧ l.ctx.spanId < 2 ^ 64)) ↔
      (s.links.mapM encodeLink).isSome := by
    rw [hls]
    exact forall₂_congr (fun x _ => (hl x).symm)
  rw [hlk, ← hp, ← (C45_trace_id s.ctx.traceId).1, ← (C45_span_id s.ctx.spanId).1]
  unfold encodeSpan
  cases encodeTraceId s.ctx.traceId <;> cases encodeSpanId s.ctx.spanId <;> cases encodeParentId s.parent <;>
    cases s.links.mapM encodeLink <;> simp

/-- **C45** The kinds are told apart and none is "unspecified". -/
theorem C45_kind (a b : Kind) : a.number ≠ 0 ∧ (a.number = b.number ↔ a = b) := by cases a <;> cases b <;> decide

end Otlp
end Otel
