import Verif.Model.Events
import Verif.Props.LoggingHandler
import Mathlib.Data.List.Nodup
/-!
# C90: events
-/
namespace Otel
namespace Events
open Spec
open ProxyTracer (Scope Args)
open LoggingHandler (kept kept_get kept_length kept_append kept_keys new_d dropped_zero limits_eq)

/-- The field of a record for an optional number of the event: the number given, if it is not zero, else the default. -/
def Chosen {α : Type} [Zero α] (given : Option α) (dflt out : α) : Prop :=
  (∀ n, given = some n → n ≠ 0 → out = n) ∧ ((given = none ∨ given = some 0) → out = dflt)

/-- The name of the attribute for the event's name. -/
def nameKey : Str := "event.name".toList

theorem chosenInt (a : Option Int) (b : Int) : Chosen a b (orInt a b) := by
  constructor
  · rintro n rfl hn; simp [orInt, hn]
  · rintro (rfl | rfl) <;> simp [orInt]

theorem chosenNat (a : Option Nat) (b : Nat) : Chosen a b (orNat a b) := by
  constructor
  · rintro n rfl hn; simp [orNat, hn]
  · rintro (rfl | rfl) <;> simp [orNat]

/-- **C90** With an SDK provider, every event is passed on exactly once, under the scope of its event logger and with the provider's resource: with the
event's time, ids, flags, severity and body where it has them (a number other than zero), and else the current time, the current span's ids and flags and
the severity `INFO`. -/
theorem C90_faithful (U : DigitTable) (env : Limits.Env) (ctx : Ctx) (now now' : Int) (res : Nat) (a : Args) (e : Event) :
    ∃ s x, emit U env ctx now now' (.sdk false res) a e = [(s, x)] ∧
      s.name = a.name ∧ s.version = a.version ∧ s.schema = a.schema.getD [] ∧ s.attrs = a.attrs ∧
      Chosen e.timestamp now x.timestamp ∧ x.observed = now' ∧
      Chosen e.traceId (Ctx.currentSpan ctx).traceId x.traceId ∧ Chosen e.spanId (Ctx.currentSpan ctx).spanId x.spanId ∧
      Chosen e.flags (Ctx.currentSpan ctx).flags x.flags ∧
      (∀ n, e.severity = some n → x.severity = n) ∧ (e.severity = none → x.severity = 9) ∧ x.severityText = none ∧
      x.body = e.body ∧ x.resource = .logger res := by
  refine ⟨_, _, rfl, rfl, rfl, rfl, rfl, chosenInt _ _, rfl, chosenInt _ _, chosenInt _ _, chosenNat _ _, ?_, ?_, rfl, rfl, rfl⟩
  · intro n hn; simp [record, hn]
  · intro hn; simp [record, hn]

theorem clean_name (n : Str) : Attr.clean (.str nameKey) (.atom (.str n true)) none = some (.atom (.str n true)) := by
  have h : nameKey ≠ [] := by decide
  generalize nameKey = k at h
  cases k with
  | nil => exact absurd rfl h
  | cons c k => rfl

/-- **C90** An event with at most 127 attributes has exactly these (apart from values that cannot be attributes) and `event.name`, which is always the
event's name, also if the application gave another value for it. -/
theorem C90_attributes (U : DigitTable) (env : Limits.Env) (ctx : Ctx) (now now' : Int) (p : Provider) (a : Args) (e : Event)
    (hd : (e.attributes.getD []).keys.Nodup) (hl : (e.attributes.getD []).length ≤ 127) (s : Scope) (x : Record)
    (hx : (s, x) ∈ emit U env ctx now now' p a e) :
    x.attributes.dropped = 0 ∧ Dict.get? x.attributes.d nameKey = some (.atom (.str e.name true)) ∧
    ∀ k, k ≠ nameKey → Dict.get? x.attributes.d k = (Dict.get? (e.attributes.getD []) k).bind fun v => Attr.clean (.str k) v none := by
  have hat : x.attributes = BAttrs.new (some 128) ((eventAttributes e).map fun kv => (AKey.str kv.1, kv.2)) false none := by
    unfold emit at hx
    split at hx <;> simp only [List.mem_cons, List.not_mem_nil, or_false, Prod.mk.injEq] at hx
    · obtain ⟨_, rfl⟩ := hx; rfl
    · obtain ⟨_, rfl⟩ := hx; rfl
  have hn : (eventAttributes e).keys.Nodup := Dict.nodup_set _ _ _ hd
  have hlen : (eventAttributes e).length ≤ 128 := by
    unfold eventAttributes
    rw [Dict.length_set]
    split <;> omega
  rw [hat]
  have hg : ∀ k, Dict.get? (BAttrs.new (some 128) ((eventAttributes e).map fun kv => (AKey.str kv.1, kv.2)) false none).d k =
      (Dict.get? (eventAttributes e) k).bind fun v => Attr.clean (.str k) v none := by
    intro k
    rw [new_d 128 _ hn]
    have : newest (some 128) (kept (eventAttributes e)) = kept (eventAttributes e) := by
      simp only [newest]
      rw [List.take_of_length_le (by rw [List.length_reverse]; exact Nat.le_trans (kept_length _) hlen), List.reverse_reverse]
    rw [this, kept_get _ _ hn]
  refine ⟨?_, ?_, fun k hk => ?_⟩
  · simp only [BAttrs.new]
    rw [dropped_zero 128 _ _ rfl (by simpa using hlen)]
  · rw [hg, show Dict.get? (eventAttributes e) nameKey = some (.atom (.str e.name true)) by
      rw [eventAttributes, Dict.get?_set, if_pos (by rfl)]]
    exact clean_name e.name
  · rw [hg, eventAttributes, Dict.get?_set, if_neg (fun h => hk h.symm)]

/-- **C90** However many attributes it has, an event keeps its name, as long as the application does not use the attribute name itself. -/
theorem C90_name_kept (U : DigitTable) (env : Limits.Env) (ctx : Ctx) (now now' : Int) (p : Provider) (a : Args) (e : Event)
    (hd : (e.attributes.getD []).keys.Nodup) (hk : nameKey ∉ (e.attributes.getD []).keys) (s : Scope) (x : Record)
    (hx : (s, x) ∈ emit U env ctx now now' p a e) :
    Dict.get? x.attributes.d nameKey = some (.atom (.str e.name true)) := by
  have hat : x.attributes = BAttrs.new (some 128) ((eventAttributes e).map fun kv => (AKey.str kv.1, kv.2)) false none := by
    unfold emit at hx
    split at hx <;> simp only [List.mem_cons, List.not_mem_nil, or_false, Prod.mk.injEq] at hx
    · obtain ⟨_, rfl⟩ := hx; rfl
    · obtain ⟨_, rfl⟩ := hx; rfl
  have hn : (eventAttributes e).keys.Nodup := Dict.nodup_set _ _ _ hd
  have he : eventAttributes e = e.attributes.getD [] ++ [(nameKey, .atom (.str e.name true))] := Dict.set_of_not_mem _ _ _ hk
  rw [hat, new_d 128 _ hn, he, kept_append]
  generalize e.attributes.getD [] = d at hk
  have h1 : kept [(nameKey, Val.atom (.str e.name true))] = [(nameKey, .atom (.str e.name true))] := rfl
  rw [h1]
  have h2 : newest (some 128) (kept d ++ [(nameKey, Val.atom (.str e.name true))]) =
      ((kept d).reverse.take 127).reverse ++ [(nameKey, .atom (.str e.name true))] := by
    simp [newest]
  rw [h2]
  have hnot : nameKey ∉ Dict.keys ((kept d).reverse.take 127).reverse := by
    intro hc
    apply hk
    refine (kept_keys d).subset ?_
    unfold Dict.keys at hc ⊢
    rw [List.mem_map] at hc ⊢
    obtain ⟨q, hq, he⟩ := hc
    rw [List.mem_reverse] at hq
    exact ⟨q, List.mem_reverse.1 (List.mem_of_mem_take hq), he⟩
  generalize ((kept d).reverse.take 127).reverse = l at hnot
  induction l with
  | nil => rfl
  | cons q l ih =>
    obtain ⟨k', v'⟩ := q
    simp only [Dict.keys_cons, List.mem_cons, not_or] at hnot
    simp only [List.cons_append, Dict.get?]
    rw [if_neg (fun hq => hnot.1 hq.symm)]
    exact ih hnot.2

/-- **C90** (refutation) If the application gives `event.name` itself, before at least 128 other attributes, the record has no `event.name` at all. -/
theorem C90_name_lost_violated (U : DigitTable) (env : Limits.Env) (ctx : Ctx) (now now' : Int) (p : Provider) (a : Args) (e : Event) (v : Val)
    (d : Dict Str Val) (hd : e.attributes = some ((nameKey, v) :: d)) (hn : (Dict.keys ((nameKey, v) :: d)).Nodup) (hl : 128 ≤ d.length)
    (hv : ∀ kv ∈ d, kv.1 ≠ [] ∧ ∃ i, kv.2 = .atom (.int i true)) (s : Scope) (x : Record) (hx : (s, x) ∈ emit U env ctx now now' p a e) :
    Dict.get? x.attributes.d nameKey = none := by
  have hat : x.attributes = BAttrs.new (some 128) ((eventAttributes e).map fun kv => (AKey.str kv.1, kv.2)) false none := by
    unfold emit at hx
    split at hx <;> simp only [List.mem_cons, List.not_mem_nil, or_false, Prod.mk.injEq] at hx
    · obtain ⟨_, rfl⟩ := hx; rfl
    · obtain ⟨_, rfl⟩ := hx; rfl
  have he : eventAttributes e = [(nameKey, .atom (.str e.name true))] ++ d := by
    simp only [eventAttributes, hd, Option.getD_some, Dict.set]
    rw [if_pos (by rfl)]
    rfl
  have hn' : (eventAttributes e).keys.Nodup := by rw [he]; exact hn
  have hk : kept d = d := by
    clear hl hn hd he hn'
    induction d with
    | nil => rfl
    | cons kv d ih =>
      obtain ⟨k, w⟩ := kv
      obtain ⟨h1, i, h2⟩ := hv (k, w) (by simp)
      simp only at h1 h2
      subst h2
      have : kept ((k, .atom (.int i true)) :: d) = kept [(k, .atom (.int i true))] ++ kept d := kept_append [_] d
      rw [this, ih (fun q hq => hv q (by simp [hq]))]
      cases k with
      | nil => exact absurd rfl h1
      | cons c k => rfl
  rw [hat, new_d 128 _ hn', he, kept_append, hk]
  have hlen : d.reverse.length ≥ 128 := by simpa using hl
  have h2 : newest (some 128) (kept [(nameKey, Val.atom (.str e.name true))] ++ d) = (d.reverse.take 128).reverse := by
    simp only [newest, List.reverse_append]
    rw [List.take_append_of_le_length hlen]
  rw [h2, Dict.get?_eq_none_iff]
  simp only [Dict.keys_cons, List.nodup_cons] at hn
  intro hc
  apply hn.1
  unfold Dict.keys at hc ⊢
  rw [List.mem_map] at hc ⊢
  obtain ⟨q, hq, he⟩ := hc
  rw [List.mem_reverse] at hq
  exact ⟨q, List.mem_reverse.1 (List.mem_of_mem_take hq), he⟩

/-- **C90** If the SDK is disabled, events go nowhere. -/
theorem C90_disabled (U : DigitTable) (env : Limits.Env) (ctx : Ctx) (now now' : Int) (res : Nat) (a : Args) (e : Event) :
    emit U env ctx now now' (.sdk true res) a e = [] ∧ emit U env ctx now now' (.proxy (some (true, res))) a e = [] ∧
    emit U env ctx now now' (.proxy none) a e = [] := ⟨rfl, rfl, rfl⟩

/-- **C90** An event logger made before the logger provider was set passes events on as soon as one is, under the same scope and with the same contents … -/
theorem C90_late_provider (U : DigitTable) (env : Limits.Env) (ctx : Ctx) (now now' : Int) (res : Nat) (a : Args) (e : Event) :
    emit U env ctx now now' (.proxy (some (false, res))) a e =
      (emit U env ctx now now' (.sdk false res) a e).map fun q => (q.1, { q.2 with resource := .created }) := rfl

/-- … but (refutation) never with the provider's resource. -/
theorem C90_resource_violated (U : DigitTable) (env : Limits.Env) (ctx : Ctx) (now now' : Int) (real : Option (Bool × Nat)) (a : Args) (e : Event) (s : Scope)
    (x : Record) (hx : (s, x) ∈ emit U env ctx now now' (.proxy real) a e) : x.resource = .created := by
  unfold emit at hx
  split at hx <;> simp_all [record]

/-- **C90** (refutation) An explicit time or flags of 0 are replaced by the current time and the current span's flags: an event of an unsampled trace emitted
inside a sampled span is marked sampled. -/
theorem C90_zero_violated (U : DigitTable) (env : Limits.Env) (ctx : Ctx) (now now' : Int) (res : Res) (e : Event) (ht : e.timestamp = some 0)
    (hf : e.flags = some 0) : (record U env ctx now now' res e).timestamp = now ∧ (record U env ctx now now' res e).flags = (Ctx.currentSpan ctx).flags := by
  simp [record, ht, hf, orInt, orNat]

/-- **C90** (refutation) An event that names a trace but no span is put into the current span of another trace: its span id is that of the current span. -/
theorem C90_mixed_ids_violated (U : DigitTable) (env : Limits.Env) (ctx : Ctx) (now now' : Int) (res : Res) (e : Event) (t : Int) (ht : e.traceId = some t)
    (hz : t ≠ 0) (hs : e.spanId = none) (hne : (Ctx.currentSpan ctx).traceId ≠ t) :
    (record U env ctx now now' res e).traceId = t ∧ (record U env ctx now now' res e).spanId = (Ctx.currentSpan ctx).spanId ∧
    (record U env ctx now now' res e).traceId ≠ (Ctx.currentSpan ctx).traceId := by
  simp [record, ht, hz, hs, orInt]
  exact fun h => hne h.symm

/-- **C90** (refutation) `force_flush` never says whether the events were flushed: it returns `None`, or raises `AttributeError` without an SDK provider. -/
theorem C90_flush_violated (p : Provider) (b : Bool) : ∀ r, forceFlush p b ≠ .bool r := by
  intro r
  cases p <;> simp [forceFlush]

/-- A sampled span is current; an event with a body, a severity and two attributes. -/
example (U : DigitTable) :
    let l := emit U {} (Ctx.setSpan [] ⟨7, 8, false, 1, []⟩) 100 101 (.sdk false 3) ⟨"lib".toList, none, none, none⟩
      { name := "click".toList, body := some 4, severity := some 17, attributes := some [("x".toList, .atom (.int 1 true)), ("event.name".toList, .atom (.int 2 true))] }
    (l.map fun q => (q.1.name, q.2.timestamp, q.2.traceId, q.2.spanId, q.2.flags, q.2.severity)) = [("lib".toList, 100, 7, 8, 1, 17)] ∧
    (l.map fun q => q.2.attributes.d) = [[("x".toList, .atom (.int 1 true)), ("event.name".toList, .atom (.str "click".toList true))]] := by
  simp only [emit, record, limits_eq]
  refine ⟨rfl, ?_⟩
  decide +kernel

/-- Non-vacuity of the refutation: 128 attributes with different names. -/
example : ∃ d : Dict Str Val, 128 ≤ d.length ∧ (Dict.keys ((nameKey, .atom .none) :: d)).Nodup ∧ ∀ kv ∈ d, kv.1 ≠ [] ∧ ∃ i, kv.2 = .atom (.int i true) := by
  refine ⟨(List.range 128).map fun n => (List.replicate (n + 1) 'a', .atom (.int n true)), by simp, ?_, ?_⟩
  · simp only [Dict.keys, List.map_cons, List.map_map, List.nodup_cons]
    constructor
    · intro h
      obtain ⟨n, _, h⟩ := List.mem_map.1 h
      have := congrArg (List.all · (· == 'a')) h
      simp at this
      exact absurd this (by decide)
    · refine List.Nodup.map ?_ List.nodup_range
      intro a b h
      have := congrArg List.length h
      simpa using this
  · intro kv h
    obtain ⟨n, _, rfl⟩ := List.mem_map.1 h
    exact ⟨by simp, n, rfl⟩

end Events
end Otel
