import Verif.Model.ToJson
import Verif.Props.Json
import Verif.Props.IdFormat
import Verif.Props.OcExporter
import Verif.Props.Attributes
/-!
# C89: `to_json` and the console exporters
-/
namespace Otel
namespace ToJson
open Json Otlp Spec

/-! ## Specification -/

/-- The value of a field of an object. -/
def field (k : String) : J → Option J
  | .obj l => (l.find? fun kv => kv.1 = k.toList).map Prod.snd
  | _ => none

mutual
/-- The document shows the Python value. -/
def Shows : PyVal → J → Prop
  | .none, j => j = .null
  | .bool b, j => j = .bool b
  | .str s, j => j = .str s
  | .int i, j => j = .int i
  | .float f, j => j = .float f
  | .seq l, j => ∃ js, j = .arr js ∧ ShowsItems l js
  | .map l, j => ∃ js, j = .obj js ∧ ShowsPairs l js
  | .bytes _, _ => False
  | .other _, _ => False
/-- Item by item. -/
def ShowsItems : List PyVal → List J → Prop
  | [], js => js = []
  | v :: l, js => ∃ j r, js = j :: r ∧ Shows v j ∧ ShowsItems l r
/-- Key by key, in order. -/
def ShowsPairs : List (Str × PyVal) → List (Str × J) → Prop
  | [], js => js = []
  | (k, v) :: l, js => ∃ j r, js = (k, j) :: r ∧ Shows v j ∧ ShowsPairs l r
end

/-- The document shows the attributes as an object. -/
def ShowsAttrs (attrs : List (Str × PyVal)) (j : J) : Prop := ∃ js, j = .obj js ∧ ShowsPairs attrs js

mutual
/-- Somewhere in the value there are bytes or an object of another type. -/
def Odd : PyVal → Prop
  | .bytes _ => True
  | .other _ => True
  | .seq l => OddItem l
  | .map l => OddPair l
  | _ => False
def OddItem : List PyVal → Prop
  | [] => False
  | v :: l => Odd v ∨ OddItem l
def OddPair : List (Str × PyVal) → Prop
  | [] => False
  | (_, v) :: l => Odd v ∨ OddPair l
end

mutual
theorem shows_iff (v : PyVal) (j : J) : toJ v = some j ↔ Shows v j := by
  match v with
  | .none => simp [toJ, Shows, eq_comm]
  | .bool b => simp [toJ, Shows, eq_comm]
  | .str s => simp [toJ, Shows, eq_comm]
  | .int i => simp [toJ, Shows, eq_comm]
  | .float f => simp [toJ, Shows, eq_comm]
  | .bytes _ => simp [toJ, Shows]
  | .other _ => simp [toJ, Shows]
  | .seq l =>
    simp only [toJ, Shows, Option.map_eq_some_iff]
    constructor
    · rintro ⟨js, h, rfl⟩; exact ⟨js, rfl, (showsItems_iff l js).1 h⟩
    · rintro ⟨js, rfl, h⟩; exact ⟨js, (showsItems_iff l js).2 h, rfl⟩
  | .map l =>
    simp only [toJ, Shows, Option.map_eq_some_iff]
    constructor
    · rintro ⟨js, h, rfl⟩; exact ⟨js, rfl, (showsPairs_iff l js).1 h⟩
    · rintro ⟨js, rfl, h⟩; exact ⟨js, (showsPairs_iff l js).2 h, rfl⟩
theorem showsItems_iff (l : List PyVal) (js : List J) : itemsJ l = some js ↔ ShowsItems l js := by
  match l with
  | [] => simp [itemsJ, ShowsItems, eq_comm]
  | v :: l =>
    simp only [itemsJ, ShowsItems]
    constructor
    · intro h
      split at h
      · rename_i j r h1 h2
        exact ⟨j, r, by simpa [eq_comm] using h, (shows_iff v j).1 h1, (showsItems_iff l r).1 h2⟩
      · simp at h
    · rintro ⟨j, r, rfl, h1, h2⟩
      rw [(shows_iff v j).2 h1, (showsItems_iff l r).2 h2]
theorem showsPairs_iff (l : List (Str × PyVal)) (js : List (Str × J)) : pairsJ l = some js ↔ ShowsPairs l js := by
  match l with
  | [] => simp [pairsJ, ShowsPairs, eq_comm]
  | (k, v) :: l =>
    simp only [pairsJ, ShowsPairs]
    constructor
    · intro h
      split at h
      · rename_i j r h1 h2
        exact ⟨j, r, by simpa [eq_comm] using h, (shows_iff v j).1 h1, (showsPairs_iff l r).1 h2⟩
      · simp at h
    · rintro ⟨j, r, rfl, h1, h2⟩
      rw [(shows_iff v j).2 h1, (showsPairs_iff l r).2 h2]
end

mutual
theorem odd_iff (v : PyVal) : toJ v = none ↔ Odd v := by
  match v with
  | .none => simp [toJ, Odd]
  | .bool b => simp [toJ, Odd]
  | .str s => simp [toJ, Odd]
  | .int i => simp [toJ, Odd]
  | .float f => simp [toJ, Odd]
  | .bytes _ => simp [toJ, Odd]
  | .other _ => simp [toJ, Odd]
  | .seq l => simp only [toJ, Odd, Option.map_eq_none_iff]; exact oddItem_iff l
  | .map l => simp only [toJ, Odd, Option.map_eq_none_iff]; exact oddPair_iff l
theorem oddItem_iff (l : List PyVal) : itemsJ l = none ↔ OddItem l := by
  match l with
  | [] => simp [itemsJ, OddItem]
  | v :: l =>
    simp only [itemsJ, OddItem, ← odd_iff v, ← oddItem_iff l]
    cases toJ v <;> cases itemsJ l <;> simp
theorem oddPair_iff (l : List (Str × PyVal)) : pairsJ l = none ↔ OddPair l := by
  match l with
  | [] => simp [pairsJ, OddPair]
  | (k, v) :: l =>
    simp only [pairsJ, OddPair, ← odd_iff v, ← oddPair_iff l]
    cases toJ v <;> cases pairsJ l <;> simp
end

mutual
/-- A document shows at most one value. -/
theorem shows_inj (v v' : PyVal) (j : J) (h : Shows v j) (h' : Shows v' j) : v = v' := by
  match v, v' with
  | .seq l, .seq l' =>
    simp only [Shows] at h h'
    obtain ⟨js, rfl, h⟩ := h
    obtain ⟨js', e, h'⟩ := h'
    injection e with e
    subst e
    rw [showsItems_inj l l' js h h']
  | .map l, .map l' =>
    simp only [Shows] at h h'
    obtain ⟨js, rfl, h⟩ := h
    obtain ⟨js', e, h'⟩ := h'
    injection e with e
    subst e
    rw [showsPairs_inj l l' js h h']
  | .none, .none => rfl
  | .bool b, .bool b' => simp [Shows] at h h'; rw [h] at h'; injection h' with h'; rw [h']
  | .str b, .str b' => simp [Shows] at h h'; rw [h] at h'; injection h' with h'; rw [h']
  | .int b, .int b' => simp [Shows] at h h'; rw [h] at h'; injection h' with h'; rw [h']
  | .float b, .float b' => simp [Shows] at h h'; rw [h] at h'; injection h' with h'; rw [h']
  | .bytes _, _ => simp [Shows] at h
  | .other _, _ => simp [Shows] at h
  | _, .bytes _ => simp [Shows] at h'
  | _, .other _ => simp [Shows] at h'
  | .none, .bool _ => simp [Shows] at h h'; rw [h] at h'; simp at h'
  | .none, .str _ => simp [Shows] at h h'; rw [h] at h'; simp at h'
  | .none, .int _ => simp [Shows] at h h'; rw [h] at h'; simp at h'
  | .none, .float _ => simp [Shows] at h h'; rw [h] at h'; simp at h'
  | .none, .seq _ => simp [Shows] at h h'; rw [h] at h'; simp at h'
  | .none, .map _ => simp [Shows] at h h'; rw [h] at h'; simp at h'
  | .bool _, .none => simp [Shows] at h h'; rw [h] at h'; simp at h'
  | .bool _, .str _ => simp [Shows] at h h'; rw [h] at h'; simp at h'
  | .bool _, .int _ => simp [Shows] at h h'; rw [h] at h'; simp at h'
  | .bool _, .float _ => simp [Shows] at h h'; rw [h] at h'; simp at h'
  | .bool _, .seq _ => simp [Shows] at h h'; rw [h] at h'; simp at h'
  | .bool _, .map _ => simp [Shows] at h h'; rw [h] at h'; simp at h'
  | .str _, .none => simp [Shows] at h h'; rw [h] at h'; simp at h'
  | .str _, .bool _ => simp [Shows] at h h'; rw [h] at h'; simp at h'
  | .str _, .int _ => simp [Shows] at h h'; rw [h] at h'; simp at h'
  | .str _, .float _ => simp [Shows] at h h'; rw [h] at h'; simp at h'
  | .str _, .seq _ => simp [Shows] at h h'; rw [h] at h'; simp at h'
  | .str _, .map _ => simp [Shows] at h h'; rw [h] at h'; simp at h'
  | .int _, .none => simp [Shows] at h h'; rw [h] at h'; simp at h'
  | .int _, .bool _ => simp [Shows] at h h'; rw [h] at h'; simp at h'
  | .int _, .str _ => simp [Shows] at h h'; rw [h] at h'; simp at h'
  | .int _, .float _ => simp [Shows] at h h'; rw [h] at h'; simp at h'
  | .int _, .seq _ => simp [Shows] at h h'; rw [h] at h'; simp at h'
  | .int _, .map _ => simp [Shows] at h h'; rw [h] at h'; simp at h'
  | .float _, .none => simp [Shows] at h h'; rw [h] at h'; simp at h'
  | .float _, .bool _ => simp [Shows] at h h'; rw [h] at h'; simp at h'
  | .float _, .str _ => simp [Shows] at h h'; rw [h] at h'; simp at h'
  | .float _, .int _ => simp [Shows] at h h'; rw [h] at h'; simp at h'
  | .float _, .seq _ => simp [Shows] at h h'; rw [h] at h'; simp at h'
  | .float _, .map _ => simp [Shows] at h h'; rw [h] at h'; simp at h'
  | .seq _, .none => simp [Shows] at h h'; rw [h'] at h; simp at h
  | .seq _, .bool _ => simp [Shows] at h h'; rw [h'] at h; simp at h
  | .seq _, .str _ => simp [Shows] at h h'; rw [h'] at h; simp at h
  | .seq _, .int _ => simp [Shows] at h h'; rw [h'] at h; simp at h
  | .seq _, .float _ => simp [Shows] at h h'; rw [h'] at h; simp at h
  | .seq _, .map _ => simp only [Shows] at h h'; obtain ⟨_, rfl, _⟩ := h; obtain ⟨_, e, _⟩ := h'; simp at e
  | .map _, .none => simp [Shows] at h h'; rw [h'] at h; simp at h
  | .map _, .bool _ => simp [Shows] at h h'; rw [h'] at h; simp at h
  | .map _, .str _ => simp [Shows] at h h'; rw [h'] at h; simp at h
  | .map _, .int _ => simp [Shows] at h h'; rw [h'] at h; simp at h
  | .map _, .float _ => simp [Shows] at h h'; rw [h'] at h; simp at h
  | .map _, .seq _ => simp only [Shows] at h h'; obtain ⟨_, rfl, _⟩ := h; obtain ⟨_, e, _⟩ := h'; simp at e
theorem showsItems_inj (l l' : List PyVal) (js : List J) (h : ShowsItems l js) (h' : ShowsItems l' js) : l = l' := by
  match l, l' with
  | [], [] => rfl
  | v :: l, v' :: l' =>
    simp only [ShowsItems] at h h'
    obtain ⟨j, r, rfl, h1, h2⟩ := h
    obtain ⟨j', r', e, h1', h2'⟩ := h'
    injection e with e1 e2
    subst e1 e2
    rw [shows_inj v v' j h1 h1', showsItems_inj l l' r h2 h2']
  | [], _ :: _ => simp only [ShowsItems] at h h'; obtain ⟨_, _, e, _⟩ := h'; rw [h] at e; simp at e
  | _ :: _, [] => simp only [ShowsItems] at h h'; obtain ⟨_, _, e, _⟩ := h; rw [h'] at e; simp at e
theorem showsPairs_inj (l l' : List (Str × PyVal)) (js : List (Str × J)) (h : ShowsPairs l js) (h' : ShowsPairs l' js) : l = l' := by
  match l, l' with
  | [], [] => rfl
  | (k, v) :: l, (k', v') :: l' =>
    simp only [ShowsPairs] at h h'
    obtain ⟨j, r, rfl, h1, h2⟩ := h
    obtain ⟨j', r', e, h1', h2'⟩ := h'
    injection e with e1 e2
    injection e1 with e0 e1
    subst e0 e1 e2
    rw [shows_inj v v' j h1 h1', showsPairs_inj l l' r h2 h2']
  | [], (_, _) :: _ => simp only [ShowsPairs] at h h'; obtain ⟨_, _, e, _⟩ := h'; rw [h] at e; simp at e
  | (_, _) :: _, [] => simp only [ShowsPairs] at h h'; obtain ⟨_, _, e, _⟩ := h; rw [h'] at e; simp at e
end

/-! ## Reading back -/

/-- **C89** Reading what `json.dumps` wrote, with any indentation, gives the document back. -/
theorem C89_reads_back (F : Floats) (indent : Option Nat) (j : J) : loads F (dumps F indent j) = some j := loads_dumps F indent j

/-- The document of an id: `0x` and the id in base 16, of at least `w` digits. -/
def ShowsId (w : Nat) (n : Int) (j : J) : Prop := ∃ text, j = .str ('0' :: 'x' :: text) ∧ HexOf w n text

/-- The text of a list of entries none of which has a quote or a backslash. -/
def entriesText (l : List (Str × Str)) : Str :=
  joinS ", ".toList (l.map fun kv => "'{key=".toList ++ kv.1 ++ ", value=".toList ++ kv.2 ++ "}'".toList)

/-- A span context shows its two ids and its trace state. -/
structure ContextDoc (c : SpanContext) (j : J) : Prop where
  traceState : ∃ x, field "trace_state" j = some x ∧ ((∀ kv ∈ c.traceState, ∀ ch ∈ kv.1 ++ kv.2, ch ≠ '\'' ∧ ch ≠ '\\') →
    x = .str ("[".toList ++ entriesText c.traceState ++ "]".toList))
  traceId : ∃ x, field "trace_id" j = some x ∧ ShowsId 32 c.traceId x
  spanId : ∃ x, field "span_id" j = some x ∧ ShowsId 16 c.spanId x

/-- A resource shows its attributes and its schema URL. -/
structure ResourceDoc (r : Res) (j : J) : Prop where
  attrs : ∃ x, field "attributes" j = some x ∧ ShowsAttrs r.attrs x
  schemaUrl : field "schema_url" j = some (.str r.schemaUrl)

/-- An event shows its name, its time and its attributes. -/
structure EventDoc (iso : Nat → Option Str) (e : SdkEvent) (j : J) : Prop where
  name : field "name" j = some (.str e.name)
  time : ∃ t, iso e.time = some t ∧ field "timestamp" j = some (.str t)
  attrs : ∃ x, field "attributes" j = some x ∧ ShowsAttrs e.attrs x

/-- A link shows its context and its attributes. -/
structure LinkDoc (l : SdkLink) (j : J) : Prop where
  context : ∃ x, field "context" j = some x ∧ ContextDoc l.ctx x
  attrs : ∃ x, field "attributes" j = some x ∧ ShowsAttrs l.attrs x

/-- The names of the kinds. -/
def kindName : Kind → String
  | .internal => "SpanKind.INTERNAL"
  | .server => "SpanKind.SERVER"
  | .client => "SpanKind.CLIENT"
  | .producer => "SpanKind.PRODUCER"
  | .consumer => "SpanKind.CONSUMER"

/-- A time that is set and not 0 is shown as text, any other as `null`. -/
def ShowsTime (iso : Nat → Option Str) (t : Option Nat) (j : J) : Prop :=
  (t.getD 0 = 0 ∧ j = .null) ∨ ∃ n s, t = some n ∧ n ≠ 0 ∧ iso n = some s ∧ j = .str s

/-- What the document of a span shows. -/
structure SpanDoc (iso : Nat → Option Str) (r : Res) (s : SdkSpan) (j : J) : Prop where
  name : field "name" j = some (.str s.name)
  context : ∃ x, field "context" j = some x ∧ ContextDoc s.ctx x
  kind : field "kind" j = some (.str (kindName s.kind).toList)
  parent : ∃ x, field "parent_id" j = some x ∧ (∀ p, s.parent = some p → ShowsId 16 p.spanId x) ∧ (s.parent = none → x = .null)
  start : ∃ x, field "start_time" j = some x ∧ ShowsTime iso s.start x
  finish : ∃ x, field "end_time" j = some x ∧ ShowsTime iso s.finish x
  status : ∃ x, field "status" j = some x ∧
    (s.status = 0 → field "status_code" x = some (.str "UNSET".toList)) ∧ (s.status = 1 → field "status_code" x = some (.str "OK".toList)) ∧
    (s.status = 2 → field "status_code" x = some (.str "ERROR".toList)) ∧
    (∀ d, s.description = some d → d ≠ [] → field "description" x = some (.str d)) ∧ (s.description.getD [] = [] → field "description" x = none)
  attrs : ∃ x, field "attributes" j = some x ∧ ShowsAttrs s.attrs x
  events : ∃ es, field "events" j = some (.arr es) ∧ List.Forall₂ (EventDoc iso) s.events es
  links : ∃ ls, field "links" j = some (.arr ls) ∧ List.Forall₂ LinkDoc s.links ls
  resource : ∃ x, field "resource" j = some x ∧ ResourceDoc r x

theorem attrsJ_shows (attrs : List (Str × PyVal)) (j : J) : attrsJ attrs = some j ↔ ShowsAttrs attrs j := by
  simp only [attrsJ, ShowsAttrs, Option.map_eq_some_iff, ← showsPairs_iff]
  constructor
  · rintro ⟨a, h, rfl⟩; exact ⟨a, rfl, h⟩
  · rintro ⟨a, rfl, h⟩; exact ⟨a, h, rfl⟩

theorem attrsJ_none (attrs : List (Str × PyVal)) : attrsJ attrs = none ↔ OddPair attrs := by
  simp only [attrsJ, Option.map_eq_none_iff, oddPair_iff]

theorem showsId_mk (w : Nat) (hw : 1 < w) (n : Int) : ShowsId w n (.str ("0x".toList ++ hexFmt w n)) :=
  ⟨hexFmt w n, by rfl, hexFmt_hexOf w hw n⟩

theorem reprStr_plain (s : Str) (h : ∀ c ∈ s, c ≠ '\'' ∧ c ≠ '\\') : reprStr s = '\'' :: (s ++ ['\'']) := by
  have h1 : s.contains '\'' = false := by
    rw [Bool.eq_false_iff]
    intro hc
    exact (h _ (by simpa using hc)).1 rfl
  have h2 : s.flatMap (fun c => if c = '\'' ∨ c = '\\' then ['\\', c] else [c]) = s := by
    clear h1
    induction s with
    | nil => rfl
    | cons c s ih =>
      have := h c (by simp)
      rw [List.flatMap_cons, if_neg (by rintro (e | e); exacts [this.1 e, this.2 e]), ih (fun c hc => h c (by simp [hc]))]
      rfl
  unfold reprStr
  simp only [h1, Bool.false_and, Bool.false_eq_true, if_false, h2]

theorem repr_entries (ts : List (Str × Str)) (h : ∀ kv ∈ ts, ∀ ch ∈ kv.1 ++ kv.2, ch ≠ '\'' ∧ ch ≠ '\\') :
    joinS ", ".toList (ts.map fun kv => reprStr ("{key=".toList ++ kv.1 ++ ", value=".toList ++ kv.2 ++ "}".toList)) = entriesText ts := by
  have one : ∀ kv : Str × Str, (∀ ch ∈ kv.1 ++ kv.2, ch ≠ '\'' ∧ ch ≠ '\\') →
      reprStr ("{key=".toList ++ kv.1 ++ ", value=".toList ++ kv.2 ++ "}".toList) =
        "'{key=".toList ++ kv.1 ++ ", value=".toList ++ kv.2 ++ "}'".toList := by
    intro kv hkv
    rw [reprStr_plain]
    · rw [show "'{key=".toList = '\'' :: "{key=".toList from rfl, show "}'".toList = "}".toList ++ ['\''] from rfl]
      simp only [List.cons_append, List.append_assoc]
    · intro c hc
      have l : ∀ t : Str, (∀ c ∈ t, c ≠ '\'' ∧ c ≠ '\\') → c ∈ t → c ≠ '\'' ∧ c ≠ '\\' := fun t ht hc => ht c hc
      rcases List.mem_append.1 hc with hc | hc
      · rcases List.mem_append.1 hc with hc | hc
        · rcases List.mem_append.1 hc with hc | hc
          · rcases List.mem_append.1 hc with hc | hc
            · exact l _ (by decide) hc
            · exact hkv c (by simp [hc])
          · exact l _ (by decide) hc
        · exact hkv c (by simp [hc])
      · exact l _ (by decide) hc
  unfold entriesText
  congr 1
  exact List.map_congr_left fun kv hkv => one kv (h kv hkv)

theorem contextJ_doc (c : SpanContext) : ContextDoc c (contextJ c) := by
  constructor
  · refine ⟨_, rfl, ?_⟩
    intro h
    have := repr_entries c.traceState h
    simp only [fld, reprTraceState, this]
    rfl
  · exact ⟨_, rfl, showsId_mk 32 (by decide) c.traceId⟩
  · exact ⟨_, rfl, showsId_mk 16 (by decide) c.spanId⟩

theorem resource_reread (F : Floats) (indent : Option Nat) (r : Res) : (resourceText F indent r).bind (loads F) =
    (attrsJ r.attrs).map fun a => .obj [fld "attributes" a, fld "schema_url" (.str r.schemaUrl)] := by
  unfold resourceText
  cases attrsJ r.attrs with
  | none => rfl
  | some a => simp only [Option.map_some, Option.bind_some, loads_dumps]

theorem resource_doc (r : Res) (a : J) (h : attrsJ r.attrs = some a) :
    ResourceDoc r (.obj [fld "attributes" a, fld "schema_url" (.str r.schemaUrl)]) :=
  ⟨⟨a, rfl, (attrsJ_shows _ _).1 h⟩, rfl⟩

theorem event_doc (iso : Nat → Option Str) (e : SdkEvent) (j : J) (h : eventJ iso e = some j) : EventDoc iso e j := by
  unfold eventJ at h
  split at h
  · rename_i t a ht ha
    injection h with h; subst h
    exact ⟨rfl, ⟨t, ht, rfl⟩, ⟨a, rfl, (attrsJ_shows _ _).1 ha⟩⟩
  · simp at h

theorem link_doc (l : SdkLink) (j : J) (h : linkJ l = some j) : LinkDoc l j := by
  simp only [linkJ, Option.map_eq_some_iff] at h
  obtain ⟨a, ha, rfl⟩ := h
  exact ⟨⟨_, rfl, contextJ_doc l.ctx⟩, ⟨a, rfl, (attrsJ_shows _ _).1 ha⟩⟩

theorem spanTime_shows (iso : Nat → Option Str) (t : Option Nat) (j : J) (h : spanTime iso t = some j) : ShowsTime iso t j := by
  unfold spanTime at h
  split at h
  · left; exact ⟨rfl, by injection h with h; exact h.symm⟩
  · left; exact ⟨rfl, by injection h with h; exact h.symm⟩
  · rename_i n hn
    right
    simp only [Option.map_eq_some_iff] at h
    obtain ⟨s, hs, rfl⟩ := h
    exact ⟨n, s, rfl, fun h0 => hn (by rw [h0]), hs, rfl⟩

/-- The span's text is written from a document. -/
theorem spanText_doc (F : Floats) (iso : Nat → Option Str) (indent : Option Nat) (r : Res) (s : SdkSpan) (text : Str)
    (h : spanText F iso indent r s = some text) : ∃ doc, text = dumps F indent doc ∧ SpanDoc iso r s doc := by
  simp only [spanText, resource_reread, Option.bind_eq_bind, Option.bind_eq_some_iff, Option.map_eq_some_iff, Option.some.injEq] at h
  obtain ⟨start, h1, finish, h2, attrs, h3, events, h4, links, h5, res, ⟨ra, h6, rfl⟩, rfl⟩ := h
  refine ⟨_, rfl, ?_⟩
  refine ⟨rfl, ⟨_, rfl, contextJ_doc _⟩, ?_, ⟨_, rfl, ?_, ?_⟩, ⟨_, rfl, spanTime_shows _ _ _ h1⟩, ⟨_, rfl, spanTime_shows _ _ _ h2⟩, ⟨_, rfl, ?_⟩,
    ⟨_, rfl, (attrsJ_shows _ _).1 h3⟩, ⟨_, rfl, ?_⟩, ⟨_, rfl, ?_⟩, ⟨_, rfl, resource_doc r ra h6⟩⟩
  · cases s.kind <;> rfl
  · intro p hp
    rw [hp]
    exact showsId_mk 16 (by decide) p.spanId
  · intro hp; rw [hp]; rfl
  · refine ⟨?_, ?_, ?_, ?_, ?_⟩
    · intro h; rw [h]; rfl
    · intro h; rw [h]; rfl
    · intro h; rw [h]; rfl
    · intro d hd hne
      cases d with
      | nil => exact absurd rfl hne
      | cons c d => rw [hd]; rfl
    · intro hd
      cases hs : s.description with
      | none => rfl
      | some d => rw [hs] at hd; simp at hd; subst hd; rfl
  · exact (OcExporter.mapM_forall₂ _ _ _ h4).imp fun a b h => event_doc iso a b h
  · exact (OcExporter.mapM_forall₂ _ _ _ h5).imp fun a b h => link_doc a b h

/-- **C89** What `span.to_json` returns is JSON, and reading it shows the span: name, ids, kind, parent, status, attributes, events, links,
resource and times — for every span and every indentation. -/
theorem C89_span (F : Floats) (iso : Nat → Option Str) (indent : Option Nat) (r : Res) (s : SdkSpan) (text : Str)
    (h : spanText F iso indent r s = some text) : ∃ doc, loads F text = some doc ∧ SpanDoc iso r s doc := by
  obtain ⟨doc, rfl, hd⟩ := spanText_doc F iso indent r s text h
  exact ⟨doc, loads_dumps F indent doc, hd⟩

/-- **C89** `span.to_json` raises exactly if a time cannot be written or a value somewhere — of the span, an event, a link or the resource — is neither
`None`, a boolean, a number, a string nor a list or mapping of those. -/
theorem C89_span_raises_iff (F : Floats) (iso : Nat → Option Str) (indent : Option Nat) (r : Res) (s : SdkSpan) :
    spanText F iso indent r s = none ↔
      (∃ n, (s.start = some n ∨ s.finish = some n) ∧ n ≠ 0 ∧ iso n = none) ∨ (∃ e ∈ s.events, iso e.time = none) ∨
      OddPair s.attrs ∨ (∃ e ∈ s.events, OddPair e.attrs) ∨ (∃ l ∈ s.links, OddPair l.attrs) ∨ OddPair r.attrs := by
  have ht : ∀ t, (spanTime iso t = none ↔ ∃ n, t = some n ∧ n ≠ 0 ∧ iso n = none) := by
    intro t
    unfold spanTime
    split
    · simp
    · simp
    · rename_i n hn
      simp only [Option.map_eq_none_iff, Option.some.injEq, exists_eq_left', ne_eq]
      constructor
      · exact fun h => ⟨fun h0 => hn (by rw [h0]), h⟩
      · exact fun h => h.2
  have hm : ∀ {α : Type} (f : α → Option J) (l : List α), (l.mapM f = none ↔ ∃ x ∈ l, f x = none) := by
    intro α f l
    have := OcExporter.mapM_isSome f l
    rw [← Option.not_isSome_iff_eq_none, this]
    simp
  have he : ∀ e, (eventJ iso e = none ↔ iso e.time = none ∨ OddPair e.attrs) := by
    intro e
    rw [← attrsJ_none]
    unfold eventJ
    cases iso e.time <;> cases attrsJ e.attrs <;> simp
  have hl : ∀ l, (linkJ l = none ↔ OddPair l.attrs) := by intro l; rw [← attrsJ_none]; simp [linkJ]
  have key : spanText F iso indent r s = none ↔ spanTime iso s.start = none ∨ spanTime iso s.finish = none ∨ attrsJ s.attrs = none ∨
      s.events.mapM (eventJ iso) = none ∨ s.links.mapM linkJ = none ∨ attrsJ r.attrs = none := by
    simp only [spanText, resource_reread]
    cases spanTime iso s.start <;> cases spanTime iso s.finish <;> cases attrsJ s.attrs <;> cases s.events.mapM (eventJ iso) <;>
      cases s.links.mapM linkJ <;> cases attrsJ r.attrs <;> simp
  rw [key, ht, ht, hm, hm, attrsJ_none, attrsJ_none]
  simp only [he, hl]
  constructor
  · rintro (⟨n, h, h'⟩ | ⟨n, h, h'⟩ | h | ⟨e, he, h | h⟩ | ⟨l, hl, h⟩ | h)
    · exact .inl ⟨n, .inl h, h'⟩
    · exact .inl ⟨n, .inr h, h'⟩
    · exact .inr (.inr (.inl h))
    · exact .inr (.inl ⟨e, he, h⟩)
    · exact .inr (.inr (.inr (.inl ⟨e, he, h⟩)))
    · exact .inr (.inr (.inr (.inr (.inl ⟨l, hl, h⟩))))
    · exact .inr (.inr (.inr (.inr (.inr h))))
  · rintro (⟨n, h | h, h'⟩ | ⟨e, he, h⟩ | h | ⟨e, he, h⟩ | ⟨l, hl, h⟩ | h)
    · exact .inl ⟨n, h, h'⟩
    · exact .inr (.inl ⟨n, h, h'⟩)
    · exact .inr (.inr (.inr (.inl ⟨e, he, .inl h⟩)))
    · exact .inr (.inr (.inl h))
    · exact .inr (.inr (.inr (.inl ⟨e, he, .inr h⟩)))
    · exact .inr (.inr (.inr (.inr (.inl ⟨l, hl, h⟩))))
    · exact .inr (.inr (.inr (.inr (.inr h))))

theorem showsId_inj (w : Nat) (n m : Int) (j : J) (h : ShowsId w n j) (h' : ShowsId w m j) : n = m := by
  obtain ⟨t, rfl, ht⟩ := h
  obtain ⟨t', e, ht'⟩ := h'
  injection e with e
  injection e with _ e
  injection e with _ e
  subst e
  exact C87_injective w w n m t ht ht'

theorem showsAttrs_inj (a b : List (Str × PyVal)) (j : J) (h : ShowsAttrs a j) (h' : ShowsAttrs b j) : a = b := by
  obtain ⟨js, rfl, h⟩ := h
  obtain ⟨js', e, h'⟩ := h'
  injection e with e
  subst e
  exact showsPairs_inj a b js h h'

/-- The same part of the document was shown twice. -/
theorem same_field {k : String} {j : J} {P Q : J → Prop} (h : ∃ x, field k j = some x ∧ P x) (h' : ∃ x, field k j = some x ∧ Q x) : ∃ x, P x ∧ Q x := by
  obtain ⟨x, e, p⟩ := h
  obtain ⟨y, e', q⟩ := h'
  rw [e] at e'
  injection e' with e'
  subst e'
  exact ⟨x, p, q⟩

theorem same_str {k : String} {j : J} {s t : Str} (h : field k j = some (.str s)) (h' : field k j = some (.str t)) : s = t := by
  rw [h] at h'
  injection h' with h'
  injection h'

theorem contextDoc_inj (c c' : SpanContext) (j : J) (h : ContextDoc c j) (h' : ContextDoc c' j) : c.traceId = c'.traceId ∧ c.spanId = c'.spanId := by
  obtain ⟨x, h1, h2⟩ := same_field h.traceId h'.traceId
  obtain ⟨y, h3, h4⟩ := same_field h.spanId h'.spanId
  exact ⟨showsId_inj 32 _ _ _ h1 h2, showsId_inj 16 _ _ _ h3 h4⟩

theorem forall₂_join {α β γ : Type} {P : α → γ → Prop} {Q : β → γ → Prop} {R : α → β → Prop} (hR : ∀ a b c, P a c → Q b c → R a b)
    {l : List α} {m : List β} {n : List γ} (h : List.Forall₂ P l n) (h' : List.Forall₂ Q m n) : List.Forall₂ R l m := by
  induction h generalizing m with
  | nil => cases h'; exact .nil
  | cons p _ ih =>
    cases h' with
    | cons q h' => exact .cons (hR _ _ _ p q) (ih h')

/-- **C89** The text determines the span: two spans with the same text have the same name, ids, kind, parent, status, description (no description and an
empty one look the same), attributes, resource, and the same events and links in the same order. -/
theorem C89_span_determined (F : Floats) (iso : Nat → Option Str) (i i' : Option Nat) (r r' : Res) (s s' : SdkSpan) (text : Str)
    (h : spanText F iso i r s = some text) (h' : spanText F iso i' r' s' = some text) :
    s.name = s'.name ∧ s.ctx.traceId = s'.ctx.traceId ∧ s.ctx.spanId = s'.ctx.spanId ∧ s.kind = s'.kind ∧
    s.parent.map (·.spanId) = s'.parent.map (·.spanId) ∧ (s.status < 3 → s'.status < 3 → s.status = s'.status) ∧
    s.description.getD [] = s'.description.getD [] ∧ s.attrs = s'.attrs ∧ r.attrs = r'.attrs ∧ r.schemaUrl = r'.schemaUrl ∧
    List.Forall₂ (fun e e' => e.name = e'.name ∧ e.attrs = e'.attrs ∧ iso e.time = iso e'.time) s.events s'.events ∧
    List.Forall₂ (fun l l' => l.ctx.traceId = l'.ctx.traceId ∧ l.ctx.spanId = l'.ctx.spanId ∧ l.attrs = l'.attrs) s.links s'.links := by
  obtain ⟨doc, hd, d⟩ := C89_span F iso i r s text h
  obtain ⟨doc', hd', d'⟩ := C89_span F iso i' r' s' text h'
  rw [hd] at hd'
  injection hd' with hd'
  subst hd'
  obtain ⟨c, hc, hc'⟩ := same_field d.context d'.context
  obtain ⟨x, hx, hx'⟩ := same_field d.resource d'.resource
  obtain ⟨a, ha, ha'⟩ := same_field d.attrs d'.attrs
  obtain ⟨ra, hra, hra'⟩ := same_field hx.attrs hx'.attrs
  obtain ⟨p, ⟨hp, hp0⟩, hp', hp0'⟩ := same_field d.parent d'.parent
  obtain ⟨st, hst, hst'⟩ := same_field d.status d'.status
  obtain ⟨es, he, hes⟩ := d.events
  obtain ⟨es', he', hes'⟩ := d'.events
  rw [he] at he'; injection he' with he'; injection he' with he'; subst he'
  obtain ⟨ls, hl, hls⟩ := d.links
  obtain ⟨ls', hl', hls'⟩ := d'.links
  rw [hl] at hl'; injection hl' with hl'; injection hl' with hl'; subst hl'
  obtain ⟨c1, c2⟩ := contextDoc_inj _ _ _ hc hc'
  refine ⟨same_str d.name d'.name, c1, c2, ?_, ?_, ?_, ?_, showsAttrs_inj _ _ _ ha ha', showsAttrs_inj _ _ _ hra hra',
    same_str hx.schemaUrl hx'.schemaUrl, ?_, ?_⟩
  · have := same_str d.kind d'.kind
    revert this
    cases s.kind <;> cases s'.kind <;> decide
  · cases hs : s.parent with
    | none =>
      cases hs' : s'.parent with
      | none => rfl
      | some q =>
        obtain ⟨_, e, _⟩ := hp' q hs'
        rw [hp0 hs] at e; simp at e
    | some q =>
      cases hs' : s'.parent with
      | none =>
        obtain ⟨_, e, _⟩ := hp q hs
        rw [hp0' hs'] at e; simp at e
      | some q' => simp only [Option.map_some]; rw [showsId_inj 16 _ _ _ (hp q hs) (hp' q' hs')]
  · obtain ⟨u0, u1, u2, _⟩ := hst
    obtain ⟨v0, v1, v2, _⟩ := hst'
    intro l1 l2
    have e : ∀ n, n < 3 → n = 0 ∨ n = 1 ∨ n = 2 := by omega
    rcases e _ l1 with h1 | h1 | h1 <;> rcases e _ l2 with h2 | h2 | h2
    · omega
    · exact absurd (same_str (u0 h1) (v1 h2)) (by decide)
    · exact absurd (same_str (u0 h1) (v2 h2)) (by decide)
    · exact absurd (same_str (u1 h1) (v0 h2)) (by decide)
    · omega
    · exact absurd (same_str (u1 h1) (v2 h2)) (by decide)
    · exact absurd (same_str (u2 h1) (v0 h2)) (by decide)
    · exact absurd (same_str (u2 h1) (v1 h2)) (by decide)
    · omega
  · obtain ⟨_, _, _, u, u0⟩ := hst
    obtain ⟨_, _, _, v, v0⟩ := hst'
    have sp : ∀ o : Option Str, o.getD [] ≠ [] → o = some (o.getD []) := by intro o ho; cases o <;> simp_all
    by_cases h1 : s.description.getD [] = []
    · by_cases h2 : s'.description.getD [] = []
      · rw [h1, h2]
      · have := v _ (sp _ h2) h2
        rw [u0 h1] at this; simp at this
    · by_cases h2 : s'.description.getD [] = []
      · have := u _ (sp _ h1) h1
        rw [v0 h2] at this; simp at this
      · exact same_str (u _ (sp _ h1) h1) (v _ (sp _ h2) h2)
  · refine forall₂_join ?_ hes hes'
    intro e e' j de de'
    obtain ⟨b, hb, hb'⟩ := same_field de.attrs de'.attrs
    obtain ⟨t, ht, ht1⟩ := de.time
    obtain ⟨t', ht', ht1'⟩ := de'.time
    exact ⟨same_str de.name de'.name, showsAttrs_inj _ _ _ hb hb', by rw [ht, ht', same_str ht1 ht1']⟩
  · refine forall₂_join ?_ hls hls'
    intro l l' j dl dl'
    obtain ⟨b, hb, hb'⟩ := same_field dl.attrs dl'.attrs
    obtain ⟨c, hc, hc'⟩ := same_field dl.context dl'.context
    obtain ⟨c1, c2⟩ := contextDoc_inj _ _ _ hc hc'
    exact ⟨c1, c2, showsAttrs_inj _ _ _ hb hb'⟩

/-- The times are not determined: a span that started at time 0 and one that has not started have the same text. -/
theorem C89_epoch_violated (F : Floats) (iso : Nat → Option Str) (indent : Option Nat) (r : Res) (s : SdkSpan) :
    spanText F iso indent r { s with start := some 0 } = spanText F iso indent r { s with start := none } ∧
    spanText F iso indent r { s with finish := some 0 } = spanText F iso indent r { s with finish := none } := ⟨rfl, rfl⟩

/-! ## Log records -/

/-- An optional number or text: `null` if there is none. -/
def ShowsOpt {α : Type} (mk : α → J) (o : Option α) (j : J) : Prop := (o = none ∧ j = .null) ∨ ∃ a, o = some a ∧ j = mk a

/-- What the document of a log record shows. -/
structure LogDoc (iso : Nat → Option Str) (r : Res) (l : SdkLog) (j : J) : Prop where
  body : ∃ x, field "body" j = some x ∧ Shows l.body x
  severity : ∃ x, field "severity_number" j = some x ∧ ShowsOpt (fun n : Nat => .int n) l.severity x
  severityText : ∃ x, field "severity_text" j = some x ∧ ShowsOpt .str l.severityText x
  attrs : ∃ x, field "attributes" j = some x ∧ ((l.attrs = [] ∧ x = .null) ∨ (l.attrs ≠ [] ∧ ShowsAttrs l.attrs x))
  dropped : l.attrs ≠ [] → field "dropped_attributes" j = some (.int l.dropped)
  time : ∃ n t, l.time = some n ∧ iso n = some t ∧ field "timestamp" j = some (.str t)
  observed : ∃ n t, l.observed = some n ∧ iso n = some t ∧ field "observed_timestamp" j = some (.str t)
  traceId : ∃ x, field "trace_id" j = some x ∧ (∀ n, l.traceId = some n → ShowsId 32 n x) ∧ (l.traceId = none → x = .str [])
  spanId : ∃ x, field "span_id" j = some x ∧ (∀ n, l.spanId = some n → ShowsId 16 n x) ∧ (l.spanId = none → x = .str [])
  flags : ∃ x, field "trace_flags" j = some x ∧ ShowsOpt (fun n : Nat => .int n) l.flags x
  resource : ∃ x, field "resource" j = some x ∧ ResourceDoc r x

theorem natJ_shows (o : Option Nat) : ShowsOpt (fun n : Nat => .int n) o (natJ o) := by
  cases o with
  | none => exact .inl ⟨rfl, rfl⟩
  | some n => exact .inr ⟨n, rfl, rfl⟩

theorem strJ_shows (o : Option Str) : ShowsOpt .str o (strJ o) := by
  cases o with
  | none => exact .inl ⟨rfl, rfl⟩
  | some n => exact .inr ⟨n, rfl, rfl⟩

theorem attrsOrNull_shows (attrs : List (Str × PyVal)) (j : J) (h : attrsOrNull attrs = some j) :
    (attrs = [] ∧ j = .null) ∨ (attrs ≠ [] ∧ ShowsAttrs attrs j) := by
  unfold attrsOrNull at h
  cases attrs with
  | nil => left; simp at h; exact ⟨rfl, h.symm⟩
  | cons a l => right; exact ⟨by simp, (attrsJ_shows _ _).1 (by simpa using h)⟩

theorem logText_doc (F : Floats) (iso : Nat → Option Str) (indent : Option Nat) (r : Res) (l : SdkLog) (text : Str)
    (h : logText F iso indent r l = some text) : ∃ doc, text = dumps F indent doc ∧ LogDoc iso r l doc := by
  simp only [logText, resource_reread, Option.bind_eq_bind, Option.bind_eq_some_iff, Option.map_eq_some_iff, Option.some.injEq] at h
  obtain ⟨body, h1, attrs, h2, time, ⟨n, h3, h3'⟩, obs, ⟨m, h4, h4'⟩, res, ⟨ra, h6, rfl⟩, rfl⟩ := h
  refine ⟨_, rfl, ⟨_, rfl, (shows_iff _ _).1 h1⟩, ⟨_, rfl, natJ_shows _⟩, ⟨_, rfl, strJ_shows _⟩, ⟨_, rfl, attrsOrNull_shows _ _ h2⟩, ?_,
    ⟨n, time, h3, h3', rfl⟩, ⟨m, obs, h4, h4', rfl⟩, ⟨_, rfl, ?_, ?_⟩, ⟨_, rfl, ?_, ?_⟩, ⟨_, rfl, natJ_shows _⟩, ⟨_, rfl, resource_doc r ra h6⟩⟩
  · intro hne
    cases ha : l.attrs with
    | nil => exact absurd ha hne
    | cons _ _ => rfl
  · intro n hn; rw [hn]; exact showsId_mk 32 (by decide) n
  · intro hn; rw [hn]; rfl
  · intro n hn; rw [hn]; exact showsId_mk 16 (by decide) n
  · intro hn; rw [hn]; rfl

/-- **C89** What `record.to_json` returns is JSON, and reading it shows the record. -/
theorem C89_log (F : Floats) (iso : Nat → Option Str) (indent : Option Nat) (r : Res) (l : SdkLog) (text : Str)
    (h : logText F iso indent r l = some text) : ∃ doc, loads F text = some doc ∧ LogDoc iso r l doc := by
  obtain ⟨doc, rfl, hd⟩ := logText_doc F iso indent r l text h
  exact ⟨doc, loads_dumps F indent doc, hd⟩

/-- **C89** `record.to_json` raises exactly if the record has no timestamp, a time cannot be written, or the body or an attribute value — of the record or
the resource — is not a JSON value. -/
theorem C89_log_raises_iff (F : Floats) (iso : Nat → Option Str) (indent : Option Nat) (r : Res) (l : SdkLog) :
    logText F iso indent r l = none ↔ l.time = none ∨ l.observed = none ∨ (∃ n, (l.time = some n ∨ l.observed = some n) ∧ iso n = none) ∨
      Odd l.body ∨ OddPair l.attrs ∨ OddPair r.attrs := by
  have ha : attrsOrNull l.attrs = none ↔ OddPair l.attrs := by
    rw [← attrsJ_none]
    unfold attrsOrNull
    cases l.attrs <;> simp [attrsJ, pairsJ]
  have hb : ∀ o : Option Nat, o.bind iso = none ↔ o = none ∨ ∃ n, o = some n ∧ iso n = none := by intro o; cases o <;> simp
  have key : logText F iso indent r l = none ↔ toJ l.body = none ∨ attrsOrNull l.attrs = none ∨ l.time.bind iso = none ∨ l.observed.bind iso = none ∨
      attrsJ r.attrs = none := by
    simp only [logText, resource_reread]
    cases toJ l.body <;> cases attrsOrNull l.attrs <;> cases l.time.bind iso <;> cases l.observed.bind iso <;> cases attrsJ r.attrs <;> simp
  rw [key, ha, hb, hb, attrsJ_none, odd_iff]
  constructor
  · rintro (h | h | (h | ⟨n, h, h'⟩) | (h | ⟨n, h, h'⟩) | h)
    · exact .inr (.inr (.inr (.inl h)))
    · exact .inr (.inr (.inr (.inr (.inl h))))
    · exact .inl h
    · exact .inr (.inr (.inl ⟨n, .inl h, h'⟩))
    · exact .inr (.inl h)
    · exact .inr (.inr (.inl ⟨n, .inr h, h'⟩))
    · exact .inr (.inr (.inr (.inr (.inr h))))
  · rintro (h | h | ⟨n, h | h, h'⟩ | h | h | h)
    · exact .inr (.inr (.inl (.inl h)))
    · exact .inr (.inr (.inr (.inl (.inl h))))
    · exact .inr (.inr (.inl (.inr ⟨n, h, h'⟩)))
    · exact .inr (.inr (.inr (.inl (.inr ⟨n, h, h'⟩))))
    · exact .inl h
    · exact .inr (.inl h)
    · exact .inr (.inr (.inr (.inr h)))

/-- A record all of whose attributes were dropped is shown as one that had none: the count of dropped attributes is not in the text. -/
theorem C89_log_dropped_violated (F : Floats) (iso : Nat → Option Str) (indent : Option Nat) (r : Res) (l : SdkLog) (h : l.attrs = []) (n m : Nat) :
    logText F iso indent r { l with dropped := n } = logText F iso indent r { l with dropped := m } := by
  simp only [logText, h, List.isEmpty_nil, if_true]

/-! ## Metrics -/

/-- A number shows itself. -/
def ShowsNum : Num → J → Prop
  | .int i, j => j = .int i
  | .float f, j => j = .float f

/-- An exemplar. -/
structure ExemplarDoc (e : SdkExemplar) (j : J) : Prop where
  attrs : ∃ x, field "filtered_attributes" j = some x ∧ ShowsAttrs e.attrs x
  value : ∃ x, field "value" j = some x ∧ ShowsNum e.value x
  time : field "time_unix_nano" j = some (.int e.time)
  spanId : ∃ x, field "span_id" j = some x ∧ ShowsOpt .int e.spanId x
  traceId : ∃ x, field "trace_id" j = some x ∧ ShowsOpt .int e.traceId x

/-- What all data points show. -/
structure HeadDoc (h : PointHead) (j : J) : Prop where
  attrs : ∃ x, field "attributes" j = some x ∧ ShowsAttrs h.attrs x
  start : field "start_time_unix_nano" j = some (.int h.start)
  time : field "time_unix_nano" j = some (.int h.time)
  exemplars : ∃ es, field "exemplars" j = some (.arr es) ∧ List.Forall₂ ExemplarDoc h.exemplars es

/-- A list of counts. -/
def ShowsCounts (l : List Nat) (j : J) : Prop := j = .arr (l.map fun n => .int n)

structure NumberDoc (p : NumberPoint) (j : J) : Prop extends HeadDoc p.head j where
  value : ∃ x, field "value" j = some x ∧ ShowsNum p.value x

structure HistDoc (p : HistPoint) (j : J) : Prop extends HeadDoc p.head j where
  count : field "count" j = some (.int p.count)
  sum : ∃ x, field "sum" j = some x ∧ ShowsNum p.sum x
  buckets : ∃ x, field "bucket_counts" j = some x ∧ ShowsCounts p.bucketCounts x
  bounds : field "explicit_bounds" j = some (.arr (p.bounds.map .float))
  min : ∃ x, field "min" j = some x ∧ ShowsNum p.min x
  max : ∃ x, field "max" j = some x ∧ ShowsNum p.max x

structure BucketsDoc (b : SdkBuckets) (j : J) : Prop where
  offset : field "offset" j = some (.int b.offset)
  counts : ∃ x, field "bucket_counts" j = some x ∧ ShowsCounts b.counts x

structure ExpDoc (p : ExpPoint) (j : J) : Prop extends HeadDoc p.head j where
  count : field "count" j = some (.int p.count)
  sum : ∃ x, field "sum" j = some x ∧ ShowsNum p.sum x
  scale : field "scale" j = some (.int p.scale)
  zeroCount : field "zero_count" j = some (.int p.zeroCount)
  positive : ∃ x, field "positive" j = some x ∧ BucketsDoc p.positive x
  negative : ∃ x, field "negative" j = some x ∧ BucketsDoc p.negative x
  flags : field "flags" j = some (.int p.flags)
  min : ∃ x, field "min" j = some x ∧ ShowsNum p.min x
  max : ∃ x, field "max" j = some x ∧ ShowsNum p.max x

/-- The data of a metric. -/
def DataDoc : Data → J → Prop
  | .gauge pts, j => (∃ js, field "data_points" j = some (.arr js) ∧ List.Forall₂ NumberDoc pts js) ∧ field "aggregation_temporality" j = none
  | .sum t m pts, j => (∃ js, field "data_points" j = some (.arr js) ∧ List.Forall₂ NumberDoc pts js) ∧
      field "aggregation_temporality" j = some (.int t) ∧ field "is_monotonic" j = some (.bool m)
  | .histogram t pts, j => (∃ js, field "data_points" j = some (.arr js) ∧ List.Forall₂ HistDoc pts js) ∧
      field "aggregation_temporality" j = some (.int t)
  | .exponential t pts, j => (∃ js, field "data_points" j = some (.arr js) ∧ List.Forall₂ ExpDoc pts js) ∧
      field "aggregation_temporality" j = some (.int t)
  | .other, _ => False

structure MetricDoc (m : SdkMetric) (j : J) : Prop where
  name : field "name" j = some (.str m.name)
  description : field "description" j = some (.str m.description)
  unit : field "unit" j = some (.str m.unit)
  data : ∃ x, field "data" j = some x ∧ DataDoc m.data x

structure ScopeDoc (s : Scope) (j : J) : Prop where
  name : field "name" j = some (.str s.name)
  version : ∃ x, field "version" j = some x ∧ ShowsOpt .str s.version x
  schemaUrl : field "schema_url" j = some (.str s.schemaUrl)
  attrs : ∃ x, field "attributes" j = some x ∧ ((s.attrs = [] ∧ x = .null) ∨ (s.attrs ≠ [] ∧ ShowsAttrs s.attrs x))

structure ScopeMetricsDoc (s : ScopeMetrics) (j : J) : Prop where
  scope : ∃ x, field "scope" j = some x ∧ ScopeDoc s.scope x
  metrics : ∃ ms, field "metrics" j = some (.arr ms) ∧ List.Forall₂ MetricDoc s.metrics ms
  schemaUrl : field "schema_url" j = some (.str s.schemaUrl)

structure ResourceMetricsDoc (r : ResourceMetrics) (j : J) : Prop where
  resource : ∃ x, field "resource" j = some x ∧ ResourceDoc r.resource x
  scopes : ∃ ss, field "scope_metrics" j = some (.arr ss) ∧ List.Forall₂ ScopeMetricsDoc r.scopes ss
  schemaUrl : field "schema_url" j = some (.str r.schemaUrl)

theorem numJ_shows (n : Num) : ShowsNum n (numJ n) := by cases n <;> rfl

theorem intJ_shows (o : Option Int) : ShowsOpt .int o (intJ o) := by
  cases o with
  | none => exact .inl ⟨rfl, rfl⟩
  | some n => exact .inr ⟨n, rfl, rfl⟩

theorem exemplar_doc (e : SdkExemplar) (j : J) (h : exemplarJ e = some j) : ExemplarDoc e j := by
  simp only [exemplarJ, Option.map_eq_some_iff] at h
  obtain ⟨a, ha, rfl⟩ := h
  exact ⟨⟨a, rfl, (attrsJ_shows _ _).1 ha⟩, ⟨_, rfl, numJ_shows _⟩, rfl, ⟨_, rfl, intJ_shows _⟩, ⟨_, rfl, intJ_shows _⟩⟩

theorem exemplars_doc (l : List SdkExemplar) (js : List J) (h : l.mapM exemplarJ = some js) : List.Forall₂ ExemplarDoc l js :=
  (OcExporter.mapM_forall₂ _ _ _ h).imp fun a b h => exemplar_doc a b h

/-- A text was written from a document that shows something. -/
def Writes (F : Floats) (indent : Option Nat) (P : J → Prop) (text : Str) : Prop := ∃ doc, text = dumps F indent doc ∧ P doc

theorem reread_doc {α : Type} (F : Floats) (indent : Option Nat) (text : α → Option Str) (P : α → J → Prop)
    (hP : ∀ x s, text x = some s → Writes F indent (P x) s) (l : List α) (js : List J) (h : reread F text l = some js) : List.Forall₂ P l js := by
  refine (OcExporter.mapM_forall₂ _ _ _ h).imp fun a b h => ?_
  simp only [Option.bind_eq_some_iff] at h
  obtain ⟨s, hs, hl⟩ := h
  obtain ⟨doc, rfl, hd⟩ := hP a s hs
  rw [loads_dumps] at hl
  injection hl with hl
  subst hl
  exact hd

theorem one_doc (F : Floats) (indent : Option Nat) (text : Option Str) (P : J → Prop)
    (hP : ∀ s, text = some s → Writes F indent P s) (j : J) (h : text.bind (loads F) = some j) : P j := by
  simp only [Option.bind_eq_some_iff] at h
  obtain ⟨s, hs, hl⟩ := h
  obtain ⟨doc, rfl, hd⟩ := hP s hs
  rw [loads_dumps] at hl
  injection hl with hl
  subst hl
  exact hd

theorem number_doc (F : Floats) (indent : Option Nat) (p : NumberPoint) (s : Str) (h : numberText F indent p = some s) :
    Writes F indent (NumberDoc p) s := by
  simp only [numberText, Option.bind_eq_bind, Option.bind_eq_some_iff, Option.some.injEq] at h
  obtain ⟨a, ha, ex, he, rfl⟩ := h
  exact ⟨_, rfl, ⟨⟨a, rfl, (attrsJ_shows _ _).1 ha⟩, rfl, rfl, ⟨ex, rfl, exemplars_doc _ _ he⟩⟩, ⟨_, rfl, numJ_shows _⟩⟩

theorem hist_doc (F : Floats) (indent : Option Nat) (p : HistPoint) (s : Str) (h : histText F indent p = some s) :
    Writes F indent (HistDoc p) s := by
  simp only [histText, Option.bind_eq_bind, Option.bind_eq_some_iff, Option.some.injEq] at h
  obtain ⟨a, ha, ex, he, rfl⟩ := h
  exact ⟨_, rfl, ⟨⟨a, rfl, (attrsJ_shows _ _).1 ha⟩, rfl, rfl, ⟨ex, rfl, exemplars_doc _ _ he⟩⟩, rfl, ⟨_, rfl, numJ_shows _⟩, ⟨_, rfl, rfl⟩, rfl,
    ⟨_, rfl, numJ_shows _⟩, ⟨_, rfl, numJ_shows _⟩⟩

theorem buckets_doc (b : SdkBuckets) : BucketsDoc b (bucketsJ b) := ⟨rfl, ⟨_, rfl, rfl⟩⟩

theorem exp_doc (F : Floats) (indent : Option Nat) (p : ExpPoint) (s : Str) (h : expText F indent p = some s) :
    Writes F indent (ExpDoc p) s := by
  simp only [expText, Option.bind_eq_bind, Option.bind_eq_some_iff, Option.some.injEq] at h
  obtain ⟨a, ha, ex, he, rfl⟩ := h
  exact ⟨_, rfl, ⟨⟨a, rfl, (attrsJ_shows _ _).1 ha⟩, rfl, rfl, ⟨ex, rfl, exemplars_doc _ _ he⟩⟩, rfl, ⟨_, rfl, numJ_shows _⟩, rfl, rfl,
    ⟨_, rfl, buckets_doc _⟩, ⟨_, rfl, buckets_doc _⟩, rfl, ⟨_, rfl, numJ_shows _⟩, ⟨_, rfl, numJ_shows _⟩⟩

theorem data_doc (F : Floats) (indent : Option Nat) (d : Data) (s : Str) (h : dataText F indent d = some s) :
    Writes F indent (DataDoc d) s := by
  cases d with
  | gauge pts =>
    simp only [dataText, Option.map_eq_some_iff] at h
    obtain ⟨js, hj, rfl⟩ := h
    exact ⟨_, rfl, ⟨js, rfl, reread_doc F indent _ _ (number_doc F indent) _ _ hj⟩, rfl⟩
  | sum t m pts =>
    simp only [dataText, Option.map_eq_some_iff] at h
    obtain ⟨js, hj, rfl⟩ := h
    exact ⟨_, rfl, ⟨js, rfl, reread_doc F indent _ _ (number_doc F indent) _ _ hj⟩, rfl, rfl⟩
  | histogram t pts =>
    simp only [dataText, Option.map_eq_some_iff] at h
    obtain ⟨js, hj, rfl⟩ := h
    exact ⟨_, rfl, ⟨js, rfl, reread_doc F indent _ _ (hist_doc F indent) _ _ hj⟩, rfl⟩
  | exponential t pts =>
    simp only [dataText, Option.map_eq_some_iff] at h
    obtain ⟨js, hj, rfl⟩ := h
    exact ⟨_, rfl, ⟨js, rfl, reread_doc F indent _ _ (exp_doc F indent) _ _ hj⟩, rfl⟩
  | other => simp [dataText] at h

theorem metric_doc (F : Floats) (indent : Option Nat) (m : SdkMetric) (s : Str) (h : metricText F indent m = some s) :
    Writes F indent (MetricDoc m) s := by
  simp only [metricText, Option.map_eq_some_iff] at h
  obtain ⟨d, hd, rfl⟩ := h
  exact ⟨_, rfl, rfl, rfl, rfl, ⟨d, rfl, one_doc F indent _ _ (data_doc F indent m.data) d hd⟩⟩

theorem scope_doc (F : Floats) (indent : Option Nat) (sc : Scope) (s : Str) (h : scopeText F indent sc = some s) :
    Writes F indent (ScopeDoc sc) s := by
  simp only [scopeText, Option.map_eq_some_iff] at h
  obtain ⟨a, ha, rfl⟩ := h
  exact ⟨_, rfl, rfl, ⟨_, rfl, strJ_shows _⟩, rfl, ⟨a, rfl, attrsOrNull_shows _ _ ha⟩⟩

theorem resource_writes (F : Floats) (indent : Option Nat) (r : Res) (s : Str) (h : resourceText F indent r = some s) :
    Writes F indent (ResourceDoc r) s := by
  simp only [resourceText, Option.map_eq_some_iff] at h
  obtain ⟨a, ha, rfl⟩ := h
  exact ⟨_, rfl, resource_doc r a ha⟩

theorem scopeMetrics_doc (F : Floats) (indent : Option Nat) (m : ScopeMetrics) (s : Str) (h : scopeMetricsText F indent m = some s) :
    Writes F indent (ScopeMetricsDoc m) s := by
  unfold scopeMetricsText at h
  rw [Option.bind_eq_bind, Option.bind_eq_some_iff] at h
  obtain ⟨sc, hsc, h⟩ := h
  rw [Option.bind_eq_bind, Option.bind_eq_some_iff] at h
  obtain ⟨ms, hms, h⟩ := h
  injection h with h
  subst h
  exact ⟨_, rfl, ⟨sc, rfl, one_doc F indent _ _ (scope_doc F indent m.scope) sc hsc⟩,
    ⟨ms, rfl, reread_doc F indent _ _ (metric_doc F indent) _ _ hms⟩, rfl⟩

theorem resourceMetrics_doc (F : Floats) (indent : Option Nat) (m : ResourceMetrics) (s : Str) (h : resourceMetricsText F indent m = some s) :
    Writes F indent (ResourceMetricsDoc m) s := by
  unfold resourceMetricsText at h
  rw [Option.bind_eq_bind, Option.bind_eq_some_iff] at h
  obtain ⟨rs, hrs, h⟩ := h
  rw [Option.bind_eq_bind, Option.bind_eq_some_iff] at h
  obtain ⟨ss, hss, h⟩ := h
  injection h with h
  subst h
  exact ⟨_, rfl, ⟨rs, rfl, one_doc F indent _ _ (resource_writes F indent m.resource) rs hrs⟩,
    ⟨ss, rfl, reread_doc F indent _ _ (scopeMetrics_doc F indent) _ _ hss⟩, rfl⟩

/-- **C89** What `metrics_data.to_json` returns is JSON, and reading it shows every resource, scope, metric, data point and exemplar in order with its
values, although each level was written and read again on the way. -/
theorem C89_metrics (F : Floats) (indent : Option Nat) (d : List ResourceMetrics) (text : Str) (h : metricsDataText F indent d = some text) :
    ∃ doc js, loads F text = some doc ∧ field "resource_metrics" doc = some (.arr js) ∧ List.Forall₂ ResourceMetricsDoc d js := by
  simp only [metricsDataText, Option.map_eq_some_iff] at h
  obtain ⟨js, hj, rfl⟩ := h
  exact ⟨_, js, loads_dumps _ _ _, rfl, reread_doc F indent _ _ (resourceMetrics_doc F indent) _ _ hj⟩

/-- **C89** `metrics_data.to_json` raises exactly if some attribute value — of a resource, a scope, a data point or an exemplar — is not a JSON value (or the
data of a metric is of no known kind). -/
theorem C89_metrics_raises_iff (F : Floats) (indent : Option Nat) (d : List ResourceMetrics) :
    metricsDataText F indent d = none ↔ ∃ r ∈ d, OddPair r.resource.attrs ∨ ∃ s ∈ r.scopes, OddPair s.scope.attrs ∨ ∃ m ∈ s.metrics,
      match m.data with
      | .gauge pts | .sum _ _ pts => ∃ p ∈ pts, OddPair p.head.attrs ∨ ∃ e ∈ p.head.exemplars, OddPair e.attrs
      | .histogram _ pts => ∃ p ∈ pts, OddPair p.head.attrs ∨ ∃ e ∈ p.head.exemplars, OddPair e.attrs
      | .exponential _ pts => ∃ p ∈ pts, OddPair p.head.attrs ∨ ∃ e ∈ p.head.exemplars, OddPair e.attrs
      | .other => True := by
  have hm : ∀ {α : Type} (f : α → Option J) (l : List α), (l.mapM f = none ↔ ∃ x ∈ l, f x = none) := by
    intro α f l
    have := OcExporter.mapM_isSome f l
    rw [← Option.not_isSome_iff_eq_none, this]
    simp
  have hb : ∀ {P : J → Prop} (t : Option Str), (∀ s, t = some s → Writes F indent P s) → (t.bind (loads F) = none ↔ t = none) := by
    intro P t ht
    cases t with
    | none => simp
    | some s =>
      obtain ⟨doc, rfl, _⟩ := ht s rfl
      simp [loads_dumps]
  have hr : ∀ {α : Type} {P : α → J → Prop} (text : α → Option Str) (l : List α), (∀ x s, text x = some s → Writes F indent (P x) s) →
      (reread F text l = none ↔ ∃ x ∈ l, text x = none) := by
    intro α P text l h
    unfold reread
    rw [hm]
    constructor
    · rintro ⟨x, hx, e⟩; exact ⟨x, hx, (hb _ (h x)).1 e⟩
    · rintro ⟨x, hx, e⟩; exact ⟨x, hx, (hb _ (h x)).2 e⟩
  have hex : ∀ l : List SdkExemplar, (l.mapM exemplarJ = none ↔ ∃ e ∈ l, OddPair e.attrs) := by
    intro l; rw [hm]; simp only [exemplarJ, Option.map_eq_none_iff, attrsJ_none]
  have two : ∀ {α β γ : Type} (a : Option α) (b : Option β) (f : α → β → γ), ((a >>= fun x => b >>= fun y => some (f x y)) = none ↔ a = none ∨ b = none) := by
    intro α β γ a b f; cases a <;> cases b <;> simp
  have hn : ∀ p, (numberText F indent p = none ↔ OddPair p.head.attrs ∨ ∃ e ∈ p.head.exemplars, OddPair e.attrs) := by
    intro p; unfold numberText; rw [two, attrsJ_none, hex]
  have hh : ∀ p, (histText F indent p = none ↔ OddPair p.head.attrs ∨ ∃ e ∈ p.head.exemplars, OddPair e.attrs) := by
    intro p; unfold histText; rw [two, attrsJ_none, hex]
  have he : ∀ p, (expText F indent p = none ↔ OddPair p.head.attrs ∨ ∃ e ∈ p.head.exemplars, OddPair e.attrs) := by
    intro p; unfold expText; rw [two, attrsJ_none, hex]
  have hsc : ∀ s, (scopeText F indent s = none ↔ OddPair s.attrs) := by
    intro s
    rw [← attrsJ_none]
    simp only [scopeText, Option.map_eq_none_iff, attrsOrNull]
    cases s.attrs <;> simp [attrsJ, pairsJ]
  unfold metricsDataText
  rw [Option.map_eq_none_iff, hr _ _ (resourceMetrics_doc F indent)]
  refine exists_congr fun r => and_congr_right fun _ => ?_
  unfold resourceMetricsText
  rw [two, hb _ (resource_writes F indent r.resource), hr _ _ (scopeMetrics_doc F indent)]
  refine or_congr (by simp [resourceText, attrsJ_none]) (exists_congr fun s => and_congr_right fun _ => ?_)
  unfold scopeMetricsText
  rw [two, hb _ (scope_doc F indent s.scope), hr _ _ (metric_doc F indent)]
  refine or_congr (hsc _) (exists_congr fun m => and_congr_right fun _ => ?_)
  unfold metricText
  rw [Option.map_eq_none_iff, hb _ (data_doc F indent m.data)]
  cases m.data with
  | gauge pts => simp only [dataText, Option.map_eq_none_iff]; rw [hr _ _ (number_doc F indent)]; simp only [hn]
  | sum t m pts => simp only [dataText, Option.map_eq_none_iff]; rw [hr _ _ (number_doc F indent)]; simp only [hn]
  | histogram t pts => simp only [dataText, Option.map_eq_none_iff]; rw [hr _ _ (hist_doc F indent)]; simp only [hh]
  | exponential t pts => simp only [dataText, Option.map_eq_none_iff]; rw [hr _ _ (exp_doc F indent)]; simp only [he]
  | other => simp [dataText]

/-- **C89** `resource.to_json` and `scope.to_json` return JSON that shows the resource and the scope. -/
theorem C89_resource_and_scope (F : Floats) (indent : Option Nat) (r : Res) (sc : Scope) :
    (∀ text, resourceText F indent r = some text → ∃ doc, loads F text = some doc ∧ ResourceDoc r doc) ∧
    (∀ text, scopeText F indent sc = some text → ∃ doc, loads F text = some doc ∧ ScopeDoc sc doc) := by
  constructor
  · intro text h
    obtain ⟨doc, rfl, hd⟩ := resource_writes F indent r text h
    exact ⟨doc, loads_dumps _ _ _, hd⟩
  · intro text h
    obtain ⟨doc, rfl, hd⟩ := scope_doc F indent sc text h
    exact ⟨doc, loads_dumps _ _ _, hd⟩

/-! ## Attributes the SDK stores -/

/-- A stored attribute value as a Python object. -/
def atomPy : Atom → PyVal
  | .none => .none
  | .bool b => .bool b
  | .int i _ => .int i
  | .float f _ => .float f
  | .str s _ => .str s
  | .bytes b _ => .bytes b
  | .other n => .other n

def valPy : Val → PyVal
  | .atom a => atomPy a
  | .seq l => .seq (l.map atomPy)

/-- **C89** No attribute collection of the SDK — whatever was put into it — has a value that `to_json` cannot write. -/
theorem C89_stored_attributes (maxlen limit : Option Nat) (ops : List BAttrs.Op) :
    ¬ OddPair ((ops.foldl BAttrs.step (BAttrs.empty maxlen limit)).d.map fun kv => (kv.1, valPy kv.2)) := by
  have h := BAttrs.C15_stored_valid maxlen limit ops
  generalize (ops.foldl BAttrs.step (BAttrs.empty maxlen limit)).d = d at h
  have at_ok : ∀ a : Atom, ValidScalar limit a ∨ a = .none → ¬ Odd (atomPy a) := by
    intro a ha
    cases a <;> simp_all [ValidScalar, atomPy, Odd]
  have v_ok : ∀ v : Val, ValidStored limit v → ¬ Odd (valPy v) := by
    intro v hv
    cases v with
    | atom a => exact at_ok a (.inl hv)
    | seq l =>
      obtain ⟨t, hl⟩ := hv
      simp only [valPy, Odd]
      induction l with
      | nil => simp [OddItem]
      | cons a l ih =>
        simp only [List.map_cons, OddItem]
        rintro (h1 | h1)
        · refine at_ok a ?_ h1
          rcases hl a (by simp) with h | h
          · exact .inr h
          · exact .inl h.1
        · exact ih (fun x hx => hl x (by simp [hx])) h1
  induction d with
  | nil => simp [OddPair]
  | cons kv d ih =>
    simp only [List.map_cons, OddPair]
    rintro (h1 | h1)
    · exact v_ok _ (h kv (by simp)).2 h1
    · exact ih (fun x hx => h x (by simp [hx])) h1

/-! ## Console exporters -/

/-- The documents can be read off the stream one after the other. -/
inductive ReadsAll (F : Floats) : Str → List J → Prop
  | done (s : Str) (h : Blank s) : ReadsAll F s []
  | next (s r : Str) (fuel : Nat) (j : J) (js : List J) (h : readValue F fuel s = some (j, r)) (t : ReadsAll F r js) : ReadsAll F s (j :: js)

/-- **C89** `export` writes the texts of the items in order, each followed by the line separator, and succeeds if none raises. If one raises, so does
`export`: the items before it have been written, it and the rest have not. -/
theorem C89_console {α : Type} (linesep : Str) (text : α → Option Str) (items : List α) :
    (∀ x ∈ items, (text x).isSome) ∧ consoleExport linesep text items = (items.flatMap fun x => (text x).getD [] ++ linesep, true) ∨
    ∃ pre x post, items = pre ++ x :: post ∧ (∀ y ∈ pre, (text y).isSome) ∧ text x = none ∧
      consoleExport linesep text items = (pre.flatMap fun x => (text x).getD [] ++ linesep, false) := by
  induction items with
  | nil => left; simp [consoleExport]
  | cons x l ih =>
    cases hx : text x with
    | none => right; exact ⟨[], x, l, rfl, by simp, hx, by simp [consoleExport, hx]⟩
    | some s =>
      rcases ih with ⟨h1, h2⟩ | ⟨pre, y, post, e, h1, h2, h3⟩
      · left
        refine ⟨?_, ?_⟩
        · intro y hy
          rcases List.mem_cons.1 hy with rfl | hy
          · rw [hx]; rfl
          · exact h1 y hy
        · simp [consoleExport, hx, h2]
      · right
        refine ⟨x :: pre, y, post, by rw [e]; rfl, ?_, h2, ?_⟩
        · intro z hz
          rcases List.mem_cons.1 hz with rfl | hz
          · rw [hx]; rfl
          · exact h1 z hz
        · simp [consoleExport, hx, h3]

/-- **C89** What the console span exporter wrote for a batch can be read back document by document, each showing its span. -/
theorem C89_console_spans (F : Floats) (iso : Nat → Option Str) (indent : Option Nat) (linesep : Str) (hsep : linesep = ['\n'] ∨ linesep = ['\r', '\n'])
    (batch : List (Res × SdkSpan)) (out : Str)
    (h : consoleExport linesep (fun p => spanText F iso indent p.1 p.2) batch = (out, true)) :
    ∃ docs, ReadsAll F out docs ∧ List.Forall₂ (fun p doc => SpanDoc iso p.1 p.2 doc) batch docs := by
  have hb : Blank linesep ∧ ∃ c r, linesep = c :: r ∧ numChar c = false := by
    rcases hsep with rfl | rfl
    · exact ⟨by intro c hc; simp at hc; subst hc; decide, _, _, rfl, by decide⟩
    · exact ⟨by intro c hc; simp at hc; rcases hc with rfl | rfl <;> decide, _, _, rfl, by decide⟩
  obtain ⟨hbl, c, r, hc, hn⟩ := hb
  have key : ∀ (batch : List (Res × SdkSpan)) (out w : Str), Blank w →
      consoleExport linesep (fun p => spanText F iso indent p.1 p.2) batch = (out, true) →
      ∃ docs, ReadsAll F (w ++ out) docs ∧ List.Forall₂ (fun p doc => SpanDoc iso p.1 p.2 doc) batch docs := by
    intro batch
    induction batch with
    | nil =>
      intro out w hw h
      simp only [consoleExport, Prod.mk.injEq, and_true] at h
      subst h
      exact ⟨[], .done _ (by simpa using hw), .nil⟩
    | cons p l ih =>
      intro out w hw h
      simp only [consoleExport] at h
      split at h
      · simp at h
      · rename_i s hs
        obtain ⟨doc, rfl, hd⟩ := spanText_doc F iso indent p.1 p.2 s hs
        rw [Prod.mk.injEq] at h
        obtain ⟨docs, h1, h2⟩ := ih (consoleExport linesep (fun p => spanText F iso indent p.1 p.2) l).1 linesep hbl (by rw [← h.2])
        refine ⟨doc :: docs, ?_, .cons hd h2⟩
        rw [← h.1]
        have := readValue_write F indent doc 0 (need doc) w (linesep ++ (consoleExport linesep (fun p => spanText F iso indent p.1 p.2) l).1) hw
          (by intro d hd; rw [hc] at hd; simp at hd; subst hd; exact hn) (Nat.le_refl _)
        refine .next _ _ (need doc) doc docs ?_ h1
        rw [← this]
        simp only [List.append_assoc]
        rfl
  obtain ⟨docs, h1, h2⟩ := key batch out [] (by intro c hc; simp at hc) h
  exact ⟨docs, by simpa using h1, h2⟩

/-! ## Witnesses -/

/-- Floats that are whole numbers, written with `.0`: one way to meet the assumptions on floats. -/
def demoFloats : Floats where
  repr n := decimal n ++ ".0".toList
  parse s := if s.drop (s.length - 2) = ".0".toList then (readInt (s.take (s.length - 2))).map Int.toNat else none
  parse_repr n := by simp [readInt_decimal]
  chars n := by
    intro c hc
    rcases List.mem_append.1 hc with hc | hc
    · exact decimal_chars _ c hc
    · have : ∀ c ∈ ".0".toList, numChar c = true := by decide
      exact this c hc
  not_int n := by
    have part : ∀ s : Str, isIntPart (s ++ ".0".toList) = false := by
      intro s
      unfold isIntPart
      rw [Bool.and_eq_false_iff]; left
      rw [Bool.eq_false_iff]
      intro h
      rw [List.all_eq_true] at h
      exact absurd (h '.' (by simp)) (by decide)
    unfold readInt
    split
    · rename_i r e
      have : ∃ s, r = s ++ ".0".toList := by
        obtain ⟨c, d, h, _⟩ := decimal_head n
        rw [h] at e
        injection e with _ e
        exact ⟨d, e.symm⟩
      obtain ⟨s, rfl⟩ := this
      rw [part]; rfl
    · rw [part]; rfl
  head n := by
    obtain ⟨c, r, h, hc⟩ := decimal_head n
    exact ⟨c, r ++ ".0".toList, by rw [h]; rfl, hc⟩

def demoIso (n : Nat) : Option Str := some ("t".toList ++ decimal n)

def demoSpan : SdkSpan :=
  { ctx := ⟨26, 5, false, 1, [("k".toList, "v".toList)]⟩, parent := some ⟨26, 7, true, 1, []⟩, name := "a\"é".toList, kind := .server,
    start := some 3, finish := none, attrs := [("x".toList, .int (-12)), ("y".toList, .seq [.float 4, .none])], events := [⟨"e".toList, 8, [], 0⟩],
    links := [⟨⟨1, 2, false, 0, []⟩, [], 0⟩], status := 2, description := some "bad".toList, droppedAttrs := 0, droppedEvents := 0, droppedLinks := 0 }

/-- `C89_span` and `C89_console_spans` are about texts such as this one. -/
example : (spanText demoFloats demoIso none ⟨[("s".toList, .bool true)], []⟩ demoSpan).isSome = true := by
  rw [← Option.not_isNone, Bool.not_eq_true', Option.isNone_eq_false_iff, Option.isSome_iff_ne_none, ne_eq, C89_span_raises_iff]
  simp [demoSpan, demoIso, OddPair, Odd, OddItem]

/-- A document, as it is written without and with indentation. -/
example : dumps demoFloats none (.obj [("x".toList, .arr [.int (-12), .float 4]), ("é".toList, .null)]) = "{\"x\": [-12, 4.0], \"\\u00e9\": null}".toList ∧
    dumps demoFloats (some 1) (.arr [.bool true, .obj []]) = "[\n true,\n {}\n]".toList := by decide

/-- A log record with a body of bytes meets `C89_log_raises_iff`; one that is shown meets `C89_log`. -/
example : (logText demoFloats demoIso (some 2) ⟨[], []⟩ ⟨some 1, some 2, none, some 9, some 1, none, some 9, .map [("m".toList, .seq [])], [], 3⟩).isSome = true ∧
    (logText demoFloats demoIso (some 2) ⟨[], []⟩ ⟨some 1, some 2, none, none, none, none, none, .bytes [1], [], 0⟩).isNone = true := by
  rw [← Option.not_isNone, Bool.not_eq_true', Option.isNone_eq_false_iff, Option.isSome_iff_ne_none, ne_eq, C89_log_raises_iff, Option.isNone_iff_eq_none,
    C89_log_raises_iff]
  simp [demoIso, OddPair, Odd, OddItem]

/-- Metrics meet `C89_metrics`. -/
example : (metricsDataText demoFloats (some 4) [⟨⟨[("s".toList, .int 1)], []⟩, [⟨⟨"n".toList, none, [], []⟩,
    [⟨"m".toList, [], [], .sum 2 true [⟨⟨[("k".toList, .str "v".toList)], 1, 2, [⟨[], .float 3, 4, none, some 5⟩]⟩, .int 7⟩]⟩], []⟩], []⟩]).isSome = true := by
  rw [← Option.not_isNone, Bool.not_eq_true', Option.isNone_eq_false_iff, Option.isSome_iff_ne_none, ne_eq, C89_metrics_raises_iff]
  simp [OddPair, Odd]

end ToJson
end Otel
