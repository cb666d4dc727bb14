import Verif.Model.Propagate
import Verif.Props.B3Jaeger
import Verif.Props.Configuration
/-!
# C82: the configured propagators
-/
namespace Otel
namespace Propagate
open Composite (Writes lastWrite C13_inject_last_wins)
open Config (Item item_strip item_comma)

/-! ## Loading -/

/-- **C82** `OTEL_PROPAGATORS` is a comma-separated list: the propagators registered under the names, without the white space around them, in order;
the import raises exactly if one of the names is not registered (or cannot be loaded). -/
theorem C82_load {P : Type} (registry : Str → Option P) (items : List Item) (hi : ∀ i ∈ items, i.WF) (hne : items ≠ []) :
    (∀ ps, load registry (some (joinS [','] (items.map Item.text))) = some ps ↔ items.map (fun i => registry i.name) = ps.map some) ∧
    (load registry (some (joinS [','] (items.map Item.text))) = none ↔ ∃ i ∈ items, registry i.name = none) := by
  have hsplit : splitC ',' (joinS [','] (items.map Item.text)) = items.map Item.text := by
    apply splitC_joinS
    · intro p hp
      obtain ⟨i, hi', rfl⟩ := List.mem_map.mp hp
      exact item_comma i (hi i hi')
    · simpa using hne
  have e : load registry (some (joinS [','] (items.map Item.text))) = items.mapM fun i => registry i.name := by
    unfold load
    rw [Option.getD_some, hsplit, List.mapM_map]
    clear hne hsplit
    induction items with
    | nil => rfl
    | cons i items ih =>
      rw [List.mapM_cons, List.mapM_cons, ih (fun x hx => hi x (by simp [hx]))]
      simp only [Function.comp]
      rw [item_strip i (hi i (by simp))]
  rw [e]
  clear e hsplit hne hi
  induction items with
  | nil =>
    constructor
    · intro ps
      cases ps <;> simp
    · simp
  | cons i items ih =>
    rw [List.mapM_cons]
    cases hr : registry i.name with
    | none =>
      constructor
      · intro ps; cases ps <;> simp [hr]
      · simp [hr]
    | some p =>
      constructor
      · intro ps
        cases hm : (items.mapM fun i => registry i.name) with
        | none =>
          rw [hm] at ih
          cases ps with
          | nil => simp
          | cons q qs =>
            have := ih.1 qs
            simp only [reduceCtorEq, false_iff] at this
            simp [hr, this]
        | some l =>
          rw [hm] at ih
          cases ps with
          | nil => simp [hr]
          | cons q qs =>
            have := ih.1 qs
            simp only [Option.some.injEq] at this
            simp [hr, this]
      · cases hm : (items.mapM fun i => registry i.name) with
        | none => rw [hm] at ih; simpa [hr] using ih.2
        | some l => rw [hm] at ih; simpa [hr] using ih.2

/-- **C82** Without the variable: `tracecontext` and `baggage`, as in C13. -/
theorem C82_default (U : DigitTable) (parent : Int) : load registered none = some [.tracecontext, .baggage] ∧
    [Builtin.tracecontext, .baggage].map (Builtin.prop U parent) = [Composite.w3cTrace, Composite.w3cBaggage] := ⟨by decide, rfl⟩

/-- **C82** violated: an empty value is not "unset", and `none` is not a name (the specification's way to switch propagation off): with either,
importing the module raises. -/
theorem C82_empty_or_none_raises_violated : load registered (some []) = none ∧ load registered (some "none".toList) = none := by decide

example : load registered (some "b3, tracecontext".toList) = some [.b3, .tracecontext] := by decide

/-- The documented name of each propagator. -/
def name : Builtin → String
  | .tracecontext => "tracecontext"
  | .baggage => "baggage"
  | .b3 => "b3"
  | .b3multi => "b3multi"
  | .jaeger => "jaeger"

theorem registered_name (b : Builtin) : registered (name b).toList = some b := by cases b <;> decide

/-- **C82 (the documented names).** For every list of propagators, configuring their names in that order — separated by commas, with any spaces around
them — loads exactly these propagators in that order; a list with any other name raises. -/
theorem C82_names (items : List Item) (hi : ∀ i ∈ items, i.WF) (hne : items ≠ []) :
    (∀ ps : List Builtin, load registered (some (joinS [','] (items.map Item.text))) = some ps ↔
      items.map (fun i => i.name) = ps.map fun b => (name b).toList) ∧
    (load registered (some (joinS [','] (items.map Item.text))) = none ↔ ∃ i ∈ items, ∀ b, i.name ≠ (name b).toList) := by
  have inv : ∀ n b, registered n = some b ↔ n = (name b).toList := by
    intro n b
    constructor
    · intro h
      unfold registered at h
      split at h
      · injection h with h; subst h; assumption
      split at h
      · injection h with h; subst h; assumption
      split at h
      · injection h with h; subst h; assumption
      split at h
      · injection h with h; subst h; assumption
      split at h
      · injection h with h; subst h; assumption
      · cases h
    · rintro rfl; exact registered_name b
  obtain ⟨h1, h2⟩ := C82_load registered items hi hne
  constructor
  · intro ps
    rw [h1]
    clear h1 h2 hi hne
    induction items generalizing ps with
    | nil => cases ps <;> simp
    | cons i items ih =>
      cases ps with
      | nil => simp
      | cons p ps =>
        simp only [List.map_cons, List.cons.injEq, inv]
        rw [ih]
  · rw [h2]
    constructor
    · rintro ⟨i, hm, h⟩
      exact ⟨i, hm, fun b e => by rw [e, registered_name] at h; cases h⟩
    · rintro ⟨i, hm, h⟩
      refine ⟨i, hm, ?_⟩
      cases e : registered i.name with
      | none => rfl
      | some b => exact absurd ((inv _ _).mp e) (h b)

/-! ## What a client sends, a server reads -/

/-- The headers a propagator writes for a context with this span. -/
def writes (parent : Int) (ctx : Ctx) (b : Builtin) : List (Str × Str) :=
  let sc := ctx.currentSpan
  match b with
  | .tracecontext => if sc = SpanContext.invalid then [] else
      if sc.traceState ≠ [] then [(TraceContext.traceparentName, TraceContext.traceparent sc),
        (TraceContext.tracestateName, TraceState.toHeader sc.traceState)]
      else [(TraceContext.traceparentName, TraceContext.traceparent sc)]
  | .baggage => if (Baggage.getAll ctx).isEmpty then [] else [(Baggage.headerName, Baggage.format (Baggage.getAll ctx))]
  | .b3 => if sc = SpanContext.invalid then [] else
      [(B3.singleKey, joinS ['-'] [formatTraceId sc.traceId, formatSpanId sc.spanId, B3.sampledText sc])]
  | .b3multi => if sc = SpanContext.invalid then [] else
      [(B3.traceIdKey, formatTraceId sc.traceId), (B3.spanIdKey, formatSpanId sc.spanId), (B3.sampledKey, B3.sampledText sc)]
  | .jaeger => if sc = SpanContext.invalid then [] else
      (Jaeger.traceIdKey, Jaeger.formatHeader sc parent) :: (Baggage.getAll ctx).map fun kv => (Jaeger.prefixText ++ kv.1, Url.quote kv.2)

theorem prop_writes (U : DigitTable) (parent : Int) (b : Builtin) : Writes (b.prop U parent) (fun ctx => writes parent ctx b) := by
  cases b with
  | tracecontext => exact Composite.w3cTrace_writes
  | baggage => exact Composite.w3cBaggage_writes
  | b3 =>
    intro carrier ctx
    simp only [Builtin.prop, B3.injectSingle, writes]
    split <;> rfl
  | b3multi =>
    intro carrier ctx
    simp only [Builtin.prop, B3.injectMulti, writes]
    split <;> rfl
  | jaeger =>
    intro carrier ctx
    simp only [Builtin.prop, Jaeger.inject, writes]
    split
    · rfl
    · rw [List.foldl_cons, List.foldl_map]

theorem get_inject (U : DigitTable) (parent : Int) (ps : List Builtin) (ctx : Ctx) (k : Str) :
    (inject U parent ps [] ctx).get k = (lastWrite k (ps.flatMap (writes parent ctx))).map fun v => [v] := by
  have h := C13_inject_last_wins (ps.map fun b => (b.prop U parent, fun ctx => writes parent ctx b))
    (by intro x hx; obtain ⟨b, _, rfl⟩ := List.mem_map.mp hx; exact prop_writes U parent b) [] ctx k
  rw [List.map_map, List.flatMap_map] at h
  unfold inject
  rw [show (Prod.fst ∘ fun b => (Builtin.prop U parent b, fun ctx => writes parent ctx b)) = Builtin.prop U parent from rfl] at h
  rw [h]
  cases lastWrite k (ps.flatMap (writes parent ctx)) <;> rfl

theorem lastWrite_none (k : Str) (ws : List (Str × Str)) (h : ∀ kv ∈ ws, kv.1 ≠ k) : lastWrite k ws = none := by
  unfold lastWrite
  rw [List.filter_eq_nil_iff.mpr]
  · rfl
  · intro kv hkv; simpa using h kv hkv

theorem lastWrite_const (k v : Str) (ws : List (Str × Str)) (h : ∀ kv ∈ ws, kv.1 = k → kv.2 = v) (hm : ∃ kv ∈ ws, kv.1 = k) :
    lastWrite k ws = some v := by
  unfold lastWrite
  cases hl : (ws.filter fun kv => kv.1 = k).getLast? with
  | none =>
    obtain ⟨kv, h1, h2⟩ := hm
    have : kv ∈ ws.filter fun kv => kv.1 = k := List.mem_filter.mpr ⟨h1, by simpa using h2⟩
    rw [List.getLast?_eq_none_iff] at hl
    rw [hl] at this; cases this
  | some kv =>
    have := List.mem_of_getLast? hl
    obtain ⟨h1, h2⟩ := List.mem_filter.mp this
    simp only [Option.map_some, Option.some.injEq]
    exact h kv h1 (by simpa using h2)

/-- The propagator that writes a fixed key, if any. -/
def owner (k : Str) : Option Builtin :=
  if k = TraceContext.traceparentName ∨ k = TraceContext.tracestateName then some .tracecontext
  else if k = Baggage.headerName then some .baggage
  else if k = B3.singleKey then some .b3
  else if k = B3.traceIdKey ∨ k = B3.spanIdKey ∨ k = B3.sampledKey then some .b3multi
  else if k = Jaeger.traceIdKey then some .jaeger
  else none

theorem writes_owner (parent : Int) (ctx : Ctx) (b : Builtin) (kv : Str × Str) (h : kv ∈ writes parent ctx b) :
    owner kv.1 = some b ∨ (b = .jaeger ∧ ∃ x, kv.1 = Jaeger.prefixText ++ x) := by
  cases b with
  | tracecontext =>
    left
    simp only [writes] at h
    split at h
    · cases h
    split at h
    · simp only [List.mem_cons, List.not_mem_nil, or_false] at h
      rcases h with rfl | rfl <;> rfl
    · simp only [List.mem_cons, List.not_mem_nil, or_false] at h
      rcases h with rfl; rfl
  | baggage =>
    left
    simp only [writes] at h
    split at h
    · cases h
    · simp only [List.mem_cons, List.not_mem_nil, or_false] at h
      rcases h with rfl; rfl
  | b3 =>
    left
    simp only [writes] at h
    split at h
    · cases h
    · simp only [List.mem_cons, List.not_mem_nil, or_false] at h
      rcases h with rfl; rfl
  | b3multi =>
    left
    simp only [writes] at h
    split at h
    · cases h
    · simp only [List.mem_cons, List.not_mem_nil, or_false] at h
      rcases h with rfl | rfl | rfl <;> rfl
  | jaeger =>
    simp only [writes] at h
    split at h
    · cases h
    · rcases List.mem_cons.mp h with rfl | h
      · left; rfl
      · right
        obtain ⟨x, _, rfl⟩ := List.mem_map.mp h
        exact ⟨rfl, _, rfl⟩

theorem prefix_not (k x : Str) (h : Jaeger.prefixText.isPrefixOf k = false) : Jaeger.prefixText ++ x ≠ k := by
  intro e
  rw [← e] at h
  have : Jaeger.prefixText.isPrefixOf (Jaeger.prefixText ++ x) = true := by
    rw [List.isPrefixOf_iff_prefix]; exact List.prefix_append _ _
  rw [this] at h; cases h

/-- A fixed key holds what its owner writes, if the owner is configured. -/
theorem get_key (U : DigitTable) (parent : Int) (ps : List Builtin) (ctx : Ctx) (k : Str) (b : Builtin) (ho : owner k = some b)
    (hp : Jaeger.prefixText.isPrefixOf k = false) :
    (inject U parent ps [] ctx).get k = if b ∈ ps then (inject U parent [b] [] ctx).get k else none := by
  have hown : ∀ c kv, kv ∈ writes parent ctx c → kv.1 = k → c = b := by
    intro c kv h e
    rcases writes_owner parent ctx c kv h with h2 | ⟨_, x, h2⟩
    · rw [e, ho] at h2; injection h2 with h2; exact h2.symm
    · exact absurd (h2.symm.trans e) (prefix_not k x hp)
  rw [get_inject, get_inject, List.flatMap_singleton]
  by_cases hb : b ∈ ps
  · rw [if_pos hb]
    by_cases hw : ∃ kv ∈ writes parent ctx b, kv.1 = k
    · obtain ⟨kv, h1, h2⟩ := hw
      have huniq : ∀ kv' ∈ writes parent ctx b, kv'.1 = k → kv'.2 = kv.2 := by
        intro kv' h1' h2'
        have hpfx : ∀ x : Str × Str, (Jaeger.prefixText ++ x.1, Url.quote x.2).1 ≠ k := fun x => prefix_not k x.1 hp
        cases b with
        | tracecontext =>
          simp only [writes] at h1 h1'
          split at h1
          · cases h1
          rename_i hinv
          rw [if_neg hinv] at h1'
          split at h1
          · rename_i hts
            rw [if_pos hts] at h1'
            simp only [List.mem_cons, List.not_mem_nil, or_false] at h1 h1'
            rcases h1 with rfl | rfl <;> rcases h1' with rfl | rfl
            · rfl
            · exact absurd (h2.trans h2'.symm) (show ¬ TraceContext.traceparentName = TraceContext.tracestateName by decide)
            · exact absurd (h2.trans h2'.symm) (show ¬ TraceContext.tracestateName = TraceContext.traceparentName by decide)
            · rfl
          · rename_i hts
            rw [if_neg hts] at h1'
            simp only [List.mem_cons, List.not_mem_nil, or_false] at h1 h1'
            rw [h1, h1']
        | baggage =>
          simp only [writes] at h1 h1'
          split at h1
          · cases h1
          rename_i hinv
          rw [if_neg hinv] at h1'
          simp only [List.mem_cons, List.not_mem_nil, or_false] at h1 h1'
          rw [h1, h1']
        | b3 =>
          simp only [writes] at h1 h1'
          split at h1
          · cases h1
          rename_i hinv
          rw [if_neg hinv] at h1'
          simp only [List.mem_cons, List.not_mem_nil, or_false] at h1 h1'
          rw [h1, h1']
        | b3multi =>
          simp only [writes] at h1 h1'
          split at h1
          · cases h1
          rename_i hinv
          rw [if_neg hinv] at h1'
          simp only [List.mem_cons, List.not_mem_nil, or_false] at h1 h1'
          rcases h1 with rfl | rfl | rfl <;> rcases h1' with rfl | rfl | rfl <;>
            first
              | rfl
              | exact absurd (h2.trans h2'.symm) (show ¬ B3.traceIdKey = B3.spanIdKey by decide)
              | exact absurd (h2.trans h2'.symm) (show ¬ B3.traceIdKey = B3.sampledKey by decide)
              | exact absurd (h2.trans h2'.symm) (show ¬ B3.spanIdKey = B3.traceIdKey by decide)
              | exact absurd (h2.trans h2'.symm) (show ¬ B3.spanIdKey = B3.sampledKey by decide)
              | exact absurd (h2.trans h2'.symm) (show ¬ B3.sampledKey = B3.traceIdKey by decide)
              | exact absurd (h2.trans h2'.symm) (show ¬ B3.sampledKey = B3.spanIdKey by decide)
        | jaeger =>
          simp only [writes] at h1 h1'
          split at h1
          · cases h1
          rename_i hinv
          rw [if_neg hinv] at h1'
          rcases List.mem_cons.mp h1 with rfl | h1
          · rcases List.mem_cons.mp h1' with rfl | h1'
            · rfl
            · obtain ⟨x, _, rfl⟩ := List.mem_map.mp h1'
              exact absurd h2' (hpfx x)
          · obtain ⟨x, _, rfl⟩ := List.mem_map.mp h1
            exact absurd h2 (hpfx x)
      rw [lastWrite_const k kv.2, lastWrite_const k kv.2 _ huniq ⟨kv, h1, h2⟩]
      · intro kv' h1' h2'
        obtain ⟨c, hc, hkv⟩ := List.mem_flatMap.mp h1'
        have := hown c kv' hkv h2'
        subst this
        exact huniq kv' hkv h2'
      · exact ⟨kv, List.mem_flatMap.mpr ⟨b, hb, h1⟩, h2⟩
    · rw [lastWrite_none, lastWrite_none]
      · intro kv hkv e
        exact hw ⟨kv, hkv, e⟩
      · intro kv hkv e
        obtain ⟨c, hc, hkv⟩ := List.mem_flatMap.mp hkv
        have := hown c kv hkv e
        subst this
        exact hw ⟨kv, hkv, e⟩
  · rw [if_neg hb, lastWrite_none]
    · rfl
    · intro kv hkv e
      obtain ⟨c, hc, hkv⟩ := List.mem_flatMap.mp hkv
      have := hown c kv hkv e
      subst this
      exact hb hc

/-- The propagators whose headers a propagator reads: the two B3 formats read each other's. -/
def understands : Builtin → Builtin → Bool
  | .tracecontext, .tracecontext => true
  | .b3, .b3 => true
  | .b3, .b3multi => true
  | .b3multi, .b3 => true
  | .b3multi, .b3multi => true
  | .jaeger, .jaeger => true
  | _, _ => false

/-- What arrives: W3C carries everything; the others the ids and the sampling decision. -/
def arrives (sc : SpanContext) : Builtin → SpanContext
  | .tracecontext => { sc with isRemote := true }
  | _ => ⟨sc.traceId, sc.spanId, true, if sc.sampled then 1 else 0, []⟩

/-- The span the server has: of the last of its propagators that reads something the client wrote. -/
def serverSpan (clients servers : List Builtin) (sc before : SpanContext) : SpanContext :=
  match (servers.filter fun q => clients.any fun p => understands q p).getLast? with
  | some q => arrives sc q
  | none => before

section
variable (U : DigitTable) (parent : Int) (ps : List Builtin) (ctx : Ctx)

theorem get_no_empty (k : Str) : (inject U parent ps [] ctx).get k ≠ some [] := by
  rw [get_inject]
  cases lastWrite k (ps.flatMap (writes parent ctx)) <;> simp

theorem get_flags : (inject U parent ps [] ctx).get B3.flagsKey = none := by
  rw [get_inject, lastWrite_none]
  · rfl
  · intro kv hkv e
    obtain ⟨c, hc, hkv⟩ := List.mem_flatMap.mp hkv
    rcases writes_owner parent ctx c kv hkv with h2 | ⟨_, x, h2⟩
    · rw [e] at h2
      exact absurd h2 (by cases c <;> decide)
    · exact prefix_not B3.flagsKey x (by decide) (h2.symm.trans e)

theorem b3_congr (c c' : Carrier) (x : Ctx) (h : ∀ k ∈ [B3.singleKey, B3.traceIdKey, B3.spanIdKey, B3.sampledKey, B3.flagsKey], c.get k = c'.get k) :
    B3.extract U c x = B3.extract U c' x := by
  have hf : ∀ k ∈ [B3.singleKey, B3.traceIdKey, B3.spanIdKey, B3.sampledKey, B3.flagsKey], B3.firstOr c k = B3.firstOr c' k := by
    intro k hk; unfold B3.firstOr; rw [h k hk]
  have : B3.fields c = B3.fields c' := by
    unfold B3.fields
    rw [hf B3.singleKey (by simp), hf B3.traceIdKey (by simp), hf B3.spanIdKey (by simp), hf B3.sampledKey (by simp), hf B3.flagsKey (by simp)]
  unfold B3.extract
  rw [this]

theorem b3_single_congr (c c' : Carrier) (x : Ctx) (v : Str) (hv : v ≠ []) (h : c.get B3.singleKey = some [v]) (h' : c'.get B3.singleKey = some [v]) :
    B3.extract U c x = B3.extract U c' x := by
  have : B3.fields c = B3.fields c' := by
    unfold B3.fields B3.firstOr
    rw [h, h']
    cases v with
    | nil => exact absurd rfl hv
    | cons a b => rfl
  unfold B3.extract
  rw [this]

/-- Extraction by one of the server's propagators. -/
theorem extract_one (sc : SpanContext) (hsc : ctx.currentSpan = sc) (hv : sc.isValid = true) (hf : sc.flags < 256)
    (hts : TraceState.Reachable sc.traceState) (q : Builtin) (c : Ctx) :
    ∃ c', (q.prop U 0).extract (inject U parent ps [] ctx) c = some c' ∧
      c'.currentSpan = if ps.any (fun p => understands q p) then arrives sc q else c.currentSpan := by
  have hne : sc ≠ SpanContext.invalid := by rintro rfl; exact absurd hv (by decide)
  have b3case : ∃ c', some (B3.extract U (inject U parent ps [] ctx) c) = some c' ∧
      c'.currentSpan = if Builtin.b3 ∈ ps ∨ Builtin.b3multi ∈ ps then ⟨sc.traceId, sc.spanId, true, if sc.sampled then 1 else 0, []⟩ else c.currentSpan := by
    refine ⟨_, rfl, ?_⟩
    by_cases h1 : Builtin.b3 ∈ ps
    · rw [if_pos (.inl h1)]
      have g := get_key U parent ps ctx B3.singleKey .b3 rfl (by decide)
      rw [if_pos h1] at g
      have e : inject U parent [.b3] [] ctx = B3.injectSingle [] ctx := rfl
      have gv : (B3.injectSingle [] ctx).get B3.singleKey = some [joinS ['-'] [formatTraceId sc.traceId, formatSpanId sc.spanId, B3.sampledText sc]] := by
        simp only [B3.injectSingle, hsc, hne, if_false, Carrier.get, Carrier.put, Dict.get?_set_self]
      rw [e, gv] at g
      rw [b3_single_congr U _ (B3.injectSingle [] ctx) c _ (by simp [joinS]) g gv, B3.C10_single_roundtrip U [] ctx c sc hsc hv,
        TraceContext.currentSpan_setSpan]
      rfl
    · by_cases h2 : Builtin.b3multi ∈ ps
      · rw [if_pos (.inr h2)]
        have key : ∀ k, owner k = some .b3multi → Jaeger.prefixText.isPrefixOf k = false →
            (inject U parent ps [] ctx).get k = (B3.injectMulti [] ctx).get k := by
          intro k ho hp
          have g := get_key U parent ps ctx k .b3multi ho hp
          rw [if_pos h2] at g
          exact g
        have em : B3.injectMulti [] ctx = ((Carrier.put [] B3.traceIdKey (formatTraceId sc.traceId)).put B3.spanIdKey
            (formatSpanId sc.spanId)).put B3.sampledKey (B3.sampledText sc) := by
          simp only [B3.injectMulti, hsc, hne, if_false]
        have hother : ∀ k, k ≠ B3.traceIdKey → k ≠ B3.spanIdKey → k ≠ B3.sampledKey → (B3.injectMulti [] ctx).get k = none := by
          intro k a1 a2 a3
          rw [em]
          simp only [Carrier.get, Carrier.put]
          rw [Dict.get?_set_ne _ _ (Ne.symm a3), Dict.get?_set_ne _ _ (Ne.symm a2), Dict.get?_set_ne _ _ (Ne.symm a1)]
          rfl
        rw [b3_congr U _ (B3.injectMulti [] ctx) c, B3.C10_multi_roundtrip U [] ctx c sc hsc hv rfl rfl, TraceContext.currentSpan_setSpan]
        · rfl
        · intro k hk
          simp only [List.mem_cons, List.not_mem_nil, or_false] at hk
          rcases hk with rfl | rfl | rfl | rfl | rfl
          · have g := get_key U parent ps ctx B3.singleKey .b3 rfl (by decide)
            rw [if_neg h1] at g
            rw [g, hother _ (by decide) (by decide) (by decide)]
          · exact key _ rfl (by decide)
          · exact key _ rfl (by decide)
          · exact key _ rfl (by decide)
          · rw [get_flags U parent ps ctx, hother _ (by decide) (by decide) (by decide)]
      · rw [if_neg (by tauto)]
        have hnone : ∀ k, (owner k = some .b3 ∨ owner k = some .b3multi) → Jaeger.prefixText.isPrefixOf k = false →
            (inject U parent ps [] ctx).get k = none := by
          intro k ho hp
          rcases ho with ho | ho
          · rw [get_key U parent ps ctx k _ ho hp, if_neg h1]
          · rw [get_key U parent ps ctx k _ ho hp, if_neg h2]
        rw [b3_congr U _ [] c]
        · rfl
        · intro k hk
          simp only [List.mem_cons, List.not_mem_nil, or_false] at hk
          rcases hk with rfl | rfl | rfl | rfl | rfl
          · exact hnone _ (.inl rfl) (by decide)
          · exact hnone _ (.inr rfl) (by decide)
          · exact hnone _ (.inr rfl) (by decide)
          · exact hnone _ (.inr rfl) (by decide)
          · exact get_flags U parent ps ctx
  have hany : ∀ (l : List Builtin) (q : Builtin), l.any (fun p => understands q p) = decide (∃ p ∈ l, understands q p = true) := by
    intro l q
    rw [Bool.eq_iff_iff]; simp
  cases q with
  | baggage =>
    refine ⟨_, rfl, ?_⟩
    rw [Composite.baggage_extract_span, hany]
    have : ¬ ∃ p ∈ ps, understands .baggage p = true := by rintro ⟨p, _, h⟩; cases p <;> cases h
    simp [this]
  | tracecontext =>
    refine ⟨_, rfl, ?_⟩
    rw [hany]
    have hu : (∃ p ∈ ps, understands .tracecontext p = true) ↔ Builtin.tracecontext ∈ ps := by
      constructor
      · rintro ⟨p, hp, h⟩; cases p <;> first | exact hp | cases h
      · intro h; exact ⟨_, h, rfl⟩
    simp only [hu, decide_eq_true_eq]
    by_cases h1 : Builtin.tracecontext ∈ ps
    · rw [if_pos h1]
      have g1 := get_key U parent ps ctx TraceContext.traceparentName .tracecontext rfl (by decide)
      have g2 := get_key U parent ps ctx TraceContext.tracestateName .tracecontext rfl (by decide)
      rw [if_pos h1] at g1 g2
      have e : inject U parent [.tracecontext] [] ctx = TraceContext.inject [] ctx := rfl
      rw [e] at g1 g2
      have : TraceContext.extract (inject U parent ps [] ctx) c = TraceContext.extract (TraceContext.inject [] ctx) c := by
        unfold TraceContext.extract; rw [g1, g2]
      rw [this, TraceContext.C04_inject_extract_roundtrip [] ctx c sc hsc hv hf hts (.inr rfl), TraceContext.currentSpan_setSpan]
      rfl
    · rw [if_neg h1]
      have g1 := get_key U parent ps ctx TraceContext.traceparentName .tracecontext rfl (by decide)
      rw [if_neg h1] at g1
      unfold TraceContext.extract; rw [g1]
  | b3 =>
    obtain ⟨c', e, h⟩ := b3case
    refine ⟨c', e, ?_⟩
    rw [h, hany]
    have hu : (∃ p ∈ ps, understands .b3 p = true) ↔ Builtin.b3 ∈ ps ∨ Builtin.b3multi ∈ ps := by
      constructor
      · rintro ⟨p, hp, h⟩; cases p <;> first | exact .inl hp | exact .inr hp | cases h
      · rintro (h | h)
        · exact ⟨_, h, rfl⟩
        · exact ⟨_, h, rfl⟩
    simp only [hu, decide_eq_true_eq, arrives]
  | b3multi =>
    obtain ⟨c', e, h⟩ := b3case
    refine ⟨c', e, ?_⟩
    rw [h, hany]
    have hu : (∃ p ∈ ps, understands .b3multi p = true) ↔ Builtin.b3 ∈ ps ∨ Builtin.b3multi ∈ ps := by
      constructor
      · rintro ⟨p, hp, h⟩; cases p <;> first | exact .inl hp | exact .inr hp | cases h
      · rintro (h | h)
        · exact ⟨_, h, rfl⟩
        · exact ⟨_, h, rfl⟩
    simp only [hu, decide_eq_true_eq, arrives]
  | jaeger =>
    obtain ⟨c', hc'⟩ := Jaeger.C12_extract_total U (inject U parent ps [] ctx) c (get_no_empty U parent ps ctx)
    refine ⟨c', hc', ?_⟩
    rw [hany]
    have hu : (∃ p ∈ ps, understands .jaeger p = true) ↔ Builtin.jaeger ∈ ps := by
      constructor
      · rintro ⟨p, hp, h⟩; cases p <;> first | exact hp | cases h
      · intro h; exact ⟨_, h, rfl⟩
    simp only [hu, decide_eq_true_eq]
    have g := get_key U parent ps ctx Jaeger.traceIdKey .jaeger rfl (by decide)
    by_cases h1 : Builtin.jaeger ∈ ps
    · rw [if_pos h1] at g ⊢
      have gv : (inject U parent [.jaeger] [] ctx).get Jaeger.traceIdKey = some [Jaeger.formatHeader sc parent] := by
        rw [get_inject, List.flatMap_singleton]
        rw [lastWrite_const Jaeger.traceIdKey (Jaeger.formatHeader sc parent)]
        · rfl
        · intro kv hkv e
          simp only [writes, hsc, hne, if_false] at hkv
          rcases List.mem_cons.mp hkv with rfl | hkv
          · rfl
          · obtain ⟨x, _, rfl⟩ := List.mem_map.mp hkv
            exact absurd e (prefix_not Jaeger.traceIdKey x.1 (by decide))
        · refine ⟨(Jaeger.traceIdKey, Jaeger.formatHeader sc parent), ?_, rfl⟩
          simp only [writes, hsc, hne, if_false]
          exact List.mem_cons_self
      rw [gv] at g
      rw [isValid_iff] at hv
      have hp := Jaeger.parse_format U sc parent (by omega) (by omega)
      simp only [Jaeger.extract, g, hp] at hc'
      cases hb : Jaeger.extractBaggage (inject U parent ps [] ctx) c with
      | none => simp [hb] at hc'
      | some c2 =>
        simp only [hb] at hc'
        rw [if_neg (by omega), Jaeger.outFlags_mod] at hc'
        injection hc' with hc'
        rw [← hc', TraceContext.currentSpan_setSpan]
        simp only [arrives, SpanContext.sampled]
        congr 1
        rcases Nat.mod_two_eq_zero_or_one sc.flags with h | h <;> simp [h]
    · rw [if_neg h1] at g ⊢
      simp only [Jaeger.extract, g] at hc'
      injection hc' with hc'
      rw [hc']

/-- **C82 (interoperation).** Whatever propagators a client and a server are configured with, what the client sends with a fresh carrier never makes the
server raise, and the server's span is the one that the last of its propagators understanding the client read; if none understands the client, it
is the one the server had before. -/
theorem C82_interoperation (qs : List Builtin) (sc : SpanContext) (hsc : ctx.currentSpan = sc) (hv : sc.isValid = true) (hf : sc.flags < 256)
    (hts : TraceState.Reachable sc.traceState) (server : Ctx) :
    ∃ c, extract U qs (inject U parent ps [] ctx) server = some c ∧ c.currentSpan = serverSpan ps qs sc server.currentSpan := by
  unfold extract Composite.extract
  induction qs generalizing server with
  | nil => exact ⟨server, rfl, rfl⟩
  | cons q qs ih =>
    obtain ⟨c1, h1, h2⟩ := extract_one U parent ps ctx sc hsc hv hf hts q server
    obtain ⟨c, h3, h4⟩ := ih c1
    refine ⟨c, ?_, ?_⟩
    · rw [List.map_cons, List.foldlM_cons, h1]
      exact h3
    · rw [h4]
      unfold serverSpan
      rw [List.filter_cons]
      by_cases hq : (ps.any fun p => understands q p) = true
      · rw [if_pos hq] at h2 ⊢
        rw [List.getLast?_cons]
        cases hl : (qs.filter fun q => ps.any fun p => understands q p).getLast? with
        | none => simp [h2]
        | some r => simp
      · rw [if_neg hq] at h2 ⊢
        rw [h2]

end

/-- **C82** If client and server have a propagator of the trace in common (the two B3 formats count as one), the trace goes on: same trace id, span
id and sampling decision, marked remote. -/
theorem C82_trace_continues (U : DigitTable) (parent : Int) (ps qs : List Builtin) (ctx : Ctx) (sc : SpanContext) (hsc : ctx.currentSpan = sc)
    (hv : sc.isValid = true) (hf : sc.flags < 256) (hts : TraceState.Reachable sc.traceState) (server : Ctx)
    (hshare : ∃ p ∈ ps, ∃ q ∈ qs, understands q p = true) :
    ∃ c, extract U qs (inject U parent ps [] ctx) server = some c ∧ c.currentSpan.traceId = sc.traceId ∧ c.currentSpan.spanId = sc.spanId ∧
      c.currentSpan.sampled = sc.sampled ∧ c.currentSpan.isRemote = true := by
  obtain ⟨c, h1, h2⟩ := C82_interoperation U parent ps ctx qs sc hsc hv hf hts server
  refine ⟨c, h1, ?_⟩
  have ha : ∀ b, (arrives sc b).traceId = sc.traceId ∧ (arrives sc b).spanId = sc.spanId ∧ (arrives sc b).sampled = sc.sampled ∧
      (arrives sc b).isRemote = true := by
    intro b
    cases b <;> refine ⟨rfl, rfl, ?_, rfl⟩ <;> simp only [arrives, SpanContext.sampled] <;>
      rcases Nat.mod_two_eq_zero_or_one sc.flags with h | h <;> simp [h]
  rw [h2]
  unfold serverSpan
  cases hl : (qs.filter fun q => ps.any fun p => understands q p).getLast? with
  | some q => exact ha q
  | none =>
    obtain ⟨p, hp, q, hq, hpq⟩ := hshare
    rw [List.getLast?_eq_none_iff] at hl
    have : q ∈ qs.filter fun q => ps.any fun p => understands q p :=
      List.mem_filter.mpr ⟨hq, List.any_eq_true.mpr ⟨p, hp, hpq⟩⟩
    rw [hl] at this; cases this

/-- **C82** Nothing in common: the server's context keeps its span (a new trace begins if it has none). -/
theorem C82_nothing_in_common (U : DigitTable) (parent : Int) (ps qs : List Builtin) (ctx : Ctx) (sc : SpanContext) (hsc : ctx.currentSpan = sc)
    (hv : sc.isValid = true) (hf : sc.flags < 256) (hts : TraceState.Reachable sc.traceState) (server : Ctx)
    (h : ∀ p ∈ ps, ∀ q ∈ qs, understands q p = false) :
    ∃ c, extract U qs (inject U parent ps [] ctx) server = some c ∧ c.currentSpan = server.currentSpan := by
  obtain ⟨c, h1, h2⟩ := C82_interoperation U parent ps ctx qs sc hsc hv hf hts server
  refine ⟨c, h1, ?_⟩
  rw [h2]
  unfold serverSpan
  have : (qs.filter fun q => ps.any fun p => understands q p) = [] := by
    rw [List.filter_eq_nil_iff]
    intro q hq hc
    obtain ⟨p, hp, hpq⟩ := List.any_eq_true.mp hc
    rw [h p hp q hq] at hpq; cases hpq
  rw [this]
  rfl

/-- **C82** Order matters for what is kept besides: with `tracecontext` last among the server's that understand the client, the whole span context
arrives, trace state and flags included. -/
theorem C82_w3c_last (U : DigitTable) (parent : Int) (ps qs : List Builtin) (ctx : Ctx) (sc : SpanContext) (hsc : ctx.currentSpan = sc)
    (hv : sc.isValid = true) (hf : sc.flags < 256) (hts : TraceState.Reachable sc.traceState) (server : Ctx)
    (hp : Builtin.tracecontext ∈ ps) :
    ∃ c, extract U (qs ++ [.tracecontext]) (inject U parent ps [] ctx) server = some c ∧ c.currentSpan = { sc with isRemote := true } := by
  obtain ⟨c, h1, h2⟩ := C82_interoperation U parent ps ctx (qs ++ [.tracecontext]) sc hsc hv hf hts server
  refine ⟨c, h1, ?_⟩
  rw [h2]
  unfold serverSpan
  rw [List.filter_append]
  have : (ps.any fun p => understands .tracecontext p) = true := List.any_eq_true.mpr ⟨_, hp, rfl⟩
  rw [show List.filter (fun q => ps.any fun p => understands q p) [Builtin.tracecontext] = [.tracecontext] from by simp [this]]
  simp [arrives]

/-- A client with the default propagators, and a server reading B3 as well. -/
example : serverSpan [.tracecontext, .baggage] [.tracecontext, .b3, .baggage] ⟨1, 2, false, 1, []⟩ SpanContext.invalid = ⟨1, 2, true, 1, []⟩ ∧
    serverSpan [.b3multi] [.tracecontext, .b3] ⟨1, 2, false, 3, []⟩ SpanContext.invalid = ⟨1, 2, true, 1, []⟩ := by decide

/-! ## Baggage -/

theorem trace_only (U : DigitTable) (qs : List Builtin) (h : ∀ q ∈ qs, q ≠ .baggage ∧ q ≠ .jaeger) (carrier : Carrier) (c : Ctx) :
    ∃ c', extract U qs carrier c = some c' ∧ Baggage.getAll c' = Baggage.getAll c := by
  unfold extract Composite.extract
  induction qs generalizing c with
  | nil => exact ⟨c, rfl, rfl⟩
  | cons q qs ih =>
    have one : ∃ c1, (q.prop U 0).extract carrier c = some c1 ∧ Baggage.getAll c1 = Baggage.getAll c := by
      have b3 : Baggage.getAll (B3.extract U carrier c) = Baggage.getAll c := by
        unfold B3.extract
        split
        · split
          · rfl
          · exact Composite.baggage_getAll_setSpan _ _
        · rfl
      cases q with
      | tracecontext =>
        refine ⟨_, rfl, ?_⟩
        unfold TraceContext.extract
        repeat' split
        all_goals first | rfl | exact Composite.baggage_getAll_setSpan _ _
      | baggage => exact absurd rfl (h _ (by simp)).1
      | b3 => exact ⟨_, rfl, b3⟩
      | b3multi => exact ⟨_, rfl, b3⟩
      | jaeger => exact absurd rfl (h _ (by simp)).2
    obtain ⟨c1, h1, h2⟩ := one
    obtain ⟨c', h3, h4⟩ := ih (fun q hq => h q (by simp [hq])) c1
    refine ⟨c', ?_, h4.trans h2⟩
    rw [List.map_cons, List.foldlM_cons, h1]
    exact h3

/-- **C82 (baggage).** If the client sends W3C baggage and the server reads it (once, and no Jaeger baggage), the server's baggage is the client's, for
every baggage that survives the header (C08), whatever other propagators either has and wherever `baggage` stands. -/
theorem C82_baggage (U : DigitTable) (parent : Int) (ps qs qs' : List Builtin) (ctx server : Ctx) (d : Dict Str Str) (hp : Builtin.baggage ∈ ps)
    (hq : ∀ q ∈ qs ++ qs', q ≠ .baggage ∧ q ≠ .jaeger) (hd : Baggage.getAll ctx = d) (hrt : Baggage.RoundTrips d)
    (hs : Baggage.getAll server = []) :
    ∃ c, extract U (qs ++ .baggage :: qs') (inject U parent ps [] ctx) server = some c ∧ Baggage.getAll c = d := by
  obtain ⟨c1, h1, h2⟩ := trace_only U qs (fun q hq' => hq q (by simp [hq'])) (inject U parent ps [] ctx) server
  have g := get_key U parent ps ctx Baggage.headerName .baggage rfl (by decide)
  rw [if_pos hp] at g
  have hb : Baggage.getAll (Baggage.extract (inject U parent ps [] ctx) c1) = d := by
    rw [Composite.baggage_extract_congr _ (Baggage.inject [] ctx) g, Composite.baggage_extract_getAll _ c1 [] (by rw [h2, hs]; rfl)]
    exact hrt ctx hd
  obtain ⟨c2, h3, h4⟩ := trace_only U qs' (fun q hq' => hq q (by simp [hq'])) (inject U parent ps [] ctx)
    (Baggage.extract (inject U parent ps [] ctx) c1)
  refine ⟨c2, ?_, h4.trans hb⟩
  unfold extract Composite.extract at *
  rw [List.map_append, List.foldlM_append, h1, List.map_cons]
  simp only [Option.bind_eq_bind, Option.bind_some, List.foldlM_cons]
  exact h3

/-! ## Fields -/

/-- **C82** Every header written is among the propagator's `fields` (so that a carrier can be cleaned for reuse), apart from Jaeger's baggage headers. -/
theorem C82_fields (U : DigitTable) (parent : Int) (b : Builtin) (ctx : Ctx) (k : Str) (hk : (inject U parent [b] [] ctx).get k ≠ none) :
    k ∈ (b.prop U parent).fields ∨ (b = .jaeger ∧ "uberctx-".toList <+: k) := by
  rw [get_inject, List.flatMap_singleton] at hk
  have : ∃ kv ∈ writes parent ctx b, kv.1 = k := by
    by_contra hc
    push Not at hc
    rw [lastWrite_none k _ hc] at hk
    exact hk rfl
  obtain ⟨kv, h, rfl⟩ := this
  cases b with
  | tracecontext =>
    left
    simp only [writes] at h
    split at h
    · cases h
    split at h
    · simp only [List.mem_cons, List.not_mem_nil, or_false] at h
      rcases h with rfl | rfl <;> simp [Builtin.prop]
    · simp only [List.mem_cons, List.not_mem_nil, or_false] at h
      rcases h with rfl; simp [Builtin.prop]
  | baggage =>
    left
    simp only [writes] at h
    split at h
    · cases h
    · simp only [List.mem_cons, List.not_mem_nil, or_false] at h
      rcases h with rfl; simp [Builtin.prop]
  | b3 =>
    left
    simp only [writes] at h
    split at h
    · cases h
    · simp only [List.mem_cons, List.not_mem_nil, or_false] at h
      rcases h with rfl; simp [Builtin.prop]
  | b3multi =>
    left
    simp only [writes] at h
    split at h
    · cases h
    · simp only [List.mem_cons, List.not_mem_nil, or_false] at h
      rcases h with rfl | rfl | rfl <;> simp [Builtin.prop]
  | jaeger =>
    simp only [writes] at h
    split at h
    · cases h
    · rcases List.mem_cons.mp h with rfl | h
      · left; simp [Builtin.prop]
      · right
        obtain ⟨x, _, rfl⟩ := List.mem_map.mp h
        exact ⟨rfl, x.1, rfl⟩

/-- Jaeger's baggage headers are not among its fields. -/
theorem C82_jaeger_fields_violated (U : DigitTable) :
    let ctx := Baggage.set (Ctx.setSpan [] ⟨1, 2, false, 1, []⟩) "k".toList "v".toList
    (inject U 0 [.jaeger] [] ctx).get "uberctx-k".toList = some ["v".toList] ∧ "uberctx-k".toList ∉ (Builtin.jaeger.prop U 0).fields :=
  ⟨rfl, show "uberctx-k".toList ∉ [Jaeger.traceIdKey] by decide⟩

/-! ## Extracting without a context -/

/-- **C82 (no context given).** `extract(carrier)` starts from the root context, whatever is current — if the first propagator is not `baggage`. -/
theorem C82_extract_root (U : DigitTable) (current : Ctx) (b : Builtin) (ps : List Builtin) (hb : b ≠ .baggage) (carrier : Carrier) :
    extractDefault U current (b :: ps) carrier = extract U (b :: ps) carrier [] := by
  cases b <;> first | rfl | exact absurd rfl hb

/-- **C82** violated: with `baggage` first the current context shows through; a request without headers continues whatever span is current. -/
theorem C82_extract_root_violated (U : DigitTable) (sc : SpanContext) :
    (extractDefault U (Ctx.setSpan [] sc) [.baggage, .tracecontext] []).map Ctx.currentSpan = some sc := rfl

end Propagate
end Otel
