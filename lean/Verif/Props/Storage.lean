import Verif.Lemmas.Views
import Verif.Spec.Views
import Mathlib.Tactic.Tauto
import Mathlib.Tactic.ByContra
import Mathlib.Algebra.Order.Group.Int
/-!
# C33, C34: routing of measurements to streams and readers
-/
namespace Otel
namespace Metrics
variable {α : Type} [AddCommGroup α] [LinearOrder α]

/-! ## Selection -/

omit [AddCommGroup α] [LinearOrder α] in
/-- **C33** A view selects an instrument exactly when every selection criterion it gives is met. -/
theorem C33_match_iff (fnm : Str → Str → Bool) (w : View α) (i : Instr α) :
    w.matches fnm i = true ↔
      (∀ t, w.instrumentType = some t → t i.kind = true) ∧ (∀ n, w.instrumentName = some n → fnm i.name n = true) ∧
      (∀ n, w.instrumentUnit = some n → fnm i.unit n = true) ∧ (∀ n, w.meterName = some n → i.scope.name = n) ∧
      (∀ n, w.meterVersion = some n → i.scope.version = some n) ∧ (∀ n, w.meterSchema = some n → i.scope.schema = some n) := by
  unfold View.matches
  cases w.instrumentType <;> cases w.instrumentName <;> cases w.instrumentUnit <;> cases w.meterName <;>
    cases w.meterVersion <;> cases w.meterSchema <;> simp <;> tauto

omit [AddCommGroup α] [LinearOrder α] in
/-- **C33** The streams of an instrument are made for the views that select it and suit it, in the order they were given to
the provider, or for the default view alone if there are none. -/
theorem C33_views (fnm : Str → Str → Bool) (views : List (View α)) (i : Instr α) :
    (∀ w ∈ views, ¬ (w.matches fnm i = true ∧ w.compatible i = true)) ∧ viewsFor fnm views i = [defaultView] ∨
    (∃ w ∈ views, w.matches fnm i = true ∧ w.compatible i = true) ∧
      (viewsFor fnm views i).Sublist views ∧ (∀ w, w ∈ viewsFor fnm views i ↔ w ∈ views ∧ w.matches fnm i = true ∧ w.compatible i = true) ∧
      (viewsFor fnm views i).length = views.countP (fun w => w.matches fnm i && w.compatible i) := by
  unfold viewsFor
  cases hf : views.filter (fun w => w.matches fnm i && w.compatible i) with
  | nil =>
    left
    refine ⟨?_, rfl⟩
    intro w hw hc
    have := List.filter_eq_nil_iff.1 hf w hw
    simp [hc] at this
  | cons w l =>
    right
    have hm : ∀ x, x ∈ w :: l ↔ x ∈ views ∧ x.matches fnm i = true ∧ x.compatible i = true := by
      intro x; rw [← hf]; simp
    refine ⟨⟨w, (hm w).1 (by simp)⟩, ?_, hm, ?_⟩
    · have := List.filter_sublist (l := views) (p := fun w => w.matches fnm i && w.compatible i)
      rw [hf] at this; exact this
    · rw [List.countP_eq_length_filter, hf]

omit [AddCommGroup α] [LinearOrder α] in
/-- **C33** The only views that do not suit an instrument are those that ask for an explicit-bucket histogram of an asynchronous one. -/
theorem C33_suits (w : View α) (i : Instr α) :
    w.compatible i = true ↔ ¬ ((i.kind = .obsCounter ∨ i.kind = .obsUpDown ∨ i.kind = .obsGauge) ∧ ∃ b mm, w.agg = .hist b mm) := by
  unfold View.compatible
  cases i.kind <;> cases w.agg <;> simp [Kind.isAsync]

omit [AddCommGroup α] [LinearOrder α] in
/-- **C33** No view puts an asynchronous instrument into an explicit-bucket histogram. -/
theorem C33_async_never_histogram (fnm : Str → Str → Bool) (views : List (View α)) (i : Instr α) (ha : i.kind.isAsync = true)
    (w : View α) (hw : w ∈ viewsFor fnm views i) (b : List α) (mm : Bool) : w.agg ≠ .hist b mm := by
  intro hc
  rcases C33_views fnm views i with ⟨_, h⟩ | ⟨_, _, h, _⟩
  · rw [h] at hw
    simp at hw
    subst hw
    simp [defaultView] at hc
  · have := ((h w).1 hw).2.2
    simp [View.compatible, ha, hc] at this

/-! ## Storage invariant -/

/-- Every instrument of a storage has one stream set per view made for it. -/
def WF (sdk : Sdk α) (s : StorageState α) : Prop :=
  (s.map (·.1)).Nodup ∧ ∀ x ∈ s, x.2.1 = x.1 ∧ x.2.2.map (·.view) = viewsFor sdk.fnm sdk.views x.1

theorem consumeAll_views (sdk : Sdk α) (rc : ReaderConf α) (i : Instr α) (m : Meas α) (l : List (MatchState α)) :
    (consumeAll sdk rc i m l).1.map (·.view) = l.map (·.view) ∧
    ((consumeAll sdk rc i m l).2 = !(l.any (fun s => (streamKey (restrict s.view.keys (m.attrs.getD []))).isNone))) := by
  induction l with
  | nil => simp [consumeAll]
  | cons s l ih =>
    simp only [consumeAll]
    cases hc : streamKey (restrict s.view.keys (m.attrs.getD [])) with
    | none =>
      have : s.consume sdk rc i m = none := by simp [MatchState.consume, hc]
      simp [this, hc]
    | some k =>
      have : ∃ s', s.consume sdk rc i m = some s' ∧ s'.view = s.view := by
        simp [MatchState.consume, hc]
      obtain ⟨s', h1, h2⟩ := this
      simp [h1, h2, ih.1, ih.2, hc]

theorem feedAt_mem {K I O : Type} [DecidableEq K] (m : Members K I O) (k : K) (i : I) (d : List (K × m.S)) (x : K × m.S)
    (hx : x ∈ m.feedAt k i d) : x ∈ d ∨ x = (k, m.feed (m.new k i) i) ∨ ∃ s, (k, s) ∈ d ∧ x = (k, m.feed s i) := by
  induction d with
  | nil => simp [Members.feedAt] at hx; exact Or.inr (Or.inl hx)
  | cons y d ih =>
    obtain ⟨k0, s⟩ := y
    simp only [Members.feedAt] at hx
    by_cases h0 : k0 = k
    · subst h0
      rw [if_pos rfl] at hx
      rcases List.mem_cons.1 hx with rfl | hx
      · exact Or.inr (Or.inr ⟨s, by simp, rfl⟩)
      · exact Or.inl (by simp [hx])
    · rw [if_neg h0] at hx
      rcases List.mem_cons.1 hx with rfl | hx
      · exact Or.inl (by simp)
      · rcases ih hx with h | h | ⟨s', h, h'⟩
        · exact Or.inl (by simp [h])
        · exact Or.inr (Or.inl h)
        · exact Or.inr (Or.inr ⟨s', by simp [h], h'⟩)

theorem WF_consume (sdk : Sdk α) (rc : ReaderConf α) (s : StorageState α) (i : Instr α) (m : Meas α) (h : WF sdk s) :
    WF sdk (storageConsume sdk rc s i m).1 := by
  refine ⟨feedAt_nodup (instruments sdk rc) i (i, m) s h.1, ?_⟩
  intro x hx
  rcases feedAt_mem (instruments sdk rc) i (i, m) s x hx with hx | rfl | ⟨y, hy, rfl⟩
  · exact h.2 x hx
  · refine ⟨rfl, ?_⟩
    show ((consumeAll sdk rc i m ((viewsFor sdk.fnm sdk.views i).map (⟨·, []⟩))).1).map (·.view) = _
    rw [(consumeAll_views sdk rc i m _).1]
    simp [List.map_map, Function.comp_def]
  · have := h.2 _ hy
    refine ⟨this.1, ?_⟩
    show ((consumeAll sdk rc y.1 m y.2).1).map (·.view) = _
    rw [(consumeAll_views sdk rc _ m _).1]
    exact this.2

theorem MatchState.collect_view (sdk : Sdk α) (rc : ReaderConf α) (i : Instr α) (now : Int) (s : MatchState α) :
    (s.collect sdk rc i now).2.view = s.view := by
  unfold MatchState.collect
  simp only
  split <;> rfl

theorem step_coll_keys {K I O : Type} [DecidableEq K] (m : Members K I O) (d : List (K × m.S)) (t : Int) :
    (m.step d (.coll t)).1.map (·.1) = d.map (·.1) := by
  simp [Members.step, List.map_map, Function.comp_def]

theorem WF_collect (sdk : Sdk α) (rc : ReaderConf α) (s : StorageState α) (now : Int) (h : WF sdk s) :
    WF sdk (storageCollect sdk rc s now).2 := by
  constructor
  · have : ((storageCollect sdk rc s now).2.map (·.1)) = s.map (·.1) := step_coll_keys (instruments sdk rc) s now
    rw [this]; exact h.1
  · intro x hx
    obtain ⟨y, hy, rfl⟩ := List.mem_map.1 (show x ∈ List.map _ s from hx)
    obtain ⟨h1, h2⟩ := h.2 y hy
    refine ⟨h1, ?_⟩
    simp only [instruments, List.map_map, Function.comp_def, MatchState.collect_view]
    simpa [Function.comp_def] using h2

theorem consume_flag (sdk : Sdk α) (rc : ReaderConf α) (s : StorageState α) (i : Instr α) (m : Meas α) (h : WF sdk s) :
    (storageConsume sdk rc s i m).2 = !raises sdk i m := by
  simp only [storageConsume, raises]
  cases hf : s.find? (fun x => decide (x.1 = i)) with
  | none =>
    simp only
    rw [(consumeAll_views sdk rc i m _).2, List.any_map]
    rfl
  | some x =>
    have hx := List.mem_of_find?_eq_some hf
    have hi : x.1 = i := by simpa using List.find?_some hf
    simp only
    rw [(consumeAll_views sdk rc _ m _).2]
    have := (h.2 x hx).2
    rw [hi] at this
    rw [← this, List.any_map]
    rfl

theorem WF_observe (sdk : Sdk α) (rc : ReaderConf α) (s : StorageState α) (obs : List (Instr α × Meas α)) (h : WF sdk s) :
    WF sdk (observe sdk rc s obs).1 := by
  induction obs generalizing s with
  | nil => exact h
  | cons o obs ih =>
    simp only [observe]
    split
    · exact ih _ (WF_consume sdk rc s o.1 o.2 h)
    · exact WF_consume sdk rc s o.1 o.2 h

theorem WF_collectReader (sdk : Sdk α) (rc : ReaderConf α) (s : StorageState α) (obs : List (Instr α × Meas α)) (tm : Bool) (now : Int)
    (h : WF sdk s) : WF sdk (collectReader sdk rc s obs tm now).2 := by
  simp only [collectReader]
  split
  · exact WF_collect sdk rc _ now (WF_observe sdk rc s obs h)
  · exact WF_observe sdk rc s obs h

def WFAll (sdk : Sdk α) (st : List (ReaderConf α × StorageState α)) : Prop := ∀ x ∈ st, WF sdk x.2

theorem WFAll_broadcast (sdk : Sdk α) (i : Instr α) (m : Meas α) (st : List (ReaderConf α × StorageState α)) (h : WFAll sdk st) :
    WFAll sdk (broadcast sdk i m st) := by
  induction st with
  | nil => exact h
  | cons x st ih =>
    obtain ⟨rc, s⟩ := x
    simp only [broadcast]
    split
    · intro y hy
      rcases List.mem_cons.1 hy with rfl | hy
      · exact WF_consume sdk rc s i m (h (rc, s) (by simp))
      · exact ih (fun z hz => h z (by simp [hz])) y hy
    · intro y hy
      rcases List.mem_cons.1 hy with rfl | hy
      · exact WF_consume sdk rc s i m (h (rc, s) (by simp))
      · exact h y (by simp [hy])

theorem WFAll_step (sdk : Sdk α) (o : COp α) (st : List (ReaderConf α × StorageState α)) (h : WFAll sdk st) :
    WFAll sdk (consumerStep sdk st o).1 := by
  cases o with
  | measure i m => exact WFAll_broadcast sdk i m st h
  | collect r obs tm now =>
    simp only [consumerStep]
    cases hr : st[r]? with
    | none => exact h
    | some x =>
      obtain ⟨rc, s⟩ := x
      intro y hy
      rcases List.mem_or_eq_of_mem_set hy with hy | rfl
      · exact h y hy
      · exact WF_collectReader sdk rc s obs tm now (h _ (List.mem_of_getElem? hr))

theorem WFAll_run (sdk : Sdk α) (h : List (COp α)) (st : List (ReaderConf α × StorageState α)) (hw : WFAll sdk st) :
    WFAll sdk (consumerRun sdk st h).1 := by
  induction h generalizing st with
  | nil => exact hw
  | cons o h ih => exact ih _ (WFAll_step sdk o st hw)

theorem WFAll_init (sdk : Sdk α) (rcs : List (ReaderConf α)) : WFAll sdk (consumerInit rcs) := by
  intro x hx
  simp only [consumerInit, List.mem_map] at hx
  obtain ⟨rc, _, rfl⟩ := hx
  exact ⟨by simp, by simp⟩

/-- **C33** After any history of measurements and collections, in every reader every instrument that has measured feeds
exactly one stream set per view made for it, in order, and appears once. -/
theorem C33_one_stream_set_per_view (sdk : Sdk α) (rcs : List (ReaderConf α)) (h : List (COp α))
    (x : ReaderConf α × StorageState α) (hx : x ∈ (consumerRun sdk (consumerInit rcs) h).1) :
    (x.2.map (·.1)).Nodup ∧ ∀ e ∈ x.2, e.2.2.map (·.view) = viewsFor sdk.fnm sdk.views e.1 :=
  ⟨(WFAll_run sdk h _ (WFAll_init sdk rcs) x hx).1, fun e he => ((WFAll_run sdk h _ (WFAll_init sdk rcs) x hx).2 e he).2⟩

/-- **C33** A drop-aggregation stream set never yields a metric. -/
theorem C33_drop_silent (sdk : Sdk α) (rc : ReaderConf α) (i : Instr α) (now : Int) (s : MatchState α)
    (h : effective rc.table s.view i = .drop) : (s.collect sdk rc i now).1 = none := by
  unfold MatchState.collect
  simp only [h, dataKind]
  split
  · rename_i h2; simp at h2
  · rfl

/-- **C33** A metric carries the name and description of its view where given, otherwise the instrument's, the instrument's
unit, and at least one point. -/
theorem C33_metric_identity (sdk : Sdk α) (rc : ReaderConf α) (i : Instr α) (now : Int) (s : MatchState α) (mt : Metric α)
    (h : (s.collect sdk rc i now).1 = some mt) :
    mt.unit = i.unit ∧ mt.points ≠ [] ∧
    mt.name = (match s.view.name with | some n => if n = [] then i.name else n | none => i.name) ∧
    mt.description = (match s.view.description with | some n => if n = [] then i.description else n | none => i.description) := by
  unfold MatchState.collect at h
  simp only at h
  split at h
  · rename_i ps d h1 h2
    simp only [Option.some.injEq] at h
    subst h
    refine ⟨rfl, ?_, ?_, ?_⟩
    · intro hp
      simp only at hp
      subst hp
      unfold matchOut at h1
      split at h1
      · cases h1
      · rename_i _ hne
        exact hne (Option.some.inj h1)
    · simp only [orStr]
      rcases s.view.name with _ | n
      · rfl
      · rcases n with _ | ⟨c, n⟩ <;> simp
    · simp only [orStr]
      rcases s.view.description with _ | n
      · rfl
      · rcases n with _ | ⟨c, n⟩ <;> simp
  · cases h

/-- **C33** The default aggregation of each class of instrument: sums for counters (monotonic exactly for the counters that
only go up), a histogram for histograms, the last value for gauges. -/
theorem C33_default_kinds (i : Instr α) (t : Temporality) :
    dataKind (.default : AggConf α) i t =
      some (match i.kind with
        | .counter => .sum t true | .obsCounter => .sum t true | .upDown => .sum t false | .obsUpDown => .sum t false
        | .histogram => .hist t | .gauge => .gauge | .obsGauge => .gauge) := by
  cases hk : i.kind <;> simp [dataKind, hk, Kind.monotonic]

omit [AddCommGroup α] [LinearOrder α] in
theorem addScope_spec {M : Type} (sc : ScopeId) (ms : List M) (acc : List (ScopeId × List M)) (hn : (acc.map (·.1)).Nodup) :
    ((addScope sc ms acc).map (·.1)).Nodup ∧
    (∀ sc', look sc' (addScope sc ms acc) = if sc = sc' then some ((look sc' acc).getD [] ++ ms) else look sc' acc) ∧
    ∀ x ∈ (addScope sc ms acc).map (·.1), x = sc ∨ x ∈ acc.map (·.1) := by
  induction acc with
  | nil => refine ⟨by simp [addScope], ?_, by simp [addScope]⟩; intro sc'; simp [addScope, look]
  | cons y acc ih =>
    obtain ⟨k0, l⟩ := y
    simp only [List.map_cons, List.nodup_cons] at hn
    obtain ⟨i1, i2, i3⟩ := ih hn.2
    by_cases h0 : k0 = sc
    · subst h0
      simp only [addScope, if_true, List.map_cons, List.nodup_cons]
      refine ⟨hn, ?_, by simp⟩
      intro sc'
      by_cases h : k0 = sc' <;> simp [look, h]
    · simp only [addScope, if_neg h0, List.map_cons, List.nodup_cons]
      refine ⟨⟨?_, i1⟩, ?_, ?_⟩
      · intro hc
        rcases i3 _ hc with h | h
        · exact h0 h
        · exact hn.1 h
      · intro sc'
        simp only [look, i2]
        by_cases h : k0 = sc'
        · subst h; simp [Ne.symm h0]
        · simp [h]
      · intro x hx
        rcases List.mem_cons.1 hx with rfl | hx
        · simp
        · rcases i3 x hx with h | h <;> simp [h]

omit [AddCommGroup α] [LinearOrder α] in
/-- **C33** In a collected batch every instrumentation scope appears once, with exactly the metrics of its instruments, in
instrument order; scopes without metrics do not appear, and `None` is returned when there is no metric at all. -/
theorem C33_grouping (out : List (Instr α × List (Metric α))) :
    (groupScopes out = none ↔ ∀ im ∈ out, im.2 = []) ∧
    ∀ g, groupScopes out = some g → (g.map (·.1)).Nodup ∧
      ∀ sc l, (sc, l) ∈ g ↔ l = (out.filter (fun im => decide (im.1.scope = sc))).flatMap (·.2) ∧ l ≠ [] := by
  have key : ∀ (out : List (Instr α × List (Metric α))) (acc : List (ScopeId × List (Metric α))), (acc.map (·.1)).Nodup → (∀ x ∈ acc, x.2 ≠ []) →
      let g := out.foldl (fun acc im => if im.2.isEmpty then acc else addScope im.1.scope im.2 acc) acc
      (g.map (·.1)).Nodup ∧ ∀ sc, (look sc g).getD [] = (look sc acc).getD [] ++ (out.filter (fun im => decide (im.1.scope = sc))).flatMap (·.2) ∧
        ((look sc g).isSome → (look sc g).getD [] ≠ []) := by
    intro out
    induction out with
    | nil =>
      intro acc hn hne
      refine ⟨hn, fun sc => ⟨by simp, ?_⟩⟩
      intro hs
      obtain ⟨l, hl⟩ := Option.isSome_iff_exists.1 hs
      simp only [List.foldl_nil] at hl ⊢
      rw [hl]
      exact hne _ ((look_mem sc l acc hn).1 hl)
    | cons im out ih =>
      intro acc hn hne
      simp only [List.foldl_cons]
      by_cases he : im.2.isEmpty = true
      · rw [if_pos he]
        obtain ⟨h1, h2⟩ := ih acc hn hne
        refine ⟨h1, fun sc => ⟨?_, (h2 sc).2⟩⟩
        rw [(h2 sc).1]
        have : im.2 = [] := List.isEmpty_iff.1 he
        by_cases hs : im.1.scope = sc <;> simp [hs, this]
      · rw [if_neg he]
        obtain ⟨a1, a2, a3⟩ := addScope_spec im.1.scope im.2 acc hn
        have hne' : ∀ x ∈ addScope im.1.scope im.2 acc, x.2 ≠ [] := by
          intro x hx hc
          have := (look_mem x.1 x.2 _ a1).2 hx
          rw [a2] at this
          split at this
          · simp only [Option.some.injEq] at this
            rw [hc] at this
            apply he
            rw [List.append_eq_nil_iff] at this
            simp [this.2]
          · exact hne _ ((look_mem x.1 x.2 acc hn).1 this) hc
        obtain ⟨h1, h2⟩ := ih _ a1 hne'
        refine ⟨h1, fun sc => ⟨?_, (h2 sc).2⟩⟩
        rw [(h2 sc).1, a2]
        by_cases hs : im.1.scope = sc <;> simp [hs]
  obtain ⟨h1, h2⟩ := key out [] (by simp) (by simp)
  unfold groupScopes
  cases hg : out.foldl (fun acc im => if im.2.isEmpty then acc else addScope im.1.scope im.2 acc) [] with
  | nil =>
    rw [hg] at h2
    refine ⟨⟨fun _ => ?_, fun _ => rfl⟩, by simp⟩
    intro im him
    have := (h2 im.1.scope).1
    simp only [look, Option.getD_none, List.nil_append] at this
    have := (List.flatMap_eq_nil_iff.1 this.symm) im (by simp [him])
    exact this
  | cons x g =>
    rw [hg] at h1 h2
    refine ⟨⟨by simp, ?_⟩, ?_⟩
    · intro hall
      exfalso
      have hx : look x.1 (x :: g) = some x.2 := (look_mem x.1 x.2 (x :: g) h1).2 (by simp)
      have ha := (h2 x.1).1
      have hb := (h2 x.1).2 (by rw [hx]; rfl)
      apply hb
      rw [ha]
      simp only [look, Option.getD_none, List.nil_append, List.flatMap_eq_nil_iff]
      intro im him
      exact hall im (List.mem_of_mem_filter him)
    · intro g' hg'
      simp only [Option.some.injEq] at hg'
      subst hg'
      refine ⟨h1, ?_⟩
      intro sc l
      have ha := (h2 sc).1
      have hb := (h2 sc).2
      rw [show (look sc ([] : List (ScopeId × List (Metric α)))).getD [] = [] from rfl, List.nil_append] at ha
      rw [← look_mem sc l (x :: g) h1]
      constructor
      · intro hl
        rw [hl] at ha hb
        exact ⟨ha, hb rfl⟩
      · rintro ⟨rfl, hne⟩
        cases hl : look sc (x :: g) with
        | none => rw [hl] at ha; exact absurd ha.symm hne
        | some l' => rw [hl] at ha; simp only [Option.getD_some] at ha; rw [ha]

/-! ## Readers -/

/-- The calls that concern reader `r`: all measurements and its own collections. -/
def concerns (r : Nat) : COp α → Bool
  | .measure _ _ => true
  | .collect r' _ _ _ => decide (r' = r)

/-- The collections of reader `r` in an output. -/
def outputsOf (r : Nat) (l : List (Nat × CollOut α)) : List (CollOut α) := (l.filter (fun x => decide (x.1 = r))).map (·.2)

theorem broadcast_get (sdk : Sdk α) (i : Instr α) (m : Meas α) (st : List (ReaderConf α × StorageState α)) (hw : WFAll sdk st) (r : Nat) :
    (broadcast sdk i m st)[r]? = (st[r]?).map (fun x => if raises sdk i m && decide (r ≠ 0) then x else (x.1, (storageConsume sdk x.1 x.2 i m).1)) := by
  induction st generalizing r with
  | nil => simp [broadcast]
  | cons x st ih =>
    obtain ⟨rc, s⟩ := x
    have hf := consume_flag sdk rc s i m (hw (rc, s) (by simp))
    have ih' := ih (fun z hz => hw z (by simp [hz]))
    simp only [broadcast, hf]
    cases hr : raises sdk i m with
    | true => cases r <;> simp
    | false =>
      cases r with
      | zero => simp
      | succ r => simp [ih' r, hr]

theorem run_reader (sdk : Sdk α) (r : Nat) (h : List (COp α)) (st st' : List (ReaderConf α × StorageState α))
    (hw : WFAll sdk st) (hw' : WFAll sdk st') (he : st[r]? = st'[r]?) :
    (consumerRun sdk st h).1[r]? = (consumerRun sdk st' (h.filter (concerns r))).1[r]? ∧
    outputsOf r (consumerRun sdk st h).2 = outputsOf r (consumerRun sdk st' (h.filter (concerns r))).2 := by
  induction h generalizing st st' with
  | nil => exact ⟨he, rfl⟩
  | cons o h ih =>
    cases o with
    | measure i m =>
      simp only [List.filter_cons, concerns, if_true, consumerRun, consumerStep, Option.toList_none, List.nil_append]
      refine ih _ _ (WFAll_broadcast sdk i m st hw) (WFAll_broadcast sdk i m st' hw') ?_
      rw [broadcast_get _ _ _ _ hw, broadcast_get _ _ _ _ hw', he]
    | collect r' obs tm now =>
      by_cases hr : r' = r
      · subst hr
        simp only [List.filter_cons, concerns, decide_true, if_true]
        have h1 : (consumerStep sdk st (.collect r' obs tm now)).1[r']? = (consumerStep sdk st' (.collect r' obs tm now)).1[r']? := by
          simp only [consumerStep, ← he]
          cases hx : st[r']? with
          | none => rw [he] at hx; simp [hx, he]
          | some x =>
            have hx' := he ▸ hx
            have l1 : r' < st.length := (List.getElem?_eq_some_iff.1 hx).1
            have l2 : r' < st'.length := (List.getElem?_eq_some_iff.1 hx').1
            simp [List.getElem?_set, l1, l2]
        have h2 : (consumerStep sdk st (.collect r' obs tm now)).2 = (consumerStep sdk st' (.collect r' obs tm now)).2 := by
          simp only [consumerStep, ← he]
          cases hx : st[r']? with
          | none => rfl
          | some x => rfl
        obtain ⟨i1, i2⟩ := ih _ _ (WFAll_step sdk (.collect r' obs tm now) st hw) (WFAll_step sdk (.collect r' obs tm now) st' hw') h1
        simp only [consumerRun]
        refine ⟨i1, ?_⟩
        simp only [outputsOf, List.filter_append, List.map_append] at i2 ⊢
        rw [h2, i2]
      · simp only [List.filter_cons, concerns, hr, decide_false, Bool.false_eq_true, if_false]
        have h1 : (consumerStep sdk st (.collect r' obs tm now)).1[r]? = st'[r]? := by
          simp only [consumerStep]
          cases hx : st[r']? with
          | none => exact he
          | some x => simp only; rw [List.getElem?_set_ne hr]; exact he
        obtain ⟨i1, i2⟩ := ih _ _ (WFAll_step sdk (.collect r' obs tm now) st hw) hw' h1
        simp only [consumerRun]
        refine ⟨i1, ?_⟩
        rw [← i2]
        simp only [outputsOf, List.filter_append, List.map_append]
        have : ((consumerStep sdk st (.collect r' obs tm now)).2.toList.filter (fun x => decide (x.1 = r))) = [] := by
          simp only [consumerStep]
          cases hx : st[r']? with
          | none => rfl
          | some x => simp [hr]
        rw [this]; rfl

/-- **C34** What a reader reports depends only on the synchronous measurements and on its own collections: deleting all
collections by other readers from a history changes nothing for it. -/
theorem C34_readers_independent (sdk : Sdk α) (rcs : List (ReaderConf α)) (r : Nat) (h : List (COp α)) :
    outputsOf r (consumerRun sdk (consumerInit rcs) h).2 =
      outputsOf r (consumerRun sdk (consumerInit rcs) (h.filter (concerns r))).2 :=
  (run_reader sdk r h _ _ (WFAll_init sdk rcs) (WFAll_init sdk rcs) rfl).2

/-- **C34** Two histories with the same measurements and the same collections by reader `r` are indistinguishable for it,
including in everything it will ever report. -/
theorem C34_noninterference (sdk : Sdk α) (rcs : List (ReaderConf α)) (r : Nat) (h h' rest : List (COp α))
    (he : h.filter (concerns r) = h'.filter (concerns r)) :
    outputsOf r (consumerRun sdk (consumerInit rcs) (h ++ rest)).2 = outputsOf r (consumerRun sdk (consumerInit rcs) (h' ++ rest)).2 := by
  rw [C34_readers_independent, C34_readers_independent sdk rcs r (h' ++ rest), List.filter_append, List.filter_append, he]

/-- The measurements of a history all have hashable attributes. -/
def NoRefusal (sdk : Sdk α) (h : List (COp α)) : Prop := ∀ i m, COp.measure i m ∈ h → raises sdk i m = false

/-- Reader `r`'s history as that of a provider with this reader alone. -/
def aloneOp (r : Nat) : COp α → Option (COp α)
  | .measure i m => some (.measure i m)
  | .collect r' obs tm now => if r' = r then some (.collect 0 obs tm now) else none

theorem run_alone (sdk : Sdk α) (r : Nat) (h : List (COp α)) (st : List (ReaderConf α × StorageState α)) (x : ReaderConf α × StorageState α)
    (hw : WFAll sdk st) (hx : st[r]? = some x) (hr : NoRefusal sdk h) :
    outputsOf r (consumerRun sdk st h).2 = (consumerRun sdk [x] (h.filterMap (aloneOp r))).2.map (·.2) := by
  induction h generalizing st x with
  | nil => rfl
  | cons o h ih =>
    have hr' : NoRefusal sdk h := fun i m hm => hr i m (by simp [hm])
    cases o with
    | measure i m =>
      have hno := hr i m (by simp)
      rw [List.filterMap_cons_some (f := aloneOp r) (b := COp.measure i m) rfl]
      simp only [consumerRun, consumerStep, Option.toList_none, List.nil_append]
      have hb := broadcast_get sdk i m st hw r
      rw [hx, hno] at hb
      have hwx : WFAll sdk [x] := fun z hz => by simp at hz; subst hz; exact hw z (List.mem_of_getElem? hx)
      have hb2 : broadcast sdk i m [x] = [(x.1, (storageConsume sdk x.1 x.2 i m).1)] := by
        simp only [broadcast]; split <;> rfl
      rw [hb2]
      exact ih _ _ (WFAll_broadcast sdk i m st hw) (by simpa using hb) hr'
    | collect r' obs tm now =>
      by_cases he : r' = r
      · subst he
        rw [List.filterMap_cons_some (f := aloneOp r') (b := COp.collect 0 obs tm now) (by simp [aloneOp])]
        have hl : r' < st.length := (List.getElem?_eq_some_iff.1 hx).1
        have hst : consumerStep sdk st (.collect r' obs tm now) = (st.set r' (x.1, (collectReader sdk x.1 x.2 obs tm now).2),
            some (r', (collectReader sdk x.1 x.2 obs tm now).1)) := by simp only [consumerStep, hx]
        have hst2 : consumerStep sdk [x] (.collect 0 obs tm now) = ([(x.1, (collectReader sdk x.1 x.2 obs tm now).2)],
            some (0, (collectReader sdk x.1 x.2 obs tm now).1)) := rfl
        have hi := ih (st.set r' (x.1, (collectReader sdk x.1 x.2 obs tm now).2)) (x.1, (collectReader sdk x.1 x.2 obs tm now).2)
          (by have := WFAll_step sdk (.collect r' obs tm now) st hw; rwa [hst] at this) (by simp [List.getElem?_set, hl]) hr'
        simp only [consumerRun, hst, hst2, Option.toList_some, List.singleton_append, List.map_cons]
        rw [← hi]
        simp [outputsOf]
      · rw [List.filterMap_cons_none (f := aloneOp r) (by simp [aloneOp, he])]
        have h1 : (consumerStep sdk st (.collect r' obs tm now)).1[r]? = some x := by
          simp only [consumerStep]
          cases hx' : st[r']? with
          | none => exact hx
          | some y => simp only; rw [List.getElem?_set_ne he]; exact hx
        have hi := ih _ x (WFAll_step sdk (.collect r' obs tm now) st hw) h1 hr'
        rw [← hi]
        simp only [consumerRun, outputsOf, List.filter_append, List.map_append]
        have : ((consumerStep sdk st (.collect r' obs tm now)).2.toList.filter (fun x => decide (x.1 = r))) = [] := by
          simp only [consumerStep]
          cases hx' : st[r']? with
          | none => rfl
          | some y => simp [he]
        rw [this]; rfl

/-- **C34** If no measurement is refused, a reader reports exactly what it would report as the only reader. -/
theorem C34_as_if_alone (sdk : Sdk α) (rcs : List (ReaderConf α)) (r : Nat) (rc : ReaderConf α) (hrc : rcs[r]? = some rc) (h : List (COp α))
    (hr : NoRefusal sdk h) :
    outputsOf r (consumerRun sdk (consumerInit rcs) h).2 =
      (consumerRun sdk (consumerInit [rc]) (h.filterMap (aloneOp r))).2.map (·.2) :=
  run_alone sdk r h _ (rc, []) (WFAll_init sdk rcs) (by simp [consumerInit, hrc]) hr

/-! ## The aggregation of a stream -/

theorem agg_sum_run (c : AggConf α) (dflt : List α) (i : Instr α) (t : Temporality) (start : Int) (h : List (Op α)) (s : SumAgg α) :
    ((aggM c dflt i t start).run (.sum s) h).2 = (((sumM s.inst t start).mapOut Pt.num).run s h).2 := by
  induction h generalizing s with
  | nil => rfl
  | cons o h ih =>
    cases o with
    | meas v => exact ih (s.aggregate v)
    | coll now =>
      have e : (s.collect t now).2.inst = s.inst := by
        unfold SumAgg.collect
        cases s.inst <;> cases t <;> cases s.value <;> rfl
      simp only [Machine.run]
      congr 1
      have := ih (s.collect t now).2
      rw [e] at this
      exact this

theorem agg_last_run (c : AggConf α) (dflt : List α) (i : Instr α) (t : Temporality) (start : Int) (h : List (Op α)) (s : LastAgg α) :
    ((aggM c dflt i t start).run (.last s) h).2 = (((lastM t).mapOut Pt.num).run s h).2 := by
  induction h generalizing s with
  | nil => rfl
  | cons o h ih =>
    cases o with
    | meas v => exact ih (s.aggregate v)
    | coll now =>
      simp only [Machine.run]
      congr 1
      exact ih (s.collect t now).2

theorem agg_drop_run (c : AggConf α) (dflt : List α) (i : Instr α) (t : Temporality) (start : Int) (h : List (Op α)) :
    ((aggM c dflt i t start).run .drop h).2 = ((dropM.mapOut Pt.num).run () h).2 := by
  induction h with
  | nil => rfl
  | cons o h ih =>
    cases o with
    | meas v => exact ih
    | coll now =>
      simp only [Machine.run]
      congr 1

theorem agg_hist_run (c : AggConf α) (dflt : List α) (i : Instr α) (t : Temporality) (start : Int) (b : List α) (mm : Bool)
    (inst : Temporality) (h : List (Op α)) (s : HistAgg α) :
    ((aggM c dflt i t start).run (.hist s) h).2 = (((histM inst t start b mm).mapOut Pt.hist).run s h).2 := by
  induction h generalizing s with
  | nil => rfl
  | cons o h ih =>
    cases o with
    | meas v => exact ih (s.aggregate v)
    | coll now =>
      simp only [Machine.run]
      congr 1
      exact ih (s.collect t now).2

theorem inputOf_eq (k : Kind) : inputOf k = k.temporality := by cases k <;> rfl

/-- **C33** A stream returns what the documented aggregation for its view, reader and instrument returns, for every history. -/
theorem C33_stream_machine (dflt : List α) (table : Kind → AggConf α) (w : View α) (i : Instr α) (t : Temporality) (start : Int)
    (h : List (Op α)) :
    (aggM (effective table w i) dflt i t start).out h =
      ((Shape.of dflt w.agg (table i.kind) i).machine i.kind t start).out h := by
  have key : ∀ c : AggConf α, (aggM c dflt i t start).out h = ((Shape.ofConf dflt i c).machine i.kind t start).out h := by
    intro c
    cases c with
    | default =>
      simp only [Shape.ofConf, Shape.ofKind, Machine.out]
      cases hk : i.kind with
      | counter => simp only [aggM, AggConf.create, hk]; exact agg_sum_run .default dflt i t start h _
      | upDown => simp only [aggM, AggConf.create, hk]; exact agg_sum_run .default dflt i t start h _
      | obsCounter => simp only [aggM, AggConf.create, hk]; exact agg_sum_run .default dflt i t start h _
      | obsUpDown => simp only [aggM, AggConf.create, hk]; exact agg_sum_run .default dflt i t start h _
      | histogram => simp only [aggM, AggConf.create, hk]; exact agg_hist_run .default dflt i t start _ _ _ h _
      | gauge => simp only [aggM, AggConf.create, hk]; exact agg_last_run .default dflt i t start h _
      | obsGauge => simp only [aggM, AggConf.create, hk]; exact agg_last_run .default dflt i t start h _
    | sum =>
      simp only [Shape.ofConf, Shape.machine, inputOf_eq]
      exact agg_sum_run .sum dflt i t start h _
    | last => exact agg_last_run .last dflt i t start h _
    | drop => exact agg_drop_run .drop dflt i t start h
    | hist b mm =>
      simp only [Shape.ofConf, Shape.machine, inputOf_eq]
      exact agg_hist_run (.hist b mm) dflt i t start b mm _ h _
  unfold effective Shape.of
  cases w.agg <;> simp [key]

omit [AddCommGroup α] in
/-- **C33** The metric's data is that of the documented aggregation. -/
theorem C33_stream_data (dflt : List α) (table : Kind → AggConf α) (w : View α) (i : Instr α) (t : Temporality) :
    dataKind (effective table w i) i t = (Shape.of dflt w.agg (table i.kind) i).data t := by
  have key : ∀ c : AggConf α, dataKind c i t = (Shape.ofConf dflt i c).data t := by
    intro c
    cases c <;> simp [dataKind, Shape.ofConf, Shape.data, Shape.ofKind] <;> cases i.kind <;> simp [Kind.monotonic, Shape.data]
  unfold effective Shape.of
  cases w.agg <;> simp [key]

/-- **C33** … and a metric that is exported carries it, with the reader's temporality for the instrument. -/
theorem C33_metric_data (sdk : Sdk α) (rc : ReaderConf α) (i : Instr α) (now : Int) (s : MatchState α) (mt : Metric α)
    (h : (s.collect sdk rc i now).1 = some mt) :
    some mt.data = (Shape.of sdk.dflt s.view.agg (rc.table i.kind) i).data (rc.temporality i.kind) := by
  rw [← C33_stream_data]
  unfold MatchState.collect at h
  simp only at h
  split at h
  · rename_i ps d h1 h2
    simp only [Option.some.injEq] at h
    subst h
    exact h2.symm
  · cases h

theorem mapOut_run {P Q : Type} (f : P → Q) (m : Machine α P) (h : List (Op α)) (s : m.S) :
    ((m.mapOut f).run s h).2 = ((m.run s h).2).map (Option.map f) := by
  induction h generalizing s with
  | nil => rfl
  | cons o h ih =>
    cases o with
    | meas v => exact ih (m.aggregate s v)
    | coll now =>
      simp only [Machine.run, List.map_cons]
      congr 1
      exact ih (m.collect s now).2

/-- **C33** The machines of C29–C31 are what a stream returns, so their theorems speak about the exported points. -/
theorem C33_machine_out {P Q : Type} (f : P → Q) (m : Machine α P) (h : List (Op α)) :
    (m.mapOut f).out h = (m.out h).map (Option.map f) := mapOut_run f m h m.init

end Metrics
end Otel
