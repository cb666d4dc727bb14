import Verif.Model.Alias
import Verif.Spec.Views
import Mathlib.Algebra.Ring.Int.Defs
import Mathlib.Algebra.Order.Group.Int
/-!
# C60: changing a dictionary after a measurement
-/
namespace Otel
namespace Metrics
variable {α : Type}

/-- The same history with attributes passed by value: every measurement carries what its dictionary contains at the call. -/
def byValue (heap : List MAttrs) : List (AOp α) → List (MatchOp α)
  | [] => []
  | .alloc a :: l => byValue (heap ++ [a]) l
  | .write n a :: l => byValue (heap.set n a) l
  | .measure n now v :: l => if n < heap.length then .measure now (some (heap.getD n [])) v :: byValue heap l else byValue heap l
  | .coll now :: l => .coll now :: byValue heap l

section
variable [AddCommGroup α] [LinearOrder α]

/-- The streams seen through the heap. -/
def view (heap : List MAttrs) (d : List (StreamKey × (Label × Agg α))) : List (StreamKey × (MAttrs × Agg α)) :=
  d.map (fun ks => (ks.1, (ks.2.1.read heap, ks.2.2)))

theorem view_feed (dflt : List α) (table : Kind → AggConf α) (t : Temporality) (w : View α) (i : Instr α) (heap : List MAttrs) (k : StreamKey) (m : RIn α)
    (d : List (StreamKey × (Label × Agg α))) :
    view heap ((rstreams dflt table t w i).feedAt k m d) =
      (streams dflt table t w i).feedAt k ⟨m.now, m.label.read heap, m.value⟩ (view heap d) := by
  induction d with
  | nil => rfl
  | cons x d ih =>
    obtain ⟨k', s⟩ := x
    show view heap (if k' = k then (k', (rstreams dflt table t w i).feed s m) :: d else (k', s) :: (rstreams dflt table t w i).feedAt k m d) =
      if k' = k then (k', (streams dflt table t w i).feed (s.1.read heap, s.2) ⟨m.now, m.label.read heap, m.value⟩) :: view heap d
      else (k', (s.1.read heap, s.2)) :: (streams dflt table t w i).feedAt k ⟨m.now, m.label.read heap, m.value⟩ (view heap d)
    split
    · rfl
    · rw [← ih]; rfl

theorem view_coll (dflt : List α) (table : Kind → AggConf α) (t : Temporality) (w : View α) (i : Instr α) (heap : List MAttrs) (now : Int)
    (d : List (StreamKey × (Label × Agg α))) :
    (List.map (fun ko : StreamKey × Option (Label × Pt α) => (ko.1, ko.2.map (fun lp => (⟨lp.1.read heap, lp.2⟩ : DataPoint α))))
      (List.map (fun ks : StreamKey × (Label × Agg α) => (ks.1, ((rstreams dflt table t w i).coll ks.2 now).1)) d)) =
    List.map (fun ks : StreamKey × (MAttrs × Agg α) => (ks.1, ((streams dflt table t w i).coll ks.2 now).1)) (view heap d) := by
  induction d with
  | nil => rfl
  | cons x d ih =>
    refine congrArg₂ List.cons ?_ ih
    simp only [rstreams, streams, Option.map_map]
    rfl

theorem view_coll' (dflt : List α) (table : Kind → AggConf α) (t : Temporality) (w : View α) (i : Instr α) (heap : List MAttrs) (now : Int)
    (d : List (StreamKey × (Label × Agg α))) :
    view heap (List.map (fun ks : StreamKey × (Label × Agg α) => (ks.1, ((rstreams dflt table t w i).coll ks.2 now).2)) d) =
    List.map (fun ks : StreamKey × (MAttrs × Agg α) => (ks.1, ((streams dflt table t w i).coll ks.2 now).2)) (view heap d) := by
  induction d with
  | nil => rfl
  | cons x d ih => exact congrArg₂ List.cons rfl ih

/-- A label is a fresh dictionary, or a dictionary the program has made and, with `frozen`, does not change. -/
def LabelOk (frozen : Bool) (heap : List MAttrs) : Label → Prop
  | .fresh _ => True
  | .ref n => frozen = true ∧ n < heap.length

/-- All labels are. -/
def LabelsOk (frozen : Bool) (heap : List MAttrs) (d : List (StreamKey × (Label × Agg α))) : Prop :=
  ∀ ks ∈ d, LabelOk frozen heap ks.2.1

theorem read_append (heap : List MAttrs) (a : MAttrs) (l : Label) (f : Bool) (h : LabelOk f heap l) :
    l.read (heap ++ [a]) = l.read heap := by
  cases l with
  | fresh b => rfl
  | ref n =>
    simp [Label.read, List.getElem?_append_left h.2]

theorem feedAt_labels (dflt : List α) (table : Kind → AggConf α) (t : Temporality) (w : View α) (i : Instr α) (k : StreamKey) (m : RIn α)
    (P : Label → Prop) (d : List (StreamKey × (Label × Agg α))) (hm : P m.label) (h : ∀ ks ∈ d, P ks.2.1) :
    ∀ ks ∈ (rstreams dflt table t w i).feedAt k m d, P ks.2.1 := by
  induction d with
  | nil =>
    intro ks hks
    simp only [Members.feedAt, List.mem_singleton] at hks
    subst hks
    exact hm
  | cons x d ih =>
    obtain ⟨k', s⟩ := x
    intro ks hks
    simp only [Members.feedAt] at hks
    split at hks
    · rcases List.mem_cons.1 hks with rfl | hks
      · exact h (k', s) (List.mem_cons_self ..)
      · exact h _ (List.mem_cons_of_mem _ hks)
    · rcases List.mem_cons.1 hks with rfl | hks
      · exact h _ (List.mem_cons_self ..)
      · exact ih (fun y hy => h y (List.mem_cons_of_mem _ hy)) ks hks

/-- A write in the history. -/
def isWrite : AOp α → Bool
  | .write _ _ => true
  | _ => false

theorem alias_run (dflt : List α) (table : Kind → AggConf α) (t : Temporality) (w : View α) (i : Instr α) (frozen : Bool)
    (hw : frozen = false → w.keys.isSome) (l : List (AOp α)) (hl : frozen = true → ∀ o ∈ l, isWrite o = false) (s : AState α)
    (hs : LabelsOk frozen s.heap s.dict) :
    s.run dflt table t w i l = ((streams dflt table t w i).run (view s.heap s.dict) ((byValue s.heap l).filterMap (matchOp w))).2 := by
  induction l generalizing s with
  | nil => rfl
  | cons o l ih =>
    have hl' : frozen = true → ∀ o ∈ l, isWrite o = false := fun h o ho => hl h o (List.mem_cons_of_mem _ ho)
    cases o with
    | alloc a =>
      have hs' : LabelsOk frozen (s.heap ++ [a]) s.dict := by
        intro ks hks
        have := hs ks hks
        cases hlab : ks.2.1 with
        | fresh b => trivial
        | ref n => rw [hlab] at this; exact ⟨this.1, by have := this.2; simp; omega⟩
      have hv : view (s.heap ++ [a]) s.dict = view s.heap s.dict := by
        apply List.map_congr_left
        intro ks hks
        rw [read_append _ _ _ _ (hs ks hks)]
      simp only [AState.run, AState.step, Option.toList_none, List.nil_append, byValue]
      rw [ih hl' _ hs', hv]
    | write n a =>
      have hf : frozen = false := by
        cases frozen with
        | false => rfl
        | true => have := hl rfl (.write n a) (by simp); simp [isWrite] at this
      have hs' : LabelsOk frozen (s.heap.set n a) s.dict := by
        intro ks hks
        have := hs ks hks
        cases hlab : ks.2.1 with
        | fresh b => trivial
        | ref m => rw [hlab] at this; have := this.1; simp [hf] at this
      have hv : view (s.heap.set n a) s.dict = view s.heap s.dict := by
        apply List.map_congr_left
        intro ks hks
        have := hs ks hks
        cases hlab : ks.2.1 with
        | fresh b => rfl
        | ref m => rw [hlab] at this; have := this.1; simp [hf] at this
      simp only [AState.run, AState.step, Option.toList_none, List.nil_append, byValue]
      rw [ih hl' _ hs', hv]
    | measure n now v =>
      simp only [AState.run, AState.step, byValue]
      by_cases hn : n < s.heap.length
      · rw [if_pos hn, if_pos hn]
        cases hk : streamKey (restrict w.keys (s.heap.getD n [])) with
        | none =>
          simp only [Option.toList_none, List.nil_append]
          have hm : matchOp w (.measure now (some (s.heap.getD n [])) v) = none := by
            simp only [matchOp, Option.getD_some, hk, Option.map_none]
          rw [ih hl' _ hs, List.filterMap_cons, hm]
        | some k =>
          simp only [Option.toList_none, List.nil_append]
          have hlab : (labelFor w s.heap n).read s.heap = restrict w.keys (s.heap.getD n []) := by
            unfold labelFor
            cases w.keys <;> rfl
          have hlk : LabelOk frozen s.heap (labelFor w s.heap n) := by
            unfold labelFor
            cases hkk : w.keys with
            | some ks => trivial
            | none =>
              refine ⟨?_, hn⟩
              cases frozen with
              | true => rfl
              | false => have := hw rfl; simp [hkk] at this
          have hs' : LabelsOk frozen s.heap ((rstreams dflt table t w i).feedAt k ⟨now, labelFor w s.heap n, v⟩ s.dict) :=
            feedAt_labels dflt table t w i k ⟨now, labelFor w s.heap n, v⟩ (LabelOk frozen s.heap) s.dict hlk hs
          have hih := ih hl' ⟨s.heap, (rstreams dflt table t w i).feedAt k ⟨now, labelFor w s.heap n, v⟩ s.dict⟩ hs'
          refine hih.trans ?_
          rw [List.filterMap_cons]
          have hm : matchOp w (.measure now (some (s.heap.getD n [])) v) = some (.feed k ⟨now, restrict w.keys (s.heap.getD n []), v⟩) := by
            simp only [matchOp, Option.getD_some, hk, Option.map_some]
          rw [hm]
          simp only [Members.run, Members.step, List.nil_append]
          rw [view_feed, hlab]
      · rw [if_neg hn, if_neg hn]
        simp only [Option.toList_none, List.nil_append]
        exact ih hl' _ hs
    | coll now =>
      simp only [AState.run, AState.step, byValue, Members.step]
      rw [List.filterMap_cons]
      simp only [matchOp, Members.run, Members.step]
      have hs' : LabelsOk frozen s.heap (s.dict.map (fun ks => (ks.1, ((rstreams dflt table t w i).coll ks.2 now).2))) := by
        intro ks hks
        rw [List.mem_map] at hks
        obtain ⟨x, hx, rfl⟩ := hks
        exact hs x hx
      rw [ih hl' _ hs']
      refine congrArg₂ List.append (congrArg (fun x => [x]) (view_coll dflt table t w i s.heap now s.dict)) ?_
      exact congrArg (fun d => ((streams dflt table t w i).run d (List.filterMap (matchOp w) (byValue s.heap l))).2) (view_coll' dflt table t w i s.heap now s.dict)

/-- **C60** With a view that names the attribute keys, changing a dictionary after a call never changes what is reported: the points are
those of the history with attributes passed by value. -/
theorem C60_filtered (dflt : List α) (table : Kind → AggConf α) (t : Temporality) (w : View α) (i : Instr α) (ks : List Str)
    (hw : w.keys = some ks) (l : List (AOp α)) :
    AState.run dflt table t w i ⟨[], []⟩ l = ((streams dflt table t w i).run [] ((byValue [] l).filterMap (matchOp w))).2 := by
  exact alias_run dflt table t w i false (fun _ => by simp [hw]) l (by simp) ⟨[], []⟩ (by simp [LabelsOk])

/-- **C60 (partial)** Without such a view the same holds if no dictionary is changed. *Missing*: the case that one is, where it is false
(`C60_relabelled`). -/
theorem C60_unchanged_partial (dflt : List α) (table : Kind → AggConf α) (t : Temporality) (w : View α) (i : Instr α) (l : List (AOp α))
    (hl : ∀ o ∈ l, isWrite o = false) :
    AState.run dflt table t w i ⟨[], []⟩ l = ((streams dflt table t w i).run [] ((byValue [] l).filterMap (matchOp w))).2 := by
  exact alias_run dflt table t w i true (by simp) l (fun _ => hl) ⟨[], []⟩ (by simp [LabelsOk])
end

/-- The attributes and numbers of the points of each collection. -/
def labelled (l : List (List (StreamKey × Option (DataPoint Int)))) : List (List (MAttrs × Int)) :=
  l.map (fun out => out.filterMap (fun ko => match ko.2 with | some ⟨a, .num q⟩ => some (a, q.value) | _ => none))

/-- A counter. -/
def aCounter : Instr Int := ⟨0, .counter, ['n'], [], [], ⟨['m'], none, none⟩, none⟩

/-- **C60** (refutation without attribute keys) One dictionary, used for `{"k": 1}`, then changed to `{"k": 2}` and used again: the program
counted 5 for `k = 1` and 7 for `k = 2`; both points are reported with `k = 2`. -/
theorem C60_relabelled :
    labelled (AState.run [] (fun _ => .default) .cumulative defaultView aCounter ⟨[], []⟩
      [.alloc [(['k'], .atom (.int 1))], .measure 0 10 5, .write 0 [(['k'], .atom (.int 2))], .measure 0 11 7, .coll 12]) =
    [[([(['k'], .atom (.int 2))], 5), ([(['k'], .atom (.int 2))], 7)]] := by
  decide

/-- With a view that keeps the key `k` the labels are right. -/
example :
    labelled (AState.run [] (fun _ => .default) .cumulative { defaultView with keys := some [['k']] } aCounter ⟨[], []⟩
      [.alloc [(['k'], .atom (.int 1))], .measure 0 10 5, .write 0 [(['k'], .atom (.int 2))], .measure 0 11 7, .coll 12]) =
    [[([(['k'], .atom (.int 1))], 5), ([(['k'], .atom (.int 2))], 7)]] := by
  decide

end Metrics
end Otel
