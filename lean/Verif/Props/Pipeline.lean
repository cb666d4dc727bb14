import Verif.Props.Storage
import Verif.Props.Views
import Verif.Props.Metrics
import Verif.Spec.Pipeline
/-!
# C91: from the calls on instruments to the metrics of a collection
-/
namespace Otel
namespace Metrics
variable {α : Type} [AddCommGroup α] [LinearOrder α]

/-- Arrivals as calls on the dictionary of instruments. -/
def fopOf : Arrival α → FOp (Instr α) (Instr α × Meas α)
  | .meas i m => .feed i (i, m)
  | .coll t => .coll t

theorem raises_false (sdk : Sdk α) (i : Instr α) (m : Meas α) (h : ∀ w ∈ viewsFor sdk.fnm sdk.views i, Hashable (kept w m.attrs)) :
    raises sdk i m = false := by
  simp only [raises, List.any_eq_false]
  intro w hw
  obtain ⟨s, hs, _⟩ := streamKey_some _ (h w hw)
  simp only [kept] at hs
  simp [hs]

/-- Observations that are all accepted reach the storage one after the other. -/
theorem observe_run (sdk : Sdk α) (rc : ReaderConf α) (obs : List (Instr α × Meas α)) (s : StorageState α) (hw : WF sdk s)
    (h : ∀ o ∈ obs, raises sdk o.1 o.2 = false) :
    observe sdk rc s obs = (((instruments sdk rc).run s (obs.map (fun o => FOp.feed o.1 o))).1, true) := by
  induction obs generalizing s with
  | nil => rfl
  | cons o obs ih =>
    obtain ⟨i, m⟩ := o
    have hf := consume_flag sdk rc s i m hw
    rw [h (i, m) (by simp)] at hf
    simp only [observe, hf, Bool.not_false, if_true]
    rw [ih _ (WF_consume sdk rc s i m hw) (fun o ho => h o (by simp [ho]))]
    rfl

/-- The state of a reader's storage after a history is that of the dictionary of instruments after its arrivals. -/
theorem run_arrivals (sdk : Sdk α) (r : Nat) (rc : ReaderConf α) (h : List (COp α)) (st : List (ReaderConf α × StorageState α)) (s : StorageState α)
    (hw : WFAll sdk st) (hx : st[r]? = some (rc, s)) (ha : Accepted sdk (h.flatMap (arrivals r))) :
    (consumerRun sdk st h).1[r]? = some (rc, ((instruments sdk rc).run s ((h.flatMap (arrivals r)).map fopOf)).1) := by
  induction h generalizing st s with
  | nil => exact hx
  | cons o h ih =>
    have ha1 : Accepted sdk (arrivals r o) := fun i m hm => ha i m (by simp [hm])
    have ha2 : Accepted sdk (h.flatMap (arrivals r)) := fun i m hm => ha i m (by rw [List.flatMap_cons]; exact List.mem_append_right _ hm)
    have hstep : (consumerStep sdk st o).1[r]? = some (rc, ((instruments sdk rc).run s ((arrivals r o).map fopOf)).1) := by
      cases o with
      | measure i m =>
        have hno := raises_false sdk i m (ha1 i m (by simp [arrivals]))
        simp only [consumerStep]
        rw [broadcast_get _ _ _ _ hw, hx, hno]
        rfl
      | collect r' obs tm now =>
        by_cases hr : r' = r
        · subst hr
          have hl : r' < st.length := (List.getElem?_eq_some_iff.1 hx).1
          simp only [consumerStep, hx]
          rw [List.getElem?_set_self hl]
          congr 2
          have hobs : ∀ o ∈ obs, raises sdk o.1 o.2 = false := by
            intro o ho
            refine raises_false sdk o.1 o.2 (ha1 o.1 o.2 ?_)
            simp only [arrivals, if_true, List.mem_append, List.mem_map]
            exact Or.inl ⟨o, ho, rfl⟩
          have ho := observe_run sdk rc obs s (hw _ (List.mem_of_getElem? hx)) hobs
          simp only [collectReader, ho, Bool.true_and]
          have hm : (obs.map (fun o : Instr α × Meas α => Arrival.meas o.1 o.2)).map fopOf = obs.map (fun o => FOp.feed o.1 o) := by
            simp [List.map_map, Function.comp_def, fopOf]
          cases tm with
          | true =>
            simp only [Bool.not_true, Bool.false_eq_true, if_false, arrivals, if_true, List.append_nil, hm]
            rfl
          | false =>
            simp only [Bool.not_false, if_true, arrivals, Bool.false_eq_true, if_false, List.map_append, hm]
            exact (run_append (instruments sdk rc) s (obs.map (fun o => FOp.feed o.1 o)) [FOp.coll now]).1.symm
        · simp only [consumerStep]
          have : (arrivals r (.collect r' obs tm now) : List (Arrival α)) = [] := by simp [arrivals, hr]
          rw [this]
          cases hx' : st[r']? with
          | none => exact hx
          | some x => simp only; rw [List.getElem?_set_ne hr]; exact hx
    have := ih _ _ (WFAll_step sdk o st hw) hstep ha2
    rw [List.flatMap_cons, List.map_append]
    refine this.trans ?_
    congr 2
    exact (run_append (instruments sdk rc) s _ _).1.symm

/-! ## One instrument -/

/-- The stream sets of an instrument after a history. -/
def setsAfter (sdk : Sdk α) (rc : ReaderConf α) (i : Instr α) (h : List (MatchOp α)) : List (MatchState α) :=
  (viewsFor sdk.fnm sdk.views i).map (fun w => ⟨w, ((streamsOf sdk rc i w).run [] (h.filterMap (matchOp w))).1⟩)

theorem consumeAll_ok (sdk : Sdk α) (rc : ReaderConf α) (i : Instr α) (m : Meas α) (l : List (MatchState α))
    (h : ∀ s ∈ l, Hashable (kept s.view m.attrs)) :
    (consumeAll sdk rc i m l).1 = l.map (fun s => { s with dict := ((streamsOf sdk rc i s.view).run s.dict
      ([MatchOp.measure m.now m.attrs m.value].filterMap (matchOp s.view))).1 }) := by
  induction l with
  | nil => rfl
  | cons s l ih =>
    obtain ⟨k, hk, _⟩ := streamKey_some _ (h s (by simp))
    have hc : s.consume sdk rc i m = some { s with dict := (streamsOf sdk rc i s.view).feedAt k ⟨m.now, restrict s.view.keys (m.attrs.getD []), m.value⟩ s.dict } := by
      simp only [kept] at hk
      simp [MatchState.consume, hk]
    simp only [kept] at hk
    simp only [consumeAll, hc, List.map_cons, List.cons.injEq]
    refine ⟨?_, ih (fun s hs => h s (by simp [hs]))⟩
    simp [matchOp, hk, Members.run, Members.step]

theorem collect_state (sdk : Sdk α) (rc : ReaderConf α) (i : Instr α) (now : Int) (s : MatchState α) :
    (s.collect sdk rc i now).2 = { s with dict := ((streamsOf sdk rc i s.view).run s.dict [.coll now]).1 } := by
  unfold MatchState.collect
  simp only
  split <;> rfl

/-- Whether an instrument has measured. -/
def hasMeasured (i : Instr α) (l : List (Arrival α)) : Bool :=
  l.any (fun a => match a with | .meas j _ => decide (j = i) | .coll _ => false)

/-- The state of an instrument in the dictionary. -/
theorem solo_instr (sdk : Sdk α) (rc : ReaderConf α) (i : Instr α) (l p : List (Arrival α)) (ha : Accepted sdk l) :
    (instruments sdk rc).soloFrom i (if hasMeasured i p then some (i, setsAfter sdk rc i (historyOf i p)) else none)
      (l.map fopOf) =
    if hasMeasured i (p ++ l) then some (i, setsAfter sdk rc i (historyOf i (p ++ l))) else none := by
  induction l generalizing p with
  | nil => rw [List.append_nil]; rfl
  | cons a l ih =>
    have ha2 : Accepted sdk l := fun i m hm => ha i m (by simp [hm])
    have e : p ++ a :: l = (p ++ [a]) ++ l := by simp
    rw [e, ← ih (p ++ [a]) ha2]
    cases a with
    | meas j m =>
      by_cases hj : j = i
      · subst hj
        simp only [List.map_cons, fopOf, Members.soloFrom, if_true]
        congr 1
        have h1 : hasMeasured j (p ++ [Arrival.meas j m]) = true := by simp [hasMeasured]
        rw [h1, if_pos rfl]
        congr 1
        have hold : ((if hasMeasured j p then some (j, setsAfter sdk rc j (historyOf j p)) else none).getD
            ((instruments sdk rc).new j (j, m))) = (j, setsAfter sdk rc j (historyOf j p)) := by
          split
          · rfl
          · rename_i hno
            show (j, _) = (j, _)
            congr 1
            unfold setsAfter
            apply List.map_congr_left
            intro w _
            congr 1
            have : ∀ (d : List (Arrival α)), ¬ hasMeasured j d = true →
                ((streamsOf sdk rc j w).run [] ((historyOf j d).filterMap (matchOp w))).1 = [] := by
              intro d
              induction d with
              | nil => intro _; rfl
              | cons a d ih =>
                intro hd
                simp only [hasMeasured, List.any_cons, Bool.or_eq_true, not_or] at hd
                cases a with
                | meas j' m' =>
                  have : j' ≠ j := by simpa using hd.1
                  have : historyOf j (.meas j' m' :: d) = historyOf j d := by simp [historyOf, this]
                  rw [this]
                  exact ih hd.2
                | coll t => exact ih hd.2
            exact (this p hno).symm
        refine (congrArg (fun s => (instruments sdk rc).feed s (j, m)) hold).trans ?_
        show (j, (consumeAll sdk rc j m (setsAfter sdk rc j (historyOf j p))).1) = _
        congr 1
        rw [consumeAll_ok]
        · unfold setsAfter
          rw [List.map_map]
          apply List.map_congr_left
          intro w _
          simp only [Function.comp]
          congr 1
          refine (run_append (streamsOf sdk rc j w) [] _ _).1.symm.trans ?_
          rw [← List.filterMap_append]
          congr 3
          simp [historyOf]
        · intro s hs
          unfold setsAfter at hs
          obtain ⟨w, hw, rfl⟩ := List.mem_map.1 hs
          exact ha j m (by simp) w hw
      · simp only [List.map_cons, fopOf, Members.soloFrom, hj, if_false]
        congr 1
        have : historyOf i (p ++ [Arrival.meas j m]) = historyOf i p := by simp [historyOf, hj]
        rw [this]
        simp [hasMeasured, hj]
    | coll t =>
      simp only [List.map_cons, fopOf, Members.soloFrom]
      congr 1
      have h1 : hasMeasured i (p ++ [Arrival.coll t]) =
        hasMeasured i p := by simp [hasMeasured]
      rw [h1]
      split
      · show some (i, _) = some (i, _)
        congr 1
        congr 1
        unfold setsAfter
        rw [List.map_map]
        apply List.map_congr_left
        intro w _
        simp only [Function.comp, collect_state]
        congr 1
        refine (run_append (streamsOf sdk rc i w) [] _ _).1.symm.trans ?_
        congr 2
        simp [historyOf, matchOp]
      · rfl

/-! ## One metric -/

theorem machine_snoc {P : Type} (m : Machine α P) (l : List (Op α)) (now : Int) (s : m.S) :
    (m.run s (l ++ [.coll now])).2 = (m.run s l).2 ++ [(m.collect (m.run s l).1 now).1] := by
  induction l generalizing s with
  | nil => rfl
  | cons o l ih =>
    cases o with
    | meas v => exact ih _
    | coll t => simp only [List.cons_append, Machine.run, ih, List.cons_append]

theorem metric_reports (sdk : Sdk α) (rc : ReaderConf α) (i : Instr α) (w : View α) (h : List (MatchOp α)) (hh : AllHashable w h) (now : Int) :
    MetricReports sdk rc i w h now
      ((MatchState.mk w ((streamsOf sdk rc i w).run [] (h.filterMap (matchOp w))).1).collect sdk rc i now).1 := by
  obtain ⟨out, h1, h2, h3, h4⟩ := C32_streams sdk rc w i h hh now
  have hout : out = ((streamsOf sdk rc i w).run [] (h.filterMap (matchOp w))).1.map (fun ks => (ks.1, ((streamsOf sdk rc i w).coll ks.2 now).1)) := by
    rw [List.filterMap_append, (run_append _ _ _ _).2] at h1
    have h1' := List.append_cancel_left h1
    have e : ([MatchOp.coll now].filterMap (matchOp w)) = [FOp.coll now] := rfl
    rw [e, run_coll] at h1'
    exact (List.cons.inj h1').1.symm
  refine ⟨out.filterMap (fun x => x.2.map (fun p => (x.1, p))), ?_, ?_, ?_⟩
  · have : ∀ (l : List (StreamKey × Option (DataPoint α))), ((l.filterMap (fun x => x.2.map (fun p => (x.1, p)))).map (·.1)).Sublist (l.map (·.1)) := by
      intro l
      induction l with
      | nil => simp
      | cons x l ih =>
        obtain ⟨k, o⟩ := x
        cases o with
        | none => simpa using ih.cons k
        | some p => simpa using ih.cons_cons k
    exact h2.sublist (this out)
  · intro k p
    simp only [List.mem_filterMap, Option.map_eq_some_iff, Prod.mk.injEq, Prod.exists]
    have hrep : ∀ a start label, firstWith w a h = some (start, label) →
        ((((Shape.of sdk.dflt w.agg (rc.table i.kind) i).machine i.kind (rc.temporality i.kind) start).out
          (streamHistory w a h ++ [.coll now])).getLast? = some (some p.pt) ∧ p.attrs = label ↔
        (((aggM (effective rc.table w i) sdk.dflt i (rc.temporality i.kind) start).run
            ((effective rc.table w i).create sdk.dflt i start) (streamHistory w a h)).1.collect (rc.temporality i.kind) now).1.map (⟨label, ·⟩) = some p) := by
      intro a start label _
      rw [← C33_stream_machine]
      unfold Machine.out
      rw [machine_snoc]
      simp only [List.getLast?_append, List.getLast?_singleton, Option.some_or, Option.some.injEq]
      show ((Agg.collect _ _ _).1 = _ ∧ _) ↔ _
      rw [Option.map_eq_some_iff]
      constructor
      · rintro ⟨e1, e2⟩
        refine ⟨p.pt, e1, ?_⟩
        rw [← e2]
      · rintro ⟨pt, e1, e2⟩
        subst e2
        exact ⟨e1, rfl⟩
    constructor
    · rintro ⟨k', o, hm, q, rfl, rfl, rfl⟩
      obtain ⟨a, ha, hk⟩ := h3 _ _ hm
      obtain ⟨start, label, hf, he⟩ := (h4 a k' (some q) ha hk).1 hm
      have := (hrep a start label hf).2 he.symm
      exact ⟨a, ha, hk, start, label, hf, this.2, this.1⟩
    · rintro ⟨a, ha, hk, start, label, hf, e1, e2⟩
      have := (hrep a start label hf).1 ⟨e2, e1⟩
      exact ⟨k, some p, (h4 a k (some p) ha hk).2 ⟨start, label, hf, this.symm⟩, p, rfl, rfl, rfl⟩
  · have hps : (out.filterMap (fun x => x.2.map (fun p => (x.1, p)))).map (·.2) = out.filterMap (·.2) := by
      rw [List.map_filterMap]
      congr 1
      funext x
      cases x.2 <;> rfl
    have hmo : matchOut (((streamsOf sdk rc i w).step ((streamsOf sdk rc i w).run [] (h.filterMap (matchOp w))).1 (.coll now)).2.getD []) = matchOut out := by
      rw [hout]; rfl
    have hd := C33_stream_data sdk.dflt rc.table w i (rc.temporality i.kind)
    rw [← hd]
    unfold MatchState.collect
    simp only [hmo]
    by_cases he : out.filterMap (·.2) = []
    · left
      have : out.filterMap (fun x => x.2.map (fun p => (x.1, p))) = [] := by
        rw [he] at hps
        exact List.map_eq_nil_iff.1 hps
      refine ⟨Or.inl this, ?_⟩
      have : matchOut out = none := by simp only [matchOut, he]
      rw [this]
    · have hmo2 : matchOut out = some (out.filterMap (·.2)) := by
        unfold matchOut
        split
        · rename_i h0; exact absurd h0 he
        · rfl
      rw [hmo2]
      cases hk : dataKind (effective rc.table w i) i (rc.temporality i.kind) with
      | none => left; exact ⟨Or.inr rfl, rfl⟩
      | some d =>
        right
        refine ⟨fun hc => he (by rw [← hps, hc]; rfl), _, rfl, hps.symm, rfl, rfl, ?_, ?_⟩
        · simp only [orStr]
          rcases w.name with _ | n
          · rfl
          · rcases n with _ | ⟨c, n⟩ <;> simp
        · simp only [orStr]
          rcases w.description with _ | n
          · rfl
          · rcases n with _ | ⟨c, n⟩ <;> simp

/-- **C91** What a completed collection of a reader reports, for every history of calls on the provider's instruments and readers. `out`
lists every instrument that has measured, once, with the metrics of the views made for it, in order; each metric consists of the points
that the instrument's streams, run on the whole history of its measurements and of this reader's collections, report now; the result is
these metrics grouped by instrumentation scope. -/
theorem C91_collection (sdk : Sdk α) (rcs : List (ReaderConf α)) (r : Nat) (rc : ReaderConf α) (hrc : rcs[r]? = some rc)
    (h : List (COp α)) (obs : List (Instr α × Meas α)) (now : Int) (l : List (Arrival α))
    (hl : l = h.flatMap (arrivals r) ++ obs.map (fun o => Arrival.meas o.1 o.2)) (ha : Accepted sdk l) :
    ∃ out : List (Instr α × List (Metric α)),
      outputsOf r (consumerRun sdk (consumerInit rcs) (h ++ [.collect r obs false now])).2 =
        outputsOf r (consumerRun sdk (consumerInit rcs) h).2 ++ [.data (groupScopes out)] ∧
      (out.map (·.1)).Nodup ∧ (∀ i, i ∈ out.map (·.1) ↔ Measured i l) ∧
      ∀ i ms, (i, ms) ∈ out → ∃ f : View α → Option (Metric α), ms = (viewsFor sdk.fnm sdk.views i).filterMap f ∧
        ∀ w ∈ viewsFor sdk.fnm sdk.views i, MetricReports sdk rc i w (historyOf i l) now (f w) := by
  have ha1 : Accepted sdk (h.flatMap (arrivals r)) := fun i m hm => ha i m (by rw [hl]; simp only [List.mem_append]; exact Or.inl hm)
  have ha2 : ∀ o ∈ obs, raises sdk o.1 o.2 = false := fun o ho =>
    raises_false sdk o.1 o.2 (ha o.1 o.2 (by rw [hl]; simp only [List.mem_append, List.mem_map]; exact Or.inr ⟨o, ho, rfl⟩))
  have hst := run_arrivals sdk r rc h (consumerInit rcs) [] (WFAll_init sdk rcs) (by simp [consumerInit, hrc]) ha1
  have hwf := WFAll_run sdk h _ (WFAll_init sdk rcs) _ (List.mem_of_getElem? hst)
  have hobs := observe_run sdk rc obs _ hwf ha2
  have hrun : (((instruments sdk rc).run ((instruments sdk rc).run [] ((h.flatMap (arrivals r)).map fopOf)).1 (obs.map (fun o => FOp.feed o.1 o))).1) =
      ((instruments sdk rc).run [] (l.map fopOf)).1 := by
    rw [← (run_append _ _ _ _).1, hl, List.map_append, List.map_map]
    rfl
  simp only [hrun] at hobs
  obtain ⟨hn, hlook⟩ := run_solo (instruments sdk rc) (l.map fopOf) [] (by simp)
  have hsolo := fun i => (hlook i).trans (solo_instr sdk rc i l [] ha)
  simp only [List.nil_append] at hsolo
  have hmeas : ∀ i, hasMeasured i l = true ↔ Measured i l := by
    intro i
    rw [hasMeasured, List.any_eq_true]
    constructor
    · rintro ⟨a, h1, h2⟩
      cases a with
      | meas j m => have : j = i := by simpa using h2
                    subst this; exact ⟨m, h1⟩
      | coll t => simp at h2
    · rintro ⟨m, hm⟩
      exact ⟨_, hm, by simp⟩
  refine ⟨((instruments sdk rc).run [] (l.map fopOf)).1.map (fun ks => (ks.1, ((instruments sdk rc).coll ks.2 now).1)), ?_, ?_, ?_, ?_⟩
  · have happ : ∀ (h : List (COp α)) (st : List (ReaderConf α × StorageState α)) (o : COp α),
        (consumerRun sdk st (h ++ [o])).2 = (consumerRun sdk st h).2 ++ (consumerStep sdk (consumerRun sdk st h).1 o).2.toList := by
      intro h
      induction h with
      | nil => intro st o; simp [consumerRun]
      | cons a h ih => intro st o; simp only [List.cons_append, consumerRun, ih, List.append_assoc]
    rw [happ]
    simp only [consumerStep, hst, collectReader, hobs, Bool.not_false, Bool.and_self, if_true, Option.toList_some]
    simp only [outputsOf, List.filter_append, List.map_append, List.filter_cons, decide_true, if_true, List.filter_nil, List.map_cons, List.map_nil]
    refine congrArg (fun x => _ ++ [CollOut.data (groupScopes (List.map (fun ks => (ks.1, ((instruments sdk rc).coll ks.2 now).1)) x))]) hrun
  · simpa [List.map_map, Function.comp_def] using hn
  · intro i
    rw [← hmeas, List.map_map]
    have : ∀ (d : List (Instr α × (instruments sdk rc).S)), i ∈ d.map (·.1) ↔ (look i d).isSome := by
      intro d
      induction d with
      | nil => simp [look]
      | cons x d ih =>
        simp only [List.map_cons, List.mem_cons, look]
        by_cases hx : x.1 = i
        · simp [hx]
        · rw [if_neg hx, ← ih]; simp [Ne.symm hx]
    refine (this _).trans ?_
    rw [hsolo]
    by_cases hb : hasMeasured i l = true
    · rw [if_pos hb]; exact ⟨fun _ => hb, fun _ => rfl⟩
    · rw [if_neg hb]; exact ⟨fun h => absurd h Bool.false_ne_true, fun h => absurd h hb⟩
  · intro i ms hm
    obtain ⟨ks, hks, he⟩ := List.mem_map.1 hm
    simp only [Prod.mk.injEq] at he
    obtain ⟨e1, e2⟩ := he
    obtain ⟨i', s⟩ := ks
    simp only at e1 e2
    subst e1
    have h1 := (look_mem i' s _ hn).2 hks
    rw [hsolo] at h1
    split at h1
    · have h1' := Option.some.inj h1
      subst h1'
      refine ⟨fun w => ((MatchState.mk w ((streamsOf sdk rc i' w).run [] ((historyOf i' l).filterMap (matchOp w))).1).collect sdk rc i' now).1, ?_, ?_⟩
      · rw [← e2]
        show List.filterMap id (List.map _ (setsAfter sdk rc i' (historyOf i' l))) = _
        unfold setsAfter
        rw [List.map_map, List.filterMap_map]
        rfl
      · intro w hw
        apply metric_reports
        intro o ho
        unfold historyOf at ho
        obtain ⟨a, ha', he⟩ := List.mem_filterMap.1 ho
        cases a with
        | meas j m =>
          simp only at he
          split at he
          · rename_i hj
            subst hj
            simp only [Option.some.injEq] at he
            subst he
            exact ha j m ha' w hw
          · cases he
        | coll t =>
          simp only [Option.some.injEq] at he
          subst he
          trivial
    · cases h1

/-! ## What this means for a counter and a gauge -/

theorem cyclesFrom_snoc (l : List (Op α)) (since : Int) (here all : List α) (now : Int) :
    ∃ s, (cyclesFrom since here all (l ++ [.coll now])).getLast? = some ⟨s, now, pendingFrom here l, all ++ measurements l⟩ := by
  induction l generalizing since here all with
  | nil => exact ⟨since, by simp [cyclesFrom, pendingFrom, measurements]⟩
  | cons o l ih =>
    cases o with
    | meas v =>
      obtain ⟨s, h⟩ := ih since (here ++ [v]) (all ++ [v])
      exact ⟨s, by simp only [List.cons_append, cyclesFrom, h, pendingFrom, measurements, List.append_assoc, List.nil_append]⟩
    | coll t =>
      obtain ⟨s, h⟩ := ih t [] all
      refine ⟨s, ?_⟩
      simp only [List.cons_append, cyclesFrom, pendingFrom, measurements]
      rw [List.getLast?_cons, h]
      rfl

theorem firstOf_default_isNone (a : MAttrs) (now : Int) (b : Option MAttrs) (v : α) :
    (firstOf (defaultView : View α) a (.measure now b v)).isNone = true → ¬ DictEq (b.getD []) a := by
  intro h hd
  have : firstOf (defaultView : View α) a (.measure now b v) = some (now, kept defaultView b) := if_pos hd
  rw [this] at h
  cases h

theorem values_history (i : Instr α) (a : MAttrs) (l : List (Arrival α)) :
    measurements (streamHistory (defaultView : View α) a (historyOf i l)) = values i a l := by
  have h1 : ∀ (h : List (MatchOp α)), measurements ((h.dropWhile (fun o => (firstOf (defaultView : View α) a o).isNone)).filterMap (opOf defaultView a)) =
      measurements (h.filterMap (opOf defaultView a)) := by
    intro h
    induction h with
    | nil => rfl
    | cons o h ih =>
      rw [List.dropWhile_cons]
      split
      · rename_i hn
        rw [ih]
        cases o with
        | measure t b v =>
          have : opOf (defaultView : View α) a (.measure t b v) = none := if_neg (firstOf_default_isNone a t b v hn)
          rw [List.filterMap_cons_none this]
        | coll t => rfl
      · rfl
  unfold streamHistory
  rw [h1]
  induction l with
  | nil => rfl
  | cons x l ih =>
    cases x with
    | coll t => exact ih
    | meas j m =>
      by_cases hj : j = i
      · subst hj
        by_cases hd : DictEq (m.attrs.getD []) a
        · have e1 : historyOf j (.meas j m :: l) = .measure m.now m.attrs m.value :: historyOf j l := by simp [historyOf]
          have e2 : opOf (defaultView : View α) a (.measure m.now m.attrs m.value) = some (.meas m.value) := if_pos hd
          have e3 : values j a (.meas j m :: l) = m.value :: values j a l := by simp [values, hd]
          rw [e1, List.filterMap_cons_some e2, e3, measurements, ih]
        · have e1 : historyOf j (.meas j m :: l) = .measure m.now m.attrs m.value :: historyOf j l := by simp [historyOf]
          have e2 : opOf (defaultView : View α) a (.measure m.now m.attrs m.value) = none := if_neg hd
          have e3 : values j a (.meas j m :: l) = values j a l := by simp [values, hd]
          rw [e1, List.filterMap_cons_none e2, e3, ih]
      · have e1 : historyOf i (.meas j m :: l) = historyOf i l := by simp [historyOf, hj]
        have e3 : values i a (.meas j m :: l) = values i a l := by simp [values, hj]
        rw [e1, e3, ih]

theorem pending_history (i : Instr α) (a : MAttrs) (l : List (Arrival α)) :
    pending (streamHistory (defaultView : View α) a (historyOf i l)) = values i a (sinceLast l) := by
  have h1 : ∀ (h : List (MatchOp α)), pendingFrom [] ((h.dropWhile (fun o => (firstOf (defaultView : View α) a o).isNone)).filterMap (opOf defaultView a)) =
      pendingFrom [] (h.filterMap (opOf defaultView a)) := by
    intro h
    induction h with
    | nil => rfl
    | cons o h ih =>
      rw [List.dropWhile_cons]
      split
      · rename_i hn
        rw [ih]
        cases o with
        | measure t b v =>
          have : opOf (defaultView : View α) a (.measure t b v) = none := if_neg (firstOf_default_isNone a t b v hn)
          rw [List.filterMap_cons_none this]
        | coll t => rfl
      · rfl
  have h2 : ∀ (l acc : List (Arrival α)), pendingFrom (values i a acc) ((historyOf i l).filterMap (opOf (defaultView : View α) a)) = values i a (sinceFrom acc l) := by
    intro l
    induction l with
    | nil => intro acc; rfl
    | cons x l ih =>
      intro acc
      cases x with
      | coll t => exact ih []
      | meas j m =>
        by_cases hj : j = i
        · subst hj
          have e1 : historyOf j (.meas j m :: l) = .measure m.now m.attrs m.value :: historyOf j l := by simp [historyOf]
          by_cases hd : DictEq (m.attrs.getD []) a
          · have e2 : opOf (defaultView : View α) a (.measure m.now m.attrs m.value) = some (.meas m.value) := if_pos hd
            have e3 : values j a (acc ++ [.meas j m]) = values j a acc ++ [m.value] := by simp [values, hd]
            rw [e1, List.filterMap_cons_some e2, pendingFrom, ← e3, ih]
            rfl
          · have e2 : opOf (defaultView : View α) a (.measure m.now m.attrs m.value) = none := if_neg hd
            have e3 : values j a (acc ++ [.meas j m]) = values j a acc := by simp [values, hd]
            rw [e1, List.filterMap_cons_none e2, ← e3, ih]
            rfl
        · have e1 : historyOf i (.meas j m :: l) = historyOf i l := by simp [historyOf, hj]
          have e3 : values i a (acc ++ [.meas j m]) = values i a acc := by simp [values, hj]
          rw [e1, ← e3, ih]
          rfl
  unfold pending streamHistory
  rw [h1]
  exact h2 l []

/-- The points of a collection for an instrument without views of its own: those its streams report. -/
theorem default_points (sdk : Sdk α) (rcs : List (ReaderConf α)) (r : Nat) (rc : ReaderConf α) (hrc : rcs[r]? = some rc)
    (h : List (COp α)) (obs : List (Instr α × Meas α)) (now : Int) (l : List (Arrival α))
    (hl : l = h.flatMap (arrivals r) ++ obs.map (fun o => Arrival.meas o.1 o.2)) (ha : Accepted sdk l)
    (i : Instr α) (hv : viewsFor sdk.fnm sdk.views i = [defaultView]) (hm : Measured i l) (hsh : (Shape.of sdk.dflt .default (rc.table i.kind) i).data (rc.temporality i.kind) ≠ none)
    (a : MAttrs) (haa : Hashable a) (p : DataPoint α) (hp : StreamReports sdk rc i defaultView (historyOf i l) now a p) :
    ∃ g ms mt, outputsOf r (consumerRun sdk (consumerInit rcs) (h ++ [.collect r obs false now])).2 =
        outputsOf r (consumerRun sdk (consumerInit rcs) h).2 ++ [.data (some g)] ∧
      (i.scope, ms) ∈ g ∧ mt ∈ ms ∧ mt.name = i.name ∧ mt.unit = i.unit ∧ p ∈ mt.points := by
  obtain ⟨out, e1, e2, e3, e4⟩ := C91_collection sdk rcs r rc hrc h obs now l hl ha
  obtain ⟨ms, hms⟩ : ∃ ms, (i, ms) ∈ out := by
    obtain ⟨x, hx, hx2⟩ := List.mem_map.1 ((e3 i).2 hm)
    exact ⟨x.2, by rw [← hx2]; exact hx⟩
  obtain ⟨f, f1, f2⟩ := e4 i ms hms
  rw [hv] at f1 f2
  obtain ⟨ps, p1, p2, p3⟩ := f2 defaultView (by simp)
  obtain ⟨k, hk, _⟩ := streamKey_some a haa
  have hmem := (p2 k p).2 ⟨a, haa, hk, hp⟩
  rcases p3 with ⟨hc | hc, _⟩ | ⟨_, mt, q1, q2, q3, q4, q5, q6⟩
  · rw [hc] at hmem; cases hmem
  · exact absurd hc hsh
  · have hms2 : ms = [mt] := by rw [f1]; simp [q1]
    cases hg : groupScopes out with
    | none =>
      have := (C33_grouping out).1.1 hg _ hms
      rw [hms2] at this
      cases this
    | some g =>
      have hg2 := ((C33_grouping out).2 g hg).2 i.scope ((out.filter (fun im => decide (im.1.scope = i.scope))).flatMap (·.2))
      have hin : mt ∈ (out.filter (fun im => decide (im.1.scope = i.scope))).flatMap (·.2) := by
        rw [List.mem_flatMap]
        exact ⟨(i, ms), by simp [hms], by rw [hms2]; simp⟩
      refine ⟨g, _, mt, ?_, hg2.2 ⟨rfl, List.ne_nil_of_mem hin⟩, hin, q5, q4, ?_⟩
      · rw [e1, hg]
      · rw [q2]; exact List.mem_map.2 ⟨(k, p), hmem, rfl⟩

theorem measured_of_values (i : Instr α) (a : MAttrs) (l : List (Arrival α)) (h : values i a l ≠ []) :
    Measured i l ∧ ∃ start label, firstWith (defaultView : View α) a (historyOf i l) = some (start, label) ∧ DictEq label a := by
  obtain ⟨v, hv⟩ := List.exists_mem_of_ne_nil _ h
  unfold values at hv
  obtain ⟨x, hx, he⟩ := List.mem_filterMap.1 hv
  cases x with
  | coll t => cases he
  | meas j m =>
    simp only at he
    split at he
    · rename_i hc
      obtain ⟨rfl, hd⟩ := hc
      refine ⟨⟨m, hx⟩, ?_⟩
      have hmem : MatchOp.measure m.now m.attrs m.value ∈ historyOf j l := by
        unfold historyOf
        exact List.mem_filterMap.2 ⟨_, hx, by simp⟩
      unfold firstWith
      cases hf : (historyOf j l).findSome? (firstOf defaultView a) with
      | none =>
        have h1 := List.findSome?_eq_none_iff.1 hf _ hmem
        have h2 : firstOf (defaultView : View α) a (.measure m.now m.attrs m.value) = some (m.now, kept defaultView m.attrs) := if_pos hd
        rw [h2] at h1
        cases h1
      | some q =>
        refine ⟨q.1, q.2, rfl, ?_⟩
        obtain ⟨o, _, ho⟩ := List.exists_of_findSome?_eq_some hf
        cases o with
        | coll t => cases ho
        | measure t b v =>
          by_cases hb : DictEq (kept (defaultView : View α) b) a
          · have h2 : firstOf (defaultView : View α) a (.measure t b v) = some (t, kept defaultView b) := if_pos hb
            rw [h2] at ho
            cases ho
            exact hb
          · have h2 : firstOf (defaultView : View α) a (.measure t b v) = none := if_neg hb
            rw [h2] at ho
            cases ho
    · cases he

/-- **C91** A counter read by a cumulative reader, no view applying to it: every completed collection after the first increment with some
attributes contains, under the counter's scope and name, a point with these attributes whose value is the total of all increments made
with them, whoever collected in between and however often. -/
theorem C91_counter_total (sdk : Sdk α) (rcs : List (ReaderConf α)) (r : Nat) (rc : ReaderConf α) (hrc : rcs[r]? = some rc)
    (h : List (COp α)) (obs : List (Instr α × Meas α)) (now : Int) (l : List (Arrival α))
    (hl : l = h.flatMap (arrivals r) ++ obs.map (fun o => Arrival.meas o.1 o.2)) (ha : Accepted sdk l)
    (i : Instr α) (hv : viewsFor sdk.fnm sdk.views i = [defaultView]) (hk : i.kind = .counter ∨ i.kind = .upDown)
    (ht : rc.temporality i.kind = .cumulative) (htab : rc.table i.kind = .default) (a : MAttrs) (haa : Hashable a) (hne : values i a l ≠ []) :
    ∃ g ms mt p start, outputsOf r (consumerRun sdk (consumerInit rcs) (h ++ [.collect r obs false now])).2 =
        outputsOf r (consumerRun sdk (consumerInit rcs) h).2 ++ [.data (some g)] ∧
      (i.scope, ms) ∈ g ∧ mt ∈ ms ∧ mt.name = i.name ∧ mt.unit = i.unit ∧ p ∈ mt.points ∧
      DictEq p.attrs a ∧ p.pt = .num ⟨some start, now, (values i a l).sum⟩ := by
  obtain ⟨hm, start, label, hf, hd⟩ := measured_of_values i a l hne
  have hshape : Shape.of sdk.dflt .default (rc.table i.kind) i = .sum (decide (i.kind = .counter)) := by
    rw [htab]; rcases hk with hk | hk <;> simp [Shape.of, Shape.ofConf, Shape.ofKind, hk]
  have hin : inputOf i.kind = .delta := by rcases hk with hk | hk <;> simp [inputOf, hk]
  obtain ⟨g, ms, mt, h1, h2, h3, h4, h5, h6⟩ := default_points sdk rcs r rc hrc h obs now l hl ha i hv hm (by rw [hshape]; simp [Shape.data]) a haa
    ⟨label, .num ⟨some start, now, (values i a l).sum⟩⟩ (by
      refine ⟨start, label, hf, rfl, ?_⟩
      show (((Shape.of sdk.dflt .default (rc.table i.kind) i).machine i.kind (rc.temporality i.kind) start).out _).getLast? = _
      rw [hshape, ht]
      simp only [Shape.machine, hin]
      rw [C33_machine_out, C29_sync_cumulative, List.getLast?_map, List.getLast?_map]
      obtain ⟨s, hs⟩ := cyclesFrom_snoc (streamHistory defaultView a (historyOf i l)) start [] [] now
      rw [cycles, hs, ← values_history]
      rfl)
  exact ⟨g, ms, mt, _, start, h1, h2, h3, h4, h5, h6, hd, rfl⟩

/-- **C91** The same counter read by a delta reader: if increments with these attributes were made since this reader's last completed
collection, the next one contains a point with exactly their total. -/
theorem C91_counter_delta (sdk : Sdk α) (rcs : List (ReaderConf α)) (r : Nat) (rc : ReaderConf α) (hrc : rcs[r]? = some rc)
    (h : List (COp α)) (obs : List (Instr α × Meas α)) (now : Int) (l : List (Arrival α))
    (hl : l = h.flatMap (arrivals r) ++ obs.map (fun o => Arrival.meas o.1 o.2)) (ha : Accepted sdk l)
    (i : Instr α) (hv : viewsFor sdk.fnm sdk.views i = [defaultView]) (hk : i.kind = .counter ∨ i.kind = .upDown)
    (ht : rc.temporality i.kind = .delta) (htab : rc.table i.kind = .default) (a : MAttrs) (haa : Hashable a) (hne : values i a (sinceLast l) ≠ []) :
    ∃ g ms mt p start, outputsOf r (consumerRun sdk (consumerInit rcs) (h ++ [.collect r obs false now])).2 =
        outputsOf r (consumerRun sdk (consumerInit rcs) h).2 ++ [.data (some g)] ∧
      (i.scope, ms) ∈ g ∧ mt ∈ ms ∧ mt.name = i.name ∧ mt.unit = i.unit ∧ p ∈ mt.points ∧
      DictEq p.attrs a ∧ p.pt = .num ⟨some start, now, (values i a (sinceLast l)).sum⟩ := by
  have hsub : ∀ (l acc : List (Arrival α)), values i a (sinceFrom acc l) ≠ [] → values i a (acc ++ l) ≠ [] := by
    intro l
    induction l with
    | nil => intro acc h; simpa [sinceFrom] using h
    | cons x l ih =>
      intro acc h
      cases x with
      | coll t =>
        have := ih [] h
        intro hc
        apply this
        simp only [values, List.filterMap_append, List.append_eq_nil_iff] at hc ⊢
        exact ⟨rfl, hc.2⟩
      | meas j m => have := ih _ h; simpa using this
  have hne' : values i a l ≠ [] := hsub l [] hne
  obtain ⟨hm, start, label, hf, hd⟩ := measured_of_values i a l hne'
  have hshape : Shape.of sdk.dflt .default (rc.table i.kind) i = .sum (decide (i.kind = .counter)) := by
    rw [htab]; rcases hk with hk | hk <;> simp [Shape.of, Shape.ofConf, Shape.ofKind, hk]
  have hin : inputOf i.kind = .delta := by rcases hk with hk | hk <;> simp [inputOf, hk]
  obtain ⟨s, hs⟩ := cyclesFrom_snoc (streamHistory defaultView a (historyOf i l)) start [] [] now
  obtain ⟨g, ms, mt, h1, h2, h3, h4, h5, h6⟩ := default_points sdk rcs r rc hrc h obs now l hl ha i hv hm (by rw [hshape]; simp [Shape.data]) a haa
    ⟨label, .num ⟨some s, now, (values i a (sinceLast l)).sum⟩⟩ (by
      refine ⟨start, label, hf, rfl, ?_⟩
      show (((Shape.of sdk.dflt .default (rc.table i.kind) i).machine i.kind (rc.temporality i.kind) start).out _).getLast? = _
      rw [hshape, ht]
      simp only [Shape.machine, hin]
      rw [C33_machine_out, C29_sync_delta, List.getLast?_map, List.getLast?_map, cycles, hs]
      rw [← pending_history] at hne ⊢
      have he : (pendingFrom [] (streamHistory defaultView a (historyOf i l))).isEmpty = false := by
        rw [Bool.eq_false_iff]; intro hc; exact hne (List.isEmpty_iff.1 hc)
      simp only [Option.map_some, he, Bool.false_eq_true, if_false]
      rfl)
  exact ⟨g, ms, mt, _, s, h1, h2, h3, h4, h5, h6, hd, rfl⟩

/-- **C91** A gauge: if a value was recorded with these attributes since this reader's last completed collection, the next one contains
a point with the last value recorded. -/
theorem C91_gauge_last (sdk : Sdk α) (rcs : List (ReaderConf α)) (r : Nat) (rc : ReaderConf α) (hrc : rcs[r]? = some rc)
    (h : List (COp α)) (obs : List (Instr α × Meas α)) (now : Int) (l : List (Arrival α))
    (hl : l = h.flatMap (arrivals r) ++ obs.map (fun o => Arrival.meas o.1 o.2)) (ha : Accepted sdk l)
    (i : Instr α) (hv : viewsFor sdk.fnm sdk.views i = [defaultView]) (hk : i.kind = .gauge ∨ i.kind = .obsGauge)
    (htab : rc.table i.kind = .default) (a : MAttrs) (haa : Hashable a) (v : α) (hlast : (values i a (sinceLast l)).getLast? = some v) :
    ∃ g ms mt p, outputsOf r (consumerRun sdk (consumerInit rcs) (h ++ [.collect r obs false now])).2 =
        outputsOf r (consumerRun sdk (consumerInit rcs) h).2 ++ [.data (some g)] ∧
      (i.scope, ms) ∈ g ∧ mt ∈ ms ∧ mt.name = i.name ∧ mt.unit = i.unit ∧ p ∈ mt.points ∧
      DictEq p.attrs a ∧ p.pt = .num ⟨none, now, v⟩ := by
  have hsub : ∀ (l acc : List (Arrival α)), values i a (sinceFrom acc l) ≠ [] → values i a (acc ++ l) ≠ [] := by
    intro l
    induction l with
    | nil => intro acc h; simpa [sinceFrom] using h
    | cons x l ih =>
      intro acc h
      cases x with
      | coll t =>
        have := ih [] h
        intro hc
        apply this
        simp only [values, List.filterMap_append, List.append_eq_nil_iff] at hc ⊢
        exact ⟨rfl, hc.2⟩
      | meas j m => have := ih _ h; simpa using this
  have hne' : values i a l ≠ [] := hsub l [] (by intro hc; rw [sinceLast, hc] at hlast; cases hlast)
  obtain ⟨hm, start, label, hf, hd⟩ := measured_of_values i a l hne'
  have hshape : Shape.of sdk.dflt .default (rc.table i.kind) i = .last := by
    rw [htab]; rcases hk with hk | hk <;> simp [Shape.of, Shape.ofConf, Shape.ofKind, hk]
  obtain ⟨s, hs⟩ := cyclesFrom_snoc (streamHistory defaultView a (historyOf i l)) start [] [] now
  obtain ⟨g, ms, mt, h1, h2, h3, h4, h5, h6⟩ := default_points sdk rcs r rc hrc h obs now l hl ha i hv hm (by rw [hshape]; simp [Shape.data]) a haa
    ⟨label, .num ⟨none, now, v⟩⟩ (by
      refine ⟨start, label, hf, rfl, ?_⟩
      show (((Shape.of sdk.dflt .default (rc.table i.kind) i).machine i.kind (rc.temporality i.kind) start).out _).getLast? = _
      rw [hshape]
      simp only [Shape.machine]
      rw [C33_machine_out, C29_last_value _ start, List.getLast?_map, List.getLast?_map, cycles, hs]
      rw [← pending_history, pending] at hlast
      simp [hlast])
  exact ⟨g, ms, mt, _, h1, h2, h3, h4, h5, h6, hd, rfl⟩

/-- A counter, read by a cumulative reader that has already collected once. -/
def demoCounter : Instr Int := ⟨7, .counter, ['c'], ['1'], [], ⟨['m'], none, none⟩, none⟩
/-- No views. -/
def demoSdk : Sdk Int := ⟨[], [0, 5, 10], fun _ _ => false⟩
/-- The reader. -/
def demoReader : ReaderConf Int := ⟨fun _ => .cumulative, fun _ => .default⟩
/-- Increments by 3 and 5 with a collection in between. -/
def demoHistory : List (COp Int) :=
  [.measure demoCounter ⟨1, some [(['k'], .atom (.int 1))], 3⟩, .collect 0 [] false 2, .measure demoCounter ⟨3, some [(['k'], .atom (.bool true))], 5⟩]

example : ∃ g ms mt p start, outputsOf 0 (consumerRun demoSdk (consumerInit [demoReader]) (demoHistory ++ [.collect 0 [] false 4])).2 =
      outputsOf 0 (consumerRun demoSdk (consumerInit [demoReader]) demoHistory).2 ++ [.data (some g)] ∧
    (demoCounter.scope, ms) ∈ g ∧ mt ∈ ms ∧ mt.name = demoCounter.name ∧ mt.unit = demoCounter.unit ∧ p ∈ mt.points ∧
    DictEq p.attrs [(['k'], .atom (.int 1))] ∧ p.pt = .num ⟨some start, 4, 8⟩ := by
  have hd : DictEq ((some [(['k'], MVal.atom (.int 1))]).getD []) [(['k'], .atom (.int 1))] := by
    constructor <;> · intro k v h; simp at h; exact ⟨v, by simp [h], by rw [h.2]; rfl⟩
  have hd2 : DictEq ((some [(['k'], MVal.atom (.bool true))]).getD []) [(['k'], .atom (.int 1))] := by
    constructor
    · intro k v h; simp at h; exact ⟨.atom (.int 1), by simp [h], by rw [h.2]; simp [PyEq, MAtom.canon]⟩
    · intro k v h; simp at h; exact ⟨.atom (.bool true), by simp [h], by rw [h.2]; simp [PyEq, MAtom.canon]⟩
  have hvals : values demoCounter [(['k'], .atom (.int 1))] (demoHistory.flatMap (arrivals 0) ++ ([] : List (Instr Int × Meas Int)).map (fun o => Arrival.meas o.1 o.2)) = [3, 5] := by
    simp only [values, demoHistory, arrivals, List.flatMap_cons, List.flatMap_nil, List.map_nil, List.append_nil, if_true, List.singleton_append,
      Bool.false_eq_true, if_false, List.nil_append, List.filterMap_cons, true_and, hd, hd2, List.filterMap_nil]
  have := C91_counter_total demoSdk [demoReader] 0 demoReader rfl demoHistory [] 4 _ rfl
    (by
      intro i m hm w hw
      have hvs : viewsFor demoSdk.fnm demoSdk.views i = [defaultView] := rfl
      rw [hvs] at hw
      simp only [List.mem_singleton] at hw
      subst hw
      simp [demoHistory, arrivals] at hm
      rcases hm with ⟨rfl, rfl⟩ | ⟨rfl, rfl⟩ <;> · intro kv hkv l; simp [kept, restrict, defaultView] at hkv; subst hkv; simp)
    demoCounter rfl (Or.inl rfl) rfl rfl [(['k'], .atom (.int 1))] (by intro kv hkv l; simp at hkv; subst hkv; simp) (by rw [hvals]; simp)
  rw [hvals] at this
  simpa using this

end Metrics
end Otel
