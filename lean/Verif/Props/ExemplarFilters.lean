import Verif.Spec.ExemplarFilters
import Verif.Props.Exemplar
/-!
# C132: which measurements can become exemplars
-/
namespace Otel
namespace ExemplarFilters
open Metrics Exemplar
open scoped List
variable {α : Type}

/-- What a program does to the reservoir of stream number `i`. -/
def opsOf (keep : Decide α) (i : Nat) (st : Stream α) (es : List (Event α)) : List (Exemplar.Op α) :=
  es.flatMap (fun e =>
    match e with
    | .record o sampled draws => if keep o sampled then [.offer o (draws.getD i 0)] else []
    | .observe r o sampled draws => if keep o sampled && st.reader == r then [.offer o (draws.getD i 0)] else []
    | .collect r => if st.reader = r then [.collect st.point] else [])

theorem res_step [Zero α] [LinearOrder α] (streams : List (Stream α)) (keep : Decide α) (s : State α) (e : Event α) (i : Nat) (st : Stream α)
    (hst : streams[i]? = some st) (x : Res α) (hx : s.res[i]? = some x) :
    (step streams keep s e).res[i]? = some ((opsOf keep i st [e]).foldl st.shape.step x) := by
  cases e with
  | record o sampled draws =>
    by_cases hk : keep o sampled <;> simp [step, opsOf, hk, offerAll, hx, hst]
  | observe r o sampled draws =>
    by_cases hk : keep o sampled <;> by_cases hr : st.reader = r <;> simp [step, opsOf, hk, hr, offerAll, hx, hst]
  | collect r =>
    by_cases hr : st.reader = r <;> simp [step, opsOf, hr, hx, hst]

theorem res_run [Zero α] [LinearOrder α] (streams : List (Stream α)) (keep : Decide α) (i : Nat) (st : Stream α) (hst : streams[i]? = some st)
    (es : List (Event α)) :
    (run streams keep es).res[i]? = some ((opsOf keep i st es).foldl st.shape.step .new) := by
  induction es using List.reverseRecOn with
  | nil =>
    have := (List.getElem?_eq_some_iff.1 hst).1
    simp [run, init, opsOf, List.getElem?_replicate, this]
  | append_singleton es e ih =>
    have : run streams keep (es ++ [e]) = step streams keep (run streams keep es) e := by simp [run]
    rw [this, res_step streams keep _ e i st hst _ ih]
    simp [opsOf, List.flatMap_append, List.foldl_append]

theorem given_append (r : Nat) (es : List (Event α)) (e : Event α) :
    given r (es ++ [e]) =
      match e with
      | .record o sampled _ => given r es ++ [(o, sampled)]
      | .observe r' o sampled _ => if r' = r then given r es ++ [(o, sampled)] else given r es
      | .collect r' => if r' = r then [] else given r es := by
  simp only [given, List.foldl_append, List.foldl_cons, List.foldl_nil]
  cases e <;> rfl

theorem since_append (a b : List (Exemplar.Op α)) :
    since (a ++ b) = b.foldl (fun acc op => match op with | .offer o _ => acc ++ [o] | .collect _ => []) (since a) := by
  exact List.foldl_append ..

theorem since_ops (keep : Decide α) (i : Nat) (st : Stream α) (es : List (Event α)) :
    since (opsOf keep i st es) = eligible keep st.reader es := by
  induction es using List.reverseRecOn with
  | nil => simp [opsOf, since, eligible, given]
  | append_singleton es e ih =>
    have h : opsOf keep i st (es ++ [e]) = opsOf keep i st es ++ opsOf keep i st [e] := by simp [opsOf, List.flatMap_append]
    rw [h, since_append, ih]
    unfold eligible
    rw [given_append]
    cases e with
    | record o sampled draws => by_cases hk : keep o sampled <;> simp [opsOf, hk]
    | observe r o sampled draws =>
      by_cases hk : keep o sampled <;> by_cases hr : st.reader = r
      · simp [opsOf, hk, hr]
      · simp [opsOf, hr, Ne.symm hr]
      · simp [opsOf, hk, hr]
      · simp [opsOf, hr, Ne.symm hr]
    | collect r =>
      by_cases hr : st.reader = r
      · simp [opsOf, hr]
      · simp [opsOf, hr, Ne.symm hr]

theorem length_res [Zero α] [LinearOrder α] (streams : List (Stream α)) (keep : Decide α) (es : List (Event α)) :
    (run streams keep es).res.length = streams.length := by
  induction es using List.reverseRecOn with
  | nil => simp [run, init]
  | append_singleton es e ih =>
    have : run streams keep (es ++ [e]) = step streams keep (run streams keep es) e := by simp [run]
    rw [this]
    cases e with
    | record o sampled draws => by_cases hk : keep o sampled <;> simp [step, hk, offerAll, ih]
    | observe r o sampled draws => by_cases hk : keep o sampled <;> simp [step, hk, offerAll, ih]
    | collect r => simp [step, ih]

/-- What is shown is what the reservoirs return. -/
theorem mem_shown [Zero α] [LinearOrder α] (streams : List (Stream α)) (keep : Decide α) (es : List (Event α)) (r i : Nat) (exs : List (Ex α)) :
    (i, exs) ∈ shown streams keep es r ↔
      ∃ st, streams[i]? = some st ∧ st.reader = r ∧ exs = (((opsOf keep i st es).foldl st.shape.step .new).collect st.point).1 := by
  have hrun : run streams keep (es ++ [.collect r]) = step streams keep (run streams keep es) (.collect r) := by simp [run]
  unfold shown
  rw [hrun]
  simp only [step, List.drop_left]
  rw [List.mem_filterMap]
  constructor
  · rintro ⟨⟨x, k⟩, hm, hk⟩
    have hx := List.mem_zipIdx_iff_getElem?.1 hm
    simp only at hx hk
    cases hst : streams[k]? with
    | none => simp [hst] at hk
    | some st =>
      simp only [hst] at hk
      split at hk
      · rename_i hr
        simp only [Option.some.injEq, Prod.mk.injEq] at hk
        obtain ⟨rfl, rfl⟩ := hk
        refine ⟨st, hst, hr, ?_⟩
        rw [res_run streams keep k st hst es] at hx
        rw [← Option.some.inj hx]
      · cases hk
  · rintro ⟨st, hst, hr, rfl⟩
    refine ⟨((opsOf keep i st es).foldl st.shape.step .new, i), ?_, ?_⟩
    · exact List.mem_zipIdx_iff_getElem?.2 (res_run streams keep i st hst es)
    · simp [hst, hr]

/-- Taking at most one element of each class takes elements that are there. -/
theorem lasts_subperm {β : Type} (f : β → Nat) (l : List β) (n : Nat) :
    (List.range n).filterMap (fun k => (l.filter (fun o => f o == k)).getLast?) <+~ l.filter (fun o => decide (f o < n)) := by
  induction n with
  | zero => simp
  | succ n ih =>
    rw [List.range_succ, List.filterMap_append]
    have hl : ([n].filterMap (fun k => (l.filter (fun o => f o == k)).getLast?)) <+~ l.filter (fun o => f o == n) := by
      apply List.Sublist.subperm
      cases h : (l.filter (fun o => f o == n)).getLast? with
      | none => simp only [List.filterMap_cons, h, List.filterMap_nil, List.nil_sublist]
      | some y => simp only [List.filterMap_cons, h, List.filterMap_nil, List.singleton_sublist]; exact List.mem_of_getLast? h
    have h := ih.append hl
    refine h.trans ?_
    apply List.Perm.subperm
    clear h hl ih
    induction l with
    | nil => simp
    | cons a l ih =>
      by_cases h1 : f a < n
      · have : f a < n + 1 := by omega
        have h2 : f a ≠ n := by omega
        simp [List.filter_cons, h1, this, h2]
        simpa using ih
      · by_cases h2 : f a = n
        · simp only [List.filter_cons, h2]
          simp
          refine List.perm_middle.trans ?_
          simpa using ih
        · have : ¬ f a < n + 1 := by omega
          simp [List.filter_cons, h1, this, h2]
          simpa using ih

/-- The reservoirs return measurements that were offered. -/
theorem collected_from [Zero α] [LinearOrder α] (sh : Shape α) (hroom : sh.Roomy) (ops : List (Exemplar.Op α)) (point : MAttrs) :
    ∃ l, l <+~ since ops ∧
      List.Forall₂ (fun e o => SameMeasurement point e o ∧ (o.span.isSome → e = exemplarOf point o))
        ((ops.foldl sh.step .new).collect point).1 l := by
  cases sh with
  | simple size => exact C39_from_offers_partial size hroom ops point
  | aligned bounds =>
    refine ⟨_, ?_, C39_aligned bounds ops point⟩
    refine (lasts_subperm (fun o : Offer α => alignedIndex o.value bounds) (since ops) (bounds.length + 1)).trans ?_
    exact (List.filter_sublist).subperm

/-- **C132** Which filter a provider uses: the argument, else the one named by `OTEL_METRICS_EXEMPLAR_FILTER`, else the trace-based
one. The constructor raises exactly if there is no argument and the variable is set to anything but the three names. -/
theorem C132_choice (arg : Option (Decide α)) (env : Option Str) (keep : Decide α) :
    (construct arg env = some keep ↔
      arg = some keep ∨
      arg = none ∧ ((env = none ∨ env = some "trace_based".toList) ∧ keep = (fun o sampled => o.span.isSome && sampled) ∨
        env = some "always_on".toList ∧ keep = (fun _ _ => true) ∨
        env = some "always_off".toList ∧ keep = (fun _ _ => false))) ∧
    (construct arg env = none ↔
      arg = none ∧ ∃ s, env = some s ∧ s ≠ "trace_based".toList ∧ s ≠ "always_on".toList ∧ s ≠ "always_off".toList) := by
  have ht : (ofFilter .traceBased : Decide α) = fun o sampled => o.span.isSome && sampled := by
    funext o sampled
    cases h : o.span <;> simp [ofFilter, Filter.sample, h]
  have hon : (ofFilter .alwaysOn : Decide α) = fun _ _ => true := rfl
  have hoff : (ofFilter .alwaysOff : Decide α) = fun _ _ => false := rfl
  cases arg with
  | some f => simp [construct]
  | none =>
    have e1 : "always_on".toList ≠ "trace_based".toList := by decide
    have e2 : "always_off".toList ≠ "trace_based".toList := by decide
    have e3 : "always_off".toList ≠ "always_on".toList := by decide
    cases env with
    | none =>
      constructor
      · simp only [construct, Option.getD_none, byName, if_true, Option.map_some, ht]
        simp
        exact eq_comm
      · simp [construct, byName]
    | some s =>
      by_cases h1 : s = "trace_based".toList
      · subst h1
        constructor
        · simp only [construct, Option.getD_some, byName, if_true, Option.map_some, ht]
          simp
          exact eq_comm
        · simp [construct, byName]
      · by_cases h2 : s = "always_on".toList
        · subst h2
          constructor
          · simp only [construct, Option.getD_some, byName, if_neg e1, if_true, Option.map_some, hon]
            simp
            exact eq_comm
          · simp [construct, byName]
        · by_cases h3 : s = "always_off".toList
          · subst h3
            constructor
            · simp only [construct, Option.getD_some, byName, if_neg e2, if_neg e3, if_true, Option.map_some, hoff]
              simp
              exact eq_comm
            · simp [construct, byName]
          · have hc : (construct none (some s) : Option (Decide α)) = none := by
              simp only [construct, Option.getD_some, byName, if_neg h1, if_neg h2, if_neg h3, Option.map_none]
            rw [hc]
            constructor
            · constructor
              · intro h; cases h
              · rintro (h | ⟨_, ⟨h | h, _⟩ | ⟨h, _⟩ | ⟨h, _⟩⟩)
                · cases h
                · cases h
                · exact absurd (Option.some.inj h) h1
                · exact absurd (Option.some.inj h) h2
                · exact absurd (Option.some.inj h) h3
            · exact ⟨fun _ => ⟨rfl, s, rfl, h1, h2, h3⟩, fun _ => rfl⟩

/-- **C132** Whatever is measured and collected, by whichever readers: the exemplars a collection shows in a stream are measurements its
reader was given since its last collection and that the filter accepts, each at most once, with their values, times and attributes,
and with their ids if they were made in a span. -/
theorem C132_only_eligible [Zero α] [LinearOrder α] (streams : List (Stream α)) (hroom : ∀ st ∈ streams, st.shape.Roomy) (keep : Decide α)
    (es : List (Event α)) (r i : Nat) (exs : List (Ex α)) (h : (i, exs) ∈ shown streams keep es r) :
    ∃ st l, streams[i]? = some st ∧ st.reader = r ∧ l <+~ eligible keep r es ∧
      List.Forall₂ (fun e o => e.value = o.value ∧ e.time = o.time ∧ e.attrs = filtered st.point o.attrs ∧
        (o.span.isSome → e = describes st.point o)) exs l := by
  obtain ⟨st, hst, hr, rfl⟩ := (mem_shown streams keep es r i exs).1 h
  obtain ⟨l, hl, hf⟩ := collected_from st.shape (hroom st (List.mem_of_getElem? hst)) (opsOf keep i st es) st.point
  rw [since_ops, hr] at hl
  refine ⟨st, l, hst, hr, hl, hf.imp ?_⟩
  rintro e o ⟨⟨h1, h2, h3⟩, h4⟩
  exact ⟨h1, h2, h3, h4⟩

/-- **C132** A collection shows every stream of its reader, once, in order, and no other. -/
theorem C132_all_streams [Zero α] [LinearOrder α] (streams : List (Stream α)) (keep : Decide α) (es : List (Event α)) (r : Nat) :
    (shown streams keep es r).map Prod.fst =
      (List.range streams.length).filter (fun i => decide ((streams[i]?.map Stream.reader) = some r)) := by
  have hrun : run streams keep (es ++ [.collect r]) = step streams keep (run streams keep es) (.collect r) := by simp [run]
  unfold shown
  rw [hrun]
  simp only [step, List.drop_left]
  rw [← length_res streams keep es, List.range_eq_range', ← List.zipIdx_map_snd 0 (run streams keep es).res]
  generalize (run streams keep es).res.zipIdx 0 = z
  induction z with
  | nil => rfl
  | cons x z ih =>
    obtain ⟨x, k⟩ := x
    cases hst : streams[k]? with
    | none => simp [hst, ih]
    | some st => by_cases hr : st.reader = r <;> simp [hst, hr, ih]

/-- **C132** With the trace-based filter (the default) every exemplar is a measurement made in a sampled span, and leads to that span. -/
theorem C132_default [Zero α] [LinearOrder α] (streams : List (Stream α)) (hroom : ∀ st ∈ streams, st.shape.Roomy) (env : Option Str)
    (he : env = none ∨ env = some "trace_based".toList) (keep : Decide α) (hk : construct none env = some keep)
    (es : List (Event α)) (r i : Nat) (exs : List (Ex α)) (h : (i, exs) ∈ shown streams keep es r) (e : Ex α) (hm : e ∈ exs) :
    ∃ st o span, streams[i]? = some st ∧ (o, true) ∈ given r es ∧ o.span = some span ∧ e = describes st.point o ∧
      e.spanId = some span.1 ∧ e.traceId = some span.2 := by
  have hkeep : keep = fun o sampled => o.span.isSome && sampled := by
    rcases ((C132_choice none env keep).1).1 hk with h' | ⟨_, ⟨_, h'⟩ | ⟨h', _⟩ | ⟨h', _⟩⟩
    · cases h'
    · exact h'
    · rcases he with rfl | rfl
      · cases h'
      · exact absurd (Option.some.inj h') (by decide)
    · rcases he with rfl | rfl
      · cases h'
      · exact absurd (Option.some.inj h') (by decide)
  obtain ⟨st, l, hst, _, hl, hf⟩ := C132_only_eligible streams hroom keep es r i exs h
  obtain ⟨o, ho, _, _, _, hd⟩ : ∃ o, o ∈ l ∧ e.value = o.value ∧ e.time = o.time ∧ e.attrs = filtered st.point o.attrs ∧
      (o.span.isSome → e = describes st.point o) := by
    clear hl h
    induction hf with
    | nil => simp at hm
    | cons hab _ ih =>
      rcases List.mem_cons.1 hm with rfl | hm
      · exact ⟨_, List.mem_cons_self, hab⟩
      · obtain ⟨o, ho, hr⟩ := ih hm; exact ⟨o, List.mem_cons_of_mem _ ho, hr⟩
  have ho' := hl.subset ho
  unfold eligible at ho'
  obtain ⟨⟨o', sampled⟩, hmem, rfl⟩ := List.mem_map.1 ho'
  obtain ⟨hg, hkp⟩ := List.mem_filter.1 hmem
  simp only [hkeep, Bool.and_eq_true] at hkp
  obtain ⟨hs, rfl⟩ := hkp
  obtain ⟨span, hspan⟩ := Option.isSome_iff_exists.1 hs
  have hd := hd hs
  exact ⟨st, o', span, hst, hg, hspan, hd, by simp [hd, describes, hspan], by simp [hd, describes, hspan]⟩

/-- **C132** With `always_off` no collection ever shows an exemplar. -/
theorem C132_off [Zero α] [LinearOrder α] (streams : List (Stream α)) (hroom : ∀ st ∈ streams, st.shape.Roomy) (keep : Decide α)
    (hk : construct none (some "always_off".toList) = some keep) (es : List (Event α)) (r i : Nat) (exs : List (Ex α))
    (h : (i, exs) ∈ shown streams keep es r) : exs = [] := by
  have hkeep : keep = fun _ _ => false := by
    rw [show (construct none (some "always_off".toList) : Option (Decide α)) = some (ofFilter .alwaysOff) from rfl] at hk
    rw [← Option.some.inj hk]; rfl
  obtain ⟨st, l, _, _, hl, hf⟩ := C132_only_eligible streams hroom keep es r i exs h
  have : eligible keep r es = [] := by simp [eligible, hkeep]
  rw [this] at hl
  have hl := List.subperm_nil.1 hl
  subst hl
  cases hf; rfl

/-- **C132** As long as fewer measurements are accepted than the reservoir has places, a collection shows all of them, in order and
complete; for every reader, whatever the others do. -/
theorem C132_all_eligible [Zero α] [LinearOrder α] (streams : List (Stream α)) (keep : Decide α) (es : List (Event α)) (r i : Nat) (st : Stream α)
    (hst : streams[i]? = some st) (hr : st.reader = r) (size : Nat) (hsh : st.shape = .simple size) (hn : (eligible keep r es).length < size) :
    (i, (eligible keep r es).map (describes st.point)) ∈ shown streams keep es r := by
  refine (mem_shown streams keep es r i _).2 ⟨st, hst, hr, ?_⟩
  have h := C40_all_while_small size (opsOf keep i st es) st.point (by rw [since_ops, hr]; exact hn)
  rw [since_ops, hr] at h
  rw [hsh]
  exact h.symm

/-- **C132** (refuted by the code) That an empty variable counts as not set, as it does for the SDK's other settings, and that a name is
recognized in any case: the constructor raises. -/
theorem C132_empty_violated :
    (construct none (some []) : Option (Decide ℤ)).isNone ∧ (construct none (some "ALWAYS_ON".toList) : Option (Decide ℤ)).isNone ∧
    (construct none (some "always_on ".toList) : Option (Decide ℤ)).isNone := by decide

/-- **C132** (refuted by the code) That with `always_on` an exemplar leads to the span its measurement was made in: it can have the ids
of another measurement's span. -/
theorem C132_on_violated :
    let streams : List (Stream ℤ) := [⟨0, .simple 1, []⟩]
    (construct none (some "always_on".toList)).map (fun keep =>
      shown streams keep [.record ⟨5, 10, none, some (7, 8)⟩ true [0], .record ⟨6, 11, none, none⟩ false [0]] 0) =
      some [(0, [⟨none, 6, 11, some 7, some 8⟩])] := by decide +kernel

/-- Two readers, three streams, measurements in a sampled span, in one that is not, and in none; one from a callback. -/
example :
    let streams : List (Stream ℤ) := [⟨0, .simple 4, []⟩, ⟨1, .aligned [5, 10], []⟩, ⟨0, .aligned [], []⟩]
    let es : List (Event ℤ) := [.record ⟨1, 10, none, some (7, 8)⟩ true [0, 0, 0], .record ⟨2, 11, none, some (9, 8)⟩ false [0, 0, 0],
      .record ⟨3, 12, none, none⟩ false [0, 0, 0], .collect 1, .observe 1 ⟨4, 13, none, some (1, 2)⟩ true [0, 0, 0]]
    (construct none none).map (fun keep => (shown streams keep es 0, shown streams keep es 1, eligible keep 0 es, eligible keep 1 es |>.length)) =
      some ([(0, [⟨none, 1, 10, some 7, some 8⟩]), (2, [⟨none, 1, 10, some 7, some 8⟩])], [(1, [⟨none, 4, 13, some 1, some 2⟩])],
        [⟨1, 10, none, some (7, 8)⟩], 1) := by
  simp only [construct, byName, Option.getD_none, if_true, Option.map_some]
  refine congrArg some ?_
  refine Prod.ext ?_ (Prod.ext ?_ (Prod.ext ?_ ?_))
  · decide +kernel
  · decide +kernel
  · rfl
  · decide +kernel

end ExemplarFilters
end Otel
