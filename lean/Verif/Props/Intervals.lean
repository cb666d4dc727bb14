import Verif.Spec.Intervals
import Mathlib.Data.List.Nodup
import Mathlib.Data.List.Induction
import Mathlib.Tactic.SplitIfs
import Mathlib.Tactic.Tauto
import Mathlib.Order.Basic
/-!
# C113: the time intervals of metric points
-/
namespace Otel
namespace Intervals
open Metrics (Temporality)
variable {K : Type} [DecidableEq K]

/-! ## Lemmas about the history -/

/-- `P` holds of every event together with what came before it. -/
def Hist (P : List (Ev K) → Ev K → Prop) (l : List (Ev K)) : Prop := ∀ a e b, l = a ++ e :: b → P a e

omit [DecidableEq K] in
theorem Hist.snoc {P : List (Ev K) → Ev K → Prop} {l : List (Ev K)} {x : Ev K} (h : Hist P l) (hx : P l x) : Hist P (l ++ [x]) := by
  intro a e b hab
  rcases List.eq_nil_or_concat b with rfl | ⟨b', y, rfl⟩
  · obtain ⟨rfl, h2⟩ := List.append_inj' hab rfl
    injection h2 with h2
    exact h2 ▸ hx
  · rw [List.concat_eq_append] at hab
    have : l ++ [x] = (a ++ e :: b') ++ [y] := by simpa using hab
    obtain ⟨h1, -⟩ := List.append_inj' this rfl
    exact h a e b' h1

omit [DecidableEq K] in
theorem Hist.nil {P : List (Ev K) → Ev K → Prop} : Hist P [] := by
  intro a e b h; simp at h

theorem opened_append (k : K) (l es : List (Ev K)) : opened k (l ++ es) = (opened k l).or (opened k es) := by
  unfold opened; rw [List.findSome?_append]

theorem opened_mono {k : K} {l : List (Ev K)} {s : Int} (es : List (Ev K)) (h : opened k l = some s) : opened k (l ++ es) = some s := by
  rw [opened_append, h]; rfl

theorem opened_mem {k : K} {l : List (Ev K)} {s : Int} (h : opened k l = some s) : ∃ id, Ev.created k id s ∈ l := by
  unfold opened at h
  obtain ⟨e, he, h⟩ := List.exists_of_findSome?_eq_some h
  cases e <;> simp at h
  obtain ⟨rfl, rfl⟩ := h
  exact ⟨_, he⟩

theorem opened_of_mem {k : K} {l : List (Ev K)} {s : Int} {id : Nat} (h : Ev.created k id s ∈ l) : opened k l ≠ none := by
  unfold opened
  intro hn
  rw [List.findSome?_eq_none_iff] at hn
  have := hn _ h
  simp at this

theorem visits_append (k : K) (l es : List (Ev K)) : visits k (l ++ es) = visits k l ++ visits k es := by
  unfold visits; rw [List.filterMap_append]

theorem points_append (k : K) (l es : List (Ev K)) : points k (l ++ es) = points k l ++ points k es := by
  unfold points; rw [List.filterMap_append]

theorem visits_mem {k : K} {l : List (Ev K)} {v : Int} : v ∈ visits k l ↔ ∃ t out, Ev.collected t k v out ∈ l := by
  unfold visits
  rw [List.mem_filterMap]
  constructor
  · rintro ⟨e, he, h⟩
    cases e <;> simp at h
    obtain ⟨rfl, rfl⟩ := h
    exact ⟨_, _, he⟩
  · rintro ⟨t, out, h⟩
    exact ⟨_, h, by simp⟩

theorem points_mem {k : K} {l : List (Ev K)} {p : Point} : p ∈ points k l ↔ ∃ t now, Ev.collected t k now (some p) ∈ l := by
  unfold points
  rw [List.mem_filterMap]
  constructor
  · rintro ⟨e, he, h⟩
    cases e with
    | collected t k' now out =>
      cases out with
      | none => simp at h
      | some q => simp at h; obtain ⟨rfl, rfl⟩ := h; exact ⟨_, _, he⟩
    | _ => simp at h
  · rintro ⟨t, now, h⟩
    exact ⟨_, h, by simp⟩

/-! ## The streams -/

omit [DecidableEq K] in
theorem keys_modify [DecidableEq K] (k : K) (f : Agg → Agg) (l : List (K × Agg)) : (modify k f l).map Prod.fst = l.map Prod.fst := by
  induction l with
  | nil => rfl
  | cons h t ih => obtain ⟨k', a⟩ := h; simp only [modify]; split_ifs <;> simp [ih]

theorem mem_modify {k : K} {f : Agg → Agg} {l : List (K × Agg)} (hn : (l.map Prod.fst).Nodup) {q : K} {b : Agg} (h : (q, b) ∈ modify k f l) :
    ∃ a, (q, a) ∈ l ∧ b = if q = k then f a else a := by
  induction l with
  | nil => cases h
  | cons hd t ih =>
    obtain ⟨k', a⟩ := hd
    rw [List.map_cons, List.nodup_cons] at hn
    simp only [modify] at h
    split_ifs at h with hk
    · rcases List.mem_cons.1 h with h | h
      · injection h with h1 h2
        exact ⟨a, by simp [h1], by rw [h1, if_pos hk, h2]⟩
      · refine ⟨b, List.mem_cons_of_mem _ h, ?_⟩
        have : q ≠ k := by rintro rfl; exact hn.1 (hk ▸ List.mem_map.2 ⟨_, h, rfl⟩)
        rw [if_neg this]
    · rcases List.mem_cons.1 h with h | h
      · injection h with h1 h2
        exact ⟨a, by simp [h1], by rw [h1, if_neg hk, h2]⟩
      · obtain ⟨a', h1, h2⟩ := ih hn.2 h
        exact ⟨a', List.mem_cons_of_mem _ h1, h2⟩

omit [DecidableEq K] in
theorem keys_set {l : List (K × Agg)} {i : Nat} {k : K} {a b : Agg} (h : l[i]? = some (k, a)) : (l.set i (k, b)).map Prod.fst = l.map Prod.fst := by
  apply List.ext_getElem?
  intro j
  rw [List.map_set, List.getElem?_set]
  split_ifs with h1 h2
  · subst h1; rw [List.getElem?_map, h]; rfl
  · subst h1; rw [List.getElem?_map, h]; simp at h2; rw [List.getElem?_eq_none (by omega)] at h; cases h
  · rfl

omit [DecidableEq K] in
theorem mem_set {l : List (K × Agg)} (hn : (l.map Prod.fst).Nodup) {i : Nat} {k : K} {a b : Agg} (h : l[i]? = some (k, a)) {q : K} {c : Agg} (hc : (q, c) ∈ l.set i (k, b)) :
    q = k ∧ c = b ∨ q ≠ k ∧ (q, c) ∈ l := by
  obtain ⟨j, hj⟩ := List.mem_iff_getElem?.1 hc
  rw [List.getElem?_set] at hj
  split_ifs at hj with h1
  · injection hj with hj; injection hj with h3 h4; exact .inl ⟨h3.symm, h4.symm⟩
  · refine .inr ⟨?_, List.mem_iff_getElem?.2 ⟨j, hj⟩⟩
    rintro rfl
    have h3 : (l.map Prod.fst)[i]? = some q := by rw [List.getElem?_map, h]; rfl
    have h4 : (l.map Prod.fst)[j]? = some q := by rw [List.getElem?_map, hj]; rfl
    have hl : i < (l.map Prod.fst).length := by
      by_contra hc; rw [List.getElem?_eq_none (by omega)] at h3; cases h3
    exact h1 ((List.getElem?_inj hl hn).1 (h3.trans h4.symm))

/-! ## The invariant -/

/-- Where a delta stream's next interval starts: where its last collection (its last point, if the instrument is observable) left it. -/
def marks (inst : Temporality) (k : K) (l : List (Ev K)) : List Int := if inst = .delta then visits k l else (points k l).map (·.time)

/-- What happened since thread `t` read the clock for its collection: it has not returned, nobody has opened an observable stream, and only the first `i` streams were visited. -/
def Since (ob : Prop) (st : State K) (t : Nat) (now : Int) (i : Nat) : Prop :=
  ∃ a1 a2, Reading t now st.log a1 a2 ∧ (ob → ∀ k id s, .created k id s ∉ a2) ∧ ∀ t' k now' out, .collected t' k now' out ∈ a2 → ∃ j, j < i ∧ (st.streams.map Prod.fst)[j]? = some k

/-- What a thread in the middle of a call may rely on. -/
def TOK (ob : Prop) (st : State K) (t : Nat) : Phase K → Prop
  | .idle => True
  | .recording p af => (af ≠ none → st.consumer = some t ∧ ∃ a1 a2 c, st.log = a1 ++ .began t c :: a2 ∧ .ended t ∉ a2) ∧ (ob → af ≠ none) ∧
    match p with
    | .stamp _ => True
    | .look k id s => .stamped id k s ∈ st.log
    | .enter k id s => .stamped id k s ∈ st.log
    | .check k id s => .stamped id k s ∈ st.log ∧ st.set = some t
    | .insert k id s start => .stamped id k s ∈ st.log ∧ st.set = some t ∧ k ∉ st.streams.map Prod.fst ∧ opened k st.log = some start
    | .agg k id s => .stamped id k s ∈ st.log ∧ k ∈ st.streams.map Prod.fst
  | .observe _ => st.consumer = some t ∧ ∃ a1 a2 c, st.log = a1 ++ .began t c :: a2 ∧ .ended t ∉ a2
  | .scan now => st.consumer = some t ∧ Since ob st t now 0
  | .item now i => (st.consumer = some t ∧ Since ob st t now i) ∧ st.set = some t
  | .finish => st.consumer = some t

/-- What a stream's state says about the history. -/
structure SOK (inst coll : Temporality) (log : List (Ev K)) (k : K) (a : Agg) : Prop where
  start : opened k log = some a.start
  prev : coll = .delta → a.prev = (marks inst k log).getLast?.getD a.start
  has : ∀ x, x ∈ a.value.getD [] ∨ x ∈ a.total → .fed k x ∈ log ∧ .stamped x.id k x.stamp ∈ log

/-- What every event says about the history before it. -/
def Fair (inst coll : Temporality) (ob : Prop) (a : List (Ev K)) : Ev K → Prop
  | .collected t k now out => (∃ a1 a2, Reading t now a a1 a2 ∧ (ob → ∀ k id s, .created k id s ∉ a2) ∧ visits k a2 = []) ∧ opened k a ≠ none ∧
      ∀ p, out = some p → p.time = now ∧
      (∃ s, opened k a = some s ∧ p.start = if coll = .delta then (marks inst k a).getLast?.getD s else s) ∧
      ∀ x ∈ p.contents, .fed k x ∈ a ∧ .stamped x.id k x.stamp ∈ a
  | .created k id s => opened k a = none ∧ (∃ s', .stamped id k s' ∈ a) ∧ (ob → ∃ t a1 a2 c, a = a1 ++ .began t c :: a2 ∧ .ended t ∉ a2)
  | .fed k x => .stamped x.id k x.stamp ∈ a ∧ opened k a ≠ none
  | .stamped id _ _ => ∀ id' k' s', .stamped id' k' s' ∈ a → id' < id
  | _ => True

/-- The invariant, whatever the clock does. -/
structure Inv (inst coll : Temporality) (ob : Prop) (st : State K) : Prop where
  thr : ∀ t th, st.threads[t]? = some th → TOK ob st t th.phase ∧ (ob → ∀ k, Call.record k ∉ th.calls)
  nodup : (st.streams.map Prod.fst).Nodup
  str : ∀ k a, (k, a) ∈ st.streams → SOK inst coll st.log k a
  op : ∀ k, opened k st.log ≠ none → k ∉ st.streams.map Prod.fst → ∃ (t id : Nat) (s start : Int) (af : Option (List K)) (calls : List (Call K)), st.threads[t]? = some (⟨.recording (.insert k id s start) af, calls⟩ : Thread K)
  vis : ∀ t k now out, .collected t k now out ∈ st.log → k ∈ st.streams.map Prod.fst
  ids : ∀ id k s, .stamped id k s ∈ st.log → id < st.next
  hist : Hist (Fair inst coll ob) st.log

/-- What a step of one thread leaves alone, for thread `u`. -/
structure Frame (ob : Prop) (st st' : State K) (u : Nat) : Prop where
  cons : st.consumer = some u → st'.consumer = some u
  set : st.set = some u → st'.set = some u
  log : ∃ es, st'.log = st.log ++ es ∧ .ended u ∉ es ∧ (st.consumer = some u → ob → ∀ k id s, .created k id s ∉ es) ∧
    (st.consumer = some u → ∀ t k now out, .collected t k now out ∉ es)
  keys : ∀ k ∈ st.streams.map Prod.fst, k ∈ st'.streams.map Prod.fst
  fresh : st.set = some u → st'.streams.map Prod.fst = st.streams.map Prod.fst

theorem TOK.frame {ob : Prop} {st st' : State K} {u : Nat} {p : Phase K} (h : TOK ob st u p) (f : Frame ob st st' u) : TOK ob st' u p := by
  obtain ⟨es, hes, hend, hcr, hco⟩ := f.log
  have hb : (∃ a1 a2 c, st.log = a1 ++ .began u c :: a2 ∧ .ended u ∉ a2) → ∃ a1 a2 c, st'.log = a1 ++ .began u c :: a2 ∧ .ended u ∉ a2 := by
    rintro ⟨a1, a2, c, h1, h2⟩
    exact ⟨a1, a2 ++ es, c, by rw [hes, h1]; simp, by simp [h2, hend]⟩
  have hr : ∀ now i, st.consumer = some u → (i = 0 ∨ st.set = some u) → Since ob st u now i → Since ob st' u now i := by
    rintro now i hc hi ⟨a1, a2, ⟨h1, h2⟩, h3, h4⟩
    refine ⟨a1, a2 ++ es, ⟨by rw [hes, h1]; simp, by simp [h2, hend]⟩, fun ho k id s hm => ?_, fun t' k now' out hm => ?_⟩
    · rcases List.mem_append.1 hm with hm | hm
      · exact h3 ho _ _ _ hm
      · exact hcr hc ho _ _ _ hm
    · rcases List.mem_append.1 hm with hm | hm
      · obtain ⟨j, hj, hk⟩ := h4 _ _ _ _ hm
        rcases hi with rfl | hi
        · omega
        · exact ⟨j, hj, by rw [f.fresh hi]; exact hk⟩
      · exact (hco hc _ _ _ _ hm).elim
  have hm : ∀ e, e ∈ st.log → e ∈ st'.log := fun e he => by rw [hes]; exact List.mem_append_left _ he
  cases p with
  | idle => trivial
  | recording p af =>
    obtain ⟨h1, h2, h3⟩ := h
    refine ⟨fun ha => ⟨f.cons (h1 ha).1, hb (h1 ha).2⟩, h2, ?_⟩
    cases p with
    | stamp k => trivial
    | look k id s => exact hm _ h3
    | enter k id s => exact hm _ h3
    | check k id s => exact ⟨hm _ h3.1, f.set h3.2⟩
    | insert k id s start => exact ⟨hm _ h3.1, f.set h3.2.1, by rw [f.fresh h3.2.1]; exact h3.2.2.1, by rw [hes]; exact opened_mono _ h3.2.2.2⟩
    | agg k id s => exact ⟨hm _ h3.1, f.keys _ h3.2⟩
  | observe r => exact ⟨f.cons h.1, hb h.2⟩
  | scan now => exact ⟨f.cons h.1, hr now 0 h.1 (.inl rfl) h.2⟩
  | item now i => exact ⟨⟨f.cons h.1.1, hr now i h.1.1 (.inr h.2) h.1.2⟩, f.set h.2⟩
  | finish => exact f.cons h

/-- An event that is not a collection or a creation of the stream changes nothing for it. -/
theorem SOK.snoc {inst coll : Temporality} {log : List (Ev K)} {k : K} {a : Agg} (h : SOK inst coll log k a) (e : Ev K) (he : ∀ t now out, e ≠ .collected t k now out) :
    SOK inst coll (log ++ [e]) k a := by
  have hv : visits k (log ++ [e]) = visits k log := by
    rw [visits_append]
    have : visits k [e] = [] := by
      unfold visits
      cases e with
      | collected t k' now out =>
        have : k' ≠ k := by rintro rfl; exact he _ _ _ rfl
        simp [this]
      | _ => rfl
    rw [this, List.append_nil]
  have hp : points k (log ++ [e]) = points k log := by
    rw [points_append]
    have : points k [e] = [] := by
      unfold points
      cases e with
      | collected t k' now out =>
        have : k' ≠ k := by rintro rfl; exact he _ _ _ rfl
        cases out <;> simp [this]
      | _ => rfl
    rw [this, List.append_nil]
  exact ⟨opened_mono _ h.start, fun hc => by rw [h.prev hc]; unfold marks; rw [hv, hp],
    fun x hx => ⟨List.mem_append_left _ (h.has x hx).1, List.mem_append_left _ (h.has x hx).2⟩⟩

omit [DecidableEq K] in
theorem set_cases {l : List (Thread K)} {t u : Nat} {th x : Thread K} (h : (l.set t th)[u]? = some x) : u = t ∧ x = th ∨ u ≠ t ∧ l[u]? = some x := by
  rw [List.getElem?_set] at h
  split_ifs at h with h1 h2
  · injection h with h; exact .inl ⟨h1.symm, h.symm⟩
  · exact .inr ⟨fun e => h1 e.symm, h⟩

/-- The parts of the invariant that a step has to re-establish. -/
theorem Inv.mk' {inst coll : Temporality} {ob : Prop} {st st' : State K} {t : Nat} {th th' : Thread K} (h : Inv inst coll ob st) (ht : st.threads[t]? = some th)
    (hth : st'.threads = st.threads)
    (hf : ∀ u, u ≠ t → Frame ob st st' u)
    (hme : TOK ob st' t th'.phase)
    (hcalls : ∀ c ∈ th'.calls, c ∈ th.calls)
    (hnd : (st'.streams.map Prod.fst).Nodup)
    (hstr : ∀ k a, (k, a) ∈ st'.streams → SOK inst coll st'.log k a)
    (hop : ∀ k, opened k st'.log ≠ none → k ∉ st'.streams.map Prod.fst → (opened k st.log ≠ none ∧ k ∉ st.streams.map Prod.fst ∧ ∀ id s start af, th.phase ≠ .recording (.insert k id s start) af) ∨
      ∃ id s start af, th'.phase = .recording (.insert k id s start) af)
    (hv : ∀ t k now out, .collected t k now out ∈ st'.log → k ∈ st'.streams.map Prod.fst)
    (hids : ∀ id k s, .stamped id k s ∈ st'.log → id < st'.next)
    (hh : Hist (Fair inst coll ob) st'.log) :
    Inv inst coll ob { st' with threads := st'.threads.set t th' } := by
  have hlt : t < st'.threads.length := by
    rw [hth]
    by_contra hc
    rw [List.getElem?_eq_none (by omega)] at ht
    cases ht
  refine ⟨fun u x hx => ?_, hnd, hstr, fun k hk hk' => ?_, hv, hids, hh⟩
  · rcases set_cases hx with ⟨rfl, rfl⟩ | ⟨hu, hx⟩
    · exact ⟨by cases x with | mk p c => cases p <;> exact hme, fun ho k hk => (h.thr _ _ ht).2 ho k (hcalls _ hk)⟩
    · rw [hth] at hx
      exact ⟨by have := (h.thr _ _ hx).1.frame (hf u hu); cases x with | mk p c => cases p <;> exact this, (h.thr _ _ hx).2⟩
  · rcases hop k hk hk' with ⟨h1, h2, h3⟩ | ⟨id, s, start, af, h1⟩
    · obtain ⟨u, id, s, start, af, calls, hu⟩ := h.op k h1 h2
      refine ⟨u, id, s, start, af, calls, ?_⟩
      have hut : u ≠ t := by rintro rfl; rw [ht] at hu; injection hu with hu; exact h3 id s start af (by rw [hu])
      show (st'.threads.set t th')[u]? = _
      rw [List.getElem?_set, if_neg (fun e => hut e.symm), hth]; exact hu
    · refine ⟨t, id, s, start, af, th'.calls, ?_⟩
      show (st'.threads.set t th')[t]? = _
      rw [List.getElem?_set_self hlt, ← h1]

/-- Appending an event that is no creation changes no creation. -/
theorem opened_snoc (k : K) (l : List (Ev K)) (e : Ev K) (he : ∀ id s, e ≠ .created k id s) : opened k (l ++ [e]) = opened k l := by
  rw [opened_append]
  have : opened k [e] = none := by
    unfold opened
    cases e with
    | created k' id s =>
      have : k' ≠ k := by rintro rfl; exact he _ _ rfl
      simp [this]
    | _ => rfl
  rw [this]; simp

/-- A step that only appends an event and does not touch locks and streams. -/
theorem frame_snoc {ob : Prop} {st st' : State K} {u : Nat} {es : List (Ev K)} (hl : st'.log = st.log ++ es) (he : .ended u ∉ es) (hc : st.consumer = some u → ob → ∀ k id s, .created k id s ∉ es)
    (hv : st.consumer = some u → ∀ t k now out, .collected t k now out ∉ es)
    (h1 : st.consumer = some u → st'.consumer = some u) (h2 : st.set = some u → st'.set = some u) (h3 : st'.streams.map Prod.fst = st.streams.map Prod.fst) : Frame ob st st' u :=
  ⟨h1, h2, ⟨es, hl, he, hc, hv⟩, fun k hk => by rw [h3]; exact hk, fun _ => h3⟩

theorem collect_time {inst coll : Temporality} {a : Agg} {now : Int} {p : Point} (h : (a.collect inst coll now).1 = some p) :
    p.time = now ∧ p.start = (if coll = .delta then a.prev else a.start) ∧ ∀ x ∈ p.contents, x ∈ a.value.getD [] ∨ x ∈ a.total := by
  obtain ⟨start, prev, value, total⟩ := a
  cases inst <;> cases coll <;> cases value <;> simp [Agg.collect] at h <;> subst h <;> simp
  all_goals (intros; tauto)

theorem collect_state (inst coll : Temporality) (a : Agg) (now : Int) :
    (a.collect inst coll now).2.start = a.start ∧ (coll = .delta → (a.collect inst coll now).2.prev = if inst = .delta ∨ (a.collect inst coll now).1.isSome then now else a.prev) ∧
    ∀ x, x ∈ (a.collect inst coll now).2.value.getD [] ∨ x ∈ (a.collect inst coll now).2.total → x ∈ a.value.getD [] ∨ x ∈ a.total := by
  obtain ⟨start, prev, value, total⟩ := a
  cases inst <;> cases coll <;> cases value <;> simp [Agg.collect]
  all_goals (intros; tauto)

/-- The state of a stream after it was collected. -/
theorem SOK.collected {inst coll : Temporality} {log : List (Ev K)} {k : K} {a : Agg} (h : SOK inst coll log k a) (t : Nat) (now : Int) :
    SOK inst coll (log ++ [.collected t k now (a.collect inst coll now).1]) k (a.collect inst coll now).2 := by
  obtain ⟨h1, h2, h3⟩ := collect_state inst coll a now
  refine ⟨by rw [opened_snoc _ _ _ (by simp), h1]; exact h.start, fun hc => ?_, fun x hx => ?_⟩
  · rw [h2 hc, h1]
    have hv : visits k [Ev.collected t k now (a.collect inst coll now).1] = [now] := by simp [visits]
    unfold marks
    by_cases hi : inst = .delta
    · rw [if_pos (.inl hi), if_pos hi, visits_append, hv]; simp
    · rw [if_neg hi]
      cases ho : (a.collect inst coll now).1 with
      | none =>
        have hp : points k [Ev.collected t k now (none : Option Point)] = [] := by simp [points]
        rw [points_append, hp, if_neg (by simp [hi]), List.append_nil, h.prev hc]; unfold marks; rw [if_neg hi]
      | some p =>
        have hp : points k [Ev.collected t k now (some p)] = [p] := by simp [points]
        rw [points_append, hp, if_pos (by simp)]; simp [(collect_time ho).1]
  · obtain ⟨h4, h5⟩ := h.has x (h3 x hx)
    exact ⟨List.mem_append_left _ h4, List.mem_append_left _ h5⟩

theorem exec_inv {inst coll : Temporality} {ob : Prop} {st st' : State K} {t : Nat} {th th' : Thread K} (h : Inv inst coll ob st) (ht : st.threads[t]? = some th)
    (he : exec inst coll st t th = some (st', th')) : Inv inst coll ob { st' with threads := st'.threads.set t th' } := by
  obtain ⟨ph, calls⟩ := th
  obtain ⟨hme, hcl⟩ := h.thr _ _ ht
  have hother : ∀ u, u ≠ t → st.consumer = some t → st.consumer = some u → False := fun u hu h1 h2 => hu (Option.some.inj (h2.symm.trans h1))
  cases ph with
  | idle =>
    cases calls with
    | nil => simp [exec] at he
    | cons c r =>
      cases c with
      | record k =>
        simp only [exec, Option.some.injEq, Prod.mk.injEq] at he
        obtain ⟨rfl, rfl⟩ := he
        refine h.mk' ht rfl (fun u hu => frame_snoc (es := []) (by simp) (by simp) (by simp) (by simp) id id rfl) ?_ (fun c hc => List.mem_cons_of_mem _ hc) h.nodup h.str (fun k h1 h2 => .inl ⟨h1, h2, by simp⟩) h.vis h.ids h.hist
        exact ⟨fun hc => (hc rfl).elim, fun ho => (hcl ho k (by simp)).elim, trivial⟩
      | collect obs =>
        simp only [exec] at he
        split_ifs at he with hc
        simp only [Option.some.injEq, Prod.mk.injEq] at he
        obtain ⟨rfl, rfl⟩ := he
        refine h.mk' ht rfl (fun u hu => frame_snoc (es := [.began t st.clock]) rfl (by simp) (by simp) (by simp) (fun hu' => by rw [hc] at hu'; cases hu') id rfl) ?_ (fun c hc => List.mem_cons_of_mem _ hc) h.nodup
          (fun k a hk => (h.str k a hk).snoc _ (by simp)) (fun k h1 h2 => .inl ⟨by rwa [opened_snoc _ _ _ (by simp)] at h1, h2, by simp⟩) (by simpa using h.vis) (by simpa using h.ids) (h.hist.snoc trivial)
        exact ⟨rfl, st.log, [], st.clock, rfl, by simp⟩
  | recording p af =>
    obtain ⟨h1, h2, h3⟩ := hme
    have hb : ∀ e : Ev K, e ≠ .ended t → (∃ a1 a2 c, st.log = a1 ++ .began t c :: a2 ∧ .ended t ∉ a2) → ∃ a1 a2 c, st.log ++ [e] = a1 ++ .began t c :: a2 ∧ .ended t ∉ a2 := by
      rintro e he ⟨a1, a2, c, h4, h5⟩
      exact ⟨a1, a2 ++ [e], c, by rw [h4]; simp, by simp [h5]; exact fun x => he x.symm⟩
    cases p with
    | stamp k =>
      simp only [exec, recStep, Option.some.injEq, Prod.mk.injEq] at he
      obtain ⟨rfl, rfl⟩ := he
      refine h.mk' ht rfl (fun u hu => frame_snoc (es := [.stamped st.next k st.clock]) rfl (by simp) (by simp) (by simp) id id rfl) ?_ (by simp) h.nodup
        (fun k a hk => (h.str k a hk).snoc _ (by simp)) (fun k h1 h2 => .inl ⟨by rwa [opened_snoc _ _ _ (by simp)] at h1, h2, by simp⟩) (by simpa using h.vis) (fun id k s hm => ?_) (h.hist.snoc h.ids)
      · exact ⟨fun ha => ⟨(h1 ha).1, hb _ (by simp) (h1 ha).2⟩, h2, by simp⟩
      · show id < st.next + 1
        rcases List.mem_append.1 hm with hm | hm
        · have := h.ids _ _ _ hm; omega
        · rw [List.mem_singleton] at hm; injection hm with hm; omega
    | look k id s =>
      simp only [exec, recStep, Option.some.injEq, Prod.mk.injEq] at he
      obtain ⟨rfl, rfl⟩ := he
      refine h.mk' ht rfl (fun u hu => frame_snoc (es := []) (by simp) (by simp) (by simp) (by simp) (fun h => h) (fun h => h) rfl) ?_ (by simp) h.nodup h.str (fun k h1 h2 => .inl ⟨h1, h2, by simp⟩) h.vis h.ids h.hist
      refine ⟨h1, h2, ?_⟩
      split_ifs with hk
      · exact ⟨h3, hk⟩
      · exact h3
    | enter k id s =>
      simp only [exec, recStep] at he
      split_ifs at he with hs
      · simp only [Option.some.injEq, Prod.mk.injEq] at he
        obtain ⟨rfl, rfl⟩ := he
        refine h.mk' ht rfl (fun u hu => frame_snoc (es := []) (by simp) (by simp) (by simp) (by simp) (fun h => h) (fun h' => by rw [hs] at h'; cases h') rfl) ?_ (by simp) h.nodup h.str (fun k h1 h2 => .inl ⟨h1, h2, by simp⟩) h.vis h.ids h.hist
        exact ⟨h1, h2, h3, rfl⟩
    | check k id s =>
      simp only [exec, recStep] at he
      have hset : ∀ u, u ≠ t → st.set = some u → False := fun u hu h' => hu (Option.some.inj (h'.symm.trans h3.2))
      split_ifs at he with hk
      · simp only [Option.some.injEq, Prod.mk.injEq] at he
        obtain ⟨rfl, rfl⟩ := he
        refine h.mk' ht rfl (fun u hu => frame_snoc (es := []) (by simp) (by simp) (by simp) (by simp) (fun h => h) (fun h' => (hset u hu h').elim) rfl) ?_ (by simp) h.nodup h.str (fun k h1 h2 => .inl ⟨h1, h2, by simp⟩) h.vis h.ids h.hist
        exact ⟨h1, h2, h3.1, hk⟩
      · simp only [Option.some.injEq, Prod.mk.injEq] at he
        obtain ⟨rfl, rfl⟩ := he
        have hno : opened k st.log = none := by
          by_contra hc
          obtain ⟨u, id', s', start, af', calls', hu⟩ := h.op k hc hk
          have := (h.thr _ _ hu).1.2.2.2.1
          have hut : u = t := Option.some.inj (this.symm.trans h3.2)
          subst hut
          rw [ht] at hu
          injection hu with hu
          injection hu with hu
          injection hu with hu
          cases hu
        refine h.mk' ht rfl (fun u hu => frame_snoc (es := [.created k id st.clock]) rfl (by simp) (fun hc ho => ?_) (by simp) (fun h => h) (fun h' => h') rfl) ?_ (by simp) h.nodup
          (fun k a hk => (h.str k a hk).snoc _ (by simp)) (fun q h4 h5 => ?_) (by simpa using h.vis) (by simpa using h.ids) (h.hist.snoc ⟨hno, ⟨s, h3.1⟩, fun ho => ⟨t, (h1 (h2 ho)).2⟩⟩)
        · exact (hother u hu (h1 (h2 ho)).1 hc).elim
        · refine ⟨fun ha => ⟨(h1 ha).1, hb _ (by simp) (h1 ha).2⟩, h2, List.mem_append_left _ h3.1, h3.2, hk, ?_⟩
          show opened k (st.log ++ [.created k id st.clock]) = _
          rw [opened_append, hno]; simp [opened]
        · by_cases hq : q = k
          · subst hq; exact .inr ⟨id, s, st.clock, af, rfl⟩
          · exact .inl ⟨by rwa [opened_snoc _ _ _ (fun a b h => hq (by injection h with h; exact h.symm))] at h4, h5, by simp⟩
    | insert k id s start =>
      simp only [exec, recStep, Option.some.injEq, Prod.mk.injEq] at he
      obtain ⟨rfl, rfl⟩ := he
      obtain ⟨g1, g2, g3, g4⟩ := h3
      have hset : ∀ u, u ≠ t → st.set = some u → False := fun u hu h' => hu (Option.some.inj (h'.symm.trans g2))
      refine h.mk' ht rfl (fun u hu => ⟨fun h => h, fun h' => (hset u hu h').elim, ⟨[], by simp, by simp, by simp, by simp⟩, fun q hq => by simp [List.mem_map] at hq ⊢; exact .inl hq, fun h' => (hset u hu h').elim⟩)
        ?_ (by simp) ?_ ?_ (fun q h4 h5 => ?_) (fun t' q now out hq => by rw [List.map_append]; exact List.mem_append_left _ (h.vis _ _ _ _ hq)) h.ids h.hist
      · exact ⟨h1, h2, g1, by simp⟩
      · show ((st.streams ++ [(k, Agg.new start)]).map Prod.fst).Nodup
        rw [List.map_append, List.nodup_append]
        refine ⟨h.nodup, by simp, ?_⟩
        rintro x hx y hy rfl
        simp at hy
        exact g3 (hy ▸ hx)
      · intro q a hq
        rcases List.mem_append.1 hq with hq | hq
        · exact h.str q a hq
        · simp at hq
          obtain ⟨rfl, rfl⟩ := hq
          refine ⟨g4, fun hc => ?_, fun x hx => by simp [Agg.new] at hx⟩
          have hv : visits q st.log = [] := by
            rw [List.eq_nil_iff_forall_not_mem]
            intro v hv
            obtain ⟨t', out, hv⟩ := visits_mem.1 hv
            exact g3 (h.vis _ _ _ _ hv)
          have hp : points q st.log = [] := by
            rw [List.eq_nil_iff_forall_not_mem]
            intro v hv
            obtain ⟨t', now, hv⟩ := points_mem.1 hv
            exact g3 (h.vis _ _ _ _ hv)
          unfold marks; rw [hv, hp]; simp [Agg.new]
      · simp only [List.map_append, List.mem_append, not_or] at h5
        refine .inl ⟨h4, h5.1, ?_⟩
        rintro id' s' start' af' hx
        simp at hx
        exact h5.2 (by simp [hx.1.1])
    | agg k id s =>
      simp only [exec, recStep, Option.some.injEq, Prod.mk.injEq] at he
      obtain ⟨rfl, rfl⟩ := he
      obtain ⟨g1, g2⟩ := h3
      have hkeys := keys_modify k (·.aggregate ⟨id, s, st.clock⟩) st.streams
      obtain ⟨⟨k0, a0⟩, ha0, hk0⟩ := List.mem_map.1 g2
      have hk0 : k0 = k := hk0
      subst hk0
      refine h.mk' ht rfl (fun u hu => frame_snoc (es := [.fed k0 ⟨id, s, st.clock⟩]) rfl (by simp) (by simp) (by simp) (fun h => h) (fun h => h) hkeys) ?_ (by simp) ?_ ?_ (fun q h4 h5 => ?_) ?_ (by simpa using h.ids) (h.hist.snoc ⟨g1, ?_⟩)
      · cases af with
        | none => trivial
        | some rest => exact ⟨(h1 (by simp)).1, hb _ (by simp) (h1 (by simp)).2⟩
      · show ((modify _ _ _).map Prod.fst).Nodup
        rw [hkeys]; exact h.nodup
      · intro q b hq
        obtain ⟨a, ha, rfl⟩ := mem_modify h.nodup hq
        have hs := (h.str q a ha).snoc (.fed k0 ⟨id, s, st.clock⟩) (by simp)
        split_ifs with hqk
        · subst hqk
          refine ⟨hs.start, hs.prev, fun x hx => ?_⟩
          have hx : x ∈ a.value.getD [] ++ [⟨id, s, st.clock⟩] ∨ x ∈ a.total := hx
          rcases hx with hx | hx
          · rcases List.mem_append.1 hx with hx | hx
            · exact hs.has x (.inl hx)
            · rw [List.mem_singleton] at hx
              subst hx
              exact ⟨by simp, List.mem_append_left _ g1⟩
          · exact hs.has x (.inr hx)
        · exact hs
      · have h5 : q ∉ (modify _ _ _).map Prod.fst := h5
        rw [hkeys] at h5
        exact .inl ⟨by rwa [opened_snoc _ _ _ (by simp)] at h4, h5, by simp⟩
      · intro t' q now out hq
        show q ∈ (modify _ _ _).map Prod.fst
        rw [hkeys]
        exact h.vis t' q now out (by simpa using hq)
      · rw [(h.str _ _ ha0).start]; simp
  | observe r =>
    cases r with
    | cons k rest =>
      simp only [exec, Option.some.injEq, Prod.mk.injEq] at he
      obtain ⟨rfl, rfl⟩ := he
      refine h.mk' ht rfl (fun u hu => frame_snoc (es := []) (by simp) (by simp) (by simp) (by simp) id id rfl) ?_ (by simp) h.nodup h.str (fun k h1 h2 => .inl ⟨h1, h2, by simp⟩) h.vis h.ids h.hist
      exact ⟨fun _ => hme, fun _ => by simp, trivial⟩
    | nil =>
      simp only [exec, Option.some.injEq, Prod.mk.injEq] at he
      obtain ⟨rfl, rfl⟩ := he
      refine h.mk' ht rfl (fun u hu => frame_snoc (es := [.read t st.clock]) rfl (by simp) (by simp) (by simp) id id rfl) ?_ (by simp) h.nodup
        (fun k a hk => (h.str k a hk).snoc _ (by simp)) (fun k h1 h2 => .inl ⟨by rwa [opened_snoc _ _ _ (by simp)] at h1, h2, by simp⟩) (by simpa using h.vis) (by simpa using h.ids) (h.hist.snoc trivial)
      exact ⟨hme.1, st.log, [], ⟨rfl, by simp⟩, by simp, by simp⟩
  | scan now =>
    simp only [exec] at he
    split_ifs at he with hs
    simp only [Option.some.injEq, Prod.mk.injEq] at he
    obtain ⟨rfl, rfl⟩ := he
    refine h.mk' ht rfl (fun u hu => frame_snoc (es := []) (by simp) (by simp) (by simp) (by simp) id (fun h' => by rw [hs] at h'; cases h') rfl) ?_ (by simp) h.nodup h.str (fun k h1 h2 => .inl ⟨h1, h2, by simp⟩) h.vis h.ids h.hist
    exact ⟨hme, rfl⟩
  | item now i =>
    obtain ⟨⟨g1, a1, a2, ⟨g2, g3⟩, g4, g6⟩, g5⟩ := hme
    have hset : ∀ u, u ≠ t → st.set = some u → False := fun u hu h' => hu (Option.some.inj (h'.symm.trans g5))
    simp only [exec] at he
    cases hi : st.streams[i]? with
    | none =>
      rw [hi] at he
      simp only [Option.some.injEq, Prod.mk.injEq] at he
      obtain ⟨rfl, rfl⟩ := he
      exact h.mk' ht rfl (fun u hu => frame_snoc (es := []) (by simp) (by simp) (by simp) (by simp) id (fun h' => (hset u hu h').elim) rfl) g1 (by simp) h.nodup h.str (fun k h1 h2 => .inl ⟨h1, h2, by simp⟩) h.vis h.ids h.hist
    | some ka =>
      obtain ⟨k, a⟩ := ka
      rw [hi] at he
      simp only [Option.some.injEq, Prod.mk.injEq] at he
      obtain ⟨rfl, rfl⟩ := he
      have hmem : (k, a) ∈ st.streams := List.mem_iff_getElem?.2 ⟨i, hi⟩
      have hs := h.str k a hmem
      have hkeys := keys_set (b := (a.collect inst coll now).2) hi
      refine h.mk' ht rfl (fun u hu => frame_snoc (es := [.collected t k now (a.collect inst coll now).1]) rfl (by simp) (by simp) (fun h' => (hother u hu g1 h').elim) id id hkeys) ?_ (by simp) ?_ ?_ (fun q h4 h5 => ?_) ?_ (by simpa using h.ids)
        (h.hist.snoc ⟨⟨a1, a2, ⟨g2, g3⟩, g4, ?_⟩, by rw [hs.start]; simp, fun p hp => ?_⟩)
      · refine ⟨⟨g1, a1, a2 ++ [.collected t k now (a.collect inst coll now).1], ⟨?_, by simp [g3]⟩, fun ho q id s hm => ?_, fun t' q now' out hm => ?_⟩, g5⟩
        · show st.log ++ _ = _
          rw [g2]; simp
        · exact g4 ho q id s (by simpa using hm)
        · show ∃ j, j < i + 1 ∧ ((st.streams.set _ _).map Prod.fst)[j]? = _
          rw [hkeys]
          rcases List.mem_append.1 hm with hm | hm
          · obtain ⟨j, hj, hk⟩ := g6 _ _ _ _ hm
            exact ⟨j, by omega, hk⟩
          · rw [List.mem_singleton] at hm
            injection hm with _ hm
            exact ⟨i, by omega, by rw [List.getElem?_map, hi, hm]; rfl⟩
      · show ((st.streams.set _ _).map Prod.fst).Nodup
        rw [hkeys]; exact h.nodup
      · intro q c hc
        rcases mem_set h.nodup hi hc with ⟨rfl, rfl⟩ | ⟨hne, hc⟩
        · exact hs.collected t now
        · exact (h.str q c hc).snoc _ (fun a b c h => hne (by injection h with _ h; exact h.symm))
      · have h5 : q ∉ (st.streams.set _ _).map Prod.fst := h5
        rw [hkeys] at h5
        exact .inl ⟨by rwa [opened_snoc _ _ _ (by simp)] at h4, h5, by simp⟩
      · intro t' q now' out hq
        show q ∈ (st.streams.set _ _).map Prod.fst
        rw [hkeys]
        rcases List.mem_append.1 hq with hq | hq
        · exact h.vis _ _ _ _ hq
        · simp at hq
          rw [hq.2.1]; exact List.mem_map.2 ⟨_, hmem, rfl⟩
      · rw [List.eq_nil_iff_forall_not_mem]
        intro v hv
        obtain ⟨t', out, hv⟩ := visits_mem.1 hv
        obtain ⟨j, hj, hk⟩ := g6 _ _ _ _ hv
        have h3 : (st.streams.map Prod.fst)[i]? = some k := by rw [List.getElem?_map, hi]; rfl
        have hl : j < (st.streams.map Prod.fst).length := by
          by_contra hc; rw [List.getElem?_eq_none (by omega)] at hk; cases hk
        have := (List.getElem?_inj hl h.nodup).1 (hk.trans h3.symm)
        omega
      · obtain ⟨e1, e2, e3⟩ := collect_time hp
        refine ⟨e1, ⟨a.start, hs.start, ?_⟩, fun x hx => hs.has x (e3 x hx)⟩
        rw [e2]
        split_ifs with hc
        · exact hs.prev hc
        · rfl
  | finish =>
    simp only [exec, Option.some.injEq, Prod.mk.injEq] at he
    obtain ⟨rfl, rfl⟩ := he
    exact h.mk' ht rfl (fun u hu => frame_snoc (es := [.ended t]) rfl (by simp; exact hu) (by simp) (by simp) (fun h' => (hother u hu hme h').elim) id rfl) trivial (by simp) h.nodup
      (fun k a hk => (h.str k a hk).snoc _ (by simp)) (fun k h1 h2 => .inl ⟨by rwa [opened_snoc _ _ _ (by simp)] at h1, h2, by simp⟩) (by simpa using h.vis) (by simpa using h.ids) (h.hist.snoc trivial)

theorem init_inv (inst coll : Temporality) {ob : Prop} (clock : Int) (progs : List (List (Call K))) (ho : ob → Observable progs) : Inv inst coll ob (State.init clock progs) := by
  refine ⟨fun t th hth => ?_, by simp [State.init], by simp [State.init], by simp [State.init, opened], by simp [State.init], by simp [State.init], Hist.nil⟩
  simp only [State.init, List.getElem?_map, Option.map_eq_some_iff] at hth
  obtain ⟨p, hp, rfl⟩ := hth
  exact ⟨trivial, fun h k => ho h p (List.mem_of_getElem? hp) k⟩

theorem step_inv {inst coll : Temporality} {ob : Prop} {st : State K} (h : Inv inst coll ob st) (mv : Move) : Inv inst coll ob (step inst coll st mv) := by
  cases mv with
  | tick d =>
    refine ⟨fun t th hth => ?_, h.nodup, h.str, h.op, h.vis, h.ids, h.hist⟩
    have := h.thr t th hth
    exact ⟨by cases th with | mk p c => cases p <;> exact this.1, this.2⟩
  | go t =>
    simp only [step]
    cases ht : st.threads[t]? with
    | none => exact h
    | some th =>
      simp only []
      cases he : exec inst coll st t th with
      | none => exact h
      | some r => obtain ⟨st', th'⟩ := r; exact exec_inv h ht he

theorem run_inv (inst coll : Temporality) {ob : Prop} (clock : Int) (progs : List (List (Call K))) (ho : ob → Observable progs) (sched : List Move) :
    Inv inst coll ob (run inst coll clock progs sched) := by
  unfold run
  induction sched using List.reverseRecOn with
  | nil => exact init_inv inst coll clock progs ho
  | append_singleton l m ih => rw [List.foldl_append]; exact step_inv ih m

/-! ## With a clock that is never set back -/

/-- The reading of the clock an event shows. -/
def clockOf : Ev K → Option Int
  | .stamped _ _ s => some s
  | .created _ _ s => some s
  | .fed _ x => some x.fed
  | .began _ c => some c
  | .read _ c => some c
  | .collected _ _ now _ => some now
  | .ended _ => none

/-- What the events say about each other's times. -/
def CalmFair (coll : Temporality) (a : List (Ev K)) : Ev K → Prop
  | .collected _ _ now out => (coll = .delta → ∀ p, out = some p → ∀ x ∈ p.contents, p.start ≤ x.fed) ∧ ∀ t' k' now' out', Ev.collected t' k' now' out' ∈ a → now' ≤ now
  | e => ∀ c, clockOf e = some c → ∀ e' ∈ a, ∀ c', clockOf e' = some c' → c' ≤ c

/-- A collection in progress is later than those before. -/
def COK (st : State K) : Phase K → Prop
  | .scan now => now ≤ st.clock ∧ ∀ t' k' now' out', Ev.collected t' k' now' out' ∈ st.log → now' ≤ now
  | .item now _ => now ≤ st.clock ∧ ∀ t' k' now' out', Ev.collected t' k' now' out' ∈ st.log → now' ≤ now
  | _ => True

/-- The invariant of a run with a steady clock. -/
structure Calm (coll : Temporality) (st : State K) : Prop where
  past : ∀ e ∈ st.log, ∀ c, clockOf e = some c → c ≤ st.clock
  thr : ∀ (t : Nat) (th : Thread K), st.threads[t]? = some th → COK st th.phase
  val : ∀ k a, (k, a) ∈ st.streams → coll = .delta → ∀ x ∈ a.value.getD [], a.prev ≤ x.fed
  hist : Hist (CalmFair coll) st.log

omit [DecidableEq K] in
theorem Calm.silent {coll : Temporality} {st st' : State K} {t : Nat} {th' : Thread K} (h : Calm coll st) (h1 : st'.clock = st.clock) (h2 : st'.threads = st.threads) (h3 : st'.log = st.log)
    (h4 : ∀ k a, (k, a) ∈ st'.streams → coll = .delta → ∀ x ∈ a.value.getD [], a.prev ≤ x.fed) (h5 : COK st th'.phase) :
    Calm coll { st' with threads := st'.threads.set t th' } := by
  refine ⟨by rw [h3, h1]; exact h.past, fun u x hx => ?_, h4, by rw [h3]; exact h.hist⟩
  have : COK st x.phase := by
    rcases set_cases hx with ⟨-, rfl⟩ | ⟨-, hx⟩
    · exact h5
    · exact h.thr u x (h2 ▸ hx)
  cases x with | mk p c => cases p <;> simp only [COK] at this ⊢ <;> rw [h1, h3] <;> exact this

omit [DecidableEq K] in
theorem Calm.says {coll : Temporality} {st st' : State K} {t : Nat} {th' : Thread K} (h : Calm coll st) (e : Ev K) (he : ∀ t k now out, e ≠ .collected t k now out) (hc : ∀ c, clockOf e = some c → c = st.clock)
    (h1 : st'.clock = st.clock) (h2 : st'.threads = st.threads) (h3 : st'.log = st.log ++ [e])
    (h4 : ∀ k a, (k, a) ∈ st'.streams → coll = .delta → ∀ x ∈ a.value.getD [], a.prev ≤ x.fed) (h5 : COK st th'.phase) :
    Calm coll { st' with threads := st'.threads.set t th' } := by
  have hn : ∀ t' k' now' out', Ev.collected t' k' now' out' ∈ st.log ++ [e] → Ev.collected t' k' now' out' ∈ st.log := by
    intro t' k' now' out' hm
    rcases List.mem_append.1 hm with hm | hm
    · exact hm
    · rw [List.mem_singleton] at hm; exact (he _ _ _ _ hm.symm).elim
  refine ⟨?_, fun u x hx => ?_, h4, ?_⟩
  · show ∀ x ∈ st'.log, ∀ c, clockOf x = some c → c ≤ st'.clock
    rw [h3, h1]
    intro x hx c hxc
    rcases List.mem_append.1 hx with hx | hx
    · exact h.past x hx c hxc
    · rw [List.mem_singleton] at hx; subst hx; exact le_of_eq (hc c hxc)
  · have : COK st x.phase := by
      rcases set_cases hx with ⟨-, rfl⟩ | ⟨-, hx⟩
      · exact h5
      · exact h.thr u x (h2 ▸ hx)
    cases x with
    | mk p c =>
      cases p <;> simp only [COK] at this ⊢ <;> rw [h1, h3] <;>
        exact ⟨this.1, fun t' k' now' out' hm => this.2 t' k' now' out' (hn _ _ _ _ hm)⟩
  · show Hist (CalmFair coll) st'.log
    rw [h3]
    refine h.hist.snoc ?_
    have : ∀ c, clockOf e = some c → ∀ e' ∈ st.log, ∀ c', clockOf e' = some c' → c' ≤ c := by
      intro c hcc e' he' c' hc'
      rw [hc c hcc]; exact h.past e' he' c' hc'
    cases e with
    | collected t k now out => exact (he _ _ _ _ rfl).elim
    | _ => exact this

/-- Where the next interval starts is not in the future. -/
theorem prev_le {inst coll : Temporality} {ob : Prop} {st : State K} (h : Inv inst coll ob st) (hc : Calm coll st) {k : K} {a : Agg} (ha : (k, a) ∈ st.streams) (hd : coll = .delta) : a.prev ≤ st.clock := by
  have hs := h.str k a ha
  have hst : a.start ≤ st.clock := by
    obtain ⟨id, hm⟩ := opened_mem hs.start
    exact hc.past _ hm _ rfl
  rw [hs.prev hd]
  cases hl : (marks inst k st.log).getLast? with
  | none => exact hst
  | some v =>
    have hv := List.mem_of_getLast? hl
    unfold marks at hv
    split_ifs at hv
    · obtain ⟨t, out, hm⟩ := visits_mem.1 hv
      exact hc.past _ hm _ rfl
    · obtain ⟨p, hp, rfl⟩ := List.mem_map.1 hv
      obtain ⟨t, now, hm⟩ := points_mem.1 hp
      obtain ⟨l1, l2, hl⟩ := List.append_of_mem hm
      have := (h.hist _ _ _ hl).2.2 p rfl
      simp only [Option.getD_some]
      rw [this.1]
      exact hc.past _ hm _ rfl

theorem exec_calm {inst coll : Temporality} {ob : Prop} {st st' : State K} {t : Nat} {th th' : Thread K} (h : Inv inst coll ob st) (hc : Calm coll st) (ht : st.threads[t]? = some th)
    (he : exec inst coll st t th = some (st', th')) : Calm coll { st' with threads := st'.threads.set t th' } := by
  obtain ⟨ph, calls⟩ := th
  obtain ⟨hme, -⟩ := h.thr _ _ ht
  have hco := hc.thr _ _ ht
  cases ph with
  | idle =>
    cases calls with
    | nil => simp [exec] at he
    | cons c r =>
      cases c with
      | record k =>
        simp only [exec, Option.some.injEq, Prod.mk.injEq] at he
        obtain ⟨rfl, rfl⟩ := he
        exact hc.silent rfl rfl rfl hc.val trivial
      | collect obs =>
        simp only [exec] at he
        split_ifs at he
        simp only [Option.some.injEq, Prod.mk.injEq] at he
        obtain ⟨rfl, rfl⟩ := he
        exact hc.says (.began t st.clock) (by simp) (by simp [clockOf]) rfl rfl rfl hc.val trivial
  | recording p af =>
    cases p with
    | stamp k =>
      simp only [exec, recStep, Option.some.injEq, Prod.mk.injEq] at he
      obtain ⟨rfl, rfl⟩ := he
      exact hc.says (.stamped st.next k st.clock) (by simp) (by simp [clockOf]) rfl rfl rfl hc.val trivial
    | look k id s =>
      simp only [exec, recStep, Option.some.injEq, Prod.mk.injEq] at he
      obtain ⟨rfl, rfl⟩ := he
      exact hc.silent rfl rfl rfl hc.val trivial
    | enter k id s =>
      simp only [exec, recStep] at he
      split_ifs at he
      simp only [Option.some.injEq, Prod.mk.injEq] at he
      obtain ⟨rfl, rfl⟩ := he
      exact hc.silent rfl rfl rfl hc.val trivial
    | check k id s =>
      simp only [exec, recStep] at he
      split_ifs at he
      · simp only [Option.some.injEq, Prod.mk.injEq] at he
        obtain ⟨rfl, rfl⟩ := he
        exact hc.silent rfl rfl rfl hc.val trivial
      · simp only [Option.some.injEq, Prod.mk.injEq] at he
        obtain ⟨rfl, rfl⟩ := he
        exact hc.says (.created k id st.clock) (by simp) (by simp [clockOf]) rfl rfl rfl hc.val trivial
    | insert k id s start =>
      simp only [exec, recStep, Option.some.injEq, Prod.mk.injEq] at he
      obtain ⟨rfl, rfl⟩ := he
      refine hc.silent rfl rfl rfl ?_ trivial
      intro q a hq hd x hx
      rcases List.mem_append.1 hq with hq | hq
      · exact hc.val q a hq hd x hx
      · simp at hq
        obtain ⟨rfl, rfl⟩ := hq
        simp [Agg.new] at hx
    | agg k id s =>
      simp only [exec, recStep, Option.some.injEq, Prod.mk.injEq] at he
      obtain ⟨rfl, rfl⟩ := he
      refine hc.says (.fed k ⟨id, s, st.clock⟩) (by simp) (by simp [clockOf]) rfl rfl rfl ?_ (by cases af <;> trivial)
      intro q b hq hd x hx
      obtain ⟨a, ha, rfl⟩ := mem_modify h.nodup hq
      split_ifs at hx ⊢ with hqk
      · have hx : x ∈ a.value.getD [] ++ [⟨id, s, st.clock⟩] := hx
        show a.prev ≤ x.fed
        rcases List.mem_append.1 hx with hx | hx
        · exact hc.val q a ha hd x hx
        · rw [List.mem_singleton] at hx
          subst hx
          exact prev_le h hc ha hd
      · exact hc.val q a ha hd x hx
  | observe r =>
    cases r with
    | cons k rest =>
      simp only [exec, Option.some.injEq, Prod.mk.injEq] at he
      obtain ⟨rfl, rfl⟩ := he
      exact hc.silent rfl rfl rfl hc.val trivial
    | nil =>
      simp only [exec, Option.some.injEq, Prod.mk.injEq] at he
      obtain ⟨rfl, rfl⟩ := he
      exact hc.says (.read t st.clock) (by simp) (by simp [clockOf]) rfl rfl rfl hc.val ⟨Int.le_refl _, fun t' k' now' out' hm => hc.past _ hm _ rfl⟩
  | scan now =>
    simp only [exec] at he
    split_ifs at he
    simp only [Option.some.injEq, Prod.mk.injEq] at he
    obtain ⟨rfl, rfl⟩ := he
    exact hc.silent rfl rfl rfl hc.val hco
  | item now i =>
    simp only [exec] at he
    cases hi : st.streams[i]? with
    | none =>
      rw [hi] at he
      simp only [Option.some.injEq, Prod.mk.injEq] at he
      obtain ⟨rfl, rfl⟩ := he
      exact hc.silent rfl rfl rfl hc.val trivial
    | some ka =>
      obtain ⟨k, a⟩ := ka
      rw [hi] at he
      simp only [Option.some.injEq, Prod.mk.injEq] at he
      obtain ⟨rfl, rfl⟩ := he
      have hmem : (k, a) ∈ st.streams := List.mem_iff_getElem?.2 ⟨i, hi⟩
      refine ⟨?_, fun u x hx => ?_, ?_, hc.hist.snoc ⟨fun hd p hp x hx => ?_, hco.2⟩⟩
      · intro e he c hcc
        rcases List.mem_append.1 he with he | he
        · exact hc.past e he c hcc
        · rw [List.mem_singleton] at he
          subst he
          simp only [clockOf, Option.some.injEq] at hcc
          subst hcc
          exact hco.1
      · rcases set_cases hx with ⟨-, rfl⟩ | ⟨hu, hx⟩
        · refine ⟨hco.1, fun t' k' now' out' hm => ?_⟩
          rcases List.mem_append.1 hm with hm | hm
          · exact hco.2 _ _ _ _ hm
          · rw [List.mem_singleton] at hm; injection hm with _ _ hm; exact le_of_eq hm
        · have hx' : st.threads[u]? = some x := hx
          obtain ⟨hT, -⟩ := h.thr u x hx'
          have hne : st.consumer = some u → False := fun h' => hu (Option.some.inj (h'.symm.trans hme.1.1))
          cases x with
          | mk p c =>
            cases p with
            | scan now' => exact (hne hT.1).elim
            | item now' i' => exact (hne hT.1.1).elim
            | _ => trivial
      · intro q b hb hd x hx
        rcases mem_set h.nodup hi hb with ⟨rfl, rfl⟩ | ⟨-, hb⟩
        · exfalso
          obtain ⟨start, prev, value, total⟩ := a
          subst hd
          cases inst <;> cases value <;> simp [Agg.collect] at hx
        · exact hc.val q b hb hd x hx
      · obtain ⟨-, e2, -⟩ := collect_time hp
        rw [e2, if_pos hd]
        refine hc.val k a hmem hd x ?_
        obtain ⟨start, prev, value, total⟩ := a
        subst hd
        cases inst <;> cases value <;> simp [Agg.collect] at hp <;> subst hp <;> exact hx
  | finish =>
    simp only [exec, Option.some.injEq, Prod.mk.injEq] at he
    obtain ⟨rfl, rfl⟩ := he
    exact hc.says (.ended t) (by simp) (by simp [clockOf]) rfl rfl rfl hc.val trivial

theorem run_calm (inst coll : Temporality) (clock : Int) (progs : List (List (Call K))) {sched : List Move} (hs : Steady sched) : Calm coll (run inst coll clock progs sched) := by
  induction sched using List.reverseRecOn with
  | nil =>
    refine ⟨by simp [run, State.init], fun t th hth => ?_, by simp [run, State.init], Hist.nil⟩
    simp only [run, List.foldl_nil, State.init, List.getElem?_map, Option.map_eq_some_iff] at hth
    obtain ⟨p, hp, rfl⟩ := hth
    trivial
  | append_singleton l m ih =>
    have ih := ih (fun d hd => hs d (List.mem_append_left _ hd))
    have hinv := run_inv inst coll (ob := False) clock progs (by simp) l
    have hrun : run inst coll clock progs (l ++ [m]) = step inst coll (run inst coll clock progs l) m := by unfold run; rw [List.foldl_append]; rfl
    rw [hrun]
    cases m with
    | tick d =>
      have hd := hs d (by simp)
      refine ⟨fun e he c hc => ?_, fun t th hth => ?_, ih.val, ih.hist⟩
      · have := ih.past e he c hc
        show c ≤ _ + d
        omega
      · have := ih.thr t th hth
        cases th with
        | mk p c =>
          cases p with
          | scan now => exact ⟨by have := this.1; show now ≤ _ + d; omega, this.2⟩
          | item now i => exact ⟨by have := this.1; show now ≤ _ + d; omega, this.2⟩
          | _ => trivial
    | go t =>
      simp only [step]
      cases ht : (run inst coll clock progs l).threads[t]? with
      | none => exact ih
      | some th =>
        simp only []
        cases he : exec inst coll (run inst coll clock progs l) t th with
        | none => exact ih
        | some r => obtain ⟨st', th'⟩ := r; exact exec_calm hinv ih ht he

/-! ## The intervals -/

variable {inst coll : Temporality} {clock : Int} {progs : List (List (Call K))} {sched : List Move}

/-- **C113** With cumulative temporality every point of a stream starts when the stream was created, and ends when its collection began; whatever the clock does. -/
theorem C113_cumulative {a b : List (Ev K)} {t : Nat} {k : K} {now : Int} {p : Point} (h : (run inst .cumulative clock progs sched).log = a ++ .collected t k now (some p) :: b) :
    opened k a = some p.start ∧ p.time = now := by
  obtain ⟨-, -, hp⟩ := (run_inv inst .cumulative (ob := False) clock progs (by simp) sched).hist _ _ _ h
  obtain ⟨h1, ⟨s, h2, h3⟩, -⟩ := hp p rfl
  rw [if_neg (by simp)] at h3
  exact ⟨h3 ▸ h2, h1⟩

/-- **C113** With delta temporality the points of a synchronous instrument tile the time: an interval starts where the last collection of the stream ended, with or without a point, and the first one when the stream was created; whatever the clock does. -/
theorem C113_delta {a b : List (Ev K)} {t : Nat} {k : K} {now : Int} {p : Point} (h : (run .delta .delta clock progs sched).log = a ++ .collected t k now (some p) :: b) :
    (visits k a = [] ∧ opened k a = some p.start ∨ (visits k a).getLast? = some p.start) ∧ p.time = now := by
  obtain ⟨-, -, hp⟩ := (run_inv .delta .delta (ob := False) clock progs (by simp) sched).hist _ _ _ h
  obtain ⟨h1, ⟨s, h2, h3⟩, -⟩ := hp p rfl
  rw [if_pos rfl] at h3
  simp only [marks, if_pos] at h3
  refine ⟨?_, h1⟩
  cases hl : (visits k a).getLast? with
  | none => rw [hl] at h3; exact .inl ⟨List.getLast?_eq_none_iff.1 hl, h3 ▸ h2⟩
  | some v => rw [hl] at h3; exact .inr (by rw [h3]; rfl)

/-- **C113** The points of an observable counter with delta temporality tile the time as well: an interval starts where the last point ended. -/
theorem C113_delta_observable {a b : List (Ev K)} {t : Nat} {k : K} {now : Int} {p : Point} (h : (run .cumulative .delta clock progs sched).log = a ++ .collected t k now (some p) :: b) :
    (points k a = [] ∧ opened k a = some p.start ∨ ∃ q, (points k a).getLast? = some q ∧ p.start = q.time) ∧ p.time = now := by
  obtain ⟨-, -, hp⟩ := (run_inv .cumulative .delta (ob := False) clock progs (by simp) sched).hist _ _ _ h
  obtain ⟨h1, ⟨s, h2, h3⟩, -⟩ := hp p rfl
  rw [if_pos rfl] at h3
  simp only [marks, reduceCtorEq, if_false] at h3
  refine ⟨?_, h1⟩
  rw [List.getLast?_map] at h3
  cases hl : (points k a).getLast? with
  | none => rw [hl] at h3; exact .inl ⟨List.getLast?_eq_none_iff.1 hl, h3 ▸ h2⟩
  | some v => rw [hl] at h3; exact .inr ⟨v, rfl, h3⟩

theorem le_getLast {l : List Int} (h : l.Pairwise (· ≤ ·)) {x y : Int} (hx : x ∈ l) (hy : l.getLast? = some y) : x ≤ y := by
  rcases List.eq_nil_or_concat l with rfl | ⟨l', z, rfl⟩
  · cases hx
  · rw [List.concat_eq_append] at h hx hy
    rw [List.getLast?_concat] at hy
    injection hy with hy
    subst hy
    rcases List.mem_append.1 hx with hx | hx
    · exact (List.pairwise_append.1 h).2.2 x hx z (by simp)
    · rw [List.mem_singleton] at hx; omega

theorem visits_sorted {coll : Temporality} {l : List (Ev K)} (h : Hist (CalmFair coll) l) (k : K) : (visits k l).Pairwise (· ≤ ·) := by
  induction l using List.reverseRecOn with
  | nil => exact List.Pairwise.nil
  | append_singleton l e ih =>
    have hl : Hist (CalmFair coll) l := fun a x b hab => h a x (b ++ [e]) (by rw [hab]; simp)
    rw [visits_append, List.pairwise_append]
    refine ⟨ih hl, ?_, ?_⟩
    · unfold visits
      cases e with
      | collected t k' now out => simp only [List.filterMap_cons, List.filterMap_nil]; split_ifs <;> simp
      | _ => simp
    · intro x hx y hy
      obtain ⟨t, out, hy⟩ := visits_mem.1 hy
      rw [List.mem_singleton] at hy
      subst hy
      obtain ⟨t', out', hx⟩ := visits_mem.1 hx
      exact (h l _ [] rfl).2 _ _ _ _ hx

/-- The points of a stream were made at its visits. -/
theorem time_visit {ob : Prop} {l : List (Ev K)} (h : Hist (Fair inst coll ob) l) {k : K} {p : Point} (hp : p ∈ points k l) : p.time ∈ visits k l := by
  obtain ⟨t, now, hm⟩ := points_mem.1 hp
  obtain ⟨a, b, hl⟩ := List.append_of_mem hm
  rw [((h _ _ _ hl).2.2 p rfl).1]
  exact visits_mem.2 ⟨_, _, hm⟩

omit [DecidableEq K] in
theorem Hist.prefix {P : List (Ev K) → Ev K → Prop} {l a : List (Ev K)} (h : Hist P l) (b : List (Ev K)) (hl : l = a ++ b) : Hist P a :=
  fun x e y hxy => h x e (y ++ b) (by rw [hl, hxy]; simp)

theorem marks_sorted {coll : Temporality} {ob : Prop} {l : List (Ev K)} (hf : Hist (Fair inst coll ob) l) (h : Hist (CalmFair coll) l) (k : K) : (marks inst k l).Pairwise (· ≤ ·) := by
  unfold marks
  split_ifs
  · exact visits_sorted h k
  · induction l using List.reverseRecOn with
    | nil => exact List.Pairwise.nil
    | append_singleton l e ih =>
      rw [points_append, List.map_append, List.pairwise_append]
      refine ⟨ih (hf.prefix [e] rfl) (h.prefix [e] rfl), ?_, ?_⟩
      · unfold points
        cases e with
        | collected t k' now out =>
          cases out with
          | none => simp
          | some q => simp only [List.filterMap_cons, List.filterMap_nil]; split_ifs <;> simp
        | _ => simp
      · intro x hx y hy
        obtain ⟨p, hp, rfl⟩ := List.mem_map.1 hx
        obtain ⟨q, hq, rfl⟩ := List.mem_map.1 hy
        obtain ⟨t, now, hq⟩ := points_mem.1 hq
        rw [List.mem_singleton] at hq
        subst hq
        rw [((hf l _ [] rfl).2.2 q rfl).1]
        obtain ⟨t', out, hv⟩ := visits_mem.1 (time_visit (hf.prefix [_] rfl) hp)
        exact (h l _ [] rfl).2 _ _ _ _ hv

/-- **C113** With a clock that is never set back: a delta point starts no earlier than any point of its stream before it ended. -/
theorem C113_disjoint (hs : Steady sched) {a b : List (Ev K)} {t : Nat} {k : K} {now : Int} {p q : Point} (h : (run inst .delta clock progs sched).log = a ++ .collected t k now (some q) :: b) (hp : p ∈ points k a) :
    p.time ≤ q.start ∧ p.time ≤ q.time := by
  have hi := (run_inv inst .delta (ob := False) clock progs (by simp) sched).hist
  have hc := (run_calm inst .delta clock progs hs).hist
  obtain ⟨-, -, hq⟩ := hi _ _ _ h
  obtain ⟨h1, ⟨s, h2, h3⟩, -⟩ := hq q rfl
  rw [if_pos rfl] at h3
  have hv := time_visit (hi.prefix _ h) hp
  have hm : p.time ∈ marks inst k a := by
    unfold marks
    split_ifs
    · exact hv
    · exact List.mem_map.2 ⟨p, hp, rfl⟩
  constructor
  · cases hl : (marks inst k a).getLast? with
    | none => rw [List.getLast?_eq_none_iff.1 hl] at hm; cases hm
    | some y => rw [h3, hl]; exact le_getLast (marks_sorted (hi.prefix _ h) (hc.prefix _ h) k) hm hl
  · rw [h1]
    obtain ⟨t', out, hv⟩ := visits_mem.1 hv
    exact (hc _ _ _ h).2 _ _ _ _ hv

/-- **C113** With a clock that is never set back, the times of a stream's points never go down, with either temporality. -/
theorem C113_times (hs : Steady sched) {a b : List (Ev K)} {t : Nat} {k : K} {now : Int} {p q : Point} (h : (run inst coll clock progs sched).log = a ++ .collected t k now (some q) :: b) (hp : p ∈ points k a) :
    p.time ≤ q.time := by
  have hi := (run_inv inst coll (ob := False) clock progs (by simp) sched).hist
  have hc := (run_calm inst coll clock progs hs).hist
  rw [((hi _ _ _ h).2.2 q rfl).1]
  obtain ⟨t', out, hv⟩ := visits_mem.1 (time_visit (hi.prefix _ h) hp)
  exact (hc _ _ _ h).2 _ _ _ _ hv

theorem inverted (ob : Prop) (hob : ob → Observable progs) (hs : Steady sched) {a b : List (Ev K)} {t : Nat} {k : K} {now : Int} {p : Point} (h : (run inst coll clock progs sched).log = a ++ .collected t k now (some p) :: b)
    (hp : p.time < p.start) : ∃ a1 a2 id, Reading t now a a1 a2 ∧ .created k id p.start ∈ a2 ∧ visits k a = [] ∧ ¬ ob := by
  have hi := (run_inv inst coll clock progs hob sched).hist
  have hc := (run_calm inst coll clock progs hs).hist
  obtain ⟨⟨a1, a2, hr, hno, hvis⟩, -, hq⟩ := hi _ _ _ h
  obtain ⟨h1, ⟨s, h2, h3⟩, -⟩ := hq p rfl
  have hps : p.start = s := by
    split_ifs at h3 with hd
    · cases hl : (marks inst k a).getLast? with
      | none => rw [h3, hl]; rfl
      | some y =>
        exfalso
        have hy := List.mem_of_getLast? hl
        have hv : y ∈ visits k a := by
          unfold marks at hy
          split_ifs at hy
          · exact hy
          · obtain ⟨q, hq, rfl⟩ := List.mem_map.1 hy
            exact time_visit (hi.prefix _ h) hq
        obtain ⟨t', out, hv⟩ := visits_mem.1 hv
        have := (hc _ _ _ h).2 _ _ _ _ hv
        rw [hl] at h3
        simp only [Option.getD_some] at h3
        omega
    · exact h3
  subst hps
  obtain ⟨ha, hend⟩ := hr
  have hread := hc a1 (.read t now) (a2 ++ .collected t k now (some p) :: b) (by rw [h, ha]; simp)
  have hnot : ∀ id, Ev.created k id p.start ∉ a1 := by
    intro id hm
    have := hread now rfl _ hm _ rfl
    omega
  obtain ⟨id, hm⟩ := opened_mem h2
  have hm2 : Ev.created k id p.start ∈ a2 := by
    rw [ha] at hm
    rcases List.mem_append.1 hm with hm | hm
    · exact (hnot id hm).elim
    · rcases List.mem_cons.1 hm with hm | hm
      · cases hm
      · exact hm
  refine ⟨a1, a2, id, ⟨ha, hend⟩, hm2, ?_, fun ho => hno ho _ _ _ hm2⟩
  rw [ha, visits_append]
  have : visits k (Ev.read t now :: a2) = visits k a2 := by simp [visits]
  rw [this, hvis, List.append_nil, List.eq_nil_iff_forall_not_mem]
  intro v hv
  obtain ⟨t', out, hv⟩ := visits_mem.1 hv
  obtain ⟨l1, l2, hl⟩ := List.append_of_mem hv
  have hop := (hi l1 (.collected t' k v out) (l2 ++ .read t now :: a2 ++ .collected t k now (some p) :: b) (by rw [h, ha, hl]; simp)).2.1
  obtain ⟨s', hs'⟩ := Option.ne_none_iff_exists'.1 hop
  have : opened k a = some s' := by rw [ha, hl, List.append_assoc]; exact opened_mono _ hs'
  rw [h2] at this
  injection this with this
  obtain ⟨id', hm'⟩ := opened_mem hs'
  exact hnot id' (by rw [hl, this]; exact List.mem_append_left _ hm')

/-- **C113** With a clock that is never set back, an interval runs backwards only if its stream was created by another thread in the middle of that very collection, after the collection had read the clock;
it is then the first of its stream. -/
theorem C113_inverted_only (hs : Steady sched) {a b : List (Ev K)} {t : Nat} {k : K} {now : Int} {p : Point} (h : (run inst coll clock progs sched).log = a ++ .collected t k now (some p) :: b) (hp : p.time < p.start) :
    ∃ a1 a2 id, Reading t now a a1 a2 ∧ .created k id p.start ∈ a2 ∧ visits k a = [] := by
  obtain ⟨a1, a2, id, h1, h2, h3, -⟩ := inverted False (by simp) hs h hp
  exact ⟨a1, a2, id, h1, h2, h3⟩

/-- **C113** With a clock that is never set back, the intervals of an observable instrument never run backwards. -/
theorem C113_observable_forward (hs : Steady sched) (ho : Observable progs) {a b : List (Ev K)} {t : Nat} {k : K} {now : Int} {p : Point} (h : (run inst coll clock progs sched).log = a ++ .collected t k now (some p) :: b) :
    p.start ≤ p.time := by
  by_contra hc
  obtain ⟨_, _, _, -, -, -, hn⟩ := inverted True (fun _ => ho) hs h (by omega)
  exact hn trivial

/-- **C113** With a clock that is never set back, every measurement in a point was aggregated after the interval's start, and, if it was aggregated before the collection read the clock, before its end. -/
theorem C113_inside (hs : Steady sched) {a b : List (Ev K)} {t : Nat} {k : K} {now : Int} {p : Point} {x : Meas} (h : (run inst coll clock progs sched).log = a ++ .collected t k now (some p) :: b) (hx : x ∈ p.contents) :
    .stamped x.id k x.stamp ∈ a ∧ .fed k x ∈ a ∧ x.stamp ≤ x.fed ∧ p.start ≤ x.fed ∧ ∀ a1 a2, Reading t now a a1 a2 → .fed k x ∈ a1 → x.fed ≤ p.time := by
  have hi := (run_inv inst coll (ob := False) clock progs (by simp) sched).hist
  have hc := (run_calm inst coll clock progs hs).hist
  obtain ⟨-, -, hq⟩ := hi _ _ _ h
  obtain ⟨h1, ⟨s, h2, h3⟩, h4⟩ := hq p rfl
  obtain ⟨h5, h6⟩ := h4 x hx
  obtain ⟨l1, l2, hl⟩ := List.append_of_mem h5
  have hfed := hi l1 (.fed k x) (l2 ++ .collected t k now (some p) :: b) (by rw [h, hl]; simp)
  have hcal := hc l1 (.fed k x) (l2 ++ .collected t k now (some p) :: b) (by rw [h, hl]; simp)
  refine ⟨h6, h5, hcal _ rfl _ hfed.1 _ rfl, ?_, fun a1 a2 hr hm => ?_⟩
  · cases coll with
    | delta => exact (hc _ _ _ h).1 rfl p rfl x hx
    | cumulative =>
      rw [if_neg (by simp)] at h3
      obtain ⟨s', hs'⟩ := Option.ne_none_iff_exists'.1 hfed.2
      have : opened k a = some s' := by rw [hl]; exact opened_mono _ hs'
      rw [h2] at this
      injection this with this
      obtain ⟨id, hm⟩ := opened_mem hs'
      have := hcal _ rfl _ hm _ rfl
      omega
  · rw [h1]
    exact hc a1 (.read t now) (a2 ++ .collected t k now (some p) :: b) (by rw [h, hr.1]; simp) _ rfl _ hm _ rfl

/-- **C113** With a clock that is never set back: if a delta stream's last collection was over when a measurement was begun, then the interval starts before the time that `add` or `record` noted for the measurement. -/
theorem C113_stamp_inside (hs : Steady sched) {a1 a2 b : List (Ev K)} {t id : Nat} {k : K} {s now : Int} {p : Point}
    (h : (run .delta .delta clock progs sched).log = (a1 ++ .stamped id k s :: a2) ++ .collected t k now (some p) :: b) (h1 : visits k a1 ≠ []) (h2 : visits k a2 = []) : p.start ≤ s := by
  have hc := (run_calm .delta .delta clock progs hs).hist
  obtain ⟨hst, -⟩ := C113_delta h
  have hv : visits k (a1 ++ .stamped id k s :: a2) = visits k a1 := by
    rw [visits_append]
    have : visits k (Ev.stamped id k s :: a2) = visits k a2 := by simp [visits]
    rw [this, h2, List.append_nil]
  rw [hv] at hst
  rcases hst with ⟨h3, -⟩ | h3
  · exact (h1 h3).elim
  · obtain ⟨t', out, hm⟩ := visits_mem.1 (List.mem_of_getLast? h3)
    exact hc a1 (.stamped id k s) (a2 ++ .collected t k now (some p) :: b) (by rw [h]; simp) _ rfl _ hm _ rfl

/-- Two measurements do not share a number. -/
theorem stamped_unique {ob : Prop} {l : List (Ev K)} (h : Hist (Fair inst coll ob) l) {id : Nat} {k k' : K} {s s' : Int} (h1 : .stamped id k s ∈ l) (h2 : .stamped id k' s' ∈ l) : s = s' := by
  induction l using List.reverseRecOn with
  | nil => cases h1
  | append_singleton l e ih =>
    rcases List.mem_append.1 h1 with g1 | g1 <;> rcases List.mem_append.1 h2 with g2 | g2
    · exact ih (h.prefix [e] rfl) g1 g2
    · rw [List.mem_singleton] at g2; subst g2
      have := h l _ [] rfl _ _ _ g1; omega
    · rw [List.mem_singleton] at g1; subst g1
      have := h l _ [] rfl _ _ _ g2; omega
    · rw [List.mem_singleton] at g1 g2; subst g1; injection g2 with _ _ g2; exact g2.symm

/-- **C113**, refuted: the measurements of a point lie in its interval. In every run with a clock that is never set back, the measurement that opens a stream is noted with a time that is not after the start of the stream's first
point (of any point, with cumulative temporality). -/
theorem C113_opening_violated (hs : Steady sched) {a b : List (Ev K)} {t id : Nat} {k : K} {now s start : Int} {p : Point} (h : (run inst coll clock progs sched).log = a ++ .collected t k now (some p) :: b)
    (hf : coll = .cumulative ∨ visits k a = []) (h1 : .created k id start ∈ a) (h2 : .stamped id k s ∈ a) : s ≤ p.start := by
  have hi := (run_inv inst coll (ob := False) clock progs (by simp) sched).hist
  have hc := (run_calm inst coll clock progs hs).hist
  obtain ⟨-, -, hq⟩ := hi _ _ _ h
  obtain ⟨-, ⟨s0, h3, h4⟩, -⟩ := hq p rfl
  have hps : p.start = s0 := by
    rcases hf with rfl | hf
    · rwa [if_neg (by simp)] at h4
    · split_ifs at h4 with hd
      · rw [h4]
        have : marks inst k a = [] := by
          rw [List.eq_nil_iff_forall_not_mem]
          intro y hy
          have hv : y ∈ visits k a := by
            unfold marks at hy
            split_ifs at hy
            · exact hy
            · obtain ⟨q, hq, rfl⟩ := List.mem_map.1 hy
              exact time_visit (hi.prefix _ h) hq
          rw [hf] at hv; cases hv
        rw [this]; rfl
      · exact h4
  obtain ⟨l1, l2, hl⟩ := List.append_of_mem h1
  have hF := hi l1 (.created k id start) (l2 ++ .collected t k now (some p) :: b) (by rw [h, hl]; simp)
  have hC := hc l1 (.created k id start) (l2 ++ .collected t k now (some p) :: b) (by rw [h, hl]; simp)
  have hst : s0 = start := by
    have : opened k a = some start := by rw [hl, opened_append, hF.1]; simp [opened]
    rw [h3] at this; injection this
  obtain ⟨s', hs'⟩ := hF.2.1
  have : s = s' := stamped_unique (hi.prefix _ h) h2 (by rw [hl]; exact List.mem_append_left _ hs')
  subst this
  rw [hps, hst]
  exact hC _ rfl _ hs' _ rfl

/-- **C113**, refuted: an observable counter's first interval covers the time its value is about. In every run with a clock that is never set back, the stream starts during its first collection. -/
theorem C113_observable_first_violated (hs : Steady sched) (ho : Observable progs) {a b : List (Ev K)} {id : Nat} {k : K} {start : Int} (h : (run inst coll clock progs sched).log = a ++ .created k id start :: b) :
    ∃ t c a1 a2, a = a1 ++ .began t c :: a2 ∧ .ended t ∉ a2 ∧ c ≤ start := by
  obtain ⟨-, -, hb⟩ := (run_inv inst coll clock progs (fun _ : True => ho) sched).hist _ _ _ h
  obtain ⟨t, a1, a2, c, h1, h2⟩ := hb trivial
  refine ⟨t, c, a1, a2, h1, h2, ?_⟩
  exact (run_calm inst coll clock progs hs).hist _ _ _ h start rfl (.began t c) (by rw [h1]; simp) c rfl

/-! ## Examples -/

theorem history_inl (inst coll : Temporality) (start : Int) (h : List (Meas ⊕ Int)) (x : Meas) :
    history inst coll start (h ++ [.inl x]) = ((history inst coll start h).1.aggregate x, (history inst coll start h).2) := by
  unfold history; rw [List.foldl_append]; rfl

theorem history_inr (inst coll : Temporality) (start : Int) (h : List (Meas ⊕ Int)) (t : Int) :
    history inst coll start (h ++ [.inr t]) = (((history inst coll start h).1.collect inst coll t).2,
      (history inst coll start h).2 ++ ((history inst coll start h).1.collect inst coll t).1.toList) := by
  unfold history; rw [List.foldl_append]; rfl

/-- **C113** Each cumulative point of a synchronous instrument counts every measurement since the stream was opened, once. -/
theorem C113_counts_cumulative (start now : Int) (h : List (Meas ⊕ Int)) :
    ((history .delta .cumulative start h).1.collect .delta .cumulative now).1 = some ⟨start, now, measured h⟩ := by
  have key : (history .delta .cumulative start h).1.start = start ∧
      (history .delta .cumulative start h).1.total ++ (history .delta .cumulative start h).1.value.getD [] = measured h := by
    induction h using List.reverseRecOn with
    | nil => exact ⟨rfl, rfl⟩
    | append_singleton h e ih =>
      unfold measured at ih ⊢
      rw [List.filterMap_append]
      cases e with
      | inl x =>
        rw [history_inl]
        simp only [Agg.aggregate, Option.getD_some]
        refine ⟨ih.1, ?_⟩
        rw [← List.append_assoc, ih.2]; rfl
      | inr t =>
        rw [history_inr]
        simp only [Agg.collect, Option.getD_none, List.append_nil]
        refine ⟨ih.1, ?_⟩
        rw [ih.2]; simp
  simp only [Agg.collect]
  rw [key.1, key.2]

/-- **C113** The delta points count every measurement once: all those since the one before. -/
theorem C113_counts_delta (inst : Temporality) (start : Int) (h : List (Meas ⊕ Int)) :
    (history inst .delta start h).2.flatMap (·.contents) ++ (history inst .delta start h).1.value.getD [] = measured h := by
  induction h using List.reverseRecOn with
  | nil => rfl
  | append_singleton h e ih =>
    unfold measured at ih ⊢
    rw [List.filterMap_append]
    cases e with
    | inl x =>
      rw [history_inl]
      simp only [Agg.aggregate, Option.getD_some]
      rw [← List.append_assoc, ih]; rfl
    | inr t =>
      rw [history_inr]
      simp only [List.filterMap_cons, List.filterMap_nil, Sum.getLeft?_inr, List.append_nil]
      rw [← ih]
      generalize history inst .delta start h = s
      obtain ⟨a, ps⟩ := s
      cases inst <;> simp only [Agg.collect] <;> cases hv : a.value <;> simp [hv]

/-- **C113** Each cumulative point of an observable counter or up-down counter says what was observed since the last collection. -/
theorem C113_counts_observed (start now : Int) (h : List (Meas ⊕ Int)) (t : Int) (xs : List Meas) (hx : xs ≠ []) :
    ((history .cumulative .cumulative start (h ++ [.inr t] ++ xs.map .inl)).1.collect .cumulative .cumulative now).1 = some ⟨start, now, xs⟩ := by
  have hstart : ∀ h, (history .cumulative .cumulative start h).1.start = start := by
    intro h
    induction h using List.reverseRecOn with
    | nil => rfl
    | append_singleton h e ih =>
      cases e with
      | inl x => rw [history_inl]; exact ih
      | inr t =>
        rw [history_inr]
        simp only [Agg.collect]
        split <;> exact ih
  have hval : ∀ xs : List Meas, (history .cumulative .cumulative start (h ++ [.inr t] ++ xs.map .inl)).1.value = if xs = [] then none else some xs := by
    intro xs
    induction xs using List.reverseRecOn with
    | nil =>
      rw [List.map_nil, List.append_nil, history_inr]
      simp only [Agg.collect, if_true]
      split
      · assumption
      · rfl
    | append_singleton xs x ih =>
      rw [if_neg (by simp)]
      rw [List.map_append, ← List.append_assoc, List.map_singleton, history_inl]
      simp only [Agg.aggregate]
      rw [ih]
      by_cases h0 : xs = []
      · simp [h0]
      · simp [h0]
  have h1 := hval xs
  rw [if_neg hx] at h1
  simp only [Agg.collect]
  rw [h1, hstart]

/-- The collection reads the clock (100); another thread opens a stream at 105; the collection finds it. -/
def exInverted : List Move := [.go 0, .go 0, .tick 5, .go 1, .go 1, .go 1, .go 1, .go 1, .go 1, .go 1, .go 0, .go 0]

/-- **C113**, refuted: an interval does not run backwards. With a steady clock, a stream that is created while a collection is going on gets one that does. -/
theorem C113_inverted_violated (coll : Temporality) : Steady exInverted ∧
    (run .delta coll 100 [[.collect []], [.record 0]] exInverted).log =
      [.began 0 100, .read 0 100, .stamped 0 0 105, .created 0 0 105, .fed 0 ⟨0, 105, 105⟩, .collected 0 0 100 (some ⟨105, 100, [⟨0, 105, 105⟩]⟩)] := by
  refine ⟨?_, ?_⟩
  · intro d hd; simp [exInverted] at hd; omega
  · cases coll <;> decide +kernel

/-- One thread records and collects twice; the second collection sees a clock that was set back. -/
def exBack : List Move := List.replicate 7 (.go 0) ++ [.tick 10] ++ List.replicate 6 (.go 0) ++ [.tick (-20)] ++ List.replicate 20 (.go 0)

/-- **C113**, refuted: if the clock is set back, intervals run backwards without any concurrency. -/
theorem C113_set_back_violated : points 0 (run .delta .delta 100 [[.record 0, .collect [], .record 0, .collect []]] exBack).log =
    [⟨100, 110, [⟨0, 100, 100⟩]⟩, ⟨110, 90, [⟨1, 90, 90⟩]⟩] := by
  decide +kernel

/-- A thread notes the time of a measurement (103), and aggregates it after a collection (105). -/
def exEarly : List Move := List.replicate 7 (.go 1) ++ [.tick 3, .go 1, .go 1] ++ [.tick 2] ++ List.replicate 6 (.go 0) ++ [.tick 1] ++ List.replicate 2 (.go 1) ++ [.tick 4] ++ List.replicate 6 (.go 0)

/-- **C113**, refuted: the times noted for a stream's measurements lie in the intervals they are counted in. With a steady clock, a measurement that is made while a collection goes on may be counted in the next interval. -/
theorem C113_early_violated : Steady exEarly ∧ points 0 (run .delta .delta 100 [[.collect [], .collect []], [.record 0, .record 0]] exEarly).log =
    [⟨100, 105, [⟨0, 100, 100⟩]⟩, ⟨105, 110, [⟨1, 103, 106⟩]⟩] := by
  refine ⟨?_, by decide +kernel⟩
  intro d hd; simp [exEarly] at hd; omega

/-- An observable counter collected at 100 and 160, by hand: the first interval has no length. -/
def exObs : List Move := List.replicate 13 (.go 0) ++ [.tick 60] ++ List.replicate 20 (.go 0)

example : Observable ([[.collect [7], .collect [7]]] : List (List (Call Nat))) ∧ Steady exObs ∧
    points 7 (run .cumulative .delta 100 [[.collect [7], .collect [7]]] exObs).log = [⟨100, 100, [⟨0, 100, 100⟩]⟩, ⟨100, 160, [⟨1, 160, 160⟩]⟩] := by
  refine ⟨by intro p hp k; simp at hp; subst hp; simp, ?_, by decide +kernel⟩
  intro d hd; simp [exObs] at hd; omega

end Intervals
end Otel
