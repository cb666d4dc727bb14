import Verif.Model.Periods
import Verif.Spec.Periods
import Mathlib.Data.List.Induction
import Mathlib.Data.List.Basic
import Mathlib.Order.Basic
import Mathlib.Tactic.SplitIfs
import Mathlib.Tactic.Push
/-!
# C120: how long metrics take
-/
namespace Otel
namespace Periods
open scoped List
variable {σ : Type}

theorem run_snoc (c : Cfg) (acts : List (Act σ)) (a : Act σ) : run c (acts ++ [a]) = step c (run c acts) a := by
  simp [run, runFrom]

theorem inv_run {P : St σ → Prop} (c : Cfg) (h0 : P (init σ c)) (hs : ∀ (st : St σ) (a : Act σ), P st → P (step c st a)) (acts : List (Act σ)) : P (run c acts) := by
  induction acts using List.reverseRecOn with
  | nil => exact h0
  | append_singleton l a ih => rw [run_snoc]; exact hs _ _ ih

theorem inv_from {P : St σ → Prop} (c : Cfg) (st : St σ) (h0 : P st) (hs : ∀ (st : St σ) (a : Act σ), P st → P (step c st a)) (acts : List (Act σ)) :
    P (runFrom c st acts) := by
  induction acts generalizing st with
  | nil => exact h0
  | cons a l ih => exact ih _ (hs _ _ h0)

theorem run_append (c : Cfg) (l l' : List (Act σ)) : run c (l ++ l') = runFrom c (run c l) l' := by
  simp [run, runFrom]

/-- The loop: when the ticker began its collections. -/
def Beat (c : Cfg) (st : St σ) : Prop :=
  (match st.pc with
    | .waiting till =>
      (st.event = false → st.now ≤ till) ∧
        (match st.begun with
          | [] => till = c.interval
          | h :: _ => h + c.interval ≤ till ∧ till ≤ h + (c.slow + c.send) + c.interval)
    | .collecting since false => st.begun.head? = some since ∧ since ≤ st.now ∧ st.now ≤ since + c.slow
    | .exporting since false => ∃ h, st.begun.head? = some h ∧ h ≤ since ∧ since ≤ h + c.slow ∧ since ≤ st.now ∧ st.now ≤ since + c.send
    | .collecting _ true | .exporting _ true | .over => st.event = true) ∧
  (∀ pre t t' post, st.begun = pre ++ t :: t' :: post → t' + c.interval ≤ t ∧ t ≤ t' + (c.slow + c.send) + c.interval) ∧
  (∀ t, st.begun.getLast? = some t → t = c.interval)

theorem beat_step (c : Cfg) (st : St σ) (a : Act σ) (h : Beat c st) : Beat c (step c st a) := by
  obtain ⟨h1, h2, h3⟩ := h
  cases a with
  | tick d =>
    simp only [step]
    split_ifs with hc
    · refine ⟨?_, h2, h3⟩
      simp only [Bool.and_eq_true] at hc
      obtain ⟨hc, -⟩ := hc
      cases hp : st.pc with
      | waiting till =>
        simp only [hp, tickerAllows, Bool.and_eq_true, Bool.not_eq_true', decide_eq_true_eq] at h1 hc ⊢
        exact ⟨fun _ => hc.2, h1.2⟩
      | collecting since last =>
        cases last
        · simp only [hp, tickerAllows, decide_eq_true_eq] at h1 hc ⊢
          exact ⟨h1.1, by omega, hc⟩
        · simpa only [hp] using h1
      | exporting since last =>
        cases last
        · simp only [hp, tickerAllows, decide_eq_true_eq] at h1 hc ⊢
          obtain ⟨k, hk1, hk2, hk3, hk4, hk5⟩ := h1
          exact ⟨k, hk1, hk2, hk3, by omega, hc⟩
        · simpa only [hp] using h1
      | over => simpa only [hp] using h1
    · exact ⟨h1, h2, h3⟩
  | record x => exact ⟨h1, h2, h3⟩
  | wake =>
    simp only [step]
    cases hp : st.pc with
    | waiting till =>
      simp only [hp] at h1
      simp only
      split_ifs with he ht
      · exact ⟨by simpa using he, h2, h3⟩
      · refine ⟨⟨rfl, Nat.le_refl _, Nat.le_add_right _ _⟩, ?_, ?_⟩
        · intro pre t t' post heq
          have hn : st.now = till := Nat.le_antisymm (h1.1 (by simpa using he)) ht
          cases pre with
          | nil =>
            simp only [List.nil_append, List.cons.injEq] at heq
            obtain ⟨hA, hB⟩ := heq
            rw [hB] at h1
            have := h1.2
            simp only at this
            omega
          | cons p ps =>
            simp only [List.cons_append, List.cons.injEq] at heq
            exact h2 _ _ _ _ heq.2
        · intro t ht'
          have hn : st.now = till := Nat.le_antisymm (h1.1 (by simpa using he)) ht
          cases hb : st.begun with
          | nil =>
            rw [hb] at h1
            simp only [hb, List.getLast?_singleton, Option.some.injEq] at ht'
            have := h1.2
            simp only at this
            omega
          | cons p ps =>
            simp only [hb, List.getLast?_cons_cons] at ht'
            exact h3 t (by rw [hb]; exact ht')
      · exact ⟨by simpa only [hp] using h1, h2, h3⟩
    | _ => exact ⟨by simpa only [hp] using h1, h2, h3⟩
  | collected more =>
    simp only [step]
    cases hp : st.pc with
    | collecting since last =>
      simp only [hp] at h1
      simp only
      cases last
      · simp only at h1
        obtain ⟨hk, hk2, hk3⟩ := h1
        obtain ⟨ps, hb⟩ : ∃ ps, st.begun = since :: ps := by
          cases hb : st.begun with
          | nil => simp [hb] at hk
          | cons p ps => simp only [hb, List.head?_cons, Option.some.injEq] at hk; exact ⟨ps, by rw [hk]⟩
        have hw : Beat c (st.next c false) := by
          refine ⟨?_, h2, h3⟩
          simp only [St.next, Bool.false_eq_true, if_false, hb]
          exact ⟨fun _ => Nat.le_add_right _ _, by omega, by omega⟩
        split_ifs
        · exact hw
        · exact hw
        · exact ⟨⟨since, hk, hk2, hk3, Nat.le_refl _, Nat.le_add_right _ _⟩, h2, h3⟩
      · simp only at h1
        split_ifs
        · exact ⟨h1, h2, h3⟩
        · exact ⟨h1, h2, h3⟩
        · exact ⟨h1, h2, h3⟩
    | _ => exact ⟨by simpa only [hp] using h1, h2, h3⟩
  | exported =>
    simp only [step]
    cases hp : st.pc with
    | exporting since last =>
      simp only [hp] at h1
      cases last
      · simp only at h1
        obtain ⟨k, hk, hk2, hk3, hk4, hk5⟩ := h1
        obtain ⟨ps, hb⟩ : ∃ ps, st.begun = k :: ps := by
          cases hb : st.begun with
          | nil => simp [hb] at hk
          | cons p ps => simp only [hb, List.head?_cons, Option.some.injEq] at hk; exact ⟨ps, by rw [hk]⟩
        refine ⟨?_, h2, h3⟩
        simp only [St.next, Bool.false_eq_true, if_false, hb]
        exact ⟨fun _ => Nat.le_add_right _ _, by omega, by omega⟩
      · exact ⟨h1, h2, h3⟩
    | _ => exact ⟨by simpa only [hp] using h1, h2, h3⟩
  | shutdown t =>
    simp only [step]
    split_ifs
    · refine ⟨?_, h2, h3⟩
      cases hp : st.pc with
      | waiting till => simp only [hp] at h1 ⊢; exact ⟨fun h => by simp at h, h1.2⟩
      | collecting since last => cases last <;> simp only [hp] at h1 ⊢ <;> exact h1
      | exporting since last => cases last <;> simp only [hp] at h1 ⊢ <;> exact h1
      | over => simp only
    · exact ⟨h1, h2, h3⟩
  | joined =>
    simp only [step]
    split
    · split_ifs <;> exact ⟨h1, h2, h3⟩
    · exact ⟨h1, h2, h3⟩
  | done =>
    simp only [step]
    split
    · split_ifs <;> exact ⟨h1, h2, h3⟩
    · exact ⟨h1, h2, h3⟩

theorem beat_run (c : Cfg) (acts : List (Act σ)) : Beat c (run c acts) :=
  inv_run c ⟨⟨fun _ => Nat.zero_le _, rfl⟩, by simp [init], by simp [init]⟩ (beat_step c) acts

/-- The cadence: the first collection of the loop begins one interval after the reader was made; between the beginnings of two successive ones lie at least the interval and at most the interval
and the time of a collection and its export; and until `shutdown` the next one is never further away than that. -/
theorem C120_cadence (c : Cfg) (acts : List (Act σ)) :
    (∀ t, (run c acts).begun.getLast? = some t → t = c.interval) ∧
    (∀ later t t' earlier, (run c acts).begun = later ++ t :: t' :: earlier → t' + c.interval ≤ t ∧ t ≤ t' + c.interval + Spec.cycle c) ∧
    ((run c acts).event = false → ∀ t, (run c acts).begun.head? = some t → (run c acts).now ≤ t + c.interval + Spec.cycle c) ∧
    ((run c acts).event = false → (run c acts).begun = [] → (run c acts).now ≤ c.interval) := by
  have hB := beat_run c acts
  generalize run c acts = st at hB
  obtain ⟨h1, h2, h3⟩ := hB
  refine ⟨h3, fun later t t' earlier h => ?_, fun he t ht => ?_, fun he hn => ?_⟩
  · have := h2 _ _ _ _ h; simp only [Spec.cycle]; omega
  · simp only [Spec.cycle]
    cases hp : st.pc with
    | waiting till =>
      simp only [hp] at h1
      cases hb : st.begun with
      | nil => simp [hb] at ht
      | cons k ks =>
        rw [hb] at h1 ht
        simp only [List.head?_cons, Option.some.injEq] at ht
        have := h1.1 he
        have := h1.2
        simp only at this
        omega
    | collecting since last =>
      cases last
      · simp only [hp] at h1
        have : since = t := by rw [h1.1] at ht; exact Option.some.inj ht
        omega
      · simp only [hp, he] at h1; cases h1
    | exporting since last =>
      cases last
      · simp only [hp] at h1
        obtain ⟨k, hk, hk2, hk3, hk4, hk5⟩ := h1
        have : k = t := by rw [hk] at ht; exact Option.some.inj ht
        omega
      · simp only [hp, he] at h1; cases h1
    | over => simp only [hp, he] at h1; cases h1
  · cases hp : st.pc with
    | waiting till =>
      simp only [hp, hn] at h1
      have := h1.1 he
      omega
    | collecting since last =>
      cases last
      · simp only [hp, hn] at h1; cases h1.1
      · simp only [hp, he] at h1; cases h1
    | exporting since last =>
      cases last
      · simp only [hp, hn] at h1; obtain ⟨k, hk, -⟩ := h1; cases hk
      · simp only [hp, he] at h1; cases h1
    | over => simp only [hp, he] at h1; cases h1

/-! ## Nothing is lost or sent twice -/

theorem made_snoc (c : Cfg) (acts : List (Act σ)) (a : Act σ) :
    Spec.made c (acts ++ [a]) = Spec.made c acts ++ (match a with | .record x => [⟨x, (run c acts).now⟩] | _ => []) := by
  unfold Spec.made
  rw [List.length_append, List.length_singleton, List.range_succ, List.filterMap_append]
  congr 1
  · apply List.filterMap_congr
    intro k hk
    have hk' : k < acts.length := List.mem_range.1 hk
    rw [List.getElem?_append_left hk', List.take_append_of_le_length (Nat.le_of_lt hk')]
  · cases a <;> simp

/-- What a step does to what has been sent and what has not. -/
theorem books_step (c : Cfg) (st : St σ) (a : Act σ) :
    (step c st a).sent.map (·.item) ++ (step c st a).fresh = (st.sent.map (·.item) ++ st.fresh) ++ (match a with | .record x => [⟨x, st.now⟩] | _ => []) := by
  cases a with
  | tick d => simp only [step]; split_ifs <;> simp
  | record x => simp [step]
  | wake => simp only [step]; split <;> (try split_ifs) <;> simp
  | collected more =>
    simp only [step]
    split
    · split_ifs
      · simp [St.next]
      · simp [St.next]
      · simp [Function.comp_def]
    · simp
  | exported => simp only [step]; split <;> simp [St.next]
  | shutdown t => simp only [step]; split_ifs <;> simp
  | joined => simp only [step]; split <;> (try split_ifs) <;> simp
  | done => simp only [step]; split <;> (try split_ifs) <;> simp

/-- Every measurement is, in order and once, among those passed to the exporter or those that wait for a collection, with the time at which it was made. -/
theorem C120_kept (c : Cfg) (acts : List (Act σ)) : (run c acts).sent.map (·.item) ++ (run c acts).fresh = Spec.made c acts := by
  induction acts using List.reverseRecOn with
  | nil => rfl
  | append_singleton l a ih => rw [run_snoc, made_snoc, books_step, ih]

/-! ## Freshness -/

/-- How old a measurement is that waits. -/
def Age (c : Cfg) (st : St σ) : Prop :=
  (∀ s ∈ st.sent, s.time ≤ s.item.time + (c.interval + Spec.cycle c)) ∧
  (match st.pc with
    | .waiting till =>
      (st.event = false → st.now ≤ till) ∧ till ≤ st.now + c.interval ∧ ∀ i ∈ st.fresh, till ≤ i.time + (c.send + c.interval) ∧ st.now ≤ i.time + (c.send + c.interval)
    | .collecting since last => since ≤ st.now ∧ st.now ≤ since + c.slow ∧ (∀ i ∈ st.fresh, since ≤ i.time + (c.send + c.interval)) ∧ (last = true → st.event = true)
    | .exporting since last => since ≤ st.now ∧ st.now ≤ since + c.send ∧ (∀ i ∈ st.fresh, since ≤ i.time) ∧ (last = true → st.event = true)
    | .over => st.event = true)

theorem not_late (c : Cfg) (hc : Spec.InTime c) (now since : Nat) (last : Bool) (h : now ≤ since + c.slow) : late c now since (limit c last) = false := by
  unfold late
  cases hb : c.callbacks with
  | false => rfl
  | true =>
    have := hc hb
    simp only [Bool.true_and, decide_eq_false_iff_not]
    cases last
    · simp only [limit, Bool.false_eq_true, if_false]; omega
    · simp only [limit, if_true]; omega

theorem age_step (c : Cfg) (hc : Spec.InTime c) (st : St σ) (a : Act σ) (h : Age c st) : Age c (step c st a) := by
  obtain ⟨h1, h2⟩ := h
  cases a with
  | tick d =>
    simp only [step]
    split_ifs with hd
    · refine ⟨h1, ?_⟩
      simp only [Bool.and_eq_true] at hd
      obtain ⟨hd, -⟩ := hd
      cases hp : st.pc with
      | waiting till =>
        simp only [hp, tickerAllows, Bool.and_eq_true, Bool.not_eq_true', decide_eq_true_eq] at h2 hd ⊢
        exact ⟨fun _ => hd.2, by omega, fun i hi => ⟨(h2.2.2 i hi).1, Nat.le_trans hd.2 (h2.2.2 i hi).1⟩⟩
      | collecting since last =>
        simp only [hp, tickerAllows, decide_eq_true_eq] at h2 hd ⊢
        exact ⟨by omega, hd, h2.2.2⟩
      | exporting since last =>
        simp only [hp, tickerAllows, decide_eq_true_eq] at h2 hd ⊢
        exact ⟨by omega, hd, h2.2.2⟩
      | over => simpa only [hp] using h2
    · exact ⟨h1, h2⟩
  | record x =>
    refine ⟨h1, ?_⟩
    simp only [step]
    cases hp : st.pc with
    | waiting till =>
      simp only [hp] at h2 ⊢
      refine ⟨h2.1, h2.2.1, fun i hi => ?_⟩
      rcases List.mem_append.1 hi with hi | hi
      · exact h2.2.2 i hi
      · obtain rfl := List.mem_singleton.1 hi
        simp only
        omega
    | collecting since last =>
      simp only [hp] at h2 ⊢
      refine ⟨h2.1, h2.2.1, fun i hi => ?_, h2.2.2.2⟩
      rcases List.mem_append.1 hi with hi | hi
      · exact h2.2.2.1 i hi
      · obtain rfl := List.mem_singleton.1 hi
        simp only
        omega
    | exporting since last =>
      simp only [hp] at h2 ⊢
      refine ⟨h2.1, h2.2.1, fun i hi => ?_, h2.2.2.2⟩
      rcases List.mem_append.1 hi with hi | hi
      · exact h2.2.2.1 i hi
      · obtain rfl := List.mem_singleton.1 hi
        exact h2.1
    | over => simpa only [hp] using h2
  | wake =>
    simp only [step]
    cases hp : st.pc with
    | waiting till =>
      simp only [hp] at h2
      simp only
      split_ifs with he ht
      · exact ⟨h1, Nat.le_refl _, Nat.le_add_right _ _, fun i hi => (h2.2.2 i hi).2, fun _ => he⟩
      · exact ⟨h1, Nat.le_refl _, Nat.le_add_right _ _, fun i hi => (h2.2.2 i hi).2, fun h => by cases h⟩
      · exact ⟨h1, by simpa only [hp] using h2⟩
    | _ => exact ⟨h1, by simpa only [hp] using h2⟩
  | collected more =>
    simp only [step]
    cases hp : st.pc with
    | collecting since last =>
      simp only [hp] at h2
      simp only [not_late c hc st.now since last h2.2.1, Bool.false_eq_true, if_false]
      split_ifs with hf
      · refine ⟨h1, ?_⟩
        cases last
        · simp only [St.next, Bool.false_eq_true, if_false, hf.1]
          exact ⟨fun _ => Nat.le_add_right _ _, Nat.le_refl _, fun i hi => by cases hi⟩
        · exact h2.2.2.2 rfl
      · refine ⟨fun s hs => ?_, Nat.le_refl _, Nat.le_add_right _ _, fun i hi => (by cases hi), h2.2.2.2⟩
        rcases List.mem_append.1 hs with hs | hs
        · exact h1 s hs
        · obtain ⟨i, hi, rfl⟩ := List.mem_map.1 hs
          have := h2.2.2.1 i hi
          simp only [Spec.cycle]
          omega
    | _ => exact ⟨h1, by simpa only [hp] using h2⟩
  | exported =>
    simp only [step]
    cases hp : st.pc with
    | exporting since last =>
      simp only [hp] at h2
      refine ⟨h1, ?_⟩
      cases last
      · simp only [St.next, Bool.false_eq_true, if_false]
        exact ⟨fun _ => Nat.le_add_right _ _, Nat.le_refl _, fun i hi => by have := h2.2.2.1 i hi; omega⟩
      · exact h2.2.2.2 rfl
    | _ => exact ⟨h1, by simpa only [hp] using h2⟩
  | shutdown t =>
    simp only [step]
    split_ifs
    · refine ⟨h1, ?_⟩
      cases hp : st.pc with
      | waiting till => simp only [hp] at h2 ⊢; exact ⟨fun h => (by cases h), h2.2⟩
      | collecting since last => simp only [hp] at h2 ⊢; exact ⟨h2.1, h2.2.1, h2.2.2.1, fun _ => trivial⟩
      | exporting since last => simp only [hp] at h2 ⊢; exact ⟨h2.1, h2.2.1, h2.2.2.1, fun _ => trivial⟩
      | over => simp only
    · exact ⟨h1, h2⟩
  | joined =>
    simp only [step]
    split
    · split_ifs <;> exact ⟨h1, h2⟩
    · exact ⟨h1, h2⟩
  | done =>
    simp only [step]
    split
    · split_ifs <;> exact ⟨h1, h2⟩
    · exact ⟨h1, h2⟩

/-- Freshness: as long as the callbacks never take as long as the timeouts, every measurement is passed to the exporter no later than the interval and the time of a collection and an export
after it was made; a measurement that has not been is no older than that, up to `shutdown`. -/
theorem C120_fresh (c : Cfg) (hc : Spec.InTime c) (acts : List (Act σ)) :
    (∀ s ∈ (run c acts).sent, s.time ≤ s.item.time + (c.interval + Spec.cycle c)) ∧
    ((run c acts).event = false → ∀ i ∈ (run c acts).fresh, (run c acts).now ≤ i.time + (c.interval + Spec.cycle c)) := by
  have hA : Age c (run c acts) := inv_run c ⟨fun s hs => (by cases hs), fun _ => Nat.zero_le _, by simp [init], fun i hi => by cases hi⟩ (age_step c hc) acts
  generalize run c acts = st at hA
  refine ⟨hA.1, fun he i hi => ?_⟩
  obtain ⟨-, h2⟩ := hA
  simp only [Spec.cycle]
  cases hp : st.pc with
  | waiting till => simp only [hp] at h2; have := (h2.2.2 i hi).2; omega
  | collecting since last => simp only [hp] at h2; have := h2.2.2.1 i hi; omega
  | exporting since last => simp only [hp] at h2; have := h2.2.2.1 i hi; omega
  | over => simp only [hp, he] at h2; cases h2

/-! ## `shutdown` -/

/-- Where the call of `shutdown` is in time. -/
def Waits (c : Cfg) (st : St σ) : Prop :=
  match st.asked with
  | none => st.caller = .idle ∧ st.event = false ∧ st.closed = none
  | some (t, d) =>
    st.event = true ∧ t ≤ st.now ∧
    (match st.caller with
      | .idle => False
      | .joining till => till = t + d ∧ st.now ≤ till ∧ st.closed = none
      | .closing till => ∃ k, st.closed = some k ∧ t ≤ k ∧ k ≤ t + d ∧ till = k + c.patience ∧ k ≤ st.now ∧ st.now ≤ till
      | .returned r => ∃ k, st.closed = some k ∧ t ≤ k ∧ k ≤ t + d ∧ k ≤ r ∧ r ≤ k + c.patience ∧ r ≤ st.now)

theorem waits_step (c : Cfg) (st : St σ) (a : Act σ) (h : Waits c st) : Waits c (step c st a) := by
  unfold Waits at h
  cases a with
  | tick d =>
    simp only [step]
    split_ifs with hd
    · simp only [Bool.and_eq_true] at hd
      unfold Waits
      cases ha : st.asked with
      | none => simpa only [ha] using h
      | some p =>
        obtain ⟨t, T⟩ := p
        simp only [ha] at h ⊢
        refine ⟨h.1, by omega, ?_⟩
        cases hk : st.caller with
        | idle => simp only [hk] at h; exact h.2.2.elim
        | joining till =>
          simp only [hk, callerAllows, Bool.and_eq_true, decide_eq_true_eq] at h hd ⊢
          exact ⟨h.2.2.1, hd.2.2, h.2.2.2.2⟩
        | closing till =>
          simp only [hk, callerAllows, Bool.and_eq_true, decide_eq_true_eq] at h hd ⊢
          obtain ⟨-, -, k, e1, e2, e3, e4, e5, e6⟩ := h
          exact ⟨k, e1, e2, e3, e4, by omega, hd.2.2⟩
        | returned r =>
          simp only [hk] at h ⊢
          obtain ⟨-, -, k, e1, e2, e3, e4, e5, e6⟩ := h
          exact ⟨k, e1, e2, e3, e4, e5, by omega⟩
    · exact h
  | record x => exact h
  | wake => simp only [step]; split <;> (try split_ifs) <;> exact h
  | collected more => simp only [step]; split <;> (try split_ifs) <;> exact h
  | exported => simp only [step]; split <;> exact h
  | shutdown d =>
    simp only [step]
    split_ifs
    · exact ⟨rfl, Nat.le_refl _, rfl, Nat.le_add_right _ _, by simp_all⟩
    · exact h
  | joined =>
    simp only [step]
    cases hk : st.caller with
    | joining till =>
      simp only
      split_ifs with hj
      · unfold Waits
        cases ha : st.asked with
        | none => simp [ha, hk] at h
        | some p =>
          obtain ⟨t, T⟩ := p
          simp only [ha, hk] at h ⊢
          exact ⟨h.1, h.2.1, st.now, rfl, h.2.1, by omega, rfl, Nat.le_refl _, Nat.le_add_right _ _⟩
      · exact h
    | _ => exact h
  | done =>
    simp only [step]
    cases hk : st.caller with
    | closing till =>
      simp only
      split_ifs with hj
      · unfold Waits
        cases ha : st.asked with
        | none => simp [ha, hk] at h
        | some p =>
          obtain ⟨t, T⟩ := p
          simp only [ha, hk] at h ⊢
          obtain ⟨e0, e0', k, e1, e2, e3, e4, e5, e6⟩ := h
          exact ⟨e0, e0', k, e1, e2, e3, e5, by omega, Nat.le_refl _⟩
      · exact h
    | _ => exact h

theorem waits_run (c : Cfg) (acts : List (Act σ)) : Waits c (run c acts) := inv_run c ⟨rfl, rfl, rfl⟩ (waits_step c) acts

/-- The time `shutdown` takes: it calls `shutdown` of the exporter within its timeout, and returns no later than that and the time the exporter waits. -/
theorem C120_shutdown (c : Cfg) (acts : List (Act σ)) (t d : Nat) (h : (run c acts).asked = some (t, d)) :
    (∀ k, (run c acts).closed = some k → t ≤ k ∧ k ≤ t + d) ∧
    (∀ r, (run c acts).caller = .returned r → t ≤ r ∧ r ≤ t + d + c.patience ∧ ∃ k, (run c acts).closed = some k ∧ k ≤ r) ∧
    ((∀ r, (run c acts).caller ≠ .returned r) → (run c acts).now ≤ t + d + c.patience) := by
  have hW := waits_run c acts
  generalize run c acts = st at h hW
  unfold Waits at hW
  simp only [h] at hW
  obtain ⟨-, -, hW⟩ := hW
  cases hk : st.caller with
  | idle => simp only [hk] at hW
  | joining till =>
    simp only [hk] at hW
    refine ⟨fun k hk' => ?_, fun r hr => (by cases hr), fun _ => by omega⟩
    rw [hW.2.2] at hk'; cases hk'
  | closing till =>
    simp only [hk] at hW
    obtain ⟨k, e1, e2, e3, e4, e5, e6⟩ := hW
    refine ⟨fun k' hk' => ?_, fun r hr => (by cases hr), fun _ => by omega⟩
    rw [e1] at hk'; cases hk'; exact ⟨e2, e3⟩
  | returned r =>
    simp only [hk] at hW
    obtain ⟨k, e1, e2, e3, e4, e5, e6⟩ := hW
    refine ⟨fun k' hk' => ?_, fun r' hr => ?_, fun hn => absurd rfl (hn r)⟩
    · rw [e1] at hk'; cases hk'; exact ⟨e2, e3⟩
    · cases hr; exact ⟨by omega, by omega, k, e1, e4⟩

/-- Before `shutdown` of the exporter is called nothing is sent after it. -/
theorem open_run (c : Cfg) (acts : List (Act σ)) : (run c acts).closed = none → ∀ s ∈ (run c acts).sent, s.closed = false := by
  refine inv_run (P := fun st : St σ => st.closed = none → ∀ s ∈ st.sent, s.closed = false) c (fun _ s hs => by cases hs) ?_ acts
  intro st a h
  cases a with
  | tick d => simp only [step]; split_ifs <;> exact h
  | record x => exact h
  | wake => simp only [step]; split <;> (try split_ifs) <;> exact h
  | collected more =>
    simp only [step]
    split
    · split_ifs
      · exact h
      · exact h
      · intro hn s hs
        rcases List.mem_append.1 hs with hs | hs
        · exact h hn s hs
        · obtain ⟨i, -, rfl⟩ := List.mem_map.1 hs
          have hn' : st.closed = none := hn
          simp [hn']
    · exact h
  | exported => simp only [step]; split <;> exact h
  | shutdown d => simp only [step]; split_ifs <;> exact h
  | joined =>
    simp only [step]
    split
    · split_ifs
      · intro hn; cases hn
      · exact h
    · exact h
  | done => simp only [step]; split <;> (try split_ifs) <;> exact h

/-- After a call of `shutdown` at `t` with enough time `d`, when `n` measurements had been made. -/
def Ends (c : Cfg) (t d n : Nat) (st : St σ) : Prop :=
  st.asked = some (t, d) ∧ st.event = true ∧ (∀ s ∈ st.sent, s.closed = false) ∧ n ≤ st.sent.length + st.fresh.length ∧
  (match st.pc with
    | .waiting _ => st.now ≤ t + Spec.cycle c ∧ st.closed = none ∧ st.caller = .joining (t + d)
    | .collecting since false => since ≤ t ∧ st.now ≤ since + c.slow ∧ st.closed = none ∧ st.caller = .joining (t + d)
    | .exporting since false => since ≤ t + c.slow ∧ st.now ≤ since + c.send ∧ st.closed = none ∧ st.caller = .joining (t + d)
    | .collecting since true => since ≤ t + Spec.cycle c ∧ st.now ≤ since + c.slow ∧ st.closed = none ∧ st.caller = .joining (t + d)
    | .exporting since true => since ≤ t + Spec.cycle c + c.slow ∧ st.now ≤ since + c.send ∧ n ≤ st.sent.length ∧ st.closed = none ∧ st.caller = .joining (t + d)
    | .over => n ≤ st.sent.length ∧
      (match st.caller with
        | .idle => False
        | .joining till => till = t + d ∧ st.now ≤ t + 2 * Spec.cycle c
        | .closing _ => st.now ≤ t + 2 * Spec.cycle c
        | .returned r => r ≤ t + 2 * Spec.cycle c))

theorem ends_step (c : Cfg) (hc : Spec.InTime c) (t d n : Nat) (hd : 2 * Spec.cycle c < d) (st : St σ) (a : Act σ) (h : Ends c t d n st) :
    Ends c t d n (step c st a) := by
  obtain ⟨h1, h2, h3, h4, h5⟩ := h
  have hcy : Spec.cycle c = c.slow + c.send := rfl
  cases a with
  | tick e =>
    simp only [step]
    split_ifs with ht
    · refine ⟨h1, h2, h3, h4, ?_⟩
      simp only [Bool.and_eq_true] at ht
      cases hp : st.pc with
      | waiting till => simp [hp, tickerAllows, h2] at ht
      | collecting since last =>
        cases last <;> simp only [hp, tickerAllows, decide_eq_true_eq] at h5 ht ⊢ <;> exact ⟨h5.1, ht.1, h5.2.2⟩
      | exporting since last =>
        cases last <;> simp only [hp, tickerAllows, decide_eq_true_eq] at h5 ht ⊢ <;> exact ⟨h5.1, ht.1, h5.2.2⟩
      | over =>
        simp only [hp] at h5 ht ⊢
        refine ⟨h5.1, ?_⟩
        cases hk : st.caller with
        | idle => simp only [hk] at h5; exact h5.2.elim
        | joining till => simp [hk, callerAllows] at ht
        | closing till => simp [hk, callerAllows, Pc.busy] at ht
        | returned r => simp only [hk] at h5; exact h5.2
    · exact ⟨h1, h2, h3, h4, h5⟩
  | record x =>
    refine ⟨h1, h2, h3, ?_, h5⟩
    simp only [step, List.length_append, List.length_singleton]
    omega
  | wake =>
    simp only [step]
    cases hp : st.pc with
    | waiting till =>
      simp only [hp] at h5
      simp only [h2, if_true]
      exact ⟨h1, rfl, h3, h4, h5.1, Nat.le_add_right _ _, h5.2.1, h5.2.2⟩
    | _ => exact ⟨h1, h2, h3, h4, by simpa only [hp] using h5⟩
  | collected more =>
    simp only [step]
    cases hp : st.pc with
    | collecting since last =>
      simp only [hp] at h5
      have hl : st.now ≤ since + c.slow := by cases last <;> exact h5.2.1
      simp only [not_late c hc st.now since last hl, Bool.false_eq_true, if_false]
      split_ifs with hf
      · refine ⟨h1, h2, h3, h4, ?_⟩
        cases last
        · exact ⟨by show st.now ≤ _; simp only at h5; omega, h5.2.2.1, h5.2.2.2⟩
        · simp only at h5
          obtain ⟨g1, g2, g3, g4⟩ := h5
          refine ⟨?_, ?_⟩
          · show n ≤ st.sent.length
            simp only [hf.1, List.length_nil, Nat.add_zero] at h4
            exact h4
          · show (match st.caller with
              | .idle => False
              | .joining till => till = t + d ∧ st.now ≤ t + 2 * Spec.cycle c
              | .closing _ => st.now ≤ t + 2 * Spec.cycle c
              | .returned r => r ≤ t + 2 * Spec.cycle c)
            rw [g4]
            exact ⟨rfl, by omega⟩
      · have hcl : st.closed = none := by cases last <;> exact h5.2.2.1
        have hka : st.caller = .joining (t + d) := by cases last <;> exact h5.2.2.2
        refine ⟨h1, h2, ?_, ?_, ?_⟩
        · intro s hs
          rcases List.mem_append.1 hs with hs | hs
          · exact h3 s hs
          · obtain ⟨i, -, rfl⟩ := List.mem_map.1 hs
            simp [hcl]
        · simp only [List.length_append, List.length_map, List.length_nil, Nat.add_zero]; exact h4
        · cases last
          · exact ⟨by show st.now ≤ _; simp only at h5; omega, Nat.le_add_right _ _, hcl, hka⟩
          · refine ⟨by show st.now ≤ _; simp only at h5; omega, Nat.le_add_right _ _, ?_, hcl, hka⟩
            simp only [List.length_append, List.length_map]; exact h4
    | _ => exact ⟨h1, h2, h3, h4, by simpa only [hp] using h5⟩
  | exported =>
    simp only [step]
    cases hp : st.pc with
    | exporting since last =>
      simp only [hp] at h5
      refine ⟨h1, h2, h3, h4, ?_⟩
      cases last
      · exact ⟨by show st.now ≤ _; simp only at h5; omega, h5.2.2.1, h5.2.2.2⟩
      · simp only at h5
        obtain ⟨g1, g2, g3, g4, g5⟩ := h5
        refine ⟨g3, ?_⟩
        show (match st.caller with
              | .idle => False
              | .joining till => till = t + d ∧ st.now ≤ t + 2 * Spec.cycle c
              | .closing _ => st.now ≤ t + 2 * Spec.cycle c
              | .returned r => r ≤ t + 2 * Spec.cycle c)
        rw [g5]
        exact ⟨rfl, by omega⟩
    | _ => exact ⟨h1, h2, h3, h4, by simpa only [hp] using h5⟩
  | shutdown e =>
    simp only [step, h1]
    exact ⟨h1, h2, h3, h4, h5⟩
  | joined =>
    simp only [step]
    cases hk : st.caller with
    | joining till =>
      simp only
      split_ifs with hj
      · have ho : st.pc = .over := by
          rcases hj with hj | hj
          · exact hj
          · exfalso
            cases hp : st.pc with
            | waiting w => simp only [hp, hk, Caller.joining.injEq] at h5; omega
            | collecting since last => cases last <;> simp only [hp, hk, Caller.joining.injEq] at h5 <;> omega
            | exporting since last => cases last <;> simp only [hp, hk, Caller.joining.injEq] at h5 <;> omega
            | over => simp only [hp, hk] at h5; omega
        simp only [ho, hk] at h5
        refine ⟨h1, h2, h3, h4, ?_⟩
        simp only [ho]
        exact ⟨h5.1, h5.2.2⟩
      · exact ⟨h1, h2, h3, h4, h5⟩
    | _ => exact ⟨h1, h2, h3, h4, h5⟩
  | done =>
    simp only [step]
    cases hk : st.caller with
    | closing till =>
      simp only
      split_ifs with hj
      · refine ⟨h1, h2, h3, h4, ?_⟩
        cases hp : st.pc with
        | waiting w => simp [hp, hk] at h5
        | collecting since last => cases last <;> simp [hp, hk] at h5
        | exporting since last => cases last <;> simp [hp, hk] at h5
        | over => simp only [hp, hk] at h5 ⊢; exact h5
      · exact ⟨h1, h2, h3, h4, h5⟩
    | _ => exact ⟨h1, h2, h3, h4, h5⟩

/-- If `shutdown` is given more time than two collections with their exports may take, and the callbacks never take as long as the timeouts, then when it returns every measurement made before
the call has been passed to the exporter, none was after the exporter was shut down, and it returned within that time. -/
theorem C120_complete (c : Cfg) (hc : Spec.InTime c) (pre post : List (Act σ)) (d r : Nat) (hd : 2 * Spec.cycle c < d) (h1 : (run c pre).asked = none)
    (hr : (run c (pre ++ .shutdown d :: post)).caller = .returned r) :
    Spec.made c pre <+: (run c (pre ++ .shutdown d :: post)).sent.map (·.item) ∧ (∀ s ∈ (run c (pre ++ .shutdown d :: post)).sent, s.closed = false) ∧
      r ≤ (run c pre).now + 2 * Spec.cycle c := by
  have hkept := C120_kept c (pre ++ .shutdown d :: post)
  have hpre := C120_kept c pre
  have hmade : Spec.made c pre <+: Spec.made c (pre ++ .shutdown d :: post) := by
    have : ∀ l : List (Act σ), Spec.made c pre <+: Spec.made c (pre ++ l) := by
      intro l
      induction l using List.reverseRecOn with
      | nil => rw [List.append_nil]; exact List.prefix_refl _
      | append_singleton l a ih => rw [← List.append_assoc, made_snoc]; exact ih.trans (List.prefix_append _ _)
    exact this _
  have hE : Ends c (run c pre).now d (Spec.made c pre).length (run c (pre ++ .shutdown d :: post)) := by
    rw [run_append]
    refine inv_from (P := Ends c (run c pre).now d (Spec.made c pre).length) c _ ?_ (ends_step c hc _ d _ hd) post
    have hA : Age c (run c pre) := inv_run c ⟨fun s hs => (by cases hs), fun _ => Nat.zero_le _, by simp [init], fun i hi => by cases hi⟩ (age_step c hc) pre
    have hW := waits_run c pre
    have hO := open_run c pre
    rw [← hpre]
    generalize run c pre = st at *
    simp only [Waits, h1] at hW
    simp only [step, h1, if_true]
    obtain ⟨-, hA⟩ := hA
    refine ⟨rfl, rfl, hO hW.2.2, by simp, ?_⟩
    have hcy : Spec.cycle c = c.slow + c.send := rfl
    cases hp : st.pc with
    | waiting till => exact ⟨Nat.le_add_right _ _, hW.2.2, rfl⟩
    | collecting since last =>
      simp only [hp] at hA
      cases last
      · exact ⟨hA.1, hA.2.1, hW.2.2, rfl⟩
      · have := hA.2.2.2 rfl; rw [hW.2.1] at this; cases this
    | exporting since last =>
      simp only [hp] at hA
      cases last
      · exact ⟨by omega, hA.2.1, hW.2.2, rfl⟩
      · have := hA.2.2.2 rfl; rw [hW.2.1] at this; cases this
    | over => simp only [hp, hW.2.1] at hA; cases hA
  generalize run c (pre ++ .shutdown d :: post) = st at hE hkept hr
  obtain ⟨-, -, e3, -, e5⟩ := hE
  cases hp : st.pc with
  | waiting w => simp [hp, hr] at e5
  | collecting since last => cases last <;> simp [hp, hr] at e5
  | exporting since last => cases last <;> simp [hp, hr] at e5
  | over =>
    simp only [hp, hr] at e5
    refine ⟨?_, e3, e5.2⟩
    refine List.prefix_of_prefix_length_le hmade ?_ ?_
    · rw [← hkept]; exact List.prefix_append _ _
    · rw [List.length_map]; exact e5.1

/-- When `shutdown` returns: not while an export is running, unless the exporter has waited as long as it does; and with no export running nothing keeps it. -/
theorem C120_released (c : Cfg) (acts : List (Act σ)) :
    (∀ r k, (run c acts).caller = .returned r → (run c acts).closed = some k →
      r = k + c.patience ∨ ∃ pre post, acts = pre ++ .done :: post ∧ (run c pre).now = r ∧ ∀ since last, (run c pre).pc ≠ .exporting since last) ∧
    (∀ till, (run c acts).caller = .closing till → (∀ since last, (run c acts).pc ≠ .exporting since last) →
      (run c (acts ++ [.done])).caller = .returned (run c acts).now) := by
  constructor
  · induction acts using List.reverseRecOn with
    | nil => intro r k h; cases h
    | append_singleton l a ih =>
      intro r k
      have grow : ((run c l).caller = .returned r → (run c l).closed = some k →
          r = k + c.patience ∨ ∃ pre post, l ++ [a] = pre ++ .done :: post ∧ (run c pre).now = r ∧ ∀ since last, (run c pre).pc ≠ .exporting since last) := by
        intro h1 h2
        rcases ih r k h1 h2 with h | ⟨pre, post, h, hr⟩
        · exact .inl h
        · exact .inr ⟨pre, post ++ [a], by rw [h]; simp, hr⟩
      rw [run_snoc]
      have hW := waits_run c l
      cases a with
      | tick d => simp only [step]; split_ifs <;> exact grow
      | record x => exact grow
      | wake => simp only [step]; split <;> (try split_ifs) <;> exact grow
      | collected more =>
        simp only [step]
        split
        · split_ifs <;> exact grow
        · exact grow
      | exported => simp only [step]; split <;> exact grow
      | shutdown t =>
        simp only [step]
        split_ifs
        · intro h; cases h
        · exact grow
      | joined =>
        simp only [step]
        split
        · split_ifs
          · intro h; cases h
          · exact grow
        · exact grow
      | done =>
        simp only [step]
        split
        · rename_i till hcl
          split_ifs with hb
          · intro h hk
            simp only [Caller.returned.injEq] at h
            cases hbusy : (run c l).pc.busy with
            | false =>
              refine .inr ⟨l, [], rfl, h, ?_⟩
              intro since last hp
              rw [hp] at hbusy
              cases hbusy
            | true =>
              left
              rw [hbusy] at hb
              have hle : till ≤ (run c l).now := by simpa using hb
              unfold Waits at hW
              cases ha : (run c l).asked with
              | none => simp only [ha, hcl] at hW; cases hW.1
              | some p =>
                simp only [ha, hcl] at hW
                obtain ⟨-, -, k', hk', -, -, h3, -, h4⟩ := hW
                simp only [hk', Option.some.injEq] at hk
                omega
          · exact grow
        · exact grow
  · intro till hcl hp
    rw [run_snoc]
    simp only [step, hcl]
    rw [if_pos]
    left
    cases hpc : (run c acts).pc with
    | exporting since last => exact absurd hpc (hp since last)
    | _ => rfl

/-! ## What does not hold -/

/-- `shutdown` does not keep to its timeout with the gRPC exporter: given 1 s while an export of 40 s is under way, it returns after 31 s. -/
theorem C120_overrun_violated : ∃ (c : Cfg) (acts : List (Act Nat)) (t d r : Nat), Spec.InTime c ∧ (run c acts).asked = some (t, d) ∧ (run c acts).caller = .returned r ∧ t + d + 30 * sec ≤ r := by
  refine ⟨⟨60 * sec, 30 * sec, false, 0, 40 * sec, 30 * sec⟩,
    [.record 7, .tick (60 * sec), .wake, .collected false, .shutdown (1 * sec), .tick (1 * sec), .joined, .tick (30 * sec), .done],
    60 * sec, 1 * sec, 91 * sec, fun h => (by cases h), ?_, ?_, ?_⟩ <;> decide +kernel

/-- The last collection is given the interval instead of the export timeout: with an interval of 1 s, a timeout of 30 s and callbacks that take 2 s every collection of the loop is good, but
the one in `shutdown` fails, and what was measured since the last one is never exported. -/
theorem C120_last_violated : ∃ (c : Cfg) (acts : List (Act Nat)) (r : Nat), c.slow < c.timeout ∧ 2 * Spec.cycle c < 30 * sec ∧ (run c acts).caller = .returned r ∧
    (run c acts).asked = some (3 * sec, 30 * sec) ∧ (run c acts).sent.map (·.item) = [⟨7, 0⟩] ∧ (run c acts).pc = .over ∧ (run c acts).fresh = [⟨8, 3 * sec⟩] := by
  refine ⟨⟨1 * sec, 30 * sec, true, 2 * sec, 0, 0⟩,
    [.record 7, .tick (1 * sec), .wake, .tick (2 * sec), .collected false, .exported, .record 8, .shutdown (30 * sec), .wake, .tick (2 * sec), .collected false, .joined, .done],
    5 * sec, ?_, ?_, ?_, ?_, ?_, ?_, ?_⟩ <;> decide +kernel

/-- A `shutdown` with too little time cuts the last collection off: its measurements are passed to an exporter that has been shut down. -/
theorem C120_cut_violated : ∃ (c : Cfg) (acts : List (Act Nat)) (r : Nat), Spec.InTime c ∧ (run c acts).caller = .returned r ∧ (run c acts).sent = [⟨⟨7, 0⟩, 12 * sec, true⟩] := by
  refine ⟨⟨60 * sec, 30 * sec, true, 5 * sec, 5 * sec, 0⟩,
    [.record 7, .tick (10 * sec), .shutdown (1 * sec), .wake, .tick (1 * sec), .joined, .done, .tick (1 * sec), .collected false],
    11 * sec, ?_, ?_, ?_⟩
  · intro _; constructor <;> decide
  · decide +kernel
  · decide +kernel

/-- `k` periods in which the callbacks take as long as the export timeout. -/
def starving (c : Cfg) : Nat → List (Act σ)
  | 0 => []
  | k + 1 => [.tick c.interval, .wake, .tick c.slow, .collected false] ++ starving c k

theorem starve (c : Cfg) (hcb : c.callbacks = true) (hs : c.timeout ≤ c.slow) (k : Nat) (st : St σ) (hp : st.pc = .waiting (st.now + c.interval)) (he : st.event = false) (hk : st.caller = .idle) :
    (runFrom c st (starving c k)).fresh = st.fresh ∧ (runFrom c st (starving c k)).sent = st.sent ∧ st.now + k * (c.interval + c.slow) = (runFrom c st (starving c k)).now := by
  induction k generalizing st with
  | zero => exact ⟨rfl, rfl, by simp [starving, runFrom]⟩
  | succ k ih =>
    have hrun : runFrom c st (starving c (k + 1)) =
        runFrom c { st with now := st.now + c.interval + c.slow, pc := .waiting (st.now + c.interval + c.slow + c.interval), begun := (st.now + c.interval) :: st.begun } (starving c k) := by
      simp only [starving, runFrom, List.foldl_append, List.foldl_cons, List.foldl_nil]
      congr 1
      simp [step, hp, he, hk, tickerAllows, callerAllows, late, limit, hcb, hs, St.next]
    rw [hrun]
    obtain ⟨g1, g2, g3⟩ := ih { st with now := st.now + c.interval + c.slow, pc := .waiting (st.now + c.interval + c.slow + c.interval), begun := (st.now + c.interval) :: st.begun } rfl he hk
    refine ⟨g1, g2, ?_⟩
    rw [← g3, Nat.succ_mul]
    simp only
    omega

/-- If the callbacks take as long as the export timeout, nothing is ever exported, however long one waits. -/
theorem C120_starved_violated (c : Cfg) (hcb : c.callbacks = true) (hs : c.timeout ≤ c.slow) (hi : 0 < c.interval) (x : σ) (n : Nat) :
    ∃ acts : List (Act σ), (run c (.record x :: acts)).fresh = [⟨x, 0⟩] ∧ (run c (.record x :: acts)).sent = [] ∧ n ≤ (run c (.record x :: acts)).now := by
  obtain ⟨g1, g2, g3⟩ := starve c hcb hs n (run c [.record x]) (by simp [run, runFrom, step, init]) rfl rfl
  refine ⟨starving c n, g1, g2, ?_⟩
  have h0 : run c (.record x :: starving c n) = runFrom c (run c [.record x]) (starving c n) := rfl
  rw [h0, ← g3]
  have : n * 1 ≤ n * (c.interval + c.slow) := Nat.mul_le_mul_left _ (by omega)
  omega

/-! ## Several readers -/

theorem provider_le (total p : Nat) (readers : List (Nat → Nat)) (hp : ∀ r ∈ readers, ∀ d, r d ≤ d + p) (now : Nat) :
    (provider total now readers).1 ≤ max now (total + p) := by
  induction readers generalizing now with
  | nil => exact Nat.le_max_left _ _
  | cons r rs ih =>
    have hrs := ih (fun r' h' => hp r' (List.mem_cons_of_mem _ h'))
    simp only [provider]
    split_ifs with h
    · exact hrs now
    · have h1 := hrs (now + r (total - now))
      have h2 := hp r List.mem_cons_self (total - now)
      simp only
      omega

theorem provider_books (total : Nat) (readers : List (Nat → Nat)) (now : Nat) :
    (provider total now readers).1 = now + Spec.spent readers (provider total now readers).2 ∧
    ∀ i d, (provider total now readers).2[i]? = some (some d) → d + (now + Spec.spent (readers.take i) ((provider total now readers).2.take i)) = total := by
  induction readers generalizing now with
  | nil => exact ⟨rfl, fun i d h => by simp [provider] at h⟩
  | cons r rs ih =>
    simp only [provider]
    split_ifs with h
    · obtain ⟨g1, g2⟩ := ih now
      refine ⟨by simp only [Spec.spent] at g1 ⊢; simpa using g1, fun i d hi => ?_⟩
      cases i with
      | zero => simp at hi
      | succ i =>
        have := g2 i d (by simpa using hi)
        simp only [Spec.spent] at this ⊢
        simpa using this
    · obtain ⟨g1, g2⟩ := ih (now + r (total - now))
      refine ⟨by simp only [Spec.spent] at g1 ⊢; simp only [List.zip_cons_cons, List.map_cons, List.sum_cons, Option.elim_some]; omega, fun i d hi => ?_⟩
      cases i with
      | zero =>
        simp only [List.getElem?_cons_zero, Option.some.injEq] at hi
        simp only [Spec.spent, List.take_zero, List.zip_nil_left, List.map_nil, List.sum_nil]
        omega
      | succ i =>
        have := g2 i d (by simpa using hi)
        simp only [Spec.spent] at this ⊢
        simp only [List.take_succ_cons, List.zip_cons_cons, List.map_cons, List.sum_cons, Option.elim_some]
        omega

/-- `MeterProvider.shutdown` with readers whose own `shutdown` exceeds the time it is given by at most `p` takes at most its timeout and `p`, however many readers there are; it takes what the readers take; a reader that is
told gets what those before it have left; and one that is not comes after readers that used up all of it. -/
theorem C120_provider (total p : Nat) (readers : List (Nat → Nat)) (hp : ∀ r ∈ readers, ∀ d, r d ≤ d + p) :
    (provider total 0 readers).1 ≤ total + p ∧ (provider total 0 readers).2.length = readers.length ∧
    (provider total 0 readers).1 = Spec.spent readers (provider total 0 readers).2 ∧
    (∀ i d, (provider total 0 readers).2[i]? = some (some d) → 0 < d ∧ d + Spec.spent (readers.take i) ((provider total 0 readers).2.take i) = total) ∧
    (none ∈ (provider total 0 readers).2 → total ≤ (provider total 0 readers).1) := by
  refine ⟨by have := provider_le total p readers hp 0; omega, ?_, ?_, ?_, ?_⟩
  · have : ∀ now, (provider total now readers).2.length = readers.length := by
      intro now
      clear hp
      induction readers generalizing now with
      | nil => rfl
      | cons r rs ih => simp only [provider]; split_ifs <;> simp [ih]
    exact this 0
  · have := (provider_books total readers 0).1; omega
  · have hpos : ∀ now d, some d ∈ (provider total now readers).2 → 0 < d := by
      intro now d
      clear hp
      induction readers generalizing now with
      | nil => simp [provider]
      | cons r rs ih =>
        simp only [provider]
        split_ifs with h
        · simp only [List.mem_cons, reduceCtorEq, false_or]; exact ih now
        · simp only [List.mem_cons, Option.some.injEq]
          rintro (rfl | h')
          · omega
          · exact ih _ h'
    intro i d hi
    have := (provider_books total readers 0).2 i d hi
    exact ⟨hpos 0 d (List.mem_of_getElem? hi), by omega⟩
  · have hm : ∀ (rs : List (Nat → Nat)) (now : Nat), now ≤ (provider total now rs).1 := by
      intro rs
      induction rs with
      | nil => intro now; exact Nat.le_refl _
      | cons r rs ih =>
        intro now
        simp only [provider]
        split_ifs
        · exact ih now
        · exact Nat.le_trans (Nat.le_add_right _ _) (ih _)
    have : ∀ now, none ∈ (provider total now readers).2 → total ≤ (provider total now readers).1 := by
      intro now
      clear hp
      induction readers generalizing now with
      | nil => simp [provider]
      | cons r rs ih =>
        simp only [provider]
        split_ifs with h
        · intro _; exact Nat.le_trans h (hm rs now)
        · simp only [List.mem_cons, reduceCtorEq, false_or]; exact ih _
    exact this 0

/-- A reader that uses up the time keeps `MeterProvider.shutdown` from telling the readers after it: they go on exporting, and a second call is refused (`C51_shutdown_once`). -/
theorem C120_untold_violated (total : Nat) (ht : 0 < total) (r : Nat → Nat) (hr : total ≤ r total) (readers : List (Nat → Nat)) :
    (provider total 0 (r :: readers)).2 = some total :: readers.map fun _ => none := by
  have : ∀ (rs : List (Nat → Nat)) (now : Nat), total ≤ now → (provider total now rs).2 = rs.map fun _ => none := by
    intro rs
    induction rs with
    | nil => intro _ _; rfl
    | cons r rs ih => intro now h; simp only [provider, if_pos h, List.map_cons]; rw [ih now h]
  simp only [provider, if_neg (Nat.not_le.2 ht), Nat.sub_zero, Nat.zero_add]
  rw [this _ _ hr]

/-! ## Examples -/

/-- A run with two collections and a `shutdown` that meets the hypotheses of the theorems. -/
example : ∃ (c : Cfg) (pre post : List (Act Nat)) (d r : Nat), Spec.InTime c ∧ 2 * Spec.cycle c < d ∧ (run c pre).asked = none ∧
    (run c (pre ++ .shutdown d :: post)).caller = .returned r ∧ (run c (pre ++ .shutdown d :: post)).begun = [123 * sec, 60 * sec] ∧
    (run c (pre ++ .shutdown d :: post)).sent.map (·.item.value) = [7, 8, 9] := by
  refine ⟨⟨60 * sec, 30 * sec, true, 2 * sec, 3 * sec, 30 * sec⟩,
    [.record 7, .tick (60 * sec), .wake, .tick (1 * sec), .collected false, .tick (2 * sec), .exported, .record 8, .tick (60 * sec), .wake, .tick (1 * sec), .collected false, .record 9],
    [.tick (2 * sec), .exported, .wake, .tick (1 * sec), .collected false, .tick (1 * sec), .exported, .joined, .done], 20 * sec, 128 * sec, ?_, ?_, ?_, ?_, ?_, ?_⟩
  · intro _; constructor <;> decide
  all_goals decide +kernel

/-- Three readers of which the second overruns. -/
example : provider 30 0 [fun _ => 10, fun d => d + 5, fun _ => 1] = (35, [some 30, some 20, none]) := by decide

end Periods
end Otel
