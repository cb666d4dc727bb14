import Verif.Spec.Isolation
import Verif.Props.ExpHist
import Verif.Props.ExpHistFail
import Mathlib.Data.List.Induction
import Mathlib.Tactic.Ring
/-!
# C123: what the failure of one stream does to the others
-/
namespace Otel
namespace Isolation
open Metrics
open scoped List

variable {cfg : Nat → Conf} {idx : Int → Int → Int} {n : Nat}

/-! ## One stream among the others -/

/-- What a stream becomes. -/
def after (c : Conf) (idx : Int → Int → Int) (a : Option Agg) (l : List Spec.Own) : Option Agg := l.foldl (Spec.aloneStep c idx) a

theorem after_append (c : Conf) (a : Option Agg) (l l' : List Spec.Own) : after c idx a (l ++ l') = after c idx (after c idx a l) l' := by
  unfold after; rw [List.foldl_append]

theorem alone_append (c : Conf) (l l' : List Spec.Own) : Spec.alone c idx (l ++ l') = after c idx (Spec.alone c idx l) l' := after_append c none l l'

theorem mine_append (p : Nat) (l l' : List Meas) : Spec.mine p (l ++ l') = Spec.mine p l ++ Spec.mine p l' := by
  induction l with
  | nil => rfl
  | cons m l ih =>
    simp only [List.cons_append, Spec.mine, ih]
    split <;> rfl

theorem put_spec {st st' : Streams} {m : Meas} (h : put cfg idx st m = some st') (q : Nat) : st' q = after (cfg q) idx (st q) (Spec.mine q [m]) := by
  unfold put at h
  cases hp : m.pos with
  | none => rw [hp] at h; cases h
  | some p =>
    rw [hp] at h
    simp only at h
    cases ha : getOrCreate (cfg p) (st p) m.now with
    | none => rw [ha] at h; cases h
    | some a =>
      rw [ha] at h
      simp only at h
      cases hb : a.aggregate idx m.v with
      | none => rw [hb] at h; cases h
      | some b =>
        rw [hb] at h
        simp only [Option.map_some, Option.some.injEq] at h
        subst h
        by_cases hq : q = p
        · subst hq
          simp only [Spec.mine, hp, if_true, after, List.foldl, Spec.aloneStep, ha, upd]
          exact hb.symm
        · have : m.pos ≠ some q := by rw [hp]; intro h; cases h; exact hq rfl
          simp only [Spec.mine, hp, after, upd, if_neg hq]
          rw [if_neg (by intro h; cases h; exact hq rfl)]
          rfl

theorem observe_ok (ms : List Meas) : ∀ (i : Nat) (st st' : Streams), observe cfg idx i ms st = (none, st') → ∀ q, st' q = after (cfg q) idx (st q) (Spec.mine q ms) := by
  induction ms with
  | nil => intro i st st' h q; simp only [observe, Prod.mk.injEq] at h; rw [← h.2]; rfl
  | cons m ms ih =>
    intro i st st' h q
    unfold observe at h
    cases hp : put cfg idx st m with
    | none => rw [hp] at h; simp at h
    | some st1 =>
      rw [hp] at h
      rw [ih _ _ _ h q, put_spec hp q, ← after_append, ← mine_append]
      rfl

theorem observe_failed (ms : List Meas) : ∀ (i k : Nat) (st st' : Streams), observe cfg idx i ms st = (some k, st') →
    i ≤ k ∧ k < i + ms.length ∧ ∀ q, st' q = after (cfg q) idx (st q) (Spec.mine q (ms.take (k - i))) := by
  induction ms with
  | nil => intro i k st st' h; simp [observe] at h
  | cons m ms ih =>
    intro i k st st' h
    unfold observe at h
    cases hp : put cfg idx st m with
    | none =>
      rw [hp] at h
      simp only [Prod.mk.injEq, Option.some.injEq] at h
      obtain ⟨rfl, rfl⟩ := h
      refine ⟨Nat.le_refl _, by simp, fun q => ?_⟩
      rw [Nat.sub_self]; rfl
    | some st1 =>
      rw [hp] at h
      obtain ⟨h1, h2, h3⟩ := ih _ _ _ _ h
      refine ⟨by omega, by simp only [List.length_cons]; omega, fun q => ?_⟩
      rw [h3 q, put_spec hp q, ← after_append, ← mine_append]
      rw [show k - i = (k - (i + 1)) + 1 by omega]
      rfl

/-- The answer of a stream, if it exists. -/
def reply (c : Conf) (a : Option Agg) (now : Int) : Exp.Outcome Point :=
  match a with
  | none => .returned none
  | some a => (a.collect c.temp now).1

theorem answer_eq (c : Conf) (l : List Spec.Own) (now : Int) : Spec.answer c idx l now = reply c (Spec.alone c idx l) now := by
  unfold Spec.answer reply; rfl

theorem dataOf_append (p : Nat) (d d' : List (Nat × Point)) : Spec.dataOf p (d ++ d') = Spec.dataOf p d ++ Spec.dataOf p d' := by
  simp [Spec.dataOf]

theorem visit_ok (now : Int) (m : Nat) : ∀ (a : Nat) (st st' : Streams) (acc d : List (Nat × Point)), visit cfg now (List.range' a m) st acc = (.ok d, st') →
    ∀ q, if a ≤ q ∧ q < a + m then st' q = after (cfg q) idx (st q) [.coll now] ∧ reply (cfg q) (st q) now ≠ .raised ∧
        Spec.dataOf q d = Spec.dataOf q acc ++ Spec.points (reply (cfg q) (st q) now)
      else st' q = st q ∧ Spec.dataOf q d = Spec.dataOf q acc := by
  induction m with
  | zero =>
    intro a st st' acc d h q
    simp only [List.range'_zero, visit, Prod.mk.injEq, Res.ok.injEq] at h
    rw [if_neg (by omega)]
    exact ⟨by rw [h.2], by rw [h.1]⟩
  | succ m ih =>
    intro a st st' acc d h q
    rw [List.range'_succ] at h
    unfold visit at h
    cases ha : st a with
    | none =>
      rw [ha] at h
      have := ih (a + 1) st st' acc d h q
      by_cases hq : q = a
      · subst hq
        rw [if_neg (by omega)] at this
        rw [if_pos (by omega), this.1, this.2, ha]
        exact ⟨rfl, by simp [reply], by simp [reply, Spec.points]⟩
      · by_cases hr : a ≤ q ∧ q < a + (m + 1)
        · rw [if_pos (by omega)] at this
          rw [if_pos hr]; exact this
        · rw [if_neg (by omega)] at this
          rw [if_neg hr]; exact this
    | some x =>
      rw [ha] at h
      simp only at h
      have hu : ∀ y : Agg, ∀ r, r ≠ a → upd st a y r = st r := fun y r hr => by unfold upd; rw [if_neg hr]
      have hs : ∀ y : Agg, upd st a y a = some y := fun y => by unfold upd; rw [if_pos rfl]
      cases hc : x.collect (cfg a).temp now with
      | mk o x' =>
        rw [hc] at h
        cases o with
        | raised => simp at h
        | returned o =>
          have key : ∀ acc', visit cfg now (List.range' (a + 1) m) (upd st a x') acc' = (.ok d, st') → acc' = acc ++ (Spec.points (.returned o)).map (fun y => (a, y)) →
              if a ≤ q ∧ q < a + (m + 1) then st' q = after (cfg q) idx (st q) [.coll now] ∧ reply (cfg q) (st q) now ≠ .raised ∧
                Spec.dataOf q d = Spec.dataOf q acc ++ Spec.points (reply (cfg q) (st q) now)
              else st' q = st q ∧ Spec.dataOf q d = Spec.dataOf q acc := by
            intro acc' h hacc
            have := ih (a + 1) _ st' acc' d h q
            by_cases hq : q = a
            · subst hq
              rw [if_neg (by omega)] at this
              rw [if_pos (by omega), this.1, this.2, hacc, hs, ha]
              refine ⟨?_, ?_, ?_⟩
              · simp only [after, List.foldl, Spec.aloneStep, Option.map_some, hc]
              · simp only [reply, hc]; intro hh; cases hh
              · simp only [reply, hc, dataOf_append]
                congr 1
                cases o <;> simp [Spec.points, Spec.dataOf]
            · have hd : Spec.dataOf q acc' = Spec.dataOf q acc := by
                rw [hacc, dataOf_append]
                cases o with
                | none => simp [Spec.points, Spec.dataOf]
                | some y => simp [Spec.points, Spec.dataOf, Ne.symm hq]
              rw [hu _ q hq, hd] at this
              by_cases hr : a ≤ q ∧ q < a + (m + 1)
              · rw [if_pos (by omega)] at this
                rw [if_pos hr]; exact this
              · rw [if_neg (by omega)] at this
                rw [if_neg hr]; exact this
          cases o with
          | none => exact key acc h (by simp [Spec.points])
          | some y => exact key _ h (by simp [Spec.points])

theorem visit_failed (now : Int) (m : Nat) : ∀ (a : Nat) (st st' : Streams) (acc : List (Nat × Point)) (w : Where), visit cfg now (List.range' a m) st acc = (.failed w, st') →
    ∃ k, w = .stream k ∧ a ≤ k ∧ k < a + m ∧ reply (cfg k) (st k) now = .raised ∧
      ∀ q, a ≤ q → (q ≤ k → st' q = after (cfg q) idx (st q) [.coll now]) ∧ (k < q → st' q = st q) ∧ (q < k → reply (cfg q) (st q) now ≠ .raised) := by
  induction m with
  | zero => intro a st st' acc w h; simp [visit] at h
  | succ m ih =>
    intro a st st' acc w h
    rw [List.range'_succ] at h
    unfold visit at h
    cases ha : st a with
    | none =>
      rw [ha] at h
      obtain ⟨k, h1, h2, h3, h4, h5⟩ := ih (a + 1) st st' acc w h
      refine ⟨k, h1, by omega, by omega, h4, fun q hq => ?_⟩
      by_cases hqa : q = a
      · subst hqa
        refine ⟨fun _ => ?_, fun hh => by omega, fun _ => by simp [ha, reply]⟩
        rw [ha]
        have : st' q = st q := by
          have aux : ∀ (m b : Nat) (st st' : Streams) (acc : List (Nat × Point)) (r : Res), q < b → visit cfg now (List.range' b m) st acc = (r, st') → st' q = st q := by
            clear h1 h2 h3 h4 h5 ih h ha
            intro m
            induction m with
            | zero => intro b st st' acc r _ h; simp only [List.range'_zero, visit, Prod.mk.injEq] at h; rw [h.2]
            | succ m ih =>
              intro b st st' acc r hb h
              rw [List.range'_succ] at h
              unfold visit at h
              have hu : ∀ y : Agg, upd st b y q = st q := fun y => by unfold upd; rw [if_neg (by omega)]
              split at h
              · exact ih (b + 1) _ _ _ _ (by omega) h
              · split at h
                · simp only [Prod.mk.injEq] at h; rw [← h.2, hu]
                · rw [ih (b + 1) _ _ _ _ (by omega) h, hu]
                · rw [ih (b + 1) _ _ _ _ (by omega) h, hu]
          exact aux m (q + 1) st st' acc _ (by omega) h
        rw [this, ha]; rfl
      · exact h5 q (by omega)
    | some x =>
      rw [ha] at h
      simp only at h
      have hu : ∀ y : Agg, ∀ r, r ≠ a → upd st a y r = st r := fun y r hr => by unfold upd; rw [if_neg hr]
      have hs : ∀ y : Agg, upd st a y a = some y := fun y => by unfold upd; rw [if_pos rfl]
      cases hc : x.collect (cfg a).temp now with
      | mk o x' =>
        rw [hc] at h
        cases o with
        | raised =>
          simp only [Prod.mk.injEq, Res.failed.injEq] at h
          refine ⟨a, h.1.symm, Nat.le_refl _, by omega, by simp [reply, ha, hc], fun q hq => ⟨fun hq' => ?_, fun hq' => ?_, fun hq' => by omega⟩⟩
          · have : q = a := by omega
            subst this
            rw [← h.2, hs, ha]
            simp only [after, List.foldl, Spec.aloneStep, Option.map_some, hc]
          · rw [← h.2, hu _ q (by omega)]
        | returned o =>
          have key : ∀ acc', visit cfg now (List.range' (a + 1) m) (upd st a x') acc' = (.failed w, st') →
              ∃ k, w = .stream k ∧ a ≤ k ∧ k < a + (m + 1) ∧ reply (cfg k) (st k) now = .raised ∧
                ∀ q, a ≤ q → (q ≤ k → st' q = after (cfg q) idx (st q) [.coll now]) ∧ (k < q → st' q = st q) ∧ (q < k → reply (cfg q) (st q) now ≠ .raised) := by
            intro acc' h
            obtain ⟨k, h1, h2, h3, h4, h5⟩ := ih (a + 1) _ st' acc' w h
            rw [hu _ k (by omega)] at h4
            refine ⟨k, h1, by omega, by omega, h4, fun q hq => ?_⟩
            by_cases hqa : q = a
            · subst hqa
              refine ⟨fun _ => ?_, fun hh => by omega, fun _ => by simp [ha, reply, hc]⟩
              have aux : ∀ (m b : Nat) (st st' : Streams) (acc : List (Nat × Point)) (r : Res), q < b → visit cfg now (List.range' b m) st acc = (r, st') → st' q = st q := by
                clear h1 h2 h3 h4 h5 ih h ha
                intro m
                induction m with
                | zero => intro b st st' acc r _ h; simp only [List.range'_zero, visit, Prod.mk.injEq] at h; rw [h.2]
                | succ m ih =>
                  intro b st st' acc r hb h
                  rw [List.range'_succ] at h
                  unfold visit at h
                  have hu : ∀ y : Agg, upd st b y q = st q := fun y => by unfold upd; rw [if_neg (by omega)]
                  split at h
                  · exact ih (b + 1) _ _ _ _ (by omega) h
                  · split at h
                    · simp only [Prod.mk.injEq] at h; rw [← h.2, hu]
                    · rw [ih (b + 1) _ _ _ _ (by omega) h, hu]
                    · rw [ih (b + 1) _ _ _ _ (by omega) h, hu]
              rw [aux m (q + 1) _ _ _ _ (by omega) h, hs, ha]
              simp only [after, List.foldl, Spec.aloneStep, Option.map_some, hc]
            · have := h5 q (by omega)
              rw [hu _ q hqa] at this
              exact this
          cases o with
          | none => exact key acc h
          | some y => exact key _ h

theorem own_snoc (p : Nat) (l : List Ev) (e : Ev) : Spec.own p (l ++ [e]) = Spec.own p l ++ Spec.ownEv p e := by
  simp [Spec.own, List.flatMap_append]

theorem collect_fits {p : Nat} (hp : p < n) {st : Streams} {l : List Ev} (h : st p = Spec.alone (cfg p) idx (Spec.own p l)) (who : Who) (now : Int) (obs : List Meas) :
    (collect cfg idx n now obs st).2 p = Spec.alone (cfg p) idx (Spec.own p (l ++ [.pass who now obs (collect cfg idx n now obs st).1])) ∧
      Spec.Fits cfg idx p l (.pass who now obs (collect cfg idx n now obs st).1) := by
  rw [own_snoc]
  unfold collect
  cases ho : observe cfg idx 0 obs st with
  | mk r st1 =>
    cases r with
    | some i =>
      obtain ⟨-, h2, h3⟩ := observe_failed obs 0 i st st1 ho
      simp only
      refine ⟨?_, by simpa [Spec.Fits] using h2⟩
      rw [h3 p, alone_append, h]; rfl
    | none =>
      have h3 := observe_ok obs 0 st st1 ho
      have e1 : st1 p = Spec.alone (cfg p) idx (Spec.own p l ++ Spec.mine p obs) := by rw [h3 p, alone_append, h]
      simp only
      rw [List.range_eq_range']
      cases hv : visit cfg now (List.range' 0 n) st1 [] with
      | mk r st2 =>
        cases r with
        | ok d =>
          have := visit_ok (idx := idx) now n 0 st1 st2 [] d hv p
          rw [if_pos (by omega)] at this
          obtain ⟨g1, g2, g3⟩ := this
          refine ⟨?_, ?_, ?_⟩
          · simp only [Spec.ownEv]
            rw [← List.append_assoc, alone_append, ← e1]; exact g1
          · rw [answer_eq, ← e1]; exact g2
          · rw [answer_eq, ← e1]; exact g3
        | failed w =>
          obtain ⟨k, rfl, -, -, g1, g2⟩ := visit_failed (idx := idx) now n 0 st1 st2 [] w hv
          obtain ⟨g3, g4, g5⟩ := g2 p (by omega)
          refine ⟨?_, ?_, ?_⟩
          · simp only [Spec.ownEv]
            rw [← List.append_assoc, alone_append, ← e1]
            by_cases hk : p ≤ k
            · rw [if_pos hk]; exact g3 hk
            · rw [if_neg hk]; exact g4 (by omega)
          · rintro rfl
            rw [answer_eq, ← e1]; exact g1
          · intro hk
            rw [answer_eq, ← e1]; exact g5 hk

/-- The log grows by one event or not at all. -/
theorem step_cases (r : Reader) (c : Cmd) :
    (∃ m, c = .meas m ∧ ((put cfg idx r.streams m = none ∧ r.step cfg idx n c = { r with log := r.log ++ [.meas m false] }) ∨
      (∃ st, put cfg idx r.streams m = some st ∧ r.step cfg idx n c = { r with streams := st, log := r.log ++ [.meas m true] }))) ∨
    ((r.step cfg idx n c).streams = r.streams ∧ (r.step cfg idx n c).log = r.log ∧ (r.step cfg idx n c).exported = r.exported) ∨
    (∃ who now obs, (r.step cfg idx n c).streams = (collect cfg idx n now obs r.streams).2 ∧
      (r.step cfg idx n c).log = r.log ++ [.pass who now obs (collect cfg idx n now obs r.streams).1] ∧
      (c = .tick now obs ∨ c = .flush now obs ∨ c = .shutdown now obs)) := by
  have hpass : ∀ who now obs, (r.pass cfg idx n who now obs).2.streams = (collect cfg idx n now obs r.streams).2 ∧
      (r.pass cfg idx n who now obs).2.log = r.log ++ [.pass who now obs (collect cfg idx n now obs r.streams).1] := by
    intro who now obs
    unfold Reader.pass
    cases hc : (collect cfg idx n now obs r.streams).1 with
    | failed w => simp [hc]
    | ok d =>
      simp only [hc]
      split <;> exact ⟨rfl, rfl⟩
  cases c with
  | meas m =>
    left
    refine ⟨m, rfl, ?_⟩
    cases hp : put cfg idx r.streams m with
    | none => left; exact ⟨rfl, by simp only [Reader.step, hp]⟩
    | some st => right; exact ⟨st, rfl, by simp only [Reader.step, hp]⟩
  | tick now obs =>
    right
    unfold Reader.step
    simp only
    split_ifs with ha
    · right
      refine ⟨.loop, now, obs, ?_, ?_, Or.inl rfl⟩
      · split
        · rename_i h; rw [← (hpass .loop now obs).1, h]
        · rename_i h; rw [← (hpass .loop now obs).1, h]
      · split
        · rename_i h; rw [← (hpass .loop now obs).2, h]
        · rename_i h; rw [← (hpass .loop now obs).2, h]
    · left; exact ⟨rfl, rfl, rfl⟩
  | flush now obs =>
    right; right
    exact ⟨.flush, now, obs, (hpass _ _ _).1, (hpass _ _ _).2, Or.inr (Or.inl rfl)⟩
  | shutdown now obs =>
    right
    unfold Reader.step
    simp only
    split_ifs with hs ha
    · left; exact ⟨rfl, rfl, rfl⟩
    · right; exact ⟨.final, now, obs, (hpass _ _ _).1, (hpass _ _ _).2, Or.inr (Or.inr rfl)⟩
    · left; exact ⟨rfl, rfl, rfl⟩

theorem run_snoc (l : List Cmd) (c : Cmd) : run cfg idx n (l ++ [c]) = (run cfg idx n l).step cfg idx n c := by
  unfold run; rw [List.foldl_append]; rfl

/-- Every stream behaves as if it were alone, except that it misses the collections that failed before they got to it, and what it answers to a collection that fails later is not reported: this holds for
every program, every configuration of streams and every stream of the reader. -/
theorem C123_fate (p : Nat) (hp : p < n) (l : List Cmd) :
    (run cfg idx n l).streams p = Spec.alone (cfg p) idx (Spec.own p (run cfg idx n l).log) ∧
      ∀ l1 e l2, (run cfg idx n l).log = l1 ++ e :: l2 → Spec.Fits cfg idx p l1 e := by
  induction l using List.reverseRecOn with
  | nil => exact ⟨rfl, fun l1 e l2 h => by simp [run, Reader.new] at h⟩
  | append_singleton l c ih =>
    rw [run_snoc]
    obtain ⟨ih1, ih2⟩ := ih
    generalize run cfg idx n l = r at ih1 ih2
    have snoc : ∀ e, Spec.Fits cfg idx p r.log e → ∀ l1 e' l2, r.log ++ [e] = l1 ++ e' :: l2 → Spec.Fits cfg idx p l1 e' := by
      intro e he l1 e' l2 h
      rcases List.eq_nil_or_concat l2 with rfl | ⟨l3, x, rfl⟩
      · have := List.append_inj' (t₁ := [e]) (t₂ := [e']) h rfl
        rw [← this.1]
        have h2 := this.2
        simp only [List.cons.injEq, and_true] at h2
        rw [← h2]; exact he
      · refine ih2 l1 e' l3 ?_
        have h' : r.log ++ [e] = (l1 ++ e' :: l3) ++ [x] := by rw [h]; simp
        exact (List.append_inj' h' rfl).1
    rcases step_cases (cfg := cfg) (idx := idx) (n := n) r c with ⟨m, rfl, ⟨hp', e⟩ | ⟨st, hp', e⟩⟩ | ⟨e1, e2, -⟩ | ⟨who, now, obs, e1, e2, -⟩
    · rw [e]
      refine ⟨?_, snoc _ trivial⟩
      simp only
      rw [own_snoc, ih1]
      simp [Spec.ownEv]
    · rw [e]
      refine ⟨?_, snoc _ trivial⟩
      simp only
      rw [own_snoc, alone_append, ← ih1]
      exact put_spec hp' p
    · rw [e1, e2]; exact ⟨ih1, ih2⟩
    · rw [e1, e2]
      have := collect_fits (cfg := cfg) (idx := idx) (n := n) hp ih1 who now obs
      exact ⟨this.1, snoc _ this.2⟩

/-! ## A stream alone -/

theorem alone_machine {P : Type} (m : Machine Int P) (c : Conf) (f : m.S → Agg) (g : P → Point)
    (hagg : ∀ s v, (f s).aggregate idx v = some (f (m.aggregate s v))) (hcoll : ∀ s now, (f s).collect c.temp now = (.returned ((m.collect s now).1.map g), f (m.collect s now).2))
    (l : List Spec.Own) (s : m.S) (now : Int) :
    after c idx (some (f s)) l = some (f (m.run s (Spec.history l)).1) ∧
      ∃ x, (m.run s (Spec.history l ++ [.coll now])).2 = (m.run s (Spec.history l)).2 ++ [x] ∧ reply c (after c idx (some (f s)) l) now = .returned (x.map g) := by
  induction l generalizing s with
  | nil => exact ⟨rfl, (m.collect s now).1, rfl, by simp [after, reply, hcoll]⟩
  | cons o l ih =>
    cases o with
    | meas t v =>
      have : Spec.aloneStep c idx (some (f s)) (.meas t v) = some (f (m.aggregate s v)) := hagg s v
      have h := ih (m.aggregate s v)
      simp only [after, List.foldl, this] at h ⊢
      exact h
    | coll t =>
      have : Spec.aloneStep c idx (some (f s)) (.coll t) = some (f (m.collect s t).2) := by simp [Spec.aloneStep, hcoll]
      obtain ⟨h1, x, h2, h3⟩ := ih (m.collect s t).2
      simp only [after, List.foldl, this] at h1 h3 ⊢
      refine ⟨h1, x, ?_, h3⟩
      simp only [Spec.history, List.cons_append, Machine.run, h2]

/-- A stream alone is the aggregation of C29–C31 and C35–C37, made at its first measurement: what it answers to a collection is what that aggregation returns. -/
theorem C123_alone (c : Conf) (t v now : Int) (l : List Spec.Own) :
    (∀ inst, c.kind = .sum inst → ∃ x, (sumM inst c.temp t).out (.meas v :: Spec.history l ++ [.coll now]) = (sumM inst c.temp t).out (.meas v :: Spec.history l) ++ [x] ∧
      Spec.answer c idx (.meas t v :: l) now = .returned (x.map .num)) ∧
    (c.kind = .last → ∃ x, (lastM c.temp).out (.meas v :: Spec.history l ++ [.coll now]) = (lastM c.temp).out (.meas v :: Spec.history l) ++ [x] ∧
      Spec.answer c idx (.meas t v :: l) now = .returned (x.map .num)) ∧
    (∀ inst bounds, c.kind = .hist inst bounds → ∃ x, (histM inst c.temp t bounds true).out (.meas v :: Spec.history l ++ [.coll now]) =
        (histM inst c.temp t bounds true).out (.meas v :: Spec.history l) ++ [x] ∧ Spec.answer c idx (.meas t v :: l) now = .returned (x.map .hist)) ∧
    (∀ inst size scale s s' os, c.kind = .exp inst size scale → Exp.Agg.new inst t size scale = some s → Exp.run idx c.temp s (.meas v :: Spec.history l) = some (s', os) →
      Spec.answer c idx (.meas t v :: l) now = (match (s'.collect c.temp now).1 with | .raised => .raised | .returned p => .returned (p.map .exp))) := by
  refine ⟨fun inst hk => ?_, fun hk => ?_, fun inst bounds hk => ?_, fun inst size scale s s' os hk hs hr => ?_⟩
  · have h0 : Spec.aloneStep c idx none (.meas t v) = some (.sum ((SumAgg.new inst t).aggregate v)) := by simp only [Spec.aloneStep, getOrCreate, create, hk]; rfl
    obtain ⟨-, x, h1, h2⟩ := alone_machine (idx := idx) (sumM inst c.temp t) c .sum .num (fun _ _ => rfl) (fun _ _ => rfl) l ((SumAgg.new inst t).aggregate v) now
    refine ⟨x, h1, ?_⟩
    rw [answer_eq, ← h2, ← h0]; rfl
  · have h0 : Spec.aloneStep c idx none (.meas t v) = some (.last (LastAgg.aggregate ⟨none⟩ v)) := by simp only [Spec.aloneStep, getOrCreate, create, hk]; rfl
    obtain ⟨-, x, h1, h2⟩ := alone_machine (idx := idx) (lastM c.temp) c .last .num (fun _ _ => rfl) (fun _ _ => rfl) l (LastAgg.aggregate ⟨none⟩ v) now
    refine ⟨x, h1, ?_⟩
    rw [answer_eq, ← h2, ← h0]; rfl
  · have h0 : Spec.aloneStep c idx none (.meas t v) = some (.hist ((HistAgg.new inst t bounds true).aggregate v)) := by simp only [Spec.aloneStep, getOrCreate, create, hk]; rfl
    obtain ⟨-, x, h1, h2⟩ := alone_machine (idx := idx) (histM inst c.temp t bounds true) c .hist .hist (fun _ _ => rfl) (fun _ _ => rfl) l ((HistAgg.new inst t bounds true).aggregate v) now
    refine ⟨x, h1, ?_⟩
    rw [answer_eq, ← h2, ← h0]; rfl
  · have key : ∀ (l : List Spec.Own) (s : Exp.Agg Int) os, Exp.run idx c.temp s (Spec.history l) = some (s', os) → after c idx (some (.exp s)) l = some (.exp s') := by
      intro l
      induction l with
      | nil => intro s os h; simp only [Spec.history, Exp.run, Option.some.injEq, Prod.mk.injEq] at h; rw [h.1]; rfl
      | cons o l ih =>
        intro s os h
        cases o with
        | meas t v =>
          simp only [Spec.history, Exp.run] at h
          cases ha : s.aggregate idx v with
          | none => rw [ha] at h; cases h
          | some s1 =>
            rw [ha] at h
            have := ih s1 os h
            simp only [after, List.foldl, Spec.aloneStep, getOrCreate, Agg.aggregate, ha, Option.map_some] at this ⊢
            exact this
        | coll t =>
          simp only [Spec.history, Exp.run] at h
          cases hr : Exp.run idx c.temp (s.collect c.temp t).2 (Spec.history l) with
          | none => rw [hr] at h; cases h
          | some y =>
            rw [hr] at h
            simp only [Option.some.injEq, Prod.mk.injEq] at h
            have := ih (s.collect c.temp t).2 y.2 (by rw [hr, ← h.1])
            have e : Spec.aloneStep c idx (some (.exp s)) (.coll t) = some (.exp (s.collect c.temp t).2) := by
              simp only [Spec.aloneStep, Option.map_some, Agg.collect]
              cases hc : s.collect c.temp t with
              | mk o s2 => cases o <;> rfl
            simp only [after, List.foldl, e] at this ⊢
            exact this
    simp only [Exp.run] at hr
    cases ha : s.aggregate idx v with
    | none => rw [ha] at hr; cases hr
    | some s1 =>
      rw [ha] at hr
      have h0 : Spec.aloneStep c idx none (.meas t v) = some (.exp s1) := by simp only [Spec.aloneStep, getOrCreate, create, hk, hs, Option.map_some, Agg.aggregate, ha]
      have h1 : Spec.alone c idx (.meas t v :: l) = some (.exp s') := by
        have := key l s1 os hr
        rw [← h0] at this; exact this
      rw [answer_eq, h1]
      simp only [reply, Agg.collect]
      cases hc : s'.collect c.temp now with
      | mk o s2 => cases o <;> rfl

/-! ## Counters -/

theorem values_append (l l' : List Spec.Own) : Spec.values (l ++ l') = Spec.values l ++ Spec.values l' := by
  induction l with
  | nil => rfl
  | cons o l ih => cases o <;> simp [Spec.values, ih]

/-- A counter collected with deltas holds what was measured since it was last visited. -/
theorem delta_alone {c : Conf} (hk : c.kind = .sum .delta) (ht : c.temp = .delta) (a : Option Agg) (w : Int)
    (h : (a = none ∧ w = 0) ∨ ∃ s, a = some (.sum s) ∧ s.inst = .delta ∧ s.value.getD 0 = w) (l : List Meas) (p : Nat) :
    ((after c idx a (Spec.mine p l) = none ∧ w + (Spec.values (Spec.mine p l)).sum = 0) ∨
      ∃ s, after c idx a (Spec.mine p l) = some (.sum s) ∧ s.inst = .delta ∧ s.value.getD 0 = w + (Spec.values (Spec.mine p l)).sum) := by
  induction l generalizing a w with
  | nil => simpa [Spec.mine, Spec.values, after] using h
  | cons m l ih =>
    unfold Spec.mine
    split_ifs with hm
    · have : ∃ s, Spec.aloneStep c idx a (.meas m.now m.v) = some (.sum s) ∧ s.inst = .delta ∧ s.value.getD 0 = w + m.v := by
        rcases h with ⟨rfl, rfl⟩ | ⟨s, rfl, h1, h2⟩
        · refine ⟨(SumAgg.new .delta m.now).aggregate m.v, ?_, rfl, ?_⟩
          · simp only [Spec.aloneStep, getOrCreate, create, hk]; rfl
          · simp [SumAgg.aggregate, SumAgg.new]
        · refine ⟨s.aggregate m.v, rfl, h1, ?_⟩
          simp [SumAgg.aggregate, h2]
      have := ih (Spec.aloneStep c idx a (.meas m.now m.v)) (w + m.v) (Or.inr this)
      simp only [Spec.values, List.sum_cons]
      rw [← add_assoc]
      exact this
    · exact ih a w h

theorem delta_coll {c : Conf} (ht : c.temp = .delta) (a : Option Agg) (w : Int) (now : Int)
    (h : (a = none ∧ w = 0) ∨ ∃ s, a = some (.sum s) ∧ s.inst = .delta ∧ s.value.getD 0 = w) :
    (((after c idx a [.coll now] = none) ∧ (0 : Int) = 0) ∨ ∃ s, after c idx a [.coll now] = some (.sum s) ∧ s.inst = .delta ∧ s.value.getD 0 = 0) ∧
      reply c a now ≠ .raised ∧ ((Spec.points (reply c a now)).map Spec.value).sum = w := by
  rcases h with ⟨rfl, rfl⟩ | ⟨s, rfl, h1, h2⟩
  · exact ⟨Or.inl ⟨rfl, rfl⟩, by simp [reply], by simp [reply, Spec.points]⟩
  · refine ⟨Or.inr ⟨(s.collect .delta now).2, ?_, ?_, ?_⟩, ?_, ?_⟩
    · simp only [after, List.foldl, Spec.aloneStep, Option.map_some, Agg.collect, ht]
    · unfold SumAgg.collect; rw [h1]; simp only; split <;> simp_all
    · unfold SumAgg.collect; rw [h1]; simp only; split <;> rfl
    · simp [reply, Agg.collect]
    · simp only [reply, Agg.collect, ht]
      unfold SumAgg.collect
      rw [h1]
      cases hv : s.value with
      | none => rw [hv] at h2; simpa [Spec.points] using h2
      | some v => rw [hv] at h2; simpa [Spec.points, Spec.value] using h2

/-- What becomes of the increments of a counter that is collected with deltas: what was added is what was reported, what still waits, and what was lost; and it is lost exactly when a collection took it and
failed at a later stream (`Spec.book`). -/
theorem C123_delta_counter (p : Nat) (hp : p < n) (hk : (cfg p).kind = .sum .delta) (ht : (cfg p).temp = .delta) (l : List Cmd) :
    (Spec.values (Spec.own p (run cfg idx n l).log)).sum =
      (Spec.account p (run cfg idx n l).log).reported + (Spec.account p (run cfg idx n l).log).lost + (Spec.account p (run cfg idx n l).log).waiting := by
  have hf := (C123_fate (cfg := cfg) (idx := idx) p hp l).2
  generalize (run cfg idx n l).log = log at hf
  suffices h : ((Spec.alone (cfg p) idx (Spec.own p log) = none ∧ (Spec.account p log).waiting = 0) ∨
      ∃ s, Spec.alone (cfg p) idx (Spec.own p log) = some (.sum s) ∧ s.inst = .delta ∧ s.value.getD 0 = (Spec.account p log).waiting) ∧
      (Spec.values (Spec.own p log)).sum = (Spec.account p log).reported + (Spec.account p log).lost + (Spec.account p log).waiting from h.2
  induction log using List.reverseRecOn with
  | nil => exact ⟨Or.inl ⟨rfl, rfl⟩, rfl⟩
  | append_singleton log e ih =>
    obtain ⟨h1, h2⟩ := ih (fun l1 e' l2 h => hf l1 e' (l2 ++ [e]) (by rw [h]; simp))
    have he := hf log e [] rfl
    have hacc : Spec.account p (log ++ [e]) = Spec.book p (Spec.account p log) e := by simp [Spec.account, List.foldl_append]
    rw [hacc, own_snoc, alone_append, values_append, List.sum_append, h2]
    generalize Spec.account p log = acc at h1 h2
    have hb := fun l => delta_alone (idx := idx) hk ht _ _ h1 l p
    cases e with
    | meas m ok =>
      cases ok with
      | false => exact ⟨by simpa [Spec.ownEv, Spec.book, after] using h1, by simp [Spec.ownEv, Spec.book, Spec.values]⟩
      | true =>
        refine ⟨?_, by simp only [Spec.ownEv, Spec.book]; ring⟩
        have := hb [m]
        simpa [Spec.ownEv, Spec.book] using this
    | pass who now obs res =>
      cases res with
      | ok d =>
        obtain ⟨-, he⟩ := he
        rw [answer_eq, alone_append] at he
        obtain ⟨g1, g2, g3⟩ := delta_coll (idx := idx) ht _ _ now (hb obs)
        simp only [Spec.ownEv, Spec.book]
        rw [after_append]
        refine ⟨?_, ?_⟩
        · rcases g1 with g1 | g1
          · exact Or.inl ⟨g1.1, trivial⟩
          · exact Or.inr g1
        · rw [he, g3, values_append]
          simp only [Spec.values, List.append_nil]; ring
      | failed w =>
        cases w with
        | obs i =>
          refine ⟨?_, by simp only [Spec.ownEv, Spec.book]; ring⟩
          exact hb (obs.take i)
        | stream q =>
          obtain ⟨g1, g2, g3⟩ := delta_coll (idx := idx) ht _ _ now (hb obs)
          simp only [Spec.ownEv, Spec.book]
          split_ifs with hq
          · rw [after_append]
            refine ⟨?_, ?_⟩
            · rcases g1 with g1 | g1
              · exact Or.inl ⟨g1.1, rfl⟩
              · exact Or.inr g1
            · rw [values_append]; simp only [Spec.values, List.append_nil]; ring
          · rw [List.append_nil]
            exact ⟨hb obs, by simp only; ring⟩

theorem cumulative_alone {c : Conf} (hk : c.kind = .sum .delta) (ht : c.temp = .cumulative) (l : List Spec.Own) :
    (Spec.values l = [] ∧ Spec.alone c idx l = none) ∨ ∃ s, Spec.alone c idx l = some (.sum s) ∧ s.inst = .delta ∧ s.value.getD 0 + s.prev = (Spec.values l).sum := by
  induction l using List.reverseRecOn with
  | nil => exact Or.inl ⟨rfl, rfl⟩
  | append_singleton l o ih =>
    rw [alone_append, values_append]
    cases o with
    | meas now v =>
      right
      rcases ih with ⟨h1, h2⟩ | ⟨s, h1, h2, h3⟩
      · rw [h1, h2]
        refine ⟨(SumAgg.new .delta now).aggregate v, ?_, rfl, ?_⟩
        · simp only [after, List.foldl, Spec.aloneStep, getOrCreate, create, hk]; rfl
        · simp [SumAgg.aggregate, SumAgg.new, Spec.values]
      · rw [h1]
        refine ⟨s.aggregate v, rfl, h2, ?_⟩
        simp only [SumAgg.aggregate, Option.getD_some, List.sum_append, ← h3, Spec.values, List.sum_cons, List.sum_nil]
        ring
    | coll now =>
      rcases ih with ⟨h1, h2⟩ | ⟨s, h1, h2, h3⟩
      · left; rw [h1, h2]; exact ⟨rfl, rfl⟩
      · right
        rw [h1]
        refine ⟨(s.collect .cumulative now).2, ?_, ?_, ?_⟩
        · simp only [after, List.foldl, Spec.aloneStep, Option.map_some, Agg.collect, ht]
        · simp [SumAgg.collect, h2]
        · simp [SumAgg.collect, h2, h3, Spec.values]

/-- A counter that is collected with cumulative values loses nothing, whatever fails: every collection that succeeds reports the total of all that was added. -/
theorem C123_cumulative_counter (p : Nat) (hp : p < n) (hk : (cfg p).kind = .sum .delta) (ht : (cfg p).temp = .cumulative) (l : List Cmd)
    (l1 : List Ev) (who : Who) (now : Int) (obs : List Meas) (d : List (Nat × Point)) (l2 : List Ev) (h : (run cfg idx n l).log = l1 ++ .pass who now obs (.ok d) :: l2) :
    (Spec.dataOf p d).map Spec.value = (if Spec.values (Spec.own p l1 ++ Spec.mine p obs) = [] then [] else [(Spec.values (Spec.own p l1 ++ Spec.mine p obs)).sum]) := by
  obtain ⟨-, he⟩ := (C123_fate (cfg := cfg) (idx := idx) p hp l).2 _ _ _ h
  rw [he, answer_eq]
  rcases cumulative_alone (idx := idx) hk ht (Spec.own p l1 ++ Spec.mine p obs) with ⟨h1, h2⟩ | ⟨s, h1, h2, h3⟩
  · rw [h1, h2]; simp [reply, Spec.points]
  · have : Spec.values (Spec.own p l1 ++ Spec.mine p obs) ≠ [] := by
      intro hh
      have none_of : ∀ l : List Spec.Own, Spec.values l = [] → Spec.alone (cfg p) idx l = none := by
        intro l
        induction l using List.reverseRecOn with
        | nil => intro _; rfl
        | append_singleton l o ih =>
          intro hl
          rw [values_append, List.append_eq_nil_iff] at hl
          rw [alone_append, ih hl.1]
          cases o with
          | meas _ _ => simp [Spec.values] at hl
          | coll _ => rfl
      rw [none_of _ hh] at h1
      cases h1
    rw [if_neg this, h1]
    simp [reply, Agg.collect, ht, SumAgg.collect, h2, h3, Spec.points, Spec.value]

/-! ## The reader's thread -/

theorem pass_log (r : Reader) (who : Who) (now : Int) (obs : List Meas) :
    (r.pass cfg idx n who now obs).2.log = r.log ++ [.pass who now obs (collect cfg idx n now obs r.streams).1] ∧
      (r.pass cfg idx n who now obs).2.alive = r.alive ∧ (r.pass cfg idx n who now obs).2.stopped = r.stopped ∧
      (r.pass cfg idx n who now obs).1 = (collect cfg idx n now obs r.streams).1 ∧
      (r.pass cfg idx n who now obs).2.exported = r.exported ++ (if r.stopped then [] else Spec.delivered [.pass who now obs (collect cfg idx n now obs r.streams).1]) := by
  unfold Reader.pass
  cases hc : (collect cfg idx n now obs r.streams).1 with
  | failed w => cases hs : r.stopped <;> simp [hc, hs, Spec.delivered]
  | ok d =>
    have e : Spec.delivered [.pass who now obs (.ok d)] = if d.isEmpty then [] else [d] := by
      cases d <;> rfl
    rw [e]
    cases hs : r.stopped <;> cases hd : d.isEmpty <;> simp only [hc, hs, hd] <;> simp

theorem alive_iff (l : List Cmd) : (run cfg idx n l).alive = (!(run cfg idx n l).stopped && !(run cfg idx n l).log.any Spec.loopFailure) := by
  induction l using List.reverseRecOn with
  | nil => rfl
  | append_singleton l c ih =>
    rw [run_snoc]
    generalize run cfg idx n l = r at ih
    cases c with
    | meas m =>
      simp only [Reader.step]
      split <;> simp [ih, List.any_append, Spec.loopFailure]
    | tick now obs =>
      obtain ⟨h1, h2, h3, h4, -⟩ := pass_log (cfg := cfg) (idx := idx) (n := n) r .loop now obs
      simp only [Reader.step]
      split_ifs with ha
      · rw [ha] at ih
        split
        · rename_i h
          rw [h] at h1 h2 h3 h4
          simp only at h1 h2 h3 h4
          rw [h1, h2, h3, ← h4, ha, ih]
          simp [List.any_append, Spec.loopFailure]
        · rename_i h
          rw [h] at h1 h2 h3 h4
          simp only at h1 h2 h3 h4
          simp only
          rw [h1, ← h4]
          simp [List.any_append, Spec.loopFailure]
      · exact ih
    | flush now obs =>
      obtain ⟨h1, h2, h3, h4, -⟩ := pass_log (cfg := cfg) (idx := idx) (n := n) r .flush now obs
      simp only [Reader.step]
      rw [h1, h2, h3, ih]
      simp [List.any_append, Spec.loopFailure]
    | shutdown now obs =>
      simp only [Reader.step]
      split_ifs with hs ha
      · exact ih
      · simp
      · simp

/-- The reader's thread collects at every tick and once more at shutdown as long as no round of its loop has failed, and never again after one has. -/
theorem C123_thread (l : List Cmd) (now : Int) (obs : List Meas) (hs : (run cfg idx n l).stopped = false) :
    ((run cfg idx n l).log.any Spec.loopFailure = false →
      (run cfg idx n (l ++ [.tick now obs])).log = (run cfg idx n l).log ++ [.pass .loop now obs (collect cfg idx n now obs (run cfg idx n l).streams).1] ∧
      (run cfg idx n (l ++ [.shutdown now obs])).log = (run cfg idx n l).log ++ [.pass .final now obs (collect cfg idx n now obs (run cfg idx n l).streams).1]) ∧
    ((run cfg idx n l).log.any Spec.loopFailure = true →
      (run cfg idx n (l ++ [.tick now obs])).log = (run cfg idx n l).log ∧ (run cfg idx n (l ++ [.shutdown now obs])).log = (run cfg idx n l).log) := by
  have ha := alive_iff (cfg := cfg) (idx := idx) (n := n) l
  rw [run_snoc, run_snoc]
  generalize run cfg idx n l = r at ha hs
  rw [hs] at ha
  constructor
  · intro h
    rw [h] at ha
    simp only [Bool.not_false, Bool.and_self] at ha
    refine ⟨?_, ?_⟩
    · have := (pass_log (cfg := cfg) (idx := idx) (n := n) r .loop now obs).1
      simp only [Reader.step, ha, if_true]
      split <;> (rename_i h; rw [h] at this; exact this)
    · have := (pass_log (cfg := cfg) (idx := idx) (n := n) r .final now obs).1
      simp only [Reader.step, ha, hs, if_true]
      exact this
  · intro h
    rw [h] at ha
    simp only [Bool.not_false, Bool.not_true, Bool.and_false] at ha
    simp [Reader.step, ha, hs]

/-- After a failed round of the loop, whatever the program does, the reader's thread collects nothing any more, not even at shutdown. -/
theorem C123_silenced (l : List Cmd) (l1 : List Ev) (e : Ev) (l2 : List Ev) (h : (run cfg idx n l).log = l1 ++ e :: l2) (he : Spec.loopFailure e = true) :
    ∀ x ∈ l2, Spec.byThread x = false := by
  suffices hh : ∀ l : List Cmd, ∀ l1 e l2, (run cfg idx n l).log = l1 ++ e :: l2 → Spec.loopFailure e = true → ∀ x ∈ l2, Spec.byThread x = false from hh l l1 e l2 h he
  clear h he l1 l2 e l
  intro l
  induction l using List.reverseRecOn with
  | nil => intro l1 e l2 h; simp [run, Reader.new] at h
  | append_singleton l c ih =>
    have ha := alive_iff (cfg := cfg) (idx := idx) (n := n) l
    rw [run_snoc]
    generalize run cfg idx n l = r at ih ha
    have snoc : ∀ y, (r.log.any Spec.loopFailure = true → Spec.byThread y = false) → ∀ l1 e l2, r.log ++ [y] = l1 ++ e :: l2 → Spec.loopFailure e = true → ∀ x ∈ l2, Spec.byThread x = false := by
      intro y hy l1 e l2 h he x hx
      rcases List.eq_nil_or_concat l2 with rfl | ⟨l3, z, rfl⟩
      · cases hx
      · have h' : r.log ++ [y] = (l1 ++ e :: l3) ++ [z] := by rw [h]; simp
        obtain ⟨h1, h2⟩ := List.append_inj' h' rfl
        simp only [List.cons.injEq, and_true] at h2
        rw [List.concat_eq_append, List.mem_append, List.mem_singleton] at hx
        rcases hx with hx | rfl
        · exact ih l1 e l3 h1 he x hx
        · rw [← h2]
          apply hy
          rw [h1]; simp [he]
    cases c with
    | meas m =>
      simp only [Reader.step]
      split <;> exact snoc _ (fun _ => rfl)
    | tick now obs =>
      have := (pass_log (cfg := cfg) (idx := idx) (n := n) r .loop now obs).1
      simp only [Reader.step]
      split_ifs with hal
      · rw [hal] at ha
        have hn : r.log.any Spec.loopFailure = true → Spec.byThread (.pass .loop now obs (collect cfg idx n now obs r.streams).1) = false := by
          intro hh; rw [hh] at ha; simp at ha
        split <;> (rename_i h; rw [h] at this; simp only at this ⊢; rw [this]; exact snoc _ hn)
      · exact ih
    | flush now obs =>
      have := (pass_log (cfg := cfg) (idx := idx) (n := n) r .flush now obs).1
      simp only [Reader.step]
      rw [this]
      exact snoc _ (fun _ => rfl)
    | shutdown now obs =>
      have := (pass_log (cfg := cfg) (idx := idx) (n := n) r .final now obs).1
      simp only [Reader.step]
      split_ifs with hs hal
      · exact ih
      · rw [hal] at ha
        have hn : r.log.any Spec.loopFailure = true → Spec.byThread (.pass .final now obs (collect cfg idx n now obs r.streams).1) = false := by
          intro hh; rw [hh] at ha; simp at ha
        simp only
        rw [this]; exact snoc _ hn
      · exact ih

/-- The exporter gets the data of the collections that succeeded, all of them and in order until shutdown, and nothing after. -/
theorem C123_exports (l : List Cmd) :
    ((run cfg idx n l).exported <+: Spec.delivered (run cfg idx n l).log) ∧ ((run cfg idx n l).stopped = false → (run cfg idx n l).exported = Spec.delivered (run cfg idx n l).log) ∧
    (∀ now obs, (run cfg idx n l).stopped = false → (run cfg idx n (l ++ [.shutdown now obs])).exported = Spec.delivered (run cfg idx n (l ++ [.shutdown now obs])).log) := by
  have dapp : ∀ a b, Spec.delivered (a ++ b) = Spec.delivered a ++ Spec.delivered b := by intro a b; simp [Spec.delivered]
  have last : ∀ (r : Reader) now obs, r.stopped = false → r.exported = Spec.delivered r.log →
      (r.step cfg idx n (.shutdown now obs)).exported = Spec.delivered (r.step cfg idx n (.shutdown now obs)).log := by
    intro r now obs hs he
    obtain ⟨h1, -, -, -, h5⟩ := pass_log (cfg := cfg) (idx := idx) (n := n) r .final now obs
    simp only [Reader.step, hs]
    cases hal : r.alive with
    | false => simpa using he
    | true =>
      simp only [if_true]
      rw [hs] at h5
      show (r.pass cfg idx n .final now obs).2.exported = Spec.delivered (r.pass cfg idx n .final now obs).2.log
      rw [h5, h1, dapp, he]; rfl
  have main : ((run cfg idx n l).exported <+: Spec.delivered (run cfg idx n l).log) ∧ ((run cfg idx n l).stopped = false → (run cfg idx n l).exported = Spec.delivered (run cfg idx n l).log) := by
    induction l using List.reverseRecOn with
    | nil => exact ⟨List.nil_prefix, fun _ => rfl⟩
    | append_singleton l c ih =>
      rw [run_snoc]
      generalize run cfg idx n l = r at ih
      obtain ⟨ih1, ih2⟩ := ih
      have gen : ∀ r' : Reader, r'.exported = r.exported ++ (if r.stopped then [] else Spec.delivered [r'.log.getLast?.getD (.meas ⟨none, 0, 0⟩ false)]) → r'.stopped = r.stopped →
          (∃ e, r'.log = r.log ++ [e]) → (r'.exported <+: Spec.delivered r'.log) ∧ (r'.stopped = false → r'.exported = Spec.delivered r'.log) := by
        rintro r' h1 h2 ⟨e, h3⟩
        rw [h3] at h1
        simp only [List.getLast?_append, List.getLast?_singleton, Option.getD_some, Option.some_or] at h1
        cases hs : r.stopped with
        | true =>
          rw [hs] at h1 h2
          refine ⟨?_, by rw [h2]; intro h; cases h⟩
          rw [h1, h3, dapp]
          simp only [if_true, List.append_nil]
          exact ih1.trans (List.prefix_append _ _)
        | false =>
          rw [hs] at h1 h2
          have : r'.exported = Spec.delivered r'.log := by rw [h1, h3, dapp, ih2 hs]; rfl
          exact ⟨this ▸ List.prefix_refl _, fun _ => this⟩
      cases c with
      | meas m =>
        simp only [Reader.step]
        split
        · exact gen _ (by simp [Spec.delivered]) rfl ⟨_, rfl⟩
        · exact gen _ (by simp [Spec.delivered]) rfl ⟨_, rfl⟩
      | tick now obs =>
        obtain ⟨h1, h2, h3, h4, h5⟩ := pass_log (cfg := cfg) (idx := idx) (n := n) r .loop now obs
        simp only [Reader.step]
        split_ifs with hal
        · split
          · rename_i h
            rw [h] at h1 h3 h5
            exact gen _ (by rw [h1]; simpa using h5) h3 ⟨_, h1⟩
          · rename_i h
            rw [h] at h1 h3 h5
            exact gen _ (by simp only at h1 ⊢; rw [h1]; simpa using h5) h3 ⟨_, h1⟩
        · exact ⟨ih1, ih2⟩
      | flush now obs =>
        obtain ⟨h1, h2, h3, h4, h5⟩ := pass_log (cfg := cfg) (idx := idx) (n := n) r .flush now obs
        simp only [Reader.step]
        exact gen _ (by rw [h1]; simpa using h5) h3 ⟨_, h1⟩
      | shutdown now obs =>
        cases hs : r.stopped with
        | true => simp only [Reader.step, hs, if_true]; exact ⟨ih1, fun h => by cases h⟩
        | false =>
          have := last r now obs hs (ih2 hs)
          exact ⟨this ▸ List.prefix_refl _, fun _ => this⟩
  exact ⟨main.1, main.2, fun now obs hs => by rw [run_snoc]; exact last _ now obs hs (main.2 hs)⟩

/-! ## Without failures -/

/-- A stream that will not raise. -/
def Sound (idx : Int → Int → Int) (V : Int → Prop) (c : Conf) : Agg → Prop
  | .exp s => c.temp = .delta ∧ ∃ here, Exp.Cur idx s here ∧ ∀ v ∈ here, v ≠ 0 → V (Exp.mag v)
  | _ => True

theorem sound_put {V : Int → Prop} (hco : Exp.Coherent idx V) {st : Streams} (h : ∀ p a, st p = some a → Sound idx V (cfg p) a) {m : Meas} (hm : Spec.Healthy cfg V m) :
    ∃ st', put cfg idx st m = some st' ∧ ∀ p a, st' p = some a → Sound idx V (cfg p) a := by
  obtain ⟨p, hp, hk⟩ := hm
  have hsome : ∃ a, getOrCreate (cfg p) (st p) m.now = some a ∧ Sound idx V (cfg p) a := by
    cases hs : st p with
    | some a => exact ⟨a, rfl, h p a hs⟩
    | none =>
      unfold getOrCreate create
      cases hkind : (cfg p).kind with
      | sum i => exact ⟨_, rfl, trivial⟩
      | last => exact ⟨_, rfl, trivial⟩
      | hist i b => exact ⟨_, rfl, trivial⟩
      | exp i size scale =>
        rw [hkind] at hk
        obtain ⟨rfl, h1, h2, h3, h4, h5, -⟩ := hk
        have : ∃ s : Exp.Agg Int, Exp.Agg.new .delta m.now size scale = some s := by
          unfold Exp.Agg.new Exp.newMapping
          rw [if_neg (by omega), if_neg (by omega), if_pos ⟨h3, h4⟩]
          exact ⟨_, rfl⟩
        obtain ⟨s, hs'⟩ := this
        refine ⟨.exp s, by simp [hs'], h5, [], (Exp.new_cur idx hs').1, by simp⟩
  obtain ⟨a, ha, hsa⟩ := hsome
  have hagg : ∃ b, a.aggregate idx m.v = some b ∧ Sound idx V (cfg p) b := by
    cases a with
    | sum s => exact ⟨_, rfl, trivial⟩
    | last s => exact ⟨_, rfl, trivial⟩
    | hist s => exact ⟨_, rfl, trivial⟩
    | exp s =>
      obtain ⟨ht, here, hcur, hV⟩ := hsa
      have hv : m.v ≠ 0 → V (Exp.mag m.v) := by
        cases hkind : (cfg p).kind with
        | exp i size scale => rw [hkind] at hk; exact hk.2.2.2.2.2.2
        | sum i => rw [hkind] at hk; exact hk
        | last => rw [hkind] at hk; exact hk
        | hist i b => rw [hkind] at hk; exact hk
      obtain ⟨s', e, hcur', -⟩ := Exp.aggregate_spec hco hcur hV m.v hv
      refine ⟨.exp s', by simp [Agg.aggregate, e], ht, here ++ [m.v], hcur', ?_⟩
      intro w hw
      rw [List.mem_append, List.mem_singleton] at hw
      rcases hw with hw | rfl
      · exact hV w hw
      · exact hv
  obtain ⟨b, hb, hsb⟩ := hagg
  refine ⟨upd st p b, by simp only [put, hp, ha, hb, Option.map_some], fun q a' hq => ?_⟩
  unfold upd at hq
  split_ifs at hq with hqp
  · subst hqp; cases hq; exact hsb
  · exact h q a' hq

theorem sound_observe {V : Int → Prop} (hco : Exp.Coherent idx V) (ms : List Meas) : ∀ (i : Nat) (st : Streams), (∀ p a, st p = some a → Sound idx V (cfg p) a) →
    (∀ m ∈ ms, Spec.Healthy cfg V m) → ∃ st', observe cfg idx i ms st = (none, st') ∧ ∀ p a, st' p = some a → Sound idx V (cfg p) a := by
  induction ms with
  | nil => intro i st h _; exact ⟨st, rfl, h⟩
  | cons m ms ih =>
    intro i st h hm
    obtain ⟨st1, e1, h1⟩ := sound_put hco h (hm m (by simp))
    obtain ⟨st2, e2, h2⟩ := ih (i + 1) st1 h1 (fun m' hm' => hm m' (by simp [hm']))
    exact ⟨st2, by rw [observe, e1]; exact e2, h2⟩

theorem sound_collect {V : Int → Prop} {c : Conf} {a : Agg} (h : Sound idx V c a) (now : Int) :
    ∃ o a', a.collect c.temp now = (.returned o, a') ∧ Sound idx V c a' := by
  cases a with
  | sum s => exact ⟨_, _, rfl, trivial⟩
  | last s => exact ⟨_, _, rfl, trivial⟩
  | hist s => exact ⟨_, _, rfl, trivial⟩
  | exp s =>
    obtain ⟨ht, here, hcur, hV⟩ := h
    have hn := (Exp.cur_collect hcur c.temp now).1
    have hne : (s.collect c.temp now).1 ≠ .raised := by
      rw [ht]
      unfold Exp.Agg.collect
      rw [hcur.inst]
      simp only
      by_cases hh : here = []
      · obtain ⟨g1, g2, -⟩ := hcur.none hh
        rw [g1, g2]; simp
      · obtain ⟨p, n, g1, g2, -⟩ := hcur.some hh
        rw [g1, g2]; simp
    unfold Agg.collect
    simp only
    cases hc : s.collect c.temp now with
    | mk o s' =>
      rw [hc] at hn hne
      cases o with
      | raised => exact absurd rfl hne
      | returned o => exact ⟨_, _, rfl, ht, [], hn, by simp⟩

theorem sound_visit {V : Int → Prop} (now : Int) (ps : List Nat) : ∀ (st : Streams) (acc : List (Nat × Point)), (∀ p a, st p = some a → Sound idx V (cfg p) a) →
    ∃ d st', visit cfg now ps st acc = (.ok d, st') ∧ ∀ p a, st' p = some a → Sound idx V (cfg p) a := by
  induction ps with
  | nil => intro st acc h; exact ⟨acc, st, rfl, h⟩
  | cons p ps ih =>
    intro st acc h
    unfold visit
    cases hp : st p with
    | none => exact ih st acc h
    | some a =>
      obtain ⟨o, a', e, hs⟩ := sound_collect (h p a hp) now
      have hu : ∀ q b, upd st p a' q = some b → Sound idx V (cfg q) b := by
        intro q b hq
        unfold upd at hq
        split_ifs at hq with hqp
        · subst hqp; cases hq; exact hs
        · exact h q b hq
      simp only [e]
      cases o with
      | none => exact ih _ acc hu
      | some d => exact ih _ _ hu

theorem inputs_append (l l' : List Cmd) : Spec.inputs (l ++ l') = Spec.inputs l ++ Spec.inputs l' := by
  induction l with
  | nil => rfl
  | cons c l ih => cases c <;> simp [Spec.inputs, ih]

/-- If all measurements have hashable attributes and the exponential histograms are collected with deltas (and set up with sizes and scales that exist, for synchronous instruments), nothing ever fails:
no measurement and no collection raises. -/
theorem C123_healthy {V : Int → Prop} (hco : Exp.Coherent idx V) (l : List Cmd) (h : ∀ m ∈ Spec.inputs l, Spec.Healthy cfg V m) :
    ∀ e ∈ (run cfg idx n l).log, Spec.isFailure e = false ∧ ∀ m ok, e = .meas m ok → ok = true := by
  suffices hh : (∀ p a, (run cfg idx n l).streams p = some a → Sound idx V (cfg p) a) ∧
    ∀ e ∈ (run cfg idx n l).log, Spec.isFailure e = false ∧ ∀ m ok, e = .meas m ok → ok = true from hh.2
  induction l using List.reverseRecOn with
  | nil => exact ⟨fun p a h => by simp [run, Reader.new] at h, fun e he => by simp [run, Reader.new] at he⟩
  | append_singleton l c ih =>
    rw [inputs_append] at h
    obtain ⟨ih1, ih2⟩ := ih (fun m hm => h m (List.mem_append_left _ hm))
    rw [run_snoc]
    generalize run cfg idx n l = r at ih1 ih2
    rcases step_cases (cfg := cfg) (idx := idx) (n := n) r c with ⟨m, rfl, hc⟩ | ⟨e1, e2, -⟩ | ⟨who, now, obs, e1, e2, hc⟩
    · obtain ⟨st', e, hs⟩ := sound_put hco ih1 (h m (by simp [Spec.inputs]))
      rcases hc with ⟨e', -⟩ | ⟨st, e', e2⟩
      · rw [e] at e'; cases e'
      · rw [e] at e'; cases e'
        rw [e2]
        refine ⟨hs, fun x hx => ?_⟩
        simp only [List.mem_append, List.mem_singleton] at hx
        rcases hx with hx | rfl
        · exact ih2 x hx
        · exact ⟨rfl, fun m ok hm => by cases hm; rfl⟩
    · rw [e1, e2]; exact ⟨ih1, ih2⟩
    · have hobs : ∀ m ∈ obs, Spec.Healthy cfg V m := by
        intro m hm
        apply h
        rcases hc with rfl | rfl | rfl <;> simp [Spec.inputs, hm]
      obtain ⟨st1, o1, hs1⟩ := sound_observe hco obs 0 r.streams ih1 hobs
      obtain ⟨d, st2, o2, hs2⟩ := sound_visit (idx := idx) (V := V) (cfg := cfg) now (List.range n) st1 [] hs1
      have ec : collect cfg idx n now obs r.streams = (.ok d, st2) := by
        unfold collect; rw [o1]; exact o2
      rw [e1, e2, ec]
      refine ⟨hs2, fun x hx => ?_⟩
      rw [List.mem_append, List.mem_singleton] at hx
      rcases hx with hx | rfl
      · exact ih2 x hx
      · exact ⟨rfl, fun m ok hm => by cases hm⟩

/-- Then a counter that is collected with deltas loses nothing: with the last collection at shutdown, what was reported is what was added. -/
theorem C123_complete {V : Int → Prop} (hco : Exp.Coherent idx V) (p : Nat) (hp : p < n) (hk : (cfg p).kind = .sum .delta) (ht : (cfg p).temp = .delta) (l : List Cmd) (now : Int) (obs : List Meas)
    (hs : (run cfg idx n l).stopped = false) (h : ∀ m ∈ Spec.inputs (l ++ [.shutdown now obs]), Spec.Healthy cfg V m) :
    (((run cfg idx n (l ++ [.shutdown now obs])).exported.flatMap (Spec.dataOf p)).map Spec.value).sum =
      (Spec.values (Spec.own p (run cfg idx n (l ++ [.shutdown now obs])).log)).sum := by
  have hlog := C123_healthy (n := n) hco _ h
  have hl : ∀ m ∈ Spec.inputs l, Spec.Healthy cfg V m := fun m hm => h m (by rw [inputs_append]; exact List.mem_append_left _ hm)
  have hnone : (run cfg idx n l).log.any Spec.loopFailure = false := by
    rw [List.any_eq_false]
    intro e he
    have := (C123_healthy (n := n) hco l hl e he).1
    unfold Spec.isFailure at this
    unfold Spec.loopFailure
    split <;> simp_all
  have hlast := ((C123_thread l now obs hs).1 hnone).2
  have hex := (C123_exports (cfg := cfg) (idx := idx) (n := n) l).2.2 now obs hs
  have hacc := C123_delta_counter (idx := idx) p hp hk ht (l ++ [.shutdown now obs])
  rw [hex, hacc]
  -- nothing is lost, and nothing waits after the last collection
  have acct : ∀ log : List Ev, (∀ e ∈ log, Spec.isFailure e = false) →
      (Spec.account p log).lost = 0 ∧ (Spec.account p log).reported = (((Spec.delivered log).flatMap (Spec.dataOf p)).map Spec.value).sum := by
    intro log
    induction log using List.reverseRecOn with
    | nil => intro _; exact ⟨rfl, rfl⟩
    | append_singleton log e ih =>
      intro he
      obtain ⟨g1, g2⟩ := ih (fun x hx => he x (List.mem_append_left _ hx))
      have hacc : Spec.account p (log ++ [e]) = Spec.book p (Spec.account p log) e := by simp [Spec.account, List.foldl_append]
      have hd : Spec.delivered (log ++ [e]) = Spec.delivered log ++ Spec.delivered [e] := by simp [Spec.delivered]
      rw [hacc, hd, List.flatMap_append, List.map_append, List.sum_append, ← g2]
      have hfe := he e (by simp)
      cases e with
      | meas m ok => cases ok <;> exact ⟨g1, by simp [Spec.book, Spec.delivered]⟩
      | pass who now obs res =>
        cases res with
        | failed w => cases hfe
        | ok d =>
          refine ⟨g1, ?_⟩
          have e : Spec.delivered [.pass who now obs (.ok d)] = if d.isEmpty then [] else [d] := by
            cases d <;> rfl
          rw [e]
          simp only [Spec.book]
          cases d with
          | nil => simp [Spec.dataOf]
          | cons x d => simp
  obtain ⟨a1, a2⟩ := acct _ (fun e he => (hlog e he).1)
  have wait : (Spec.account p (run cfg idx n (l ++ [.shutdown now obs])).log).waiting = 0 := by
    have hf := hlog
    rw [hlast] at hf ⊢
    have := (hf _ (List.mem_append_right _ (List.mem_singleton.2 rfl))).1
    revert this
    generalize (collect cfg idx n now obs (run cfg idx n l).streams).1 = res
    intro hres
    rw [show Spec.account p ((run cfg idx n l).log ++ [.pass .final now obs res]) = Spec.book p (Spec.account p (run cfg idx n l).log) (.pass .final now obs res) by
      simp [Spec.account, List.foldl_append]]
    cases res with
    | failed w => cases hres
    | ok d => rfl
  rw [a1, a2, wait]; ring

/-! ## What does not hold -/

/-- Stream 0: a counter, collected with deltas. Stream 1: an exponential histogram of 4 buckets, collected with cumulative values. Stream 2: another counter, with deltas. -/
def conf (p : Nat) : Conf :=
  if p = 1 then ⟨.exp .delta 4 0, .cumulative⟩ else ⟨.sum .delta, .delta⟩

/-- The histogram measures 0, and after a collection 1000. -/
def program : List Cmd :=
  [.meas ⟨some 0, 1, 5⟩, .meas ⟨some 1, 2, 0⟩, .tick 10 [],
   .meas ⟨some 0, 11, 7⟩, .meas ⟨some 1, 12, 1000⟩, .meas ⟨some 2, 13, 9⟩, .tick 20 [],
   .meas ⟨some 0, 21, 100⟩, .tick 30 [], .shutdown 40 []]

/-- What was exported, as values of counters. -/
def shownExports (r : Reader) : List (List (Nat × Int)) := r.exported.map (fun d => d.map (fun x => (x.1, Spec.value x.2)))

/-- One exponential histogram takes all other metrics down: its collection raises, the reader's thread ends, and everything measured later by any instrument is never exported, not even by shutdown. -/
theorem C123_silenced_violated : shownExports (run conf Exp.idxPow 3 program) = [[(0, 5), (1, 0)]] ∧
    ((Spec.own 0 (run conf Exp.idxPow 3 program).log).filterMap (fun o => match o with | .meas _ v => some v | .coll _ => none)) = [5, 7, 100] := by
  decide +kernel

/-- What a counter before the histogram had measured in the interval is lost for good, even when the next collections succeed (here by `force_flush`). -/
theorem C123_lost_violated : shownExports (run conf Exp.idxPow 3 (program.take 7 ++ [.flush 25 [], .meas ⟨some 0, 26, 1⟩, .flush 30 []])) =
      [[(0, 5), (1, 0)], [(1, 0), (2, 9)], [(0, 1), (1, 0)]] ∧
    (Spec.account 0 (run conf Exp.idxPow 3 (program.take 7 ++ [.flush 25 [], .meas ⟨some 0, 26, 1⟩, .flush 30 []])).log).lost = 7 := by
  decide +kernel

/-- An observation whose attributes have a list as a value does the same: nothing is exported at all. -/
theorem C123_observation_violated :
    shownExports (run (fun _ => ⟨.sum .delta, .delta⟩) Exp.idxPow 3 [.meas ⟨some 0, 1, 5⟩, .tick 10 [⟨none, 9, 3⟩], .meas ⟨some 0, 11, 7⟩, .tick 20 [], .shutdown 30 []]) = [] := by
  decide +kernel

/-! ## Examples -/

/-- The same program with a histogram collected with deltas. -/
example : shownExports (run (fun p => if p = 1 then ⟨.exp .delta 4 0, .delta⟩ else ⟨.sum .delta, .delta⟩) Exp.idxPow 3 program) =
    [[(0, 5), (1, 0)], [(0, 7), (1, 0), (2, 9)], [(0, 100)]] := by decide +kernel

example : ∀ m ∈ Spec.inputs program, Spec.Healthy (fun p => if p = 1 then ⟨.exp .delta 4 0, .delta⟩ else ⟨.sum .delta, .delta⟩) (fun v => 1 ≤ v ∧ v ≤ 2 ^ 1024) m := by
  intro m hm
  have hb : (1000 : Int) ≤ 2 ^ 1024 := le_trans (by decide : (1000 : Int) ≤ 2 ^ 10) (pow_le_pow_right₀ (by decide) (by decide))
  simp only [program, Spec.inputs, List.nil_append, List.append_nil, List.mem_cons, List.not_mem_nil, or_false] at hm
  rcases hm with rfl | rfl | rfl | rfl | rfl | rfl
  · exact ⟨0, rfl, fun _ => ⟨by decide, le_trans (by decide) hb⟩⟩
  · exact ⟨1, rfl, rfl, by decide, by decide, by decide, by decide, rfl, fun h => absurd rfl h⟩
  · exact ⟨0, rfl, fun _ => ⟨by decide, le_trans (by decide) hb⟩⟩
  · exact ⟨1, rfl, rfl, by decide, by decide, by decide, by decide, rfl, fun _ => ⟨by decide, hb⟩⟩
  · exact ⟨2, rfl, fun _ => ⟨by decide, le_trans (by decide) hb⟩⟩
  · exact ⟨0, rfl, fun _ => ⟨by decide, le_trans (by decide) hb⟩⟩

end Isolation
end Otel
