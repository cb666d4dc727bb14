import Verif.Spec.Exit
import Mathlib.Data.List.Basic
import Mathlib.Data.List.Induction
import Mathlib.Data.List.Nodup
import Mathlib.Tactic.Tauto
import Mathlib.Tactic.ByContra
import Mathlib.Tactic.SplitIfs
/-!
# C106: providers at the end of the process
-/
namespace Otel
namespace Exit

theorem run_append (raises : Nat → Nat → Bool) (a b : List Op) (w : World) :
    run raises w (a ++ b) = ((run raises (run raises w a).1 b).1, (run raises w a).2 ++ (run raises (run raises w a).1 b).2) := by
  induction a generalizing w with
  | nil => rfl
  | cons o a ih => simp only [List.cons_append, run, ih]

theorem run_length (raises : Nat → Nat → Bool) (a : List Op) (w : World) : (run raises w a).2.length = a.length := by
  induction a generalizing w with
  | nil => rfl
  | cons o a ih => simp only [run, List.length_cons, ih]

theorem seqLoop_spec (raises : Nat → Nat → Bool) (p : Nat) (xs : List Nat) (log : List (Nat × Nat)) :
    ∃ m : Nat, (seqLoop raises p xs log).1 = log ++ (xs.take m).map (fun x => (p, x)) ∧
      (∀ (i x : Nat), i + 1 < m → xs[i]? = some x → raises x (log.length + i) = false) ∧
      (m < xs.length → ∃ (i x : Nat), m = i + 1 ∧ xs[i]? = some x ∧ raises x (log.length + i) = true) ∧
      ((seqLoop raises p xs log).2 = false → m = xs.length) := by
  induction xs generalizing log with
  | nil => exact ⟨0, by simp [seqLoop], by simp, by simp, by simp⟩
  | cons x xs ih =>
    by_cases hr : raises x log.length = true
    · refine ⟨1, by simp [seqLoop, hr], by simp, fun _ => ⟨0, x, rfl, by simp, by simpa using hr⟩, ?_⟩
      simp [seqLoop, hr]
    · obtain ⟨m, h1, h2, h3, h4⟩ := ih (log ++ [(p, x)])
      have hl : (log ++ [(p, x)]).length = log.length + 1 := by simp
      rw [hl] at h2 h3
      refine ⟨m + 1, ?_, ?_, ?_, ?_⟩
      · simp only [seqLoop, if_neg hr, h1, List.take_succ_cons, List.map_cons, List.append_assoc, List.singleton_append]
      · intro i y hi hy
        cases i with
        | zero => simp only [List.getElem?_cons_zero, Option.some.injEq] at hy; subst hy; simpa using hr
        | succ i =>
          have := h2 i y (by omega) (by simpa using hy)
          rw [← this]; congr 1; omega
      · intro hm
        obtain ⟨i, y, e1, e2, e3⟩ := h3 (by simpa using hm)
        refine ⟨i + 1, y, by omega, by simpa using e2, ?_⟩
        rw [← e3]; congr 1; omega
      · intro hf
        simp only [seqLoop, if_neg hr] at hf
        simp [h4 hf]

theorem allLoop_spec (raises : Nat → Nat → Bool) (p : Nat) (xs : List Nat) (log : List (Nat × Nat)) :
    (allLoop raises p xs log).1 = log ++ xs.map (fun x => (p, x)) := by
  induction xs generalizing log with
  | nil => simp [allLoop]
  | cons x xs ih => simp [allLoop, ih]

/-! ## The state after a program -/

/-- `o` uses only the first `n` providers. -/
def OkN (n : Nat) : Op → Prop
  | .add p _ => p < n
  | .shutdown p => p < n
  | .create _ _ _ => True

/-- `o` uses only providers that exist. -/
def Ok (l : List Op) (o : Op) : Prop := OkN (creations l).length o

theorem creations_append (a b : List Op) : creations (a ++ b) = creations a ++ creations b := by
  simp [creations]

theorem validFrom_snoc {l : List Op} {o : Op} (n : Nat) (h : ValidFrom n (l ++ [o])) :
    ValidFrom n l ∧ OkN (n + (creations l).length) o := by
  induction l generalizing n with
  | nil =>
    cases o with
    | create k rs e => exact ⟨trivial, trivial⟩
    | add p x => exact ⟨trivial, h.1⟩
    | shutdown p => exact ⟨trivial, h.1⟩
  | cons a l ih =>
    cases a with
    | create k rs e =>
      have := ih (n + 1) h
      refine ⟨this.1, ?_⟩
      have h2 := this.2
      have e : n + (creations (Op.create k rs e :: l)).length = n + 1 + (creations l).length := by
        show n + ((creations l).length + 1) = _
        omega
      rw [e]
      exact h2
    | add p x => exact ⟨⟨h.1, (ih n h.2).1⟩, (ih n h.2).2⟩
    | shutdown p => exact ⟨⟨h.1, (ih n h.2).1⟩, (ih n h.2).2⟩

theorem valid_snoc {l : List Op} {o : Op} (h : Valid (l ++ [o])) : Valid l ∧ Ok l o := by
  refine ⟨(validFrom_snoc 0 h).1, ?_⟩
  have := (validFrom_snoc 0 h).2
  rwa [Nat.zero_add] at this

theorem valid_mem {l : List Op} (h : Valid l) (o : Op) (ho : o ∈ l) : Ok l o := by
  induction l using List.reverseRecOn with
  | nil => cases ho
  | append_singleton l a ih =>
    have hm : ∀ o : Op, Ok l o → Ok (l ++ [a]) o := by
      intro o h
      have hl : (creations l).length ≤ (creations (l ++ [a])).length := by rw [creations_append]; simp
      cases o <;> first | trivial | exact Nat.lt_of_lt_of_le h hl
    rw [List.mem_append, List.mem_singleton] at ho
    rcases ho with ho | rfl
    · exact hm o (ih (valid_snoc h).1 ho)
    · exact hm o (valid_snoc h).2

theorem getElem?_creations {l : List Op} {p : Nat} (o : Op) (hp : p < (creations l).length) :
    (creations (l ++ [o]))[p]? = (creations l)[p]? := by
  rw [creations_append, List.getElem?_append_left hp]

theorem kindOf_snoc {l : List Op} {p : Nat} (o : Op) (hp : p < (creations l).length) : kindOf (l ++ [o]) p = kindOf l p := by
  rw [kindOf, kindOf, getElem?_creations o hp]

theorem given_eq (l : List Op) (p : Nat) (c : Kind × List Nat × Bool) (h : (creations l)[p]? = some c) :
    given l p = if c.1 = .meter then c.2.1 else adds l p := by
  obtain ⟨k, rs, e⟩ := c
  cases k <;> simp [given, h]

theorem adds_append (a b : List Op) (p : Nat) : adds (a ++ b) p = adds a p ++ adds b p := by
  simp [adds]

theorem adds_none {l : List Op} (h : Valid l) {p : Nat} (hp : (creations l).length ≤ p) : adds l p = [] := by
  unfold adds
  rw [List.filterMap_eq_nil_iff]
  intro o ho
  have := valid_mem h o ho
  cases o with
  | add q x =>
    have hq : q < (creations l).length := this
    simp only [ite_eq_right_iff, reduceCtorEq, imp_false]
    omega
  | _ => rfl

/-- What the state says about the program. -/
structure Inv (calls : List (Op × Bool)) (w : World) : Prop where
  len : w.provs.length = (creations (calls.map Prod.fst)).length
  kind : ∀ (p : Nat) (v : Prov), w.provs[p]? = some v → kindOf (calls.map Prod.fst) p = some v.kind
  procs : ∀ (p : Nat) (v : Prov), w.provs[p]? = some v → v.procs = given (calls.map Prod.fst) p
  shut : ∀ (p : Nat) (v : Prov), w.provs[p]? = some v → v.kind = .meter →
    (v.shut = true ↔ Op.shutdown p ∈ calls.map Prod.fst)
  hand : IsPending calls w.handlers
  opened : w.closed = false

theorem settled_snoc {calls : List (Op × Bool)} {o : Op} {b : Bool} {p : Nat}
    (hp : p < (creations (calls.map Prod.fst)).length) :
    Settled (calls ++ [(o, b)]) p ↔
      Settled calls p ∨ (o = .shutdown p ∧ (kindOf (calls.map Prod.fst) p = some .meter ∨ b = false)) := by
  unfold Settled
  simp only [List.map_append, List.map_cons, List.map_nil, kindOf_snoc o hp, List.mem_append, List.mem_singleton]
  constructor
  · rintro ⟨c, hc | rfl, h⟩
    · exact Or.inl ⟨c, hc, h⟩
    · exact Or.inr h
  · rintro (⟨c, hc, h⟩ | h)
    · exact ⟨c, Or.inl hc, h⟩
    · exact ⟨(o, b), Or.inr rfl, h⟩

theorem pending_lt {calls : List (Op × Bool)} {ps : List Nat} (h : IsPending calls ps) {p : Nat} (hp : p ∈ ps) :
    p < (creations (calls.map Prod.fst)).length := by
  have := ((h.2 p).mp hp).1
  rw [Option.map_eq_some_iff] at this
  obtain ⟨c, hc, -⟩ := this
  exact (List.getElem?_eq_some_iff.mp hc).1

/-- A call that creates nothing and settles nothing. -/
theorem pending_same {calls : List (Op × Bool)} {ps : List Nat} {o : Op} {b : Bool} (h : IsPending calls ps)
    (hc : creations [o] = [])
    (hs : ∀ p : Nat, o = .shutdown p → p ∈ ps → ¬ (kindOf (calls.map Prod.fst) p = some .meter ∨ b = false)) :
    IsPending (calls ++ [(o, b)]) ps := by
  refine ⟨h.1, fun p => ?_⟩
  have hcr : creations ((calls ++ [(o, b)]).map Prod.fst) = creations (calls.map Prod.fst) := by
    rw [List.map_append, creations_append]
    show creations (calls.map Prod.fst) ++ creations [o] = _
    rw [hc, List.append_nil]
  rw [hcr]
  by_cases hlt : p < (creations (calls.map Prod.fst)).length
  · rw [settled_snoc hlt, h.2 p]
    constructor
    · rintro ⟨h1, h2⟩
      refine ⟨h1, ?_⟩
      rintro (h3 | ⟨h3, h4⟩)
      · exact h2 h3
      · exact hs p h3 ((h.2 p).mpr ⟨h1, h2⟩) h4
    · rintro ⟨h1, h2⟩
      exact ⟨h1, fun h3 => h2 (Or.inl h3)⟩
  · rw [h.2 p]
    have : (creations (calls.map Prod.fst))[p]? = none := by rw [List.getElem?_eq_none_iff]; omega
    simp [this]

/-- A call that settles `q`. -/
theorem pending_filter {calls : List (Op × Bool)} {ps : List Nat} {q : Nat} {b : Bool} (h : IsPending calls ps)
    (hs : kindOf (calls.map Prod.fst) q = some .meter ∨ b = false) :
    IsPending (calls ++ [(.shutdown q, b)]) (ps.filter (· ≠ q)) := by
  refine ⟨h.1.filter _, fun p => ?_⟩
  have hcr : creations ((calls ++ [(Op.shutdown q, b)]).map Prod.fst) = creations (calls.map Prod.fst) := by
    rw [List.map_append, creations_append]
    show creations (calls.map Prod.fst) ++ creations [.shutdown q] = _
    simp [creations]
  rw [hcr, List.mem_filter, h.2 p]
  by_cases hlt : p < (creations (calls.map Prod.fst)).length
  · rw [settled_snoc hlt]
    simp only [decide_eq_true_eq, Op.shutdown.injEq]
    constructor
    · rintro ⟨⟨h1, h2⟩, h3⟩
      exact ⟨h1, fun h4 => h4.elim h2 fun h5 => h3 h5.1.symm⟩
    · rintro ⟨h1, h2⟩
      refine ⟨⟨h1, fun h3 => h2 (Or.inl h3)⟩, ?_⟩
      rintro rfl
      exact h2 (Or.inr ⟨rfl, hs⟩)
  · have : (creations (calls.map Prod.fst))[p]? = none := by rw [List.getElem?_eq_none_iff]; omega
    simp [this]

/-- A new provider. -/
theorem pending_create {calls : List (Op × Bool)} {ps : List Nat} {k : Kind} {rs : List Nat} {e b : Bool}
    (hv : Valid (calls.map Prod.fst)) (h : IsPending calls ps) :
    IsPending (calls ++ [(.create k rs e, b)])
      (if e then ps ++ [(creations (calls.map Prod.fst)).length] else ps) := by
  have hcr : creations ((calls ++ [(Op.create k rs e, b)]).map Prod.fst) = creations (calls.map Prod.fst) ++ [(k, rs, e)] := by
    rw [List.map_append, creations_append]
    rfl
  have hold : ∀ p : Nat, p < (creations (calls.map Prod.fst)).length →
      (p ∈ ps ↔ ((creations ((calls ++ [(Op.create k rs e, b)]).map Prod.fst))[p]?).map (fun c => c.2.2) = some true ∧
        ¬ Settled (calls ++ [(.create k rs e, b)]) p) := by
    intro p hlt
    rw [hcr, List.getElem?_append_left hlt, settled_snoc hlt, h.2 p]
    simp
  have hnew : ¬ Settled (calls ++ [(.create k rs e, b)]) (creations (calls.map Prod.fst)).length := by
    rintro ⟨c, hc, h1, -⟩
    rw [List.mem_append] at hc
    rcases hc with hc | hc
    · have := valid_mem hv c.1 (List.mem_map.mpr ⟨c, hc, rfl⟩)
      rw [h1] at this
      exact Nat.lt_irrefl _ this
    · simp only [List.mem_singleton] at hc
      subst hc
      cases h1
  refine ⟨?_, fun p => ?_⟩
  · split_ifs with he
    · rw [List.pairwise_append]
      refine ⟨h.1, List.pairwise_singleton _ _, ?_⟩
      intro a ha b hb
      rw [List.mem_singleton] at hb
      subst hb
      exact pending_lt h ha
    · exact h.1
  · rcases Nat.lt_trichotomy p (creations (calls.map Prod.fst)).length with hlt | heq | hgt
    · rw [← hold p hlt]
      split_ifs with he
      · rw [List.mem_append, List.mem_singleton]
        constructor
        · rintro (h1 | h1)
          · exact h1
          · omega
        · exact Or.inl
      · rfl
    · subst heq
      rw [hcr, List.getElem?_append_right (Nat.le_refl _)]
      have hn : (creations (calls.map Prod.fst)).length ∉ ps := fun h' => Nat.lt_irrefl _ (pending_lt h h')
      cases e with
      | true => simp [hnew]
      | false => simp [hn]
    · have h1 : p ∉ ps := fun h' => by have := pending_lt h h'; omega
      have h2 : (creations ((calls ++ [(Op.create k rs e, b)]).map Prod.fst))[p]? = none := by
        rw [hcr, List.getElem?_eq_none_iff, List.length_append, List.length_singleton]; omega
      rw [h2]
      split_ifs with he
      · simp [h1]; omega
      · simp [h1]

theorem inv_add {calls : List (Op × Bool)} {w : World} (h : Inv calls w) (p x : Nat)
    (ok : p < (creations (calls.map Prod.fst)).length) (raises : Nat → Nat → Bool) :
    Inv (calls ++ [(.add p x, (step raises w (.add p x)).2)]) (step raises w (.add p x)).1 := by
  have hcr : creations ((calls ++ [(Op.add p x, (step raises w (.add p x)).2)]).map Prod.fst) = creations (calls.map Prod.fst) := by
    rw [List.map_append, creations_append]
    show _ ++ creations [.add p x] = _
    simp [creations]
  have hmap : (calls ++ [(Op.add p x, (step raises w (.add p x)).2)]).map Prod.fst = calls.map Prod.fst ++ [.add p x] := by simp
  obtain ⟨v, hv⟩ : ∃ v, w.provs[p]? = some v := by
    rw [← h.len] at ok
    exact ⟨w.provs[p], List.getElem?_eq_getElem ok⟩
  have hpend := pending_same (o := .add p x) (b := (step raises w (.add p x)).2) h.hand (by simp [creations]) (fun q e => by cases e)
  have hgiven : ∀ (q : Nat) (u : Prov), w.provs[q]? = some u →
      given (calls.map Prod.fst ++ [.add p x]) q = if q = p ∧ u.kind ≠ .meter then u.procs ++ [x] else u.procs := by
    intro q u hu
    have hk := h.kind q u hu
    have hp := h.procs q u hu
    obtain ⟨c, hc, hck⟩ := Option.map_eq_some_iff.mp hk
    have hq : q < (creations (calls.map Prod.fst)).length := (List.getElem?_eq_some_iff.mp hc).1
    rw [given_eq _ q c (by rw [getElem?_creations _ hq, hc])]
    rw [given_eq _ q c hc] at hp
    rw [adds_append]
    by_cases hm : c.1 = .meter
    · rw [if_pos hm] at hp ⊢
      rw [if_neg (by rw [← hck]; tauto), hp]
    · rw [if_neg hm] at hp ⊢
      by_cases e : q = p
      · rw [if_pos ⟨e, by rw [← hck]; exact hm⟩, hp]
        simp [adds, e]
      · rw [if_neg (fun h' => e h'.1), hp]
        simp [adds]; omega
  by_cases hm : v.kind = .meter
  · have hst : step raises w (.add p x) = (w, false) := by simp [step, hv, hm]
    rw [hst] at hcr hmap hpend ⊢
    refine ⟨by rw [hcr]; exact h.len, fun q u hu => ?_, fun q u hu => ?_, fun q u hu hk => ?_, hpend, h.opened⟩
    · rw [kindOf, hcr]; exact h.kind q u hu
    · rw [hmap, hgiven q u hu, if_neg]
      rintro ⟨rfl, h1⟩
      rw [hv] at hu
      exact h1 (by rw [← Option.some.inj hu]; exact hm)
    · rw [hmap, h.shut q u hu hk]; simp
  · have hst : step raises w (.add p x) = ({ w with provs := w.provs.set p { v with procs := v.procs ++ [x] } }, false) := by
      simp [step, hv, hm]
    rw [hst] at hcr hmap hpend ⊢
    have hget : ∀ (q : Nat) (u : Prov), (w.provs.set p { v with procs := v.procs ++ [x] })[q]? = some u →
        ∃ u', w.provs[q]? = some u' ∧ u.kind = u'.kind ∧ u.shut = u'.shut ∧
          u.procs = if q = p ∧ u'.kind ≠ .meter then u'.procs ++ [x] else u'.procs := by
      intro q u hu
      by_cases e : q = p
      · subst e
        rw [List.getElem?_set_self (List.getElem?_eq_some_iff.mp hv).1, Option.some.injEq] at hu
        subst hu
        exact ⟨v, hv, rfl, rfl, by rw [if_pos ⟨rfl, hm⟩]⟩
      · rw [List.getElem?_set_ne (fun h' => e h'.symm)] at hu
        exact ⟨u, hu, rfl, rfl, by rw [if_neg (fun h' => e h'.1)]⟩
    refine ⟨?_, fun q u hu => ?_, fun q u hu => ?_, fun q u hu hk => ?_, hpend, h.opened⟩
    · rw [hcr]; simpa using h.len
    · obtain ⟨u', h1, h2, -, -⟩ := hget q u hu
      rw [kindOf, hcr, h2]; exact h.kind q u' h1
    · obtain ⟨u', h1, -, -, h2⟩ := hget q u hu
      rw [hmap, hgiven q u' h1, h2]
    · obtain ⟨u', h1, h2, h3, -⟩ := hget q u hu
      rw [hmap, h3, h.shut q u' h1 (h2 ▸ hk)]; simp

theorem inv_create {calls : List (Op × Bool)} {w : World} (h : Inv calls w) (hv : Valid (calls.map Prod.fst))
    (k : Kind) (rs : List Nat) (e : Bool) (raises : Nat → Nat → Bool) :
    Inv (calls ++ [(.create k rs e, (step raises w (.create k rs e)).2)]) (step raises w (.create k rs e)).1 := by
  have hcr : creations ((calls ++ [(Op.create k rs e, (step raises w (.create k rs e)).2)]).map Prod.fst) =
      creations (calls.map Prod.fst) ++ [(k, rs, e)] := by
    rw [List.map_append, creations_append]
    rfl
  have hmap : (calls ++ [(Op.create k rs e, (step raises w (.create k rs e)).2)]).map Prod.fst =
      calls.map Prod.fst ++ [.create k rs e] := by simp
  have hp : (step raises w (.create k rs e)).1.provs = w.provs ++ [⟨k, if k = .meter then rs else [], false⟩] := by
    cases k <;> simp [step]
  have hh : (step raises w (.create k rs e)).1.handlers = if e then w.handlers ++ [w.provs.length] else w.handlers := by
    cases k <;> simp [step]
  have ho : (step raises w (.create k rs e)).1.closed = w.closed := by cases k <;> simp [step]
  have hget : ∀ (q : Nat) (u : Prov), (step raises w (.create k rs e)).1.provs[q]? = some u →
      (q < w.provs.length ∧ w.provs[q]? = some u) ∨ (q = w.provs.length ∧ u = ⟨k, if k = .meter then rs else [], false⟩) := by
    intro q u hu
    rw [hp] at hu
    generalize (⟨k, if k = .meter then rs else [], false⟩ : Prov) = z at hu ⊢
    by_cases h1 : q < w.provs.length
    · rw [List.getElem?_append_left h1] at hu
      exact Or.inl ⟨h1, hu⟩
    · rw [List.getElem?_append_right (by omega)] at hu
      have := (List.getElem?_eq_some_iff.mp hu).1
      simp only [List.length_singleton] at this
      have e1 : q = w.provs.length := by omega
      subst e1
      refine Or.inr ⟨rfl, ?_⟩
      simpa using hu.symm
  refine ⟨?_, fun q u hu => ?_, fun q u hu => ?_, fun q u hu hk => ?_, ?_, by rw [ho]; exact h.opened⟩
  · rw [hcr, hp]; simp [h.len]
  · rcases hget q u hu with ⟨h1, h2⟩ | ⟨h1, h2⟩
    · rw [hmap, kindOf_snoc _ (by rw [← h.len]; exact h1)]
      exact h.kind q u h2
    · subst h2 h1
      rw [kindOf, hcr, h.len, List.getElem?_append_right (Nat.le_refl _)]
      simp
  · rcases hget q u hu with ⟨h1, h2⟩ | ⟨h1, h2⟩
    · have hlt : q < (creations (calls.map Prod.fst)).length := by rw [← h.len]; exact h1
      obtain ⟨c, hc⟩ : ∃ c, (creations (calls.map Prod.fst))[q]? = some c := ⟨_, List.getElem?_eq_getElem hlt⟩
      rw [h.procs q u h2, hmap, given_eq _ q c hc, given_eq _ q c (by rw [getElem?_creations _ hlt, hc]), adds_append]
      simp [adds]
    · subst h2 h1
      have hc : (creations (calls.map Prod.fst ++ [Op.create k rs e]))[w.provs.length]? = some (k, rs, e) := by
        rw [← hmap, hcr, h.len, List.getElem?_append_right (Nat.le_refl _)]
        simp
      rw [hmap, given_eq _ _ _ hc, adds_append, adds_none hv (Nat.le_of_eq h.len.symm)]
      simp [adds]
  · rcases hget q u hu with ⟨h1, h2⟩ | ⟨h1, h2⟩
    · rw [hmap, h.shut q u h2 hk]; simp
    · subst h2 h1
      rw [hmap]
      simp only [Bool.false_eq_true, false_iff]
      intro hm
      rw [List.mem_append] at hm
      rcases hm with hm | hm
      · have : w.provs.length < (creations (calls.map Prod.fst)).length := valid_mem hv _ hm
        rw [h.len] at this
        exact Nat.lt_irrefl _ this
      · simp at hm
  · rw [hh, h.len]
    exact pending_create hv h.hand

/-- The ways in which `shutdown` changes providers and handlers. -/
theorem shutdown_cases (raises : Nat → Nat → Bool) (w : World) (p : Nat) (v : Prov) (hv : w.provs[p]? = some v)
    (ho : w.closed = false) :
    (v.kind ≠ .meter ∧ (shutdown raises w p).1.provs = w.provs ∧
      (shutdown raises w p).1.handlers = (if (shutdown raises w p).2 then w.handlers else w.handlers.filter (· ≠ p))) ∨
    (v.kind = .meter ∧ v.shut = true ∧ shutdown raises w p = (w, false)) ∨
    (v.kind = .meter ∧ v.shut = false ∧ (shutdown raises w p).1.provs = w.provs.set p { v with shut := true } ∧
      (shutdown raises w p).1.handlers = w.handlers.filter (· ≠ p)) := by
  obtain ⟨k, ps, s⟩ := v
  cases k with
  | sync =>
    left
    by_cases h1 : (seqLoop raises p ps w.log).2 = true <;> simp [shutdown, hv, h1, World.unregister]
  | conc =>
    left
    by_cases h1 : (allLoop raises p ps w.log).2 = true <;> simp [shutdown, hv, ho, h1, World.unregister]
  | meter =>
    right
    cases s with
    | true => left; simp [shutdown, hv]
    | false => right; simp [shutdown, hv, World.unregister]

theorem shutdown_closed (raises : Nat → Nat → Bool) (w : World) (p : Nat) : (shutdown raises w p).1.closed = w.closed := by
  unfold shutdown
  cases hv : w.provs[p]? with
  | none => rfl
  | some v =>
    obtain ⟨k, ps, s⟩ := v
    cases k <;> simp only <;> split_ifs <;> rfl

theorem inv_shutdown {calls : List (Op × Bool)} {w : World} (h : Inv calls w) (p : Nat)
    (ok : p < (creations (calls.map Prod.fst)).length) (raises : Nat → Nat → Bool) :
    Inv (calls ++ [(.shutdown p, (shutdown raises w p).2)]) (shutdown raises w p).1 := by
  have hcr : ∀ b : Bool, creations ((calls ++ [(Op.shutdown p, b)]).map Prod.fst) = creations (calls.map Prod.fst) := by
    intro b
    rw [List.map_append, creations_append]
    show _ ++ creations [.shutdown p] = _
    simp [creations]
  have hmap : ∀ b : Bool, (calls ++ [(Op.shutdown p, b)]).map Prod.fst = calls.map Prod.fst ++ [.shutdown p] := by simp
  have hadds : ∀ q : Nat, given (calls.map Prod.fst ++ [.shutdown p]) q = given (calls.map Prod.fst) q := by
    intro q
    have e := hcr true
    rw [hmap] at e
    simp only [given, e, adds_append]
    simp [adds]
  obtain ⟨v, hv⟩ : ∃ v, w.provs[p]? = some v := by
    rw [← h.len] at ok
    exact ⟨w.provs[p], List.getElem?_eq_getElem ok⟩
  have hkind := h.kind p v hv
  have hcl := shutdown_closed raises w p
  rcases shutdown_cases raises w p v hv h.opened with ⟨hk, e1, e2⟩ | ⟨hk, hs, e⟩ | ⟨hk, hs, e1, e2⟩
  · refine ⟨by rw [hcr, e1]; exact h.len, fun q u hu => ?_, fun q u hu => ?_, fun q u hu hm => ?_, ?_, hcl.trans h.opened⟩
    · rw [e1] at hu
      rw [kindOf, hcr]; exact h.kind q u hu
    · rw [e1] at hu
      rw [hmap, hadds]; exact h.procs q u hu
    · rw [e1] at hu
      rw [hmap, h.shut q u hu hm]
      simp only [List.mem_append, List.mem_singleton, Op.shutdown.injEq]
      constructor
      · exact Or.inl
      · rintro (h1 | rfl)
        · exact h1
        · rw [hv] at hu
          exact absurd hm (by rw [← Option.some.inj hu]; exact hk)
    · rw [e2]
      cases hb : (shutdown raises w p).2 with
      | true =>
        refine pending_same h.hand (by simp [creations]) ?_
        rintro q hq -
        cases hq
        rw [hkind]
        simpa using hk
      | false => exact pending_filter h.hand (Or.inr rfl)
  · rw [e]
    have hmem := (h.shut p v hv hk).mp hs
    have hset : Settled calls p := by
      obtain ⟨c, hc, e⟩ := List.mem_map.mp hmem
      exact ⟨c, hc, e, Or.inl (by rw [hkind, hk])⟩
    refine ⟨by rw [hcr]; exact h.len, fun q u hu => ?_, fun q u hu => ?_, fun q u hu hm => ?_, ?_, h.opened⟩
    · rw [kindOf, hcr]; exact h.kind q u hu
    · rw [hmap, hadds]; exact h.procs q u hu
    · rw [hmap, h.shut q u hu hm]
      simp only [List.mem_append, List.mem_singleton, Op.shutdown.injEq]
      constructor
      · exact Or.inl
      · rintro (h1 | rfl)
        · exact h1
        · exact hmem
    · refine pending_same h.hand (by simp [creations]) ?_
      rintro q hq hq'
      cases hq
      exact absurd hset ((h.hand.2 p).mp hq').2
  · have hget : ∀ (q : Nat) (u : Prov), (shutdown raises w p).1.provs[q]? = some u →
        ∃ u', w.provs[q]? = some u' ∧ u.kind = u'.kind ∧ u.procs = u'.procs ∧ (u.shut = true ↔ u'.shut = true ∨ q = p) := by
      intro q u hu
      rw [e1] at hu
      by_cases e : q = p
      · subst e
        rw [List.getElem?_set_self (List.getElem?_eq_some_iff.mp hv).1, Option.some.injEq] at hu
        subst hu
        exact ⟨v, hv, rfl, rfl, by simp⟩
      · rw [List.getElem?_set_ne (fun h' => e h'.symm)] at hu
        exact ⟨u, hu, rfl, rfl, by simp [e]⟩
    refine ⟨by rw [hcr, e1, List.length_set]; exact h.len, fun q u hu => ?_, fun q u hu => ?_, fun q u hu hm => ?_, ?_,
      hcl.trans h.opened⟩
    · obtain ⟨u', h1, h2, -, -⟩ := hget q u hu
      rw [kindOf, hcr, h2]; exact h.kind q u' h1
    · obtain ⟨u', h1, -, h2, -⟩ := hget q u hu
      rw [hmap, hadds, h2]; exact h.procs q u' h1
    · obtain ⟨u', h1, h2, -, h3⟩ := hget q u hu
      rw [hmap, h3, h.shut q u' h1 (h2 ▸ hm)]
      simp only [List.mem_append, List.mem_singleton, Op.shutdown.injEq]
    · rw [e2]
      exact pending_filter h.hand (Or.inl (by rw [hkind, hk]))

theorem calls_ops (raises : Nat → Nat → Bool) (l : List Op) : (calls raises l).map Prod.fst = l := by
  rw [calls, List.map_fst_zip]
  exact Nat.le_of_eq (run_length raises l World.init).symm

theorem calls_snoc (raises : Nat → Nat → Bool) (l : List Op) (o : Op) :
    calls raises (l ++ [o]) = calls raises l ++ [(o, (step raises (run raises World.init l).1 o).2)] := by
  rw [calls, run_append, List.zip_append (by rw [run_length])]
  rfl

theorem inv_run (raises : Nat → Nat → Bool) (l : List Op) (hv : Valid l) :
    Inv (calls raises l) (run raises World.init l).1 := by
  induction l using List.reverseRecOn with
  | nil =>
    refine ⟨rfl, ?_, ?_, ?_, ⟨List.Pairwise.nil, ?_⟩, rfl⟩
    · intro p v h; simp [run, World.init] at h
    · intro p v h; simp [run, World.init] at h
    · intro p v h; simp [run, World.init] at h
    · intro p; simp [run, World.init, creations, calls]
  | append_singleton l o ih =>
    obtain ⟨h1, h2⟩ := valid_snoc hv
    have ih := ih h1
    rw [calls_snoc, run_append]
    show Inv _ (step raises (run raises World.init l).1 o).1
    cases o with
    | create k rs e => exact inv_create ih (by rw [calls_ops]; exact h1) k rs e raises
    | add p x => exact inv_add ih p x (by rw [calls_ops]; exact h2) raises
    | shutdown p => exact inv_shutdown ih p (by rw [calls_ops]; exact h2) raises

/-! ## The handlers -/

theorem handled_fst {raises : Nat → Nat → Bool} {p : Nat} {k : Kind} {xs : List Nat} {n : Nat} {seg : List (Nat × Nat)}
    (h : Handled raises p k xs n seg) : ∀ e ∈ seg, e.1 = p := by
  intro e he
  cases k with
  | sync =>
    obtain ⟨m, rfl, -, -⟩ := h
    obtain ⟨x, -, rfl⟩ := List.mem_map.mp he
    rfl
  | conc =>
    have h : seg = [] := h
    subst h
    cases he
  | meter =>
    have h : seg = xs.map fun x => (p, x) := h
    subst h
    obtain ⟨x, -, rfl⟩ := List.mem_map.mp he
    rfl

theorem handler_step (raises : Nat → Nat → Bool) (w : World) (p : Nat) (v : Prov) (hv : w.provs[p]? = some v)
    (hc : w.closed = true) (hs : v.kind = .meter → v.shut = false) :
    ∃ seg, (shutdown raises w p).1.log = w.log ++ seg ∧ Handled raises p v.kind v.procs w.log.length seg ∧
      (shutdown raises w p).1.closed = true ∧ ∀ q : Nat, q ≠ p → (shutdown raises w p).1.provs[q]? = w.provs[q]? := by
  obtain ⟨k, ps, s⟩ := v
  have hcl := (shutdown_closed raises w p).trans hc
  cases k with
  | sync =>
    obtain ⟨m, h1, h2, h3, -⟩ := seqLoop_spec raises p ps w.log
    refine ⟨(ps.take m).map (fun x => (p, x)), ?_, ⟨m, rfl, h2, h3⟩, hcl, fun q _ => ?_⟩
    · by_cases h : (seqLoop raises p ps w.log).2 = true <;> simp [shutdown, hv, h, World.unregister, h1]
    · by_cases h : (seqLoop raises p ps w.log).2 = true <;> simp [shutdown, hv, h, World.unregister]
  | conc =>
    refine ⟨[], ?_, rfl, hcl, fun q _ => ?_⟩
    · cases ps with
      | nil => simp [shutdown, hv, allLoop, World.unregister]
      | cons x xs => simp [shutdown, hv, hc]
    · cases ps with
      | nil => simp [shutdown, hv, allLoop, World.unregister]
      | cons x xs => simp [shutdown, hv, hc]
  | meter =>
    have hs : s = false := hs rfl
    subst hs
    refine ⟨ps.map fun x => (p, x), ?_, rfl, hcl, fun q hq => ?_⟩
    · simp [shutdown, hv, World.unregister, allLoop_spec]
    · simp [shutdown, hv, World.unregister, List.getElem?_set_ne (fun h' => hq h'.symm)]

theorem handlers_spec (raises : Nat → Nat → Bool) (ps : List Nat) (w : World) (hc : w.closed = true) (hn : ps.Nodup)
    (hp : ∀ p ∈ ps, ∃ v, w.provs[p]? = some v ∧ (v.kind = .meter → v.shut = false)) :
    ∃ segs : List (List (Nat × Nat)), segs.length = ps.length ∧ (callHandlers raises ps w).log = w.log ++ segs.flatten ∧
      ∀ (i p : Nat) (seg : List (Nat × Nat)) (v : Prov), ps[i]? = some p → segs[i]? = some seg → w.provs[p]? = some v →
        Handled raises p v.kind v.procs (w.log.length + (segs.take i).flatten.length) seg := by
  induction ps generalizing w with
  | nil => exact ⟨[], rfl, by simp [callHandlers], by simp⟩
  | cons p ps ih =>
    obtain ⟨v, hv, hs⟩ := hp p (by simp)
    obtain ⟨seg, e1, e2, e3, e4⟩ := handler_step raises w p v hv hc hs
    rw [List.nodup_cons] at hn
    have hne : ∀ q ∈ ps, q ≠ p := fun q hq h => hn.1 (h ▸ hq)
    obtain ⟨segs, f1, f2, f3⟩ := ih (shutdown raises w p).1 e3 hn.2 (by
      intro q hq
      obtain ⟨u, hu, h⟩ := hp q (List.mem_cons_of_mem _ hq)
      exact ⟨u, by rw [e4 q (hne q hq), hu], h⟩)
    refine ⟨seg :: segs, by simp [f1], by simp [callHandlers, f2, e1], ?_⟩
    intro i q sg u h1 h2 h3
    cases i with
    | zero =>
      simp only [List.getElem?_cons_zero, Option.some.injEq] at h1 h2
      subst h1 h2
      rw [hv] at h3
      cases h3
      simpa using e2
    | succ i =>
      simp only [List.getElem?_cons_succ] at h1 h2
      have hq : q ∈ ps := List.mem_of_getElem? h1
      have := f3 i q sg u h1 h2 (by rw [e4 q (hne q hq), h3])
      rw [e1, List.length_append] at this
      simpa [Nat.add_assoc] using this

/-- What has been shut down so far never changes; the rest is what the handlers do. -/
theorem exit_spec (raises : Nat → Nat → Bool) (l : List Op) (hv : Valid l) :
    ∃ (ps : List Nat) (segs : List (List (Nat × Nat))), IsPending (calls raises l) ps ∧ segs.length = ps.length ∧
      (whole raises l).log = before raises l ++ segs.flatten ∧
      ∀ (i p : Nat) (k : Kind) (seg : List (Nat × Nat)), ps.reverse[i]? = some p → segs[i]? = some seg → kindOf l p = some k →
        Handled raises p k (given l p) ((before raises l).length + (segs.take i).flatten.length) seg := by
  have inv := inv_run raises l hv
  have hpend := inv.hand
  have hprov : ∀ p ∈ (run raises World.init l).1.handlers, ∃ v, (run raises World.init l).1.provs[p]? = some v ∧
      (v.kind = .meter → v.shut = false) := by
    intro p hp
    have hlt := pending_lt hpend hp
    rw [← inv.len] at hlt
    refine ⟨_, List.getElem?_eq_getElem hlt, fun hm => ?_⟩
    have h1 := inv.shut p _ (List.getElem?_eq_getElem hlt) hm
    by_contra hs
    rw [Bool.not_eq_false] at hs
    obtain ⟨c, hc, e⟩ := List.mem_map.mp (h1.mp hs)
    exact ((hpend.2 p).mp hp).2 ⟨c, hc, e, Or.inl (by rw [inv.kind p _ (List.getElem?_eq_getElem hlt), hm])⟩
  have hnd : (run raises World.init l).1.handlers.reverse.Nodup := by
    rw [List.nodup_reverse]
    exact hpend.1.imp (fun h => Nat.ne_of_lt h)
  obtain ⟨segs, h1, h2, h3⟩ := handlers_spec raises (run raises World.init l).1.handlers.reverse
    { (run raises World.init l).1 with closed := true } rfl hnd (fun p hp => hprov p (List.mem_reverse.mp hp))
  refine ⟨(run raises World.init l).1.handlers, segs, hpend, by simpa using h1, h2, ?_⟩
  intro i p k seg e1 e2 e3
  obtain ⟨v, hv', -⟩ := hprov p (List.mem_reverse.mp (List.mem_of_getElem? e1))
  have := h3 i p seg v e1 e2 hv'
  have hk := inv.kind p v hv'
  have hp := inv.procs p v hv'
  rw [calls_ops] at hk hp
  rw [e3, Option.some.injEq] at hk
  rw [hp, ← hk] at this
  exact this

/-- **C106** At exit, after all shutdowns the program has made itself, the providers that were made with `shutdown_on_exit` and
have not been shut down are shut down, the last one first, whatever the handlers of others raise. -/
theorem C106_exit (raises : Nat → Nat → Bool) (l : List Op) (hv : Valid l) :
    ∃ (ps : List Nat) (segs : List (List (Nat × Nat))), IsPending (calls raises l) ps ∧ segs.length = ps.length ∧
      (whole raises l).log = before raises l ++ segs.flatten ∧
      ∀ (i p : Nat) (k : Kind) (seg : List (Nat × Nat)), ps.reverse[i]? = some p → segs[i]? = some seg → kindOf l p = some k →
        Handled raises p k (given l p) ((before raises l).length + (segs.take i).flatten.length) seg :=
  exit_spec raises l hv

theorem by_append (p : Nat) (a b : List (Nat × Nat)) : by_ p (a ++ b) = by_ p a ++ by_ p b := by simp [by_]

theorem by_all {p : Nat} {a : List (Nat × Nat)} (h : ∀ e ∈ a, e.1 = p) : by_ p a = a := by
  rw [by_, List.filter_eq_self]
  intro e he
  simpa using h e he

theorem by_none {p : Nat} {a : List (Nat × Nat)} (h : ∀ e ∈ a, e.1 ≠ p) : by_ p a = [] := by
  rw [by_, List.filter_eq_nil_iff]
  intro e he
  simpa using h e he

/-- The part of the handlers' calls that belongs to one provider. -/
theorem by_flatten (ps : List Nat) (segs : List (List (Nat × Nat))) (hl : segs.length = ps.length) (hn : ps.Nodup)
    (hf : ∀ (i p : Nat) (seg : List (Nat × Nat)), ps[i]? = some p → segs[i]? = some seg → ∀ e ∈ seg, e.1 = p) :
    (∀ p : Nat, p ∉ ps → by_ p segs.flatten = []) ∧
      ∀ (i p : Nat) (seg : List (Nat × Nat)), ps[i]? = some p → segs[i]? = some seg → by_ p segs.flatten = seg := by
  induction ps generalizing segs with
  | nil =>
    have : segs = [] := List.length_eq_zero_iff.mp hl
    subst this
    simp [by_]
  | cons q ps ih =>
    cases segs with
    | nil => simp at hl
    | cons sg segs =>
      rw [List.nodup_cons] at hn
      have hq := hf 0 q sg rfl rfl
      obtain ⟨i1, i2⟩ := ih segs (by simpa using hl) hn.2 (fun i p seg h1 h2 => hf (i + 1) p seg h1 h2)
      constructor
      · intro p hp
        rw [List.mem_cons, not_or] at hp
        rw [List.flatten_cons, by_append, i1 p hp.2, by_none, List.append_nil]
        intro e he h
        exact hp.1 (by rw [← h, hq e he])
      · intro i p seg h1 h2
        cases i with
        | zero =>
          simp only [List.getElem?_cons_zero, Option.some.injEq] at h1 h2
          subst h1 h2
          rw [List.flatten_cons, by_append, i1 q hn.1, by_all hq, List.append_nil]
        | succ i =>
          simp only [List.getElem?_cons_succ] at h1 h2
          rw [List.flatten_cons, by_append, i2 i p seg h1 h2, by_none, List.nil_append]
          intro e he h
          have : p ∈ ps := List.mem_of_getElem? h1
          rw [← h, hq e he] at this
          exact hn.1 this

/-- The calls a provider makes at exit. -/
theorem exit_of (raises : Nat → Nat → Bool) (l : List Op) (hv : Valid l) :
    ∃ (ps : List Nat) (tail : List (Nat × Nat)), IsPending (calls raises l) ps ∧ (whole raises l).log = before raises l ++ tail ∧
      (∀ p : Nat, p ∉ ps → by_ p tail = []) ∧
      ∀ (p : Nat) (k : Kind), p ∈ ps → kindOf l p = some k → ∃ n : Nat, Handled raises p k (given l p) n (by_ p tail) := by
  obtain ⟨ps, segs, h1, h2, h3, h4⟩ := exit_spec raises l hv
  have hkind : ∀ p ∈ ps, ∃ k, kindOf l p = some k := by
    intro p hp
    have := ((h1.2 p).mp hp).1
    rw [calls_ops, Option.map_eq_some_iff] at this
    obtain ⟨c, hc, -⟩ := this
    exact ⟨c.1, by rw [kindOf, hc]; rfl⟩
  obtain ⟨f1, f2⟩ := by_flatten ps.reverse segs (by simpa using h2) (by
      rw [List.nodup_reverse]
      exact h1.1.imp (fun h => Nat.ne_of_lt h)) (by
      intro i p seg e1 e2
      obtain ⟨k, hk⟩ := hkind p (List.mem_reverse.mp (List.mem_of_getElem? e1))
      exact handled_fst (h4 i p k seg e1 e2 hk))
  refine ⟨ps, segs.flatten, h1, h3, fun p hp => f1 p (by simpa using hp), fun p k hp hk => ?_⟩
  obtain ⟨i, hi, e⟩ := List.getElem_of_mem (List.mem_reverse.mpr hp)
  have e1 : ps.reverse[i]? = some p := by rw [List.getElem?_eq_getElem hi, e]
  have hi' : i < segs.length := by rw [h2]; simpa using hi
  have e2 : segs[i]? = some segs[i] := List.getElem?_eq_getElem hi'
  rw [f2 i p _ e1 e2]
  exact ⟨_, h4 i p k _ e1 e2 hk⟩

/-- **C106** A provider that is to be shut down at exit, has not been before, and whose processors do not raise: each of them is
shut down once at exit, in order, whatever other providers do. -/
theorem C106_each (raises : Nat → Nat → Bool) (l : List Op) (hv : Valid l) (p : Nat) (hk : kindOf l p = some .sync)
    (he : ((creations l)[p]?).map (fun c => c.2.2) = some true) (hs : ¬ Settled (calls raises l) p)
    (hr : ∀ x ∈ given l p, ∀ n : Nat, raises x n = false) :
    ∃ tail, (whole raises l).log = before raises l ++ tail ∧ by_ p tail = (given l p).map fun x => (p, x) := by
  obtain ⟨ps, tail, h1, h2, h3, h4⟩ := exit_of raises l hv
  refine ⟨tail, h2, ?_⟩
  obtain ⟨n, m, e1, -, e2⟩ := h4 p .sync ((h1.2 p).mpr ⟨by rw [calls_ops]; exact he, hs⟩) hk
  rw [e1]
  by_cases hm : m < (given l p).length
  · obtain ⟨i, x, -, e3, e4⟩ := e2 hm
    rw [hr x (List.mem_of_getElem? e3)] at e4
    cases e4
  · rw [List.take_of_length_le (by omega)]

/-- **C106** The same for the readers of a meter provider, which may raise. -/
theorem C106_each_reader (raises : Nat → Nat → Bool) (l : List Op) (hv : Valid l) (p : Nat) (hk : kindOf l p = some .meter)
    (he : ((creations l)[p]?).map (fun c => c.2.2) = some true) (hs : ¬ Settled (calls raises l) p) :
    ∃ tail, (whole raises l).log = before raises l ++ tail ∧ by_ p tail = (given l p).map fun x => (p, x) := by
  obtain ⟨ps, tail, h1, h2, h3, h4⟩ := exit_of raises l hv
  refine ⟨tail, h2, ?_⟩
  obtain ⟨n, e1⟩ := h4 p .meter ((h1.2 p).mpr ⟨by rw [calls_ops]; exact he, hs⟩) hk
  exact e1

/-- **C106** Nothing of a provider is shut down at exit if the program has shut it down itself, or said that it does not want
that. -/
theorem C106_settled (raises : Nat → Nat → Bool) (l : List Op) (hv : Valid l) (p : Nat)
    (h : ((creations l)[p]?).map (fun c => c.2.2) ≠ some true ∨ Settled (calls raises l) p) :
    by_ p (whole raises l).log = by_ p (before raises l) := by
  obtain ⟨ps, tail, h1, h2, h3, h4⟩ := exit_of raises l hv
  rw [h2, by_append, h3 p, List.append_nil]
  intro hp
  have := (h1.2 p).mp hp
  rw [calls_ops] at this
  tauto

/-- **C106** refuted: the processors of a `ConcurrentMulti…Processor` are never shut down at exit (so what a batch processor among
them still holds is lost). -/
theorem C106_pool_violated (raises : Nat → Nat → Bool) (l : List Op) (hv : Valid l) (p : Nat) (hk : kindOf l p = some .conc) :
    by_ p (whole raises l).log = by_ p (before raises l) := by
  obtain ⟨ps, tail, h1, h2, h3, h4⟩ := exit_of raises l hv
  rw [h2, by_append]
  by_cases hp : p ∈ ps
  · obtain ⟨n, e⟩ := h4 p .conc hp hk
    have e : by_ p tail = [] := e
    rw [e, List.append_nil]
  · rw [h3 p hp, List.append_nil]

/-! ## What the program does itself -/

theorem shutdown_log (raises : Nat → Nat → Bool) (w : World) (p : Nat) (v : Prov) (hv : w.provs[p]? = some v)
    (hc : w.closed = false) :
    ∃ seg, (shutdown raises w p).1.log = w.log ++ seg ∧ (∀ e ∈ seg, e.1 = p) ∧
      (v.kind = .meter → seg = if v.shut then [] else v.procs.map fun x => (p, x)) ∧
      (v.kind ≠ .meter → (shutdown raises w p).2 = false → seg = v.procs.map fun x => (p, x)) := by
  obtain ⟨k, ps, s⟩ := v
  cases k with
  | sync =>
    obtain ⟨m, h1, h2, h3, h4⟩ := seqLoop_spec raises p ps w.log
    refine ⟨(ps.take m).map (fun x => (p, x)), ?_, ?_, fun h => (by cases h), fun _ hr => ?_⟩
    · by_cases h : (seqLoop raises p ps w.log).2 = true <;> simp [shutdown, hv, h, World.unregister, h1]
    · intro e he
      obtain ⟨x, -, rfl⟩ := List.mem_map.mp he
      rfl
    · have : (seqLoop raises p ps w.log).2 = false := by
        by_contra h
        rw [Bool.not_eq_false] at h
        simp [shutdown, hv, h] at hr
      rw [h4 this, List.take_length]
  | conc =>
    refine ⟨ps.map (fun x => (p, x)), ?_, ?_, fun h => (by cases h), fun _ _ => rfl⟩
    · by_cases h : (allLoop raises p ps w.log).2 = true <;> simp [shutdown, hv, hc, h, World.unregister, allLoop_spec]
    · intro e he
      obtain ⟨x, -, rfl⟩ := List.mem_map.mp he
      rfl
  | meter =>
    cases s with
    | true => exact ⟨[], by simp [shutdown, hv], by simp, by simp, by simp⟩
    | false =>
      refine ⟨ps.map (fun x => (p, x)), by simp [shutdown, hv, World.unregister, allLoop_spec], ?_, by simp, by simp⟩
      intro e he
      obtain ⟨x, -, rfl⟩ := List.mem_map.mp he
      rfl

theorem before_snoc (raises : Nat → Nat → Bool) (l : List Op) (o : Op) :
    before raises (l ++ [o]) = (step raises (run raises World.init l).1 o).1.log := by
  rw [before, run_append]
  rfl

theorem step_log (raises : Nat → Nat → Bool) (w : World) (o : Op) (h : ∀ p : Nat, o ≠ .shutdown p) :
    (step raises w o).1.log = w.log := by
  cases o with
  | create k rs e => cases k <;> rfl
  | add p x =>
    simp only [step]
    cases w.provs[p]? with
    | none => rfl
    | some v => simp only; split_ifs <;> rfl
  | shutdown p => exact absurd rfl (h p)

/-- **C106** A call of `shutdown` that returns has shut down each processor given to the provider so far, once and in
order. -/
theorem C106_shutdown (raises : Nat → Nat → Bool) (l : List Op) (p : Nat) (hv : Valid (l ++ [.shutdown p]))
    (hk : kindOf l p ≠ some .meter) (hr : (.shutdown p, true) ∉ calls raises (l ++ [.shutdown p])) :
    before raises (l ++ [.shutdown p]) = before raises l ++ (given l p).map fun x => (p, x) := by
  obtain ⟨hv, ok⟩ := valid_snoc hv
  have inv := inv_run raises l hv
  have ok : p < (creations l).length := ok
  obtain ⟨v, hp⟩ : ∃ v, (run raises World.init l).1.provs[p]? = some v := by
    refine ⟨_, List.getElem?_eq_getElem ?_⟩
    rw [inv.len, calls_ops]; exact ok
  obtain ⟨seg, h1, h2, h3, h4⟩ := shutdown_log raises _ p v hp inv.opened
  have hkind := inv.kind p v hp
  have hpr := inv.procs p v hp
  rw [calls_ops] at hkind hpr
  rw [before_snoc]
  show (shutdown raises (run raises World.init l).1 p).1.log = _
  rw [h1, h4, hpr]
  · rfl
  · intro h
    exact hk (by rw [hkind, h])
  · rw [calls_snoc] at hr
    by_contra h
    rw [Bool.not_eq_false] at h
    apply hr
    rw [List.mem_append, List.mem_singleton]
    right
    show (Op.shutdown p, true) = (Op.shutdown p, (shutdown raises (run raises World.init l).1 p).2)
    rw [h]

theorem raised_shift {raises : Nat → Nat → Bool} {x : Nat} {xs : List Nat} {n : Nat} :
    (∃ (i y : Nat), (x :: xs)[i]? = some y ∧ raises y (n + i) = true) ↔ raises x n = true ∨ ∃ (i y : Nat), xs[i]? = some y ∧ raises y (n + 1 + i) = true := by
  constructor
  · rintro ⟨i, y, h1, h2⟩
    cases i with
    | zero => simp at h1; subst h1; exact .inl h2
    | succ i => exact .inr ⟨i, y, by simpa using h1, by rw [← h2]; congr 1; omega⟩
  · rintro (h | ⟨i, y, h1, h2⟩)
    · exact ⟨0, x, rfl, h⟩
    · exact ⟨i + 1, y, by simpa using h1, by rw [← h2]; congr 1; omega⟩

theorem allLoop_raises (raises : Nat → Nat → Bool) (p : Nat) (xs : List Nat) (log : List (Nat × Nat)) :
    (allLoop raises p xs log).2 = true ↔ ∃ (i x : Nat), xs[i]? = some x ∧ raises x (log.length + i) = true := by
  induction xs generalizing log with
  | nil => simp [allLoop]
  | cons x xs ih => rw [raised_shift]; simp only [allLoop, Bool.or_eq_true, ih, List.length_append, List.length_cons, List.length_nil]

theorem seqLoop_raises (raises : Nat → Nat → Bool) (p : Nat) (xs : List Nat) (log : List (Nat × Nat)) :
    (seqLoop raises p xs log).2 = true ↔ ∃ (i x : Nat), xs[i]? = some x ∧ raises x (log.length + i) = true := by
  induction xs generalizing log with
  | nil => simp [seqLoop]
  | cons x xs ih =>
    rw [raised_shift]
    by_cases h : raises x log.length = true
    · simp [seqLoop, h]
    · rw [seqLoop, if_neg h, ih]
      simp only [List.length_append, List.length_cons, List.length_nil, h, false_or]
      simp

/-- **C106** A call of `shutdown` raises exactly if one of the processors or readers given to the provider so far raises when its turn comes (for a meter provider: if it is the first
call). -/
theorem C106_raises (raises : Nat → Nat → Bool) (l : List Op) (p : Nat) (hv : Valid (l ++ [.shutdown p])) :
    (calls raises (l ++ [.shutdown p])).getLast? = some (.shutdown p, true) ↔
      (kindOf l p = some .meter → Op.shutdown p ∉ l) ∧ ∃ (i x : Nat), (given l p)[i]? = some x ∧ raises x ((before raises l).length + i) = true := by
  obtain ⟨hv, ok⟩ := valid_snoc hv
  have inv := inv_run raises l hv
  have ok : p < (creations l).length := ok
  obtain ⟨v, hp⟩ : ∃ v, (run raises World.init l).1.provs[p]? = some v := by
    refine ⟨_, List.getElem?_eq_getElem ?_⟩
    rw [inv.len, calls_ops]; exact ok
  have hkind := inv.kind p v hp
  have hpr := inv.procs p v hp
  have hsh := inv.shut p v hp
  have hop := inv.opened
  rw [calls_ops] at hkind hpr hsh
  rw [calls_snoc, List.getLast?_concat]
  have hb : (before raises l) = (run raises World.init l).1.log := rfl
  rw [hb, ← hpr]
  have e1 : (some (Op.shutdown p, (step raises (run raises World.init l).1 (.shutdown p)).2) = some (Op.shutdown p, true)) ↔ (shutdown raises (run raises World.init l).1 p).2 = true := by
    simp [step]
  rw [e1, hkind]
  obtain ⟨k, ps, s⟩ := v
  cases k with
  | sync =>
    rw [← seqLoop_raises raises p ps]
    by_cases h : (seqLoop raises p ps (run raises World.init l).1.log).2 = true <;> simp [shutdown, hp, h]
  | conc =>
    rw [← allLoop_raises raises p ps]
    by_cases h : (allLoop raises p ps (run raises World.init l).1.log).2 = true <;> simp [shutdown, hp, h, hop]
  | meter =>
    rw [← allLoop_raises raises p ps]
    have hsh := hsh rfl
    cases s with
    | true => simp [shutdown, hp]; intro h; exact (h (hsh.1 rfl)).elim
    | false =>
      have : Op.shutdown p ∉ l := fun h => by have := hsh.2 h; simp at this
      simp [shutdown, hp, this]

theorem before_lt (raises : Nat → Nat → Bool) (l : List Op) (hv : Valid l) :
    ∀ e ∈ before raises l, e.1 < (creations l).length := by
  induction l using List.reverseRecOn with
  | nil => intro e he; simp [before, run, World.init] at he
  | append_singleton l o ih =>
    obtain ⟨hv1, ok⟩ := valid_snoc hv
    have inv := inv_run raises l hv1
    have hl : (creations l).length ≤ (creations (l ++ [o])).length := by rw [creations_append]; simp
    intro e he
    refine Nat.lt_of_lt_of_le ?_ hl
    rw [before_snoc] at he
    by_cases hsh : ∃ q, o = .shutdown q
    · obtain ⟨q, rfl⟩ := hsh
      have ok : q < (creations l).length := ok
      obtain ⟨v, hq⟩ : ∃ v, (run raises World.init l).1.provs[q]? = some v := by
        refine ⟨_, List.getElem?_eq_getElem ?_⟩
        rw [inv.len, calls_ops]; exact ok
      obtain ⟨seg, h1, h2, -, -⟩ := shutdown_log raises _ q v hq inv.opened
      have he : e ∈ (shutdown raises (run raises World.init l).1 q).1.log := he
      rw [h1, List.mem_append] at he
      rcases he with he | he
      · exact ih hv1 e he
      · rw [h2 e he]; exact ok
    · rw [step_log _ _ _ (fun q h => hsh ⟨q, h⟩)] at he
      exact ih hv1 e he

theorem meter_before (raises : Nat → Nat → Bool) (l : List Op) (hv : Valid l) (p : Nat) (hk : kindOf l p = some .meter) :
    (Op.shutdown p ∈ l → by_ p (before raises l) = (given l p).map fun x => (p, x)) ∧
      (Op.shutdown p ∉ l → by_ p (before raises l) = []) := by
  induction l using List.reverseRecOn with
  | nil => simp [kindOf, creations] at hk
  | append_singleton l o ih =>
    obtain ⟨hv1, ok⟩ := valid_snoc hv
    have inv := inv_run raises l hv1
    by_cases hlt : p < (creations l).length
    · rw [kindOf_snoc o hlt] at hk
      have ih := ih hv1 hk
      have hgiven : given (l ++ [o]) p = given l p := by
        obtain ⟨c, hc, hck⟩ := Option.map_eq_some_iff.mp hk
        rw [given_eq _ p c hc, given_eq _ p c (by rw [getElem?_creations _ hlt, hc]), if_pos hck, if_pos hck]
      rw [hgiven, before_snoc]
      by_cases hsh : ∃ q, o = .shutdown q
      · obtain ⟨q, rfl⟩ := hsh
        obtain ⟨v, hq⟩ : ∃ v, (run raises World.init l).1.provs[q]? = some v := by
          have ok : q < (creations l).length := ok
          refine ⟨_, List.getElem?_eq_getElem ?_⟩
          rw [inv.len, calls_ops]; exact ok
        obtain ⟨seg, h1, h2, h3, -⟩ := shutdown_log raises _ q v hq inv.opened
        show (_ → by_ p (shutdown raises (run raises World.init l).1 q).1.log = _) ∧ (_ → by_ p (shutdown raises _ q).1.log = _)
        rw [h1, by_append]
        change (_ → by_ p (before raises l) ++ _ = _) ∧ (_ → by_ p (before raises l) ++ _ = _)
        by_cases e : q = p
        · subst e
          have hkind := inv.kind q v hq
          have hpr := inv.procs q v hq
          have hm : v.kind = .meter := by rw [calls_ops, hk] at hkind; exact (Option.some.inj hkind).symm
          have hs := inv.shut q v hq hm
          rw [calls_ops] at hpr hs
          rw [by_all h2, h3 hm, hpr]
          by_cases hin : Op.shutdown q ∈ l
          · rw [if_pos (hs.mpr hin), ih.1 hin]
            simp
          · rw [if_neg (fun h => hin (hs.mp h)), ih.2 hin]
            simp
        · rw [by_none (a := seg) (fun x hx h => e (by rw [← h, h2 x hx])), List.append_nil]
          have : Op.shutdown p ∈ l ++ [Op.shutdown q] ↔ Op.shutdown p ∈ l := by simp; omega
          rw [this]
          exact ih
      · rw [step_log _ _ _ (fun q h => hsh ⟨q, h⟩)]
        have : Op.shutdown p ∈ l ++ [o] ↔ Op.shutdown p ∈ l := by
          simp only [List.mem_append, List.mem_singleton, or_iff_left_iff_imp]
          intro h
          exact absurd ⟨p, h.symm⟩ hsh
        rw [this]
        exact ih
    · -- `p` is new
      have hnot : Op.shutdown p ∉ l := fun h => hlt (valid_mem hv1 _ h)
      have hnone : by_ p (before raises l) = [] := by_none (fun e he h => hlt (h ▸ before_lt raises l hv1 e he))
      have hnot2 : Op.shutdown p ∉ l ++ [o] := by
        intro h
        rw [List.mem_append, List.mem_singleton] at h
        rcases h with h | rfl
        · exact hnot h
        · exact hlt ok
      refine ⟨fun h => absurd h hnot2, fun _ => ?_⟩
      rw [before_snoc]
      by_cases hsh : ∃ q, o = .shutdown q
      · obtain ⟨q, rfl⟩ := hsh
        have : creations (l ++ [Op.shutdown q]) = creations l := by rw [creations_append]; simp [creations]
        rw [kindOf, this, List.getElem?_eq_none_iff.mpr (by omega)] at hk
        cases hk
      · rw [step_log _ _ _ (fun q h => hsh ⟨q, h⟩)]
        exact hnone

/-- **C106** However often `shutdown` is called, and by whom, a meter provider shuts its readers down at most once, and exactly once
if the program calls `shutdown` or wants it at exit. -/
theorem C106_meter_once (raises : Nat → Nat → Bool) (l : List Op) (hv : Valid l) (p : Nat) (hk : kindOf l p = some .meter) :
    by_ p (whole raises l).log =
      if Op.shutdown p ∈ l ∨ ((creations l)[p]?).map (fun c => c.2.2) = some true then (given l p).map fun x => (p, x) else [] := by
  have hb := meter_before raises l hv p hk
  by_cases hs : Op.shutdown p ∈ l
  · rw [if_pos (Or.inl hs), C106_settled raises l hv p, hb.1 hs]
    right
    rw [← calls_ops raises l] at hs
    obtain ⟨c, hc, e⟩ := List.mem_map.mp hs
    exact ⟨c, hc, e, Or.inl (by rw [calls_ops]; exact hk)⟩
  · by_cases he : ((creations l)[p]?).map (fun c => c.2.2) = some true
    · rw [if_pos (Or.inr he)]
      obtain ⟨tail, h1, h2⟩ := C106_each_reader raises l hv p hk he (by
        rintro ⟨c, hc, e, -⟩
        apply hs
        rw [← calls_ops raises l]
        exact List.mem_map.mpr ⟨c, hc, e⟩)
      rw [h1, by_append, hb.2 hs, h2, List.nil_append]
    · rw [if_neg (by tauto), C106_settled raises l hv p (Or.inl he), hb.2 hs]

/-! ## Readers have one provider -/

/-- The readers of all meter providers made. -/
def allReaders (l : List Op) : List Nat := (creations l).flatMap fun c => if c.1 = .meter then c.2.1 else []

theorem claim_spec (rs owned : List Nat) (h : (claim rs owned).2 = false) (hn : owned.Nodup) :
    (claim rs owned).1 = owned ++ rs ∧ (owned ++ rs).Nodup := by
  induction rs generalizing owned with
  | nil => simpa [claim] using hn
  | cons r rs ih =>
    by_cases hc : owned.contains r = true
    · rw [claim, if_pos hc] at h
      cases h
    · simp only [claim, if_neg hc] at h ⊢
      have hr : r ∉ owned := fun h' => hc (List.contains_iff_mem.mpr h')
      have := ih (owned ++ [r]) h (by
        rw [List.nodup_append]
        refine ⟨hn, List.nodup_singleton r, ?_⟩
        intro a ha b hb e
        rw [List.mem_singleton] at hb
        exact hr (by rw [← hb, ← e]; exact ha))
      simpa using this

theorem readers_shutdown (raises : Nat → Nat → Bool) (w : World) (p : Nat) : (shutdown raises w p).1.readers = w.readers := by
  unfold shutdown
  cases hv : w.provs[p]? with
  | none => rfl
  | some v =>
    obtain ⟨k, ps, s⟩ := v
    cases k <;> simp only <;> split_ifs <;> rfl

theorem readers_run (raises : Nat → Nat → Bool) (l : List Op)
    (hc : ∀ (k : Kind) (rs : List Nat) (e : Bool), (Op.create k rs e, true) ∉ calls raises l) :
    (run raises World.init l).1.readers = allReaders l ∧ (allReaders l).Nodup := by
  induction l using List.reverseRecOn with
  | nil => simp [run, World.init, allReaders, creations]
  | append_singleton l o ih =>
    rw [calls_snoc] at hc
    obtain ⟨h1, h2⟩ := ih (fun k rs e h => hc k rs e (List.mem_append_left _ h))
    rw [run_append]
    show (step raises (run raises World.init l).1 o).1.readers = _ ∧ _
    have hal : allReaders (l ++ [o]) = allReaders l ++ allReaders [o] := by simp [allReaders, creations]
    cases o with
    | create k rs e =>
      have hr := hc k rs e
      rw [List.mem_append, List.mem_singleton, not_or] at hr
      have hr : (step raises (run raises World.init l).1 (.create k rs e)).2 = false := by
        by_contra h
        rw [Bool.not_eq_false] at h
        exact hr.2 (by rw [h])
      cases k with
      | sync => simpa [step, hal, allReaders, creations] using And.intro h1 h2
      | conc => simpa [step, hal, allReaders, creations] using And.intro h1 h2
      | meter =>
        have hr : (claim rs (run raises World.init l).1.readers).2 = false := hr
        have e : allReaders [Op.create .meter rs e] = rs := by simp [allReaders, creations]
        rw [hal, e]
        have := claim_spec rs _ hr (by rw [h1]; exact h2)
        rw [h1] at this
        refine ⟨?_, this.2⟩
        show (claim rs (run raises World.init l).1.readers).1 = _
        rw [h1]; exact this.1
    | add p x =>
      have e : allReaders [Op.add p x] = [] := by simp [allReaders, creations]
      rw [hal, e, List.append_nil]
      refine ⟨?_, h2⟩
      rw [← h1]
      simp only [step]
      cases (run raises World.init l).1.provs[p]? with
      | none => rfl
      | some v => simp only; split_ifs <;> rfl
    | shutdown p =>
      have e : allReaders [Op.shutdown p] = [] := by simp [allReaders, creations]
      rw [hal, e, List.append_nil]
      exact ⟨(readers_shutdown raises _ p).trans h1, h2⟩

theorem given_readers (l : List Op) (p : Nat) (hk : kindOf l p = some .meter) :
    ∃ rs e, (creations l)[p]? = some (.meter, rs, e) ∧ given l p = rs := by
  obtain ⟨⟨k, rs, e⟩, hc, hck⟩ := Option.map_eq_some_iff.mp hk
  have hck : k = .meter := hck
  subst hck
  exact ⟨rs, e, hc, by rw [given_eq _ p _ hc]; rfl⟩

theorem owner_unique (l : List Op) (h : (allReaders l).Nodup) (p q r : Nat) (hp : kindOf l p = some .meter)
    (hq : kindOf l q = some .meter) (h1 : r ∈ given l p) (h2 : r ∈ given l q) : p = q := by
  obtain ⟨rs, e, hc, hg⟩ := given_readers l p hp
  obtain ⟨rs', e', hc', hg'⟩ := given_readers l q hq
  rw [hg] at h1
  rw [hg'] at h2
  have hd := (List.nodup_flatMap.mp h).2
  rw [List.pairwise_iff_getElem] at hd
  obtain ⟨i1, i2⟩ := List.getElem?_eq_some_iff.mp hc
  obtain ⟨j1, j2⟩ := List.getElem?_eq_some_iff.mp hc'
  rcases Nat.lt_trichotomy p q with hlt | he | hlt
  · have := hd p q i1 j1 hlt
    rw [i2, j2] at this
    exact absurd h2 (this (by simpa using h1))
  · exact he
  · have := hd q p j1 i1 hlt
    rw [i2, j2] at this
    exact absurd h1 (this (by simpa using h2))

theorem given_nodup (l : List Op) (h : (allReaders l).Nodup) (p : Nat) (hp : kindOf l p = some .meter) : (given l p).Nodup := by
  obtain ⟨rs, e, hc, hg⟩ := given_readers l p hp
  rw [hg]
  exact (List.nodup_flatMap.mp h).1 (.meter, rs, e) (List.mem_of_getElem? hc)

/-- **C106** If all providers could be made, no reader is shut down more than once by meter providers. -/
theorem C106_reader_once (raises : Nat → Nat → Bool) (l : List Op) (hv : Valid l)
    (hc : ∀ (k : Kind) (rs : List Nat) (e : Bool), (Op.create k rs e, true) ∉ calls raises l) (r : Nat) :
    ((whole raises l).log.filter fun e => e.2 = r ∧ kindOf l e.1 = some .meter).length ≤ 1 := by
  obtain ⟨-, hn⟩ := readers_run raises l hc
  have hin : ∀ e : Nat × Nat, e ∈ (whole raises l).log → kindOf l e.1 = some .meter → e.2 ∈ given l e.1 := by
    intro e he hk
    have hb := C106_meter_once raises l hv e.1 hk
    have : e ∈ by_ e.1 (whole raises l).log := List.mem_filter.mpr ⟨he, by simp⟩
    rw [hb] at this
    split_ifs at this with h
    · obtain ⟨x, hx, e1⟩ := List.mem_map.mp this
      rw [← e1]; exact hx
    · cases this
  cases hL : (whole raises l).log.filter fun e => e.2 = r ∧ kindOf l e.1 = some .meter with
  | nil => simp
  | cons a L =>
    have hall : ∀ e ∈ a :: L, e ∈ (whole raises l).log ∧ e.2 = r ∧ kindOf l e.1 = some .meter := by
      intro e he
      rw [← hL, List.mem_filter] at he
      exact ⟨he.1, by simpa using he.2⟩
    obtain ⟨a1, a2, a3⟩ := hall a (by simp)
    have heq : ∀ e ∈ a :: L, e = a := by
      intro e he
      obtain ⟨e1, e2, e3⟩ := hall e he
      have := owner_unique l hn e.1 a.1 r e3 a3 (e2 ▸ hin e e1 e3) (a2 ▸ hin a a1 a3)
      exact Prod.ext this (e2.trans a2.symm)
    have h1 : (a :: L).length = (a :: L).count a := by
      rw [List.eq_replicate_of_mem heq]; simp
    have h2 : (a :: L).count a ≤ (by_ a.1 (whole raises l).log).count a := by
      rw [← hL]
      have hs : ((whole raises l).log.filter fun e => e.2 = r ∧ kindOf l e.1 = some .meter).count a ≤ (whole raises l).log.count a :=
        List.Sublist.count_le _ List.filter_sublist
      have he : (by_ a.1 (whole raises l).log).count a = (whole raises l).log.count a := by
        rw [by_, List.count_filter (by simp)]
      omega
    have h3 : (by_ a.1 (whole raises l).log).count a ≤ 1 := by
      rw [C106_meter_once raises l hv a.1 a3]
      split_ifs
      · have : ((given l a.1).map fun x => (a.1, x)).Nodup :=
          (given_nodup l hn a.1 a3).map (fun x y h => (Prod.mk.inj h).2)
        exact List.nodup_iff_count_le_one.mp this a
      · simp
    omega

/-! ## What goes wrong -/

/-- A tracer provider with two processors, a logger provider with one, a meter provider with two readers, and one more
tracer provider that has been shut down. -/
def program : List Op :=
  [.create .sync [] true, .add 0 10, .add 0 11, .create .sync [] true, .add 1 20, .create .meter [30, 31] true,
    .create .sync [] true, .add 3 40, .shutdown 3]

example : Valid program ∧ kindOf program 0 = some .sync ∧ ((creations program)[0]?).map (fun c => c.2.2) = some true ∧
    given program 0 = [10, 11] ∧ kindOf program 2 = some .meter := by
  refine ⟨?_, by decide, by decide, by decide, by decide⟩
  simp [Valid, program, ValidFrom]

example : (whole (fun _ _ => false) program).log = [(3, 40), (2, 30), (2, 31), (1, 20), (0, 10), (0, 11)] := by decide +kernel

/-- Even if the others raise. -/
example : (whole (fun x _ => x == 20 || x == 30) program).log = [(3, 40), (2, 30), (2, 31), (1, 20), (0, 10), (0, 11)] := by
  decide +kernel

/-- **C106** refuted: a processor that raises keeps those added after it from being shut down: by the program and again at exit. -/
theorem C106_raise_violated :
    ∃ (raises : Nat → Nat → Bool) (l : List Op), Valid l ∧ kindOf l 0 = some .sync ∧
      ((creations l)[0]?).map (fun c => c.2.2) = some true ∧ given l 0 = [1, 2] ∧ raises 2 = (fun _ => false) ∧
      (whole raises l).log = [(0, 1), (0, 1)] :=
  ⟨fun x _ => x == 1, [.create .sync [] true, .add 0 1, .add 0 2, .shutdown 0], by simp [Valid, ValidFrom], by decide, by decide,
    by decide, rfl, by decide +kernel⟩

/-- **C106** refuted: two calls of `shutdown` shut the processors of a tracer or logger provider down twice. -/
theorem C106_twice_violated :
    ∃ l : List Op, Valid l ∧ given l 0 = [1] ∧ kindOf l 0 = some .sync ∧ (whole (fun _ _ => false) l).log = [(0, 1), (0, 1)] :=
  ⟨[.create .sync [] true, .add 0 1, .shutdown 0, .shutdown 0], by simp [Valid, ValidFrom], by decide, by decide, by decide +kernel⟩

/-- **C106** refuted: a processor added to a provider after it was shut down is accepted and not shut down at exit. -/
theorem C106_late_violated :
    ∃ l : List Op, Valid l ∧ given l 0 = [1, 2] ∧ kindOf l 0 = some .sync ∧
      ((creations l)[0]?).map (fun c => c.2.2) = some true ∧ (whole (fun _ _ => false) l).log = [(0, 1)] :=
  ⟨[.create .sync [] true, .add 0 1, .shutdown 0, .add 0 2], by simp [Valid, ValidFrom], by decide, by decide, by decide,
    by decide +kernel⟩

/-- **C106** refuted: a meter provider that cannot be made because its reader belongs to another one shuts that reader down at
exit, before, or in addition to, its owner. -/
theorem C106_constructor_violated :
    ∃ l : List Op, Valid l ∧ kindOf l 0 = some .meter ∧ kindOf l 1 = some .meter ∧
      (Op.create .meter [1] true, true) ∈ calls (fun _ _ => false) l ∧ (whole (fun _ _ => false) l).log = [(1, 1), (0, 1)] :=
  ⟨[.create .meter [1] true, .create .meter [1] true], by simp [Valid, ValidFrom], by decide, by decide, by decide +kernel,
    by decide +kernel⟩

example : (whole (fun _ _ => false) [.create .conc [] true, .add 0 1, .add 0 2]).log = [] ∧
    (whole (fun _ _ => false) [.create .conc [] true, .add 0 1, .add 0 2, .shutdown 0]).log = [(0, 1), (0, 2)] := by decide +kernel

end Exit
end Otel
