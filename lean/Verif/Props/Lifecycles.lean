import Verif.Spec.Lifecycles
import Mathlib.Data.List.Induction
/-!
# C129: spans that start and end while span processors are added
-/
namespace Otel
namespace Lifecycles
open Spec
open scoped List
variable {P : Type}

/-- The call has taken the span's end on itself. -/
def Owns : PC P → Prop
  | .begun => False
  | .ignored => False
  | _ => True

/-- What holds of a call of `start_span`. -/
def StartOk (base : List P) (n0 : Nat) (s : St P) (sp : Nat) : PC P → Prop
  | .begun => starts sp s.log = [] ∧ ends sp s.log = [] ∧ sp ∉ s.ended
  | .telling l => (starts sp s.log ++ l <+: s.procs) ∧ ends sp s.log = [] ∧ sp ∉ s.ended ∧ (n0 ≤ sp → base <+: starts sp s.log ++ l)
  | .ret => (starts sp s.log <+: s.procs) ∧ (sp ∉ s.ended → ends sp s.log = []) ∧ (n0 ≤ sp → base <+: starts sp s.log)
  | .raised => (starts sp s.log <+: s.procs) ∧ ends sp s.log = [] ∧ sp ∉ s.ended
  | .claimed => False
  | .ignored => False

/-- What holds of a call of `end`. -/
def EndOk (base : List P) (n0 : Nat) (s : St P) (j sp : Nat) : PC P → Prop
  | .begun => True
  | .ignored => sp ∈ s.ended
  | .claimed => sp ∈ s.ended ∧ ends sp s.log = []
  | .telling l => sp ∈ s.ended ∧ (ends sp s.log ++ l <+: s.procs) ∧ (starts sp s.log <+: ends sp s.log ++ l) ∧ (n0 ≤ j → base <+: ends sp s.log ++ l)
  | .ret => sp ∈ s.ended ∧ (ends sp s.log <+: s.procs) ∧ (starts sp s.log <+: ends sp s.log) ∧ (n0 ≤ j → base <+: ends sp s.log)
  | .raised => sp ∈ s.ended ∧ (ends sp s.log <+: s.procs)

/-- The invariant; `base` are the processors at the time of the `n0`th call. -/
structure Inv (base : List P) (n0 : Nat) (s : St P) : Prop where
  order : ∀ sp, about sp s.log = (starts sp s.log).map (Ev.started sp) ++ (ends sp s.log).map (Ev.ended sp)
  grows : base <+: s.procs
  startOk : ∀ (sp : Nat) (pc : PC P), s.calls[sp]? = some ⟨none, pc⟩ → StartOk base n0 s sp pc
  endOk : ∀ (j sp : Nat) (pc : PC P), s.calls[j]? = some ⟨some sp, pc⟩ → HasStarted s sp ∧ EndOk base n0 s j sp pc
  owner : ∀ (j j' sp : Nat) (pc pc' : PC P), s.calls[j]? = some ⟨some sp, pc⟩ → s.calls[j']? = some ⟨some sp, pc'⟩ → Owns pc → Owns pc' → j = j'
  owned : ∀ sp ∈ s.ended, ∃ (j : Nat) (pc : PC P), s.calls[j]? = some ⟨some sp, pc⟩ ∧ Owns pc
  fresh : ∀ sp, (∀ pc, s.calls[sp]? ≠ some ⟨none, pc⟩) → starts sp s.log = [] ∧ ends sp s.log = [] ∧ sp ∉ s.ended

theorem starts_append (sp : Nat) (a b : List (Ev P)) : starts sp (a ++ b) = starts sp a ++ starts sp b := by
  induction a with
  | nil => rfl
  | cons e a ih => cases e <;> simp only [List.cons_append, starts, ih]; split <;> simp

theorem ends_append (sp : Nat) (a b : List (Ev P)) : ends sp (a ++ b) = ends sp a ++ ends sp b := by
  induction a with
  | nil => rfl
  | cons e a ih => cases e <;> simp only [List.cons_append, ends, ih]; split <;> simp

theorem get_set {X : Type} {l : List X} {i j : Nat} {a t : X} (h : (l.set i a)[j]? = some t) : (i = j ∧ t = a) ∨ (i ≠ j ∧ l[j]? = some t) := by
  rw [List.getElem?_set] at h
  by_cases hij : i = j
  · rw [if_pos hij] at h
    split at h
    · exact .inl ⟨hij, (Option.some.inj h).symm⟩
    · cases h
  · rw [if_neg hij] at h
    exact .inr ⟨hij, h⟩

theorem set_self {X : Type} {l : List X} {i : Nat} {t : X} (a : X) (h : l[i]? = some t) : (l.set i a)[i]? = some a := by
  have hi := (List.getElem?_eq_some_iff.mp h).1
  rw [List.getElem?_set, if_pos rfl, if_pos hi]

theorem set_other {X : Type} {l : List X} {i j : Nat} (a : X) (h : i ≠ j) : (l.set i a)[j]? = l[j]? := by
  rw [List.getElem?_set, if_neg h]

theorem get_snoc {X : Type} {l : List X} {j : Nat} {a t : X} (h : (l ++ [a])[j]? = some t) : (l[j]? = some t) ∨ (j = l.length ∧ t = a) := by
  rcases Nat.lt_trichotomy j l.length with hj | hj | hj
  · rw [List.getElem?_append_left hj] at h; exact .inl h
  · subst hj; rw [List.getElem?_concat_length] at h; exact .inr ⟨rfl, (Option.some.inj h).symm⟩
  · rw [List.getElem?_eq_none (by simp; omega)] at h; cases h

theorem snoc_get {X : Type} {l : List X} {j : Nat} {t : X} (a : X) (h : l[j]? = some t) : (l ++ [a])[j]? = some t := by
  rw [List.getElem?_append_left (List.getElem?_eq_some_iff.mp h).1]; exact h

theorem inv_init : Inv (P := P) [] 0 init where
  order := by simp [init, about, starts, ends]
  grows := List.prefix_refl _
  startOk := by simp [init]
  endOk := by simp [init]
  owner := by simp [init]
  owned := by simp [init]
  fresh := by simp [init, starts, ends]

/-- From now on. -/
theorem rebase {s : St P} (h : Inv [] 0 s) : Inv s.procs s.calls.length s where
  order := h.order
  grows := List.prefix_refl _
  startOk := by
    intro sp pc e
    have hl := (List.getElem?_eq_some_iff.mp e).1
    have := h.startOk sp pc e
    cases pc <;> simp only [StartOk] at this ⊢ <;> try exact this
    · exact ⟨this.1, this.2.1, this.2.2.1, fun hn => absurd hn (by omega)⟩
    · exact ⟨this.1, this.2.1, fun hn => absurd hn (by omega)⟩
  endOk := by
    intro j sp pc e
    have hl := (List.getElem?_eq_some_iff.mp e).1
    obtain ⟨h1, this⟩ := h.endOk j sp pc e
    refine ⟨h1, ?_⟩
    cases pc <;> simp only [EndOk] at this ⊢ <;> try exact this
    · exact ⟨this.1, this.2.1, this.2.2.1, fun hn => absurd hn (by omega)⟩
    · exact ⟨this.1, this.2.1, this.2.2.1, fun hn => absurd hn (by omega)⟩
  owner := h.owner
  owned := h.owned
  fresh := h.fresh

variable {base : List P} {n0 : Nat}

theorem inv_add {s : St P} (h : Inv base n0 s) (p : P) : Inv base n0 { s with procs := s.procs ++ [p] } where
  order := h.order
  grows := h.grows.trans (List.prefix_append _ _)
  startOk := by
    intro sp pc e
    have := h.startOk sp pc e
    cases pc <;> simp only [StartOk] at this ⊢ <;> try exact this
    · exact ⟨this.1.trans (List.prefix_append _ _), this.2⟩
    · exact ⟨this.1.trans (List.prefix_append _ _), this.2⟩
    · exact ⟨this.1.trans (List.prefix_append _ _), this.2⟩
  endOk := by
    intro j sp pc e
    obtain ⟨h1, this⟩ := h.endOk j sp pc e
    refine ⟨h1, ?_⟩
    cases pc <;> simp only [EndOk] at this ⊢ <;> try exact this
    · exact ⟨this.1, this.2.1.trans (List.prefix_append _ _), this.2.2⟩
    · exact ⟨this.1, this.2.1.trans (List.prefix_append _ _), this.2.2⟩
    · exact ⟨this.1, this.2.trans (List.prefix_append _ _)⟩
  owner := h.owner
  owned := h.owned
  fresh := h.fresh

/-- A new call. -/
theorem inv_call {s : St P} (h : Inv base n0 s) (w : Option Nat) (hw : ∀ sp, w = some sp → HasStarted s sp) :
    Inv base n0 { s with calls := s.calls ++ [⟨w, .begun⟩] } where
  order := h.order
  grows := h.grows
  startOk := by
    intro sp pc e
    rcases get_snoc e with e | ⟨e, e'⟩
    · have := h.startOk sp pc e
      cases pc <;> exact this
    · cases e'
      refine h.fresh sp ?_
      intro pc hp
      rw [List.getElem?_eq_none (by omega)] at hp; cases hp
  endOk := by
    intro j sp pc e
    rcases get_snoc e with e | ⟨e, e'⟩
    · obtain ⟨h1, this⟩ := h.endOk j sp pc e
      refine ⟨snoc_get _ h1, ?_⟩
      cases pc <;> exact this
    · cases e'
      exact ⟨snoc_get _ (hw sp rfl), trivial⟩
  owner := by
    intro j j' sp pc pc' e e' o o'
    rcases get_snoc e with e | ⟨-, e⟩
    · rcases get_snoc e' with e' | ⟨-, e'⟩
      · exact h.owner j j' sp pc pc' e e' o o'
      · cases e'; exact o'.elim
    · cases e; exact o.elim
  owned := by
    intro sp hs
    obtain ⟨j, pc, e, o⟩ := h.owned sp hs
    exact ⟨j, pc, snoc_get _ e, o⟩
  fresh := by
    intro sp hs
    refine h.fresh sp ?_
    intro pc hp
    exact hs pc (snoc_get _ hp)

/-- A call of `start_span` goes on; what is told and what is set are given. -/
theorem inv_start {s : St P} (h : Inv base n0 s) {i : Nat} {pc pc' : PC P} (hi : s.calls[i]? = some ⟨none, pc⟩) (log : List (Ev P))
    (hret : pc ≠ .ret) (ho : ∀ sp, sp ≠ i → starts sp log = starts sp s.log ∧ ends sp log = ends sp s.log)
    (hord : ∀ sp, about sp log = (starts sp log).map (Ev.started sp) ++ (ends sp log).map (Ev.ended sp))
    (hok : StartOk base n0 { s with log := log } i pc') : Inv base n0 { s with log := log, calls := s.calls.set i ⟨none, pc'⟩ } where
  order := hord
  grows := h.grows
  startOk := by
    intro sp q e
    replace e := get_set e
    rcases e with ⟨rfl, e⟩ | ⟨hne, e⟩
    · cases e
      cases pc' <;> exact hok
    · have := h.startOk sp q e
      obtain ⟨e1, e2⟩ := ho sp (Ne.symm hne)
      cases q <;> simp only [StartOk, e1, e2] at this ⊢ <;> exact this
  endOk := by
    intro j sp q e
    replace e := get_set e
    rcases e with ⟨rfl, e⟩ | ⟨hne, e⟩
    · cases e
    · obtain ⟨h1, this⟩ := h.endOk j sp q e
      have hsp : i ≠ sp := by
        rintro rfl
        unfold HasStarted at h1
        rw [hi] at h1
        cases h1
        exact hret rfl
      obtain ⟨e1, e2⟩ := ho sp (Ne.symm hsp)
      refine ⟨?_, ?_⟩
      · unfold HasStarted
        rw [set_other _ hsp]; exact h1
      · cases q <;> simp only [EndOk, e1, e2] at this ⊢ <;> exact this
  owner := by
    intro j j' sp q q' e e' o o'
    replace e := get_set e
    rcases e with ⟨rfl, e⟩ | ⟨-, e⟩
    · cases e
    · replace e' := get_set e'
      rcases e' with ⟨rfl, e'⟩ | ⟨-, e'⟩
      · cases e'
      · exact h.owner j j' sp q q' e e' o o'
  owned := by
    intro sp hs
    obtain ⟨j, q, e, o⟩ := h.owned sp hs
    refine ⟨j, q, ?_, o⟩
    rw [set_other]
    · exact e
    · rintro rfl
      rw [hi] at e
      cases e
  fresh := by
    intro sp hs
    have hsp : i ≠ sp := by
      rintro rfl
      exact hs pc' (set_self _ hi)
    obtain ⟨e1, e2⟩ := ho sp (Ne.symm hsp)
    have := h.fresh sp (fun q e => hs q (by rw [set_other _ hsp]; exact e))
    simp only [e1, e2]
    exact this

/-- A call of `end` goes on. -/
theorem inv_end {s : St P} (h : Inv base n0 s) {i sp : Nat} {pc pc' : PC P} (hi : s.calls[i]? = some ⟨some sp, pc⟩) (log : List (Ev P)) (ended : List Nat)
    (ho : ∀ sp', (sp' ≠ sp → starts sp' log = starts sp' s.log ∧ ends sp' log = ends sp' s.log ∧ (sp' ∈ ended ↔ sp' ∈ s.ended)))
    (hst : starts sp log = starts sp s.log) (hin : sp ∈ ended)
    (hord : ∀ sp, about sp log = (starts sp log).map (Ev.started sp) ++ (ends sp log).map (Ev.ended sp))
    (hown : Owns pc' ∧ (Owns pc ∨ sp ∉ s.ended) ∨ pc' = .ignored ∧ ¬ Owns pc ∧ log = s.log ∧ ended = s.ended)
    (hok : EndOk base n0 { s with log := log, ended := ended } i sp pc') :
    Inv base n0 { s with log := log, ended := ended, calls := s.calls.set i ⟨some sp, pc'⟩ } where
  order := hord
  grows := h.grows
  startOk := by
    intro sp' q e
    replace e := get_set e
    rcases e with ⟨rfl, e⟩ | ⟨hne, e⟩
    · cases e
    · have := h.startOk sp' q e
      by_cases hs : sp' = sp
      · subst hs
        have h1 := (h.endOk i sp' pc hi).1
        unfold HasStarted at h1
        rw [h1] at e
        cases e
        simp only [StartOk, hst] at this ⊢
        exact ⟨this.1, fun hn => absurd hin hn, this.2.2⟩
      · obtain ⟨e1, e2, e3⟩ := ho sp' hs
        cases q <;> simp only [StartOk, e1, e2, e3] at this ⊢ <;> exact this
  endOk := by
    intro j sp' q e
    have keep : ∀ sp'', HasStarted s sp'' → HasStarted (P := P) { s with log := log, ended := ended, calls := s.calls.set i ⟨some sp, pc'⟩ } sp'' := by
      intro sp'' h1
      unfold HasStarted at h1 ⊢
      rw [set_other]
      · exact h1
      · rintro rfl
        rw [hi] at h1; cases h1
    replace e := get_set e
    rcases e with ⟨rfl, e⟩ | ⟨hne, e⟩
    · cases e
      refine ⟨keep _ (h.endOk i sp pc hi).1, ?_⟩
      cases pc' <;> exact hok
    · obtain ⟨h1, this⟩ := h.endOk j sp' q e
      refine ⟨keep _ h1, ?_⟩
      by_cases hs : sp' = sp
      · subst hs
        rcases hown with ⟨o', hp⟩ | ⟨-, -, rfl, rfl⟩
        · have hq : ¬ Owns q := by
            intro oq
            rcases hp with hp | hp
            · exact hne (h.owner i j sp' pc q hi e hp oq)
            · cases q <;> first | exact oq.elim | exact hp this.1
          cases q <;> first | exact trivial | exact hin | exact absurd trivial hq
        · cases q <;> exact this
      · obtain ⟨e1, e2, e3⟩ := ho sp' hs
        cases q <;> simp only [EndOk, e1, e2, e3] at this ⊢ <;> exact this
  owner := by
    intro j j' sp' q q' e e' o o'
    have other : ∀ (k : Nat) (r : PC P), i ≠ k → s.calls[k]? = some ⟨some sp, r⟩ → Owns r → Owns pc' → False := by
      intro k r hk er or op
      rcases hown with ⟨-, hp | hp⟩ | ⟨rfl, -⟩
      · exact hk (h.owner i k sp pc r hi er hp or)
      · have := (h.endOk k sp r er).2
        cases r <;> first | exact or.elim | exact hp this.1
      · exact op.elim
    replace e := get_set e
    rcases e with ⟨rfl, e⟩ | ⟨hne, e⟩
    · cases e
      replace e' := get_set e'
      rcases e' with ⟨rfl, e'⟩ | ⟨hne, e'⟩
      · rfl
      · exact (other j' q' hne e' o' o).elim
    · replace e' := get_set e'
      rcases e' with ⟨rfl, e'⟩ | ⟨hne', e'⟩
      · cases e'
        exact (other j q hne e o o').elim
      · exact h.owner j j' sp' q q' e e' o o'
  owned := by
    intro sp' hs
    by_cases hsp : sp' = sp
    · subst hsp
      rcases hown with ⟨o', -⟩ | ⟨-, hn, rfl, rfl⟩
      · exact ⟨i, pc', set_self _ hi, o'⟩
      · obtain ⟨j, q, e, o⟩ := h.owned sp' hs
        refine ⟨j, q, ?_, o⟩
        rw [set_other]
        · exact e
        · rintro rfl
          rw [hi] at e; cases e
          exact hn o
    · obtain ⟨j, q, e, o⟩ := h.owned sp' (((ho sp' hsp).2.2).mp hs)
      refine ⟨j, q, ?_, o⟩
      rw [set_other]
      · exact e
      · rintro rfl
        rw [hi] at e; cases e
        exact hsp rfl
  fresh := by
    intro sp' hs
    have h1 : s.calls[sp]? = _ := (h.endOk i sp pc hi).1
    have hn : ∀ k q, s.calls[k]? = some ⟨none, q⟩ → i ≠ k := by
      rintro k q e rfl
      rw [hi] at e; cases e
    have hsp : sp' ≠ sp := by
      rintro rfl
      exact hs .ret (by rw [set_other _ (hn _ _ h1)]; exact h1)
    obtain ⟨e1, e2, e3⟩ := ho sp' hsp
    have := h.fresh sp' (fun q e => hs q (by rw [set_other _ (hn _ _ e)]; exact e))
    simp only [e1, e2, e3]
    exact this

theorem about_append (sp : Nat) (a b : List (Ev P)) : about sp (a ++ b) = about sp a ++ about sp b := by simp [about]

theorem inv_advance {s : St P} (h : Inv base n0 s) (i : Nat) (t : Call P) (ht : s.calls[i]? = some t) (raises : Bool) : Inv base n0 (advance s i t raises) := by
  obtain ⟨w, pc⟩ := t
  cases w with
  | none =>
    have hi := h.startOk i pc ht
    cases pc with
    | begun =>
      simp only [StartOk] at hi
      refine inv_start h ht s.log (by simp) (fun _ _ => ⟨rfl, rfl⟩) h.order ?_
      simp only [StartOk]
      refine ⟨?_, hi.2.1, hi.2.2, fun _ => ?_⟩
      · rw [hi.1]; exact List.prefix_refl _
      · rw [hi.1]; exact h.grows
    | claimed => exact hi.elim
    | ignored => exact hi.elim
    | ret => exact h
    | raised => exact h
    | telling l =>
      simp only [StartOk] at hi
      cases l with
      | nil =>
        simp only [List.append_nil] at hi
        exact inv_start h ht s.log (by simp) (fun _ _ => ⟨rfl, rfl⟩) h.order ⟨hi.1, fun _ => hi.2.1, hi.2.2.2⟩
      | cons p l =>
        have e1 : starts i (s.log ++ [Ev.started i p]) = starts i s.log ++ [p] := by simp [starts_append, starts]
        have e2 : ends i (s.log ++ [Ev.started i p]) = [] := by simp [ends_append, ends, hi.2.1]
        have e3 : starts i s.log ++ [p] ++ l = starts i s.log ++ p :: l := by simp
        refine inv_start h ht (s.log ++ [.started i p]) (by simp) ?_ ?_ ?_
        · intro sp hsp
          simp [starts_append, ends_append, starts, ends, Ne.symm hsp]
        · intro sp
          rw [about_append, h.order sp]
          by_cases hsp : i = sp
          · subst hsp
            rw [e1, e2, hi.2.1]
            simp [about, Ev.span]
          · simp [starts_append, ends_append, starts, ends, about, Ev.span, hsp]
        · cases raises with
          | true =>
            simp only [if_true, StartOk, e1, e2]
            refine ⟨?_, trivial, hi.2.2.1⟩
            rw [← e3] at hi
            exact (List.prefix_append _ _).trans hi.1
          | false =>
            simp only [Bool.false_eq_true, if_false, StartOk, e1, e2, e3]
            exact ⟨hi.1, trivial, hi.2.2.1, hi.2.2.2⟩
  | some sp =>
    obtain ⟨hs, hi⟩ := h.endOk i sp pc ht
    have hs' := h.startOk sp .ret hs
    simp only [StartOk] at hs'
    cases pc with
    | begun =>
      show Inv base n0 (if sp ∈ s.ended then goto s i _ .ignored else goto { s with ended := s.ended ++ [sp] } i _ .claimed)
      by_cases hm : sp ∈ s.ended
      · rw [if_pos hm]
        exact inv_end h ht s.log s.ended (fun _ _ => ⟨rfl, rfl, Iff.rfl⟩) rfl hm h.order (.inr ⟨rfl, fun o => o, rfl, rfl⟩) hm
      · rw [if_neg hm]
        refine inv_end h ht s.log (s.ended ++ [sp]) ?_ rfl (by simp) h.order (.inl ⟨trivial, .inr hm⟩) ⟨by simp, hs'.2.1 hm⟩
        intro sp' hne
        exact ⟨rfl, rfl, by simp [hne]⟩
    | claimed =>
      simp only [EndOk] at hi
      refine inv_end h ht s.log s.ended (fun _ _ => ⟨rfl, rfl, Iff.rfl⟩) rfl hi.1 h.order (.inl ⟨trivial, .inl trivial⟩) ?_
      simp only [EndOk]
      refine ⟨hi.1, ?_, ?_, fun _ => ?_⟩
      · rw [hi.2]; exact List.prefix_refl _
      · rw [hi.2]; exact hs'.1
      · rw [hi.2]; exact h.grows
    | ret => exact h
    | ignored => exact h
    | raised => exact h
    | telling l =>
      simp only [EndOk] at hi
      cases l with
      | nil =>
        simp only [List.append_nil] at hi
        exact inv_end h ht s.log s.ended (fun _ _ => ⟨rfl, rfl, Iff.rfl⟩) rfl hi.1 h.order (.inl ⟨trivial, .inl trivial⟩) hi
      | cons p l =>
        have e1 : ends sp (s.log ++ [Ev.ended sp p]) = ends sp s.log ++ [p] := by simp [ends_append, ends]
        have e2 : starts sp (s.log ++ [Ev.ended sp p]) = starts sp s.log := by simp [starts_append, starts]
        have e3 : ends sp s.log ++ [p] ++ l = ends sp s.log ++ p :: l := by simp
        refine inv_end h ht (s.log ++ [.ended sp p]) s.ended ?_ e2 hi.1 ?_ (.inl ⟨?_, .inl trivial⟩) ?_
        · intro sp' hsp
          simp [starts_append, ends_append, starts, ends, Ne.symm hsp]
        · intro sp'
          rw [about_append, h.order sp']
          by_cases hsp : sp = sp'
          · subst hsp
            rw [e1, e2]
            simp [about, Ev.span]
          · simp [starts_append, ends_append, starts, ends, about, Ev.span, hsp]
        · cases raises <;> trivial
        · cases raises with
          | true =>
            simp only [if_true, EndOk, e1]
            rw [← e3] at hi
            exact ⟨hi.1, (List.prefix_append _ _).trans hi.2.1⟩
          | false =>
            simp only [Bool.false_eq_true, if_false, EndOk, e1, e2, e3]
            exact hi

theorem inv_step {s : St P} (h : Inv base n0 s) (a : Act P) : Inv base n0 (step s a) := by
  cases a with
  | add p => exact inv_add h p
  | start => exact inv_call h none (by simp)
  | finish sp =>
    simp only [step]
    split
    · next e =>
      refine inv_call h (some sp) ?_
      intro sp' hsp
      cases hsp
      exact e
    · exact h
  | next i raises =>
    simp only [step]
    split
    · exact h
    · next t ht => exact inv_advance h i t ht raises

theorem inv_fold {s : St P} (h : Inv base n0 s) (acts : List (Act P)) : Inv base n0 (acts.foldl step s) := by
  induction acts generalizing s with
  | nil => exact h
  | cons a l ih => exact ih (inv_step h a)

theorem inv_run (acts : List (Act P)) : Inv [] 0 (run acts) := inv_fold inv_init acts

theorem run_append (a b : List (Act P)) : run (a ++ b) = b.foldl step (run a) := by simp [run]

/-- The invariant, seen from any moment. -/
theorem inv_from (a b : List (Act P)) : Inv (run a).procs (run a).calls.length (run (a ++ b)) := by
  rw [run_append]
  exact inv_fold (rebase (inv_run a)) b

theorem prefixes {s : St P} (h : Inv base n0 s) (sp : Nat) :
    (starts sp s.log <+: s.procs) ∧ (ends sp s.log <+: s.procs) ∧ (ends sp s.log ≠ [] → HasStarted s sp) := by
  by_cases hp : ∃ pc, s.calls[sp]? = some ⟨none, pc⟩
  swap
  · obtain ⟨e1, e2, -⟩ := h.fresh sp (fun pc e => hp ⟨pc, e⟩)
    simp [e1, e2]
  obtain ⟨pc, hp⟩ := hp
  have := h.startOk sp pc hp
  cases pc <;> simp only [StartOk] at this
  · simp [this.1, this.2.1]
  · simp only [this.2.1]
    exact ⟨(List.prefix_append _ _).trans this.1, List.nil_prefix, fun hn => absurd rfl hn⟩
  · refine ⟨this.1, ?_, fun _ => hp⟩
    by_cases hm : sp ∈ s.ended
    · obtain ⟨j, q, e, o⟩ := h.owned sp hm
      have he := (h.endOk j sp q e).2
      cases q <;> simp only [EndOk, Owns] at he o
      · rw [he.2]; exact List.nil_prefix
      · exact (List.prefix_append _ _).trans he.2.1
      · exact he.2.1
      · exact he.2
    · rw [this.2.1 hm]; exact List.nil_prefix
  · simp only [this.2.1]
    exact ⟨this.1, List.nil_prefix, fun hn => absurd rfl hn⟩


/-- **C129** Whatever the threads do, what the processors are told about a span is: that it started, each registration once and in the order of
registration; then that it ended, each once and in this order; and nobody is told of its end before `start_span` has returned it. -/
theorem C129_span (acts : List (Act P)) (sp : Nat) :
    ∃ q q', about sp (run acts).log = q.map (Ev.started sp) ++ q'.map (Ev.ended sp) ∧ (q <+: (run acts).procs) ∧ (q' <+: (run acts).procs) ∧
      (q' ≠ [] → HasStarted (run acts) sp) := by
  have h := inv_run acts
  refine ⟨_, _, h.order sp, ?_, ?_, ?_⟩
  · exact (prefixes h sp).1
  · exact (prefixes h sp).2.1
  · exact (prefixes h sp).2.2

/-- **C129** Who is registered before `start_span` is called is told that the span starts, before `start_span` returns; and in general those are told
that were registered when the span was given its start time. -/
theorem C129_start (a b : List (Act P)) (sp : Nat) (hb : (run a).calls.length ≤ sp) (hs : HasStarted (run (a ++ b)) sp) :
    ((run a).procs <+: starts sp (run (a ++ b)).log) ∧ (starts sp (run (a ++ b)).log <+: (run (a ++ b)).procs) := by
  have h := (inv_from a b).startOk sp .ret hs
  exact ⟨h.2.2 hb, h.1⟩

/-- **C129** When `end` returns and was the first for this span, those who were registered when `end` was called have been told that the span ended,
and so have all that were told that it started. -/
theorem C129_end (a b : List (Act P)) (j sp : Nat) (hb : (run a).calls.length ≤ j) (he : Ending (run (a ++ b)) j sp .ret) :
    ((run a).procs <+: ends sp (run (a ++ b)).log) ∧ (starts sp (run (a ++ b)).log <+: ends sp (run (a ++ b)).log) ∧
      (ends sp (run (a ++ b)).log <+: (run (a ++ b)).procs) := by
  have h := ((inv_from a b).endOk j sp .ret he).2
  exact ⟨h.2.2.2 hb, h.2.2.1, h.2.1⟩

/-- **C129** Only one of the calls of `end` on a span does anything. -/
theorem C129_one_end (acts : List (Act P)) (j j' sp : Nat) (h : Ending (run acts) j sp .ret) (h' : Ending (run acts) j' sp .ret) : j = j' :=
  (inv_run acts).owner j j' sp .ret .ret h h' trivial trivial

/-- **C129** Once every call of `end` on a span has returned, and there was one, all that were told that the span started have been told that it
ended, whoever called `end` how often from however many threads. -/
theorem C129_pairs (acts : List (Act P)) (sp : Nat) (hne : ∃ j pc, Ending (run acts) j sp pc)
    (h : ∀ j pc, Ending (run acts) j sp pc → pc = .ret ∨ pc = .ignored) :
    starts sp (run acts).log <+: ends sp (run acts).log := by
  have inv := inv_run acts
  have he : sp ∈ (run acts).ended := by
    obtain ⟨j, pc, e⟩ := hne
    have := (inv.endOk j sp pc e).2
    rcases h j pc e with rfl | rfl
    · exact this.1
    · exact this
  obtain ⟨j, pc, e, o⟩ := inv.owned sp he
  rcases h j pc e with rfl | rfl
  · exact (inv.endOk j sp .ret e).2.2.2.1
  · exact o.elim

example : let s := run ([.add 1, .start, .next 0 false, .add 2, .next 0 false, .next 0 false, .finish 0, .finish 0, .next 1 false, .next 2 false,
      .next 1 false, .add 3, .next 1 false, .next 1 false, .next 1 false] : List (Act Nat));
    HasStarted s 0 ∧ Ending s 1 0 .ret ∧ Ending s 2 0 .ignored ∧ s.log = [.started 0 1, .ended 0 1, .ended 0 2] ∧ s.procs = [1, 2, 3] := by
  simp only [HasStarted, Ending]; decide

/-! ## What a call does goes on to the end -/

theorem telling_ends (l : List P) (s : St P) (i : Nat) (w : Option Nat) (h : s.calls[i]? = some ⟨w, .telling l⟩) :
    ((List.replicate (l.length + 1) (Act.next i false)).foldl step s).calls[i]? = some ⟨w, .ret⟩ := by
  induction l generalizing s with
  | nil => simp [step, h, advance, goto, set_self _ h]
  | cons p l ih =>
    rw [List.length_cons, List.replicate_succ, List.foldl_cons]
    refine ih _ ?_
    simp [step, h, advance, goto, set_self _ h]

/-- **C129** If no processor raises, the call of `end` that was first returns when it has told everybody, whatever the others are doing. -/
theorem C129_returns (acts : List (Act P)) (j sp : Nat) (h : Ending (run acts) j sp .claimed) :
    ∃ n, Ending (run (acts ++ List.replicate n (.next j false))) j sp .ret := by
  refine ⟨(run acts).procs.length + 1 + 1, ?_⟩
  rw [run_append, List.replicate_succ, List.foldl_cons]
  unfold Ending at h ⊢
  refine telling_ends (run acts).procs _ j (some sp) ?_
  simp [step, h, advance, goto, set_self _ h]

/-! ## Where the claim fails -/

/-- A call that has raised stays where it is. -/
theorem stays {s : St P} {k : Nat} {w : Option Nat} (h : s.calls[k]? = some ⟨w, .raised⟩) (a : Act P) : (step s a).calls[k]? = some ⟨w, .raised⟩ := by
  cases a with
  | add p => exact h
  | start => exact snoc_get _ h
  | finish sp =>
    simp only [step]
    split
    · exact snoc_get _ h
    · exact h
  | next i raises =>
    simp only [step]
    split
    · exact h
    · next t ht =>
      by_cases hi : i = k
      · subst hi
        rw [h] at ht
        cases ht
        exact h
      · obtain ⟨w', pc⟩ := t
        cases pc with
        | begun =>
          cases w' with
          | none => simpa only [advance, goto, set_other _ hi] using h
          | some sp =>
            simp only [advance]
            split <;> simpa only [goto, set_other _ hi] using h
        | claimed => simpa only [advance, goto, set_other _ hi] using h
        | telling l => cases l <;> simpa only [advance, goto, set_other _ hi] using h
        | ret => exact h
        | ignored => exact h
        | raised => exact h

/-- Nothing is told about a span when its `start_span` or the first `end` has raised. -/
theorem quiet_step {s : St P} (inv : Inv base n0 s) {sp : Nat} (h : StartRaised s sp ∨ ∃ j, Ending s j sp .raised) (a : Act P) :
    about sp (step s a).log = about sp s.log := by
  cases a with
  | add p => rfl
  | start => rfl
  | finish sp => simp only [step]; split <;> rfl
  | next i raises =>
    simp only [step]
    split
    · rfl
    · next t ht =>
      obtain ⟨w, pc⟩ := t
      cases pc with
      | begun =>
        cases w with
        | none => rfl
        | some sp => simp only [advance]; split <;> rfl
      | claimed => rfl
      | ret => rfl
      | ignored => rfl
      | raised => rfl
      | telling l =>
        cases l with
        | nil => rfl
        | cons p l =>
          have hne : Ev.span (tell i ⟨w, .telling (p :: l)⟩ p) ≠ sp := by
            intro e
            cases w with
            | none =>
              have e : i = sp := e
              subst e
              rcases h with h | ⟨j, h⟩
              · unfold StartRaised at h
                rw [ht] at h; cases h
              · have := (inv.endOk j i .raised h).1
                unfold HasStarted at this
                rw [ht] at this; cases this
            | some sp' =>
              have e : sp' = sp := e
              subst e
              rcases h with h | ⟨j, h⟩
              · have := (inv.endOk i sp' _ ht).1
                unfold HasStarted at this
                unfold StartRaised at h
                rw [this] at h; cases h
              · have hij := inv.owner i j sp' _ .raised ht h trivial trivial
                subst hij
                unfold Ending at h
                rw [ht] at h; cases h
          simp [advance, goto, about, List.filter_append, hne]

theorem quiet (acts acts' : List (Act P)) (sp : Nat) (h : StartRaised (run acts) sp ∨ ∃ j, Ending (run acts) j sp .raised) :
    about sp (run (acts ++ acts')).log = about sp (run acts).log ∧
      (StartRaised (run acts) sp → StartRaised (run (acts ++ acts')) sp) ∧ (∀ j, Ending (run acts) j sp .raised → Ending (run (acts ++ acts')) j sp .raised) := by
  induction acts' using List.reverseRecOn with
  | nil => simp
  | append_singleton l a ih =>
    obtain ⟨i1, i2, i3⟩ := ih
    rw [← List.append_assoc]
    have e : run (acts ++ l ++ [a]) = step (run (acts ++ l)) a := by simp [run]
    rw [e]
    refine ⟨?_, ?_, ?_⟩
    · rw [quiet_step (inv_run _) _ a, i1]
      rcases h with h | ⟨j, h⟩
      · exact .inl (i2 h)
      · exact .inr ⟨j, i3 j h⟩
    · exact fun h => stays (i2 h) a
    · exact fun j h => stays (i3 j h) a

/-- **C129**, violated: if the `on_start` of a processor raises, `start_span` raises, and those that had been told of the span's start are never told
of its end, whatever happens. -/
theorem C129_abandoned_violated (acts acts' : List (Act P)) (sp : Nat) (h : StartRaised (run acts) sp) :
    about sp (run (acts ++ acts')).log = about sp (run acts).log ∧ ends sp (run acts).log = [] :=
  ⟨(quiet acts acts' sp (.inl h)).1, ((inv_run acts).startOk sp .raised h).2.1⟩

example : let s := run ([.add 1, .add 2, .start, .next 0 false, .next 0 false, .next 0 true] : List (Act Nat));
    StartRaised s 0 ∧ s.log = [.started 0 1, .started 0 2] := by
  simp only [StartRaised]; decide

/-- **C129**, violated: if the `on_end` of a processor raises, those after it are never told that the span ended, as a further `end` is ignored. -/
theorem C129_cut_violated (acts acts' : List (Act P)) (j sp : Nat) (h : Ending (run acts) j sp .raised) :
    about sp (run (acts ++ acts')).log = about sp (run acts).log :=
  (quiet acts acts' sp (.inr ⟨j, h⟩)).1

example : let s := run ([.add 1, .add 2, .start, .next 0 false, .next 0 false, .next 0 false, .next 0 false, .finish 0, .next 1 false, .next 1 false,
      .next 1 true] : List (Act Nat));
    Ending s 1 0 .raised ∧ s.log = [.started 0 1, .started 0 2, .ended 0 1] := by
  simp only [Ending]; decide

/-- **C129**, violated: a processor is told of the end of a span of which it was not told that it started. -/
theorem C129_unseen_violated (p : P) : ∃ acts : List (Act P), (run acts).log = [.ended 0 p] ∧ Ending (run acts) 1 0 .ret :=
  ⟨[.start, .next 0 false, .next 0 false, .add p, .finish 0, .next 1 false, .next 1 false, .next 1 false, .next 1 false],
    by simp [run, init, step, advance, goto, tell], by simp [run, init, step, advance, goto, Ending]⟩

/-- **C129**, violated: `end` may return before anybody has been told that the span ended, if another thread ends the span at the same time. -/
theorem C129_hurried_violated (p : P) : ∃ acts : List (Act P), (run acts).log = [.started 0 p] ∧ Ending (run acts) 2 0 .ignored ∧ HasStarted (run acts) 0 :=
  ⟨[.add p, .start, .next 0 false, .next 0 false, .next 0 false, .finish 0, .next 1 false, .finish 0, .next 2 false],
    by simp [run, init, step, advance, goto, tell], by simp [run, init, step, advance, goto, Ending], by simp [run, init, step, advance, goto, HasStarted]⟩

end Lifecycles
end Otel
