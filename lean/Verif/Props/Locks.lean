import Verif.Spec.Locks
import Mathlib.Tactic.ByContra
/-!
# C108: calls of the metrics API do not wait for each other for ever, unless a callback or an exporter does what it must not
-/
namespace Otel
namespace Locks

/-! ## The order of the locks -/

/-- A lock is only acquired while locks of lower levels are held. The locks of log handlers come last, or (`outer`) first. -/
def level (outer : Bool) : Lock → Nat
  | .reader _ => 1
  | .exporting _ => 2
  | .setOnce => 3
  | .proxyProvider => 4
  | .proxyMeter _ => 5
  | .consumer _ => 6
  | .meters _ => 7
  | .ids _ => 7
  | .instruments _ => 7
  | .storage _ => 8
  | .viewMatch _ _ _ => 9
  | .aggregation _ _ _ _ => 10
  | .span _ => 11
  | .attributes _ => 12
  | .events _ => 12
  | .links _ => 12
  | .handler _ => if outer then 0 else 13

/-- What is left to do keeps to the order, and gives all locks back. -/
def wf (b : Bool) : List Lock → List Act → Prop
  | H, [] => H = []
  | H, .acquire l :: r => ((l.reentrant = true ∧ l ∈ H) ∨ ∀ h ∈ H, level b h < level b l) ∧ wf b (l :: H) r
  | H, .release l :: r => l ∈ H ∧ wf b (H.erase l) r
  | H, .maybe l :: r => (∀ h ∈ H, level b h < level b l) ∧ wf b H r

/-- Keeps to the order if only locks below level `lo` are held, and gives all locks back. -/
def Good (b : Bool) (lo : Nat) (A : List Act) : Prop :=
  ∀ (H : List Lock) (r : List Act), (∀ h ∈ H, level b h < lo) → wf b H r → wf b H (A ++ r)

theorem Good.nil {b : Bool} {lo : Nat} : Good b lo [] := fun _ _ _ h => h

theorem Good.append {b : Bool} {lo : Nat} {A B : List Act} (a : Good b lo A) (c : Good b lo B) : Good b lo (A ++ B) := by
  intro H r hH hr
  rw [List.append_assoc]
  exact a H _ hH (c H r hH hr)

theorem Good.mono {b : Bool} {lo lo' : Nat} {A : List Act} (a : Good b lo A) (h : lo' ≤ lo) : Good b lo' A :=
  fun H r hH hr => a H r (fun x hx => Nat.lt_of_lt_of_le (hH x hx) h) hr

theorem Good.flatMap {b : Bool} {lo : Nat} {α : Type} (f : α → List Act) (l : List α) (h : ∀ x ∈ l, Good b lo (f x)) :
    Good b lo (l.flatMap f) := by
  induction l with
  | nil => exact Good.nil
  | cons a t ih =>
    rw [List.flatMap_cons]
    exact (h a (by simp)).append (ih fun x hx => h x (by simp [hx]))

theorem Good.within {b : Bool} {lo : Nat} (l : Lock) {A : List Act} (n : Nat) (hl : level b l = n) (h : lo ≤ n) (a : Good b (n + 1) A) :
    Good b lo (within l A) := by
  intro H r hH hr
  have e : Locks.within l A ++ r = .acquire l :: (A ++ .release l :: r) := by simp [Locks.within]
  rw [e]
  refine ⟨Or.inr fun x hx => ?_, a _ _ ?_ ⟨by simp, ?_⟩⟩
  · rw [hl]
    exact Nat.lt_of_lt_of_le (hH x hx) h
  · intro x hx
    rcases List.mem_cons.mp hx with rfl | hx
    · omega
    · have := hH x hx
      omega
  · rw [List.erase_cons_head]
    exact hr

theorem Good.maybe {b : Bool} {lo : Nat} (l : Lock) {A : List Act} (n : Nat) (hl : level b l = n) (h : lo ≤ n) (a : Good b lo A) :
    Good b lo (.maybe l :: A) :=
  fun H r hH hr => ⟨fun x hx => by rw [hl]; exact Nat.lt_of_lt_of_le (hH x hx) h, a H r hH hr⟩

theorem good_consume (b : Bool) (S : Sys) (r i a : Nat) : Good b 8 (consume S r i a) :=
  Good.maybe _ 8 rfl (by decide) (Good.flatMap _ _ fun _ _ => Good.maybe _ 9 rfl (by decide) (Good.within _ 10 rfl (by decide) Good.nil))

theorem good_record (b : Bool) (S : Sys) (i a : Nat) : Good b 8 (record S i a) :=
  Good.flatMap _ _ fun _ _ => good_consume b S _ _ _

theorem good_createSync (b : Bool) (m : Nat) : Good b 7 (createSync m) :=
  (Good.within _ 7 rfl (by decide) Good.nil).append (Good.within _ 7 rfl (by decide) Good.nil)

theorem good_createObservable (b : Bool) (S : Sys) (m : Nat) : Good b 6 (createObservable S m) :=
  (Good.within _ 7 rfl (by decide) Good.nil).append (Good.maybe _ 6 rfl (by decide) (Good.within _ 7 rfl (by decide) Good.nil))

theorem good_create (b : Bool) (S : Sys) (m : Nat) (o : Bool) : Good b 6 (create S m o) := by
  cases o
  · exact (good_createSync b m).mono (by decide)
  · exact good_createObservable b S m

theorem good_getMeter (b : Bool) (p : Nat) : Good b 7 (getMeter p) := Good.within _ 7 rfl (by decide) Good.nil

theorem good_proxyGetMeter (b : Bool) (real : Option Nat) : Good b 4 (proxyGetMeter real) := by
  refine Good.within _ 4 rfl (by decide) ?_
  cases real with
  | none => exact Good.nil
  | some p => exact (good_getMeter b p).mono (by decide)

theorem good_proxyCreate (b : Bool) (S : Sys) (m : Nat) (real : Option Nat) (o : Bool) : Good b 5 (proxyCreate S m real o) := by
  refine Good.within _ 5 rfl (by decide) ?_
  cases real with
  | none => exact Good.nil
  | some x => exact good_create b S x o

theorem good_proxyMeterSet (b : Bool) (S : Sys) (p : Nat) (x : Nat × Nat × List Bool) : Good b 5 (proxyMeterSet S p x) :=
  ((good_getMeter b p).mono (by decide)).append
    (Good.within _ 5 rfl (by decide) (Good.flatMap _ _ fun c _ => good_create b S x.2.1 c))

theorem good_setProvider (b : Bool) (S : Sys) (p : Nat) (l : List (Nat × Nat × List Bool)) : Good b 3 (setProvider S p l) :=
  Good.within _ 3 rfl (by decide) (Good.within _ 4 rfl (by decide) (Good.flatMap _ _ fun x _ => good_proxyMeterSet b S p x))

theorem good_storageCollect (b : Bool) (r : Nat) (l : List (Nat × Nat × List Nat)) : Good b 8 (storageCollect r l) :=
  Good.within _ 8 rfl (by decide) (Good.flatMap _ _ fun _ _ => Good.within _ 9 rfl (by decide)
    (Good.flatMap _ _ fun _ _ => Good.within _ 10 rfl (by decide) Good.nil))

theorem good_consumerCollect (b : Bool) (S : Sys) (r : Nat) (C : List Act) (l : List (Nat × Nat × List Nat)) (h : Good b 7 C) :
    Good b 6 (consumerCollect S r C l) :=
  Good.within _ 6 rfl (by decide) (h.append ((good_storageCollect b r l).mono (by decide)))

theorem good_receive (b : Bool) (S : Sys) (r : Nat) (E : List Act) (h : Good b 3 E) : Good b 1 (receive S r E) := by
  unfold receive
  split
  · exact Good.within _ 2 rfl (by decide) h
  · exact Good.within _ 1 rfl (by decide) Good.nil

theorem passive_acts (S : Sys) (o : Op) (h : Passive o) : acts S o = [] := by
  induction o with
  | skip => rfl
  | seq a b iha ihb => simp [acts, iha h.1, ihb h.2]
  | _ => exact h.elim

/-- A message that is logged while the handlers' locks come last. -/
theorem good_log {b : Bool} (S : Sys) (h : Nat) (emit : Op) (p : Passive emit) (nb : b = true → LogFree (.log h emit)) :
    Good b 13 (acts S (.log h emit)) := by
  cases b
  · show Good false 13 (Locks.within (.handler h) (acts S emit))
    rw [passive_acts S emit p]
    exact Good.within _ 13 rfl (by decide) Good.nil
  · exact (nb rfl).elim

theorem good_logged {b : Bool} (S : Sys) (o : Op) (h : Logged o) (nb : b = true → LogFree o) : Good b 13 (acts S o) := by
  induction o with
  | skip => exact Good.nil
  | seq a c iha ihc => exact (iha h.1 fun e => (nb e).1).append (ihc h.2 fun e => (nb e).2)
  | log k emit _ => exact good_log S k emit h nb
  | _ => exact h.elim

theorem good_stores {b : Bool} (S : Sys) (o : Op) (h : Stores o) (nb : b = true → LogFree o) : Good b 12 (acts S o) := by
  induction o with
  | skip => exact Good.nil
  | seq a c iha ihc => exact (iha h.1 fun e => (nb e).1).append (ihc h.2 fun e => (nb e).2)
  | log k emit _ => exact (good_log S k emit h nb).mono (by decide)
  | store x l _ => exact Good.within _ 12 rfl (by decide) (good_logged S l h nb)
  | _ => exact h.elim

theorem good_span {b : Bool} (S : Sys) (x : Nat) (o : Op) (h : Logged o) (nb : b = true → LogFree o) : Good b 11 (within (.span x) (acts S o)) :=
  Good.within _ 11 rfl (by decide) ((good_logged S o h nb).mono (by decide))

theorem good_readSpan (b : Bool) (S : Sys) (x : Nat) : Good b 12 (acts S (.readSpan x)) :=
  ((Good.within _ 12 rfl (by decide) Good.nil).append (Good.within _ 12 rfl (by decide) Good.nil)).append
    (Good.within _ 12 rfl (by decide) Good.nil)

theorem good_callback {b : Bool} (S : Sys) (o : Op) (h : CallbackSafe o) (nb : b = true → LogFree o) : Good b 7 (acts S o) := by
  induction o with
  | skip => exact Good.nil
  | seq a c iha ihc => exact (iha h.1 fun e => (nb e).1).append (ihc h.2 fun e => (nb e).2)
  | record i a => exact (good_record b S i a).mono (by decide)
  | observed r i a => exact (good_consume b S r i a).mono (by decide)
  | createSync m => exact good_createSync b m
  | getMeter p => exact good_getMeter b p
  | matchViews r l _ => exact Good.within _ 8 rfl (by decide) ((good_logged S l h nb).mono (by decide))
  | log k emit _ => exact (good_log S k emit h nb).mono (by decide)
  | setAttributes x s _ => exact Good.within _ 11 rfl (by decide) (good_stores S s h nb)
  | store x l _ => exact Good.within _ 12 rfl (by decide) (good_logged S l h nb)
  | addEvent x => exact Good.within _ 11 rfl (by decide) (Good.within _ 12 rfl (by decide) Good.nil)
  | addLink x => exact Good.within _ 11 rfl (by decide) (Good.within _ 12 rfl (by decide) Good.nil)
  | updateName x => exact Good.within _ 11 rfl (by decide) Good.nil
  | setStatus x l _ => exact (good_span S x l h nb).mono (by decide)
  | boundary x l p _ ihp => exact ((good_span S x l h.1 fun e => (nb e).1).mono (by decide)).append (ihp h.2 fun e => (nb e).2)
  | readSpan x => exact (good_readSpan b S x).mono (by decide)
  | _ => exact h.elim

theorem good_exporter {b : Bool} (S : Sys) (o : Op) (h : ExporterSafe o) (nb : b = true → LogFree o) : Good b 3 (acts S o) := by
  induction o with
  | skip => exact Good.nil
  | seq a c iha ihc => exact (iha h.1 fun e => (nb e).1).append (ihc h.2 fun e => (nb e).2)
  | record i a => exact (good_record b S i a).mono (by decide)
  | observed r i a => exact (good_consume b S r i a).mono (by decide)
  | createSync m => exact (good_createSync b m).mono (by decide)
  | createObservable m => exact (good_createObservable b S m).mono (by decide)
  | getMeter p => exact (good_getMeter b p).mono (by decide)
  | proxyGetMeter real => exact (good_proxyGetMeter b real).mono (by decide)
  | proxyCreate m real o => exact (good_proxyCreate b S m real o).mono (by decide)
  | setProvider p l => exact good_setProvider b S p l
  | matchViews r l _ => exact (good_callback S (.matchViews r l) h nb).mono (by decide)
  | log k emit _ => exact (good_log S k emit h nb).mono (by decide)
  | setAttributes x s _ => exact (good_callback S (.setAttributes x s) h nb).mono (by decide)
  | store x l _ => exact (good_callback S (.store x l) h nb).mono (by decide)
  | addEvent x => exact (good_callback S (.addEvent x) h nb).mono (by decide)
  | addLink x => exact (good_callback S (.addLink x) h nb).mono (by decide)
  | updateName x => exact (good_callback S (.updateName x) h nb).mono (by decide)
  | setStatus x l _ => exact (good_callback S (.setStatus x l) h nb).mono (by decide)
  | boundary x l p _ ihp => exact ((good_span S x l h.1 fun e => (nb e).1).mono (by decide)).append (ihp h.2 fun e => (nb e).2)
  | readSpan x => exact (good_readSpan b S x).mono (by decide)
  | collect _ _ _ _ _ => exact h.elim
  | getMetricsData _ _ _ _ => exact h.elim

theorem good_safe {b : Bool} (S : Sys) (o : Op) (h : Safe o) (nb : b = true → LogFree o) : Good b 1 (acts S o) := by
  induction o with
  | seq a c iha ihc => exact (iha h.1 fun e => (nb e).1).append (ihc h.2 fun e => (nb e).2)
  | collect r c l data e _ _ =>
    refine ((good_consumerCollect b S r _ l (good_callback S c h.1 fun e => (nb e).1)).mono (by decide)).append ?_
    cases data
    · exact Good.nil
    · exact good_receive b S r _ (good_exporter S e h.2 fun e => (nb e).2)
  | getMetricsData r c l data _ =>
    intro H rest hH hr
    have e : acts S (.getMetricsData r c l data) ++ rest = .acquire (.reader r) ::
        (consumerCollect S r (acts S c) l ++ ((if data then receive S r [] else []) ++ .release (.reader r) :: rest)) := by
      simp [acts, Locks.within, collect]
    have hH' : ∀ h ∈ Lock.reader r :: H, level b h < 2 := by
      intro x hx
      rcases List.mem_cons.mp hx with rfl | hx
      · exact Nat.le_refl _
      · exact Nat.lt_succ_of_lt (hH x hx)
    have last : wf b (.reader r :: H) (.release (.reader r) :: rest) := ⟨by simp, by rw [List.erase_cons_head]; exact hr⟩
    rw [e]
    refine ⟨Or.inr hH, good_consumerCollect b S r _ l (good_callback S c h nb) _ _
      (fun x hx => Nat.lt_of_lt_of_le (hH' x hx) (by decide)) ?_⟩
    cases data
    · exact last
    · rw [if_pos rfl]
      unfold receive
      split
      · have g : Good b 2 (Locks.within (.exporting r) []) := Good.within _ 2 rfl (by decide) Good.nil
        exact g _ _ hH' last
      · exact ⟨Or.inl ⟨rfl, by simp⟩, by simp, by rw [List.erase_cons_head]; exact last⟩
  | boundary x l p _ ihp => exact ((good_span S x l h.1 fun e => (nb e).1).mono (by decide)).append (ihp h.2 fun e => (nb e).2)
  | skip => exact Good.nil
  | record i a => exact (good_exporter S (.record i a) trivial nb).mono (by decide)
  | observed r i a => exact (good_exporter S (.observed r i a) trivial nb).mono (by decide)
  | createSync m => exact (good_exporter S (.createSync m) trivial nb).mono (by decide)
  | createObservable m => exact (good_exporter S (.createObservable m) trivial nb).mono (by decide)
  | getMeter p => exact (good_exporter S (.getMeter p) trivial nb).mono (by decide)
  | proxyGetMeter real => exact (good_exporter S (.proxyGetMeter real) trivial nb).mono (by decide)
  | proxyCreate m real o => exact (good_exporter S (.proxyCreate m real o) trivial nb).mono (by decide)
  | setProvider p l => exact (good_exporter S (.setProvider p l) trivial nb).mono (by decide)
  | matchViews r l _ => exact (good_exporter S (.matchViews r l) h nb).mono (by decide)
  | log k emit _ => exact (good_exporter S (.log k emit) h nb).mono (by decide)
  | setAttributes x s _ => exact (good_exporter S (.setAttributes x s) h nb).mono (by decide)
  | store x l _ => exact (good_exporter S (.store x l) h nb).mono (by decide)
  | addEvent x => exact (good_exporter S (.addEvent x) trivial nb).mono (by decide)
  | addLink x => exact (good_exporter S (.addLink x) trivial nb).mono (by decide)
  | updateName x => exact (good_exporter S (.updateName x) trivial nb).mono (by decide)
  | setStatus x l _ => exact (good_exporter S (.setStatus x l) h nb).mono (by decide)
  | readSpan x => exact (good_exporter S (.readSpan x) trivial nb).mono (by decide)

theorem good_handlerSafe (S : Sys) (o : Op) (h : HandlerSafe o) : Good true 0 (acts S o) := by
  induction o with
  | seq a c iha ihc => exact (iha h.1).append (ihc h.2)
  | log k emit _ => exact Good.within _ 0 rfl (by decide) (good_safe S emit h.2 fun _ => h.1)
  | _ => exact (good_safe S _ h.2 fun _ => h.1).mono (by decide)

/-- Calls that keep to one of the two orders. -/
def Fine (b : Bool) (o : Op) : Prop := if b then HandlerSafe o else Safe o

theorem good_fine (b : Bool) (S : Sys) (o : Op) (h : Fine b o) : Good b 0 (acts S o) := by
  cases b
  · exact (good_safe S o h fun e => by cases e).mono (by decide)
  · exact good_handlerSafe S o h

/-! ## The invariants -/

theorem get_set {s : State} {i j : Nat} {t x : Thread} (h : s[i]? = some t) :
    (s.set i x)[j]? = if j = i then some x else s[j]? := by
  have hl : i < s.length := (List.getElem?_eq_some_iff.mp h).1
  by_cases e : j = i
  · subst e
    simp [hl]
  · rw [if_neg e, List.getElem?_set_ne (fun h' => e h'.symm)]

/-- Every lock has at most one holder. -/
def Exclusive (s : State) : Prop :=
  ∀ (i j : Nat) (ti tj : Thread) (l : Lock), s[i]? = some ti → s[j]? = some tj → l ∈ ti.held → l ∈ tj.held → i = j

theorem exclusive_less {s : State} {i : Nat} {t x : Thread} (h : s[i]? = some t) (e : Exclusive s)
    (sub : ∀ l ∈ x.held, l ∈ t.held) : Exclusive (s.set i x) := by
  have key : ∀ (j : Nat) (tj : Thread) (l : Lock), (s.set i x)[j]? = some tj → l ∈ tj.held →
      ∃ t' : Thread, s[j]? = some t' ∧ l ∈ t'.held := by
    intro j tj l hj hl
    rw [get_set h] at hj
    split at hj
    · next e' =>
      subst e'
      cases hj
      exact ⟨t, h, sub l hl⟩
    · exact ⟨tj, hj, hl⟩
  intro a b ta tb l ha hb hla hlb
  obtain ⟨ta', ha', hla'⟩ := key a ta l ha hla
  obtain ⟨tb', hb', hlb'⟩ := key b tb l hb hlb
  exact e a b ta' tb' l ha' hb' hla' hlb'

theorem exclusive_move {s s' : State} {i : Nat} (m : Move s i s') (e : Exclusive s) : Exclusive s' := by
  cases m with
  | acquire t l rest h next ok =>
    have key : ∀ (j : Nat) (tj : Thread) (k : Lock), (s.set i ⟨l :: t.held, rest⟩)[j]? = some tj → k ∈ tj.held →
        (j = i ∧ k = l) ∨ ∃ t' : Thread, s[j]? = some t' ∧ k ∈ t'.held := by
      intro j tj k hj hk
      rw [get_set h] at hj
      split at hj
      · next e' =>
        subst e'
        cases hj
        rcases List.mem_cons.mp hk with rfl | hk
        · exact Or.inl ⟨rfl, rfl⟩
        · exact Or.inr ⟨t, h, hk⟩
      · exact Or.inr ⟨tj, hj, hk⟩
    intro a b ta tb k ha hb hka hkb
    rcases key a ta k ha hka with ⟨rfl, rfl⟩ | ⟨ta', ha', hka'⟩
    · rcases key b tb k hb hkb with ⟨rfl, _⟩ | ⟨tb', hb', hkb'⟩
      · rfl
      · exact (ok b tb' hb' hkb').1.symm
    · rcases key b tb k hb hkb with ⟨rfl, rfl⟩ | ⟨tb', hb', hkb'⟩
      · exact (ok a ta' ha' hka').1
      · exact e a b ta' tb' k ha' hb' hka' hkb'
  | release t l rest h next => exact exclusive_less h e fun k hk => List.mem_of_mem_erase hk
  | need t l rest h next => exact exclusive_less h e fun k hk => hk
  | needNot t l rest h next => exact exclusive_less h e fun k hk => hk

theorem exclusive_reach {S : Sys} {ok : Op → Prop} {n : Nat} {s : State} (r : Reach S ok n s) : Exclusive s := by
  induction r with
  | start =>
    intro i j ti tj l hi hj hl
    rw [List.getElem?_replicate] at hi
    split at hi
    · cases hi
      simp at hl
    · cases hi
  | call s i t o r h idle allowed ih => exact exclusive_less h ih fun k hk => hk
  | move s s' i r m ih => exact exclusive_move m ih

/-- Every thread keeps to the order. -/
def Ordered (b : Bool) (s : State) : Prop := ∀ (i : Nat) (t : Thread), s[i]? = some t → wf b t.held t.rest

theorem ordered_set {b : Bool} {s : State} {i : Nat} {t x : Thread} (h : s[i]? = some t) (o : Ordered b s) (hx : wf b x.held x.rest) :
    Ordered b (s.set i x) := by
  intro j tj hj
  rw [get_set h] at hj
  split at hj
  · cases hj
    exact hx
  · exact o j tj hj

theorem ordered_move {b : Bool} {s s' : State} {i : Nat} (m : Move s i s') (o : Ordered b s) : Ordered b s' := by
  cases m with
  | acquire t l rest h next ok =>
    have := o i t h
    rw [next] at this
    exact ordered_set h o this.2
  | release t l rest h next =>
    have := o i t h
    rw [next] at this
    exact ordered_set h o this.2
  | need t l rest h next =>
    have := o i t h
    rw [next] at this
    exact ordered_set h o ⟨Or.inr this.1, by simp, by rw [List.erase_cons_head]; exact this.2⟩
  | needNot t l rest h next =>
    have := o i t h
    rw [next] at this
    exact ordered_set h o this.2

theorem ordered_reach {S : Sys} {ok : Op → Prop} {n : Nat} {s : State} (b : Bool) (safe : ∀ o : Op, ok o → Fine b o) (r : Reach S ok n s) :
    Ordered b s := by
  induction r with
  | start =>
    intro i t hi
    rw [List.getElem?_replicate] at hi
    split at hi
    · cases hi
      rfl
    · cases hi
  | call s i t o r h idle allowed ih =>
    refine ordered_set h ih ?_
    have w := ih i t h
    rw [idle] at w
    have hn : t.held = [] := w
    show wf b t.held (acts S o)
    rw [hn]
    simpa using good_fine b S o (safe o allowed) [] [] (by simp) rfl
  | move s s' i r m ih => exact ordered_move m ih

theorem ordered_no_cycle {b : Bool} {s : State} (e : Exclusive s) (o : Ordered b s) (D : Nat → Prop) : ¬ Deadlocked s D := by
  rintro ⟨⟨i₀, hi₀⟩, h⟩
  -- along waits the level of the wanted lock goes up, but it is at most 13
  have up : ∀ k : Nat, ∃ (i : Nat) (ti : Thread) (l : Lock) (rest : List Act),
      D i ∧ s[i]? = some ti ∧ ti.rest = .acquire l :: rest ∧ k ≤ level b l := by
    intro k
    induction k with
    | zero =>
      obtain ⟨j, _, ti, tj, l, rest, h1, h2, _⟩ := h i₀ hi₀
      exact ⟨i₀, ti, l, rest, hi₀, h1, h2, Nat.zero_le _⟩
    | succ k ih =>
      obtain ⟨i, ti, l, rest, hi, hti, hr, hk⟩ := ih
      obtain ⟨j, hj, ti', tj, l', rest', h1, h2, h3, h4, h5⟩ := h i hi
      rw [hti] at h1
      cases h1
      rw [hr] at h2
      cases h2
      obtain ⟨j', hj', tj', tk, l₂, rest₂, g1, g2, g3, g4, g5⟩ := h j hj
      rw [h3] at g1
      cases g1
      refine ⟨j, tj, l₂, rest₂, hj, h3, g2, ?_⟩
      have w := o j tj h3
      rw [g2] at w
      rcases w.1 with ⟨re, hm⟩ | w
      · have := e j j' tj tk l₂ h3 g3 hm g4
        exact absurd (g5 this.symm) (by simp [re])
      · have := w l h4
        omega
  obtain ⟨_, _, l, _, _, _, _, hk⟩ := up 14
  revert hk
  cases b <;> cases l <;> simp [level]

/-! ## No deadlock -/

theorem fine_no_deadlock {S : Sys} {n : Nat} {s : State} {b : Bool} (r : Reach S (Fine b) n s) (D : Nat → Prop) : ¬ Deadlocked s D :=
  ordered_no_cycle (exclusive_reach r) (ordered_reach b (fun _ h => h) r) D

/-- **C108** If callbacks and exporters do only what they may, then whatever the other threads do – record, create instruments of all kinds on SDK
and proxy meters, set the global provider, collect, flush, read, export, work with spans – and however their steps are interleaved, no set of threads is
ever deadlocked. -/
theorem C108_no_deadlock (S : Sys) (n : Nat) (s : State) (r : Reach S Safe n s) (D : Nat → Prop) : ¬ Deadlocked s D :=
  fine_no_deadlock (b := false) r D

theorem free_or {s : State} (i : Nat) (l : Lock) :
    free s i l ∨ ∃ (j : Nat) (t : Thread), s[j]? = some t ∧ l ∈ t.held ∧ (j = i → l.reentrant = false) := by
  by_cases h : ∃ (j : Nat) (t : Thread), s[j]? = some t ∧ l ∈ t.held ∧ (j = i → l.reentrant = false)
  · exact Or.inr h
  · refine Or.inl fun j t hj hl => ?_
    by_contra c
    refine h ⟨j, t, hj, hl, fun e => ?_⟩
    by_contra c'
    exact c ⟨e, by simpa using c'⟩

/-- A thread in a call moves, or waits. -/
theorem move_or_wait {s : State} {i : Nat} {t : Thread} (h : s[i]? = some t) (hr : t.rest ≠ []) :
    (∃ s' : State, Move s i s') ∨ ∃ j : Nat, Waits s i j := by
  match e : t.rest with
  | [] => exact absurd e hr
  | .acquire l :: rest =>
    rcases free_or i l with f | ⟨j, tj, hj, hl, hne⟩
    · exact Or.inl ⟨_, Move.acquire s i t l rest h e f⟩
    · exact Or.inr ⟨j, t, tj, l, rest, h, e, hj, hl, hne⟩
  | .release l :: rest => exact Or.inl ⟨_, Move.release s i t l rest h e⟩
  | .maybe l :: rest => exact Or.inl ⟨_, Move.needNot s i t l rest h e⟩

theorem fine_progress {S : Sys} {n : Nat} {s : State} {b : Bool} (r : Reach S (Fine b) n s) (h : ¬ AllReturned s) :
    ∃ (i : Nat) (s' : State), Move s i s' := by
  by_contra c
  have hc : ∀ (i : Nat) (s' : State), ¬ Move s i s' := fun i s' m => c ⟨i, s', m⟩
  have o := ordered_reach b (fun _ h => h) r
  refine fine_no_deadlock r (fun i => ∃ t : Thread, s[i]? = some t ∧ t.rest ≠ []) ⟨?_, ?_⟩
  · by_contra c'
    refine h fun i t hi => ?_
    by_contra hne
    exact c' ⟨i, t, hi, hne⟩
  · rintro i ⟨t, hi, hr⟩
    rcases move_or_wait hi hr with ⟨s', m⟩ | ⟨j, w⟩
    · exact absurd m (hc i s')
    · obtain ⟨ti, tj, l, rest, h1, h2, h3, h4, h5⟩ := w
      refine ⟨j, ⟨tj, h3, fun e => ?_⟩, ti, tj, l, rest, h1, h2, h3, h4, h5⟩
      have wj := o j tj h3
      rw [e] at wj
      rw [show tj.held = [] from wj] at h4
      simp at h4

/-- **C108** As long as a call has not returned, some thread in a call can take its next step. -/
theorem C108_progress (S : Sys) (n : Nat) (s : State) (r : Reach S Safe n s) (h : ¬ AllReturned s) :
    ∃ (i : Nat) (s' : State), Move s i s' := fine_progress (b := false) r h

theorem cost_set {s : State} {i : Nat} {t x : Thread} (h : s[i]? = some t) (c : cost x.rest < cost t.rest) :
    totalCost (s.set i x) < totalCost s := by
  unfold totalCost
  induction s generalizing i with
  | nil => simp at h
  | cons a l ih =>
    cases i with
    | zero =>
      simp only [List.getElem?_cons_zero, Option.some.injEq] at h
      subst h
      simp only [List.set_cons_zero, List.map_cons, List.sum_cons]
      omega
    | succ i =>
      simp only [List.getElem?_cons_succ] at h
      have := ih h
      simp only [List.set_cons_succ, List.map_cons, List.sum_cons]
      omega

theorem cost_move {s s' : State} {i : Nat} (m : Move s i s') : totalCost s' < totalCost s := by
  cases m with
  | acquire t l rest h next ok => exact cost_set h (by rw [next]; simp only [cost]; omega)
  | release t l rest h next => exact cost_set h (by rw [next]; simp only [cost]; omega)
  | need t l rest h next => exact cost_set h (by rw [next]; simp only [cost]; omega)
  | needNot t l rest h next => exact cost_set h (by rw [next]; simp only [cost]; omega)

theorem moves_cost {k : Nat} {s s' : State} (m : Moves k s s') : totalCost s' + k ≤ totalCost s := by
  induction m with
  | refl => exact Nat.le_refl _
  | step k i s s' s'' h m ih =>
    have := cost_move m
    omega

theorem reach_moves {S : Sys} {ok : Op → Prop} {n k : Nat} {s s' : State} (r : Reach S ok n s) (m : Moves k s s') : Reach S ok n s' := by
  induction m with
  | refl => exact r
  | step k i s s' s'' h m ih => exact .move s' s'' i (ih r) m

theorem fine_returns {S : Sys} {n : Nat} {s : State} {b : Bool} (r : Reach S (Fine b) n s) :
    (∀ (k : Nat) (s' : State), Moves k s s' → k ≤ totalCost s) ∧
    (∀ (k : Nat) (s' : State), Moves k s s' → (∀ (i : Nat) (s'' : State), ¬ Move s' i s'') → AllReturned s') ∧
    (∀ (i : Nat) (t : Thread), s[i]? = some t → t.rest = [] → t.held = []) := by
  refine ⟨fun k s' m => ?_, fun k s' m st => ?_, fun i t hi e => ?_⟩
  · have := moves_cost m
    omega
  · by_contra h
    obtain ⟨i, s'', m'⟩ := fine_progress (reach_moves r m) h
    exact st i s'' m'
  · have w := ordered_reach b (fun _ h => h) r i t hi
    rw [e] at w
    exact w

/-- **C108** Every call returns: from any state the calls that are under way take a bounded number of steps, whatever the schedule, and when none of
them can take another step they have all returned, with no lock held. -/
theorem C108_returns (S : Sys) (n : Nat) (s : State) (r : Reach S Safe n s) :
    (∀ (k : Nat) (s' : State), Moves k s s' → k ≤ totalCost s) ∧
    (∀ (k : Nat) (s' : State), Moves k s s' → (∀ (i : Nat) (s'' : State), ¬ Move s' i s'') → AllReturned s') ∧
    (∀ (i : Nat) (t : Thread), s[i]? = some t → t.rest = [] → t.held = []) := fine_returns (b := false) r

/-- **C108** So it is for `MeterProvider.force_flush`. -/
theorem C108_force_flush (S : Sys) (p : Nat) (code : Nat → Op × List (Nat × Nat × List Nat) × Bool × Op × Op)
    (cb : ∀ r : Nat, CallbackSafe (code r).1) (ex : ∀ r : Nat, ExporterSafe (code r).2.2.2.1) (fl : ∀ r : Nat, Safe (code r).2.2.2.2) :
    Safe (forceFlush S p code) := by
  unfold forceFlush
  induction S.readersOf p with
  | nil => trivial
  | cons r l ih =>
    refine ⟨⟨⟨cb r, ex r⟩, ?_⟩, ih⟩
    split
    · exact fl r
    · trivial

/-- **C109** If nothing is logged inside calls of the API (attributes are valid, spans are not used after their end, views do not conflict, …), log handlers may call
the API as freely as other code: no set of threads is ever deadlocked, and every call returns. -/
theorem C109_no_deadlock (S : Sys) (n : Nat) (s : State) (r : Reach S HandlerSafe n s) :
    (∀ D : Nat → Prop, ¬ Deadlocked s D) ∧
    (∀ (k : Nat) (s' : State), Moves k s s' → k ≤ totalCost s) ∧
    (∀ (k : Nat) (s' : State), Moves k s s' → (∀ (i : Nat) (s'' : State), ¬ Move s' i s'') → AllReturned s') :=
  ⟨fine_no_deadlock (b := true) r, (fine_returns (b := true) r).1, (fine_returns (b := true) r).2.1⟩

/-- **C109** If log handlers do not call the API, it does not matter what is logged, nor where. -/
theorem C109_passive (S : Sys) (n : Nat) (s : State) (r : Reach S Safe n s) :
    (∀ D : Nat → Prop, ¬ Deadlocked s D) ∧
    (∀ (k : Nat) (s' : State), Moves k s s' → (∀ (i : Nat) (s'' : State), ¬ Move s' i s'') → AllReturned s') :=
  ⟨fine_no_deadlock (b := false) r, (fine_returns (b := false) r).2.1⟩

/-! ## Deadlocks -/

/-- **C108** Threads that are deadlocked stay so, whatever the others do: their calls never return. -/
theorem C108_for_ever {S : Sys} {s : State} {D : Nat → Prop} (d : Deadlocked s D) :
    (∀ (i : Nat) (s' : State), Move s i s' → ¬ D i ∧ Deadlocked s' D) ∧
    (∀ (i : Nat) (t : Thread) (o : Op), s[i]? = some t → t.rest = [] →
      Deadlocked (s.set i { t with rest := acts S o }) D) := by
  have stay : ∀ (i : Nat) (x t : Thread), s[i]? = some t → ¬ D i → Deadlocked (s.set i x) D := by
    intro i x t h nd
    refine ⟨d.1, fun a ha => ?_⟩
    obtain ⟨j, hj, ti, tj, l, rest, h1, h2, h3, h4, h5⟩ := d.2 a ha
    refine ⟨j, hj, ti, tj, l, rest, ?_, h2, ?_, h4, h5⟩
    · rw [get_set h, if_neg (fun e => nd (by rw [← e]; exact ha))]
      exact h1
    · rw [get_set h, if_neg (fun e => nd (by rw [← e]; exact hj))]
      exact h3
  have waiting : ∀ (i : Nat) (t : Thread), D i → s[i]? = some t →
      ∃ (l : Lock) (rest : List Act), t.rest = .acquire l :: rest ∧ ¬ free s i l := by
    intro i t hd h
    obtain ⟨j, hj, ti, tj, l, rest, h1, h2, h3, h4, h5⟩ := d.2 i hd
    rw [h] at h1
    cases h1
    refine ⟨l, rest, h2, fun f => ?_⟩
    have := f j tj h3 h4
    rw [h5 this.1] at this
    simp at this
  refine ⟨fun i s' m => ?_, fun i t o h idle => ?_⟩
  · have nd : ∀ t : Thread, s[i]? = some t → (∀ (l : Lock) (rest : List Act), t.rest = .acquire l :: rest → free s i l) → ¬ D i := by
      intro t h f hd
      obtain ⟨l, rest, e, nf⟩ := waiting i t hd h
      exact nf (f l rest e)
    cases m with
    | acquire t l rest h next ok =>
      have := nd t h (fun l' rest' e => by rw [next] at e; cases e; exact ok)
      exact ⟨this, stay i _ t h this⟩
    | release t l rest h next =>
      have := nd t h (fun l' rest' e => by rw [next] at e; cases e)
      exact ⟨this, stay i _ t h this⟩
    | need t l rest h next =>
      have := nd t h (fun l' rest' e => by rw [next] at e; cases e)
      exact ⟨this, stay i _ t h this⟩
    | needNot t l rest h next =>
      have := nd t h (fun l' rest' e => by rw [next] at e; cases e)
      exact ⟨this, stay i _ t h this⟩
  · refine stay i _ t h fun hd => ?_
    obtain ⟨l, rest, e, _⟩ := waiting i t hd h
    rw [idle] at e
    cases e

theorem reach_acquire {S : Sys} {ok : Op → Prop} {n : Nat} {s : State} (r : Reach S ok n s) (i : Nat) (t : Thread) (l : Lock) (rest : List Act)
    (h : s[i]? = some t) (next : t.rest = .acquire l :: rest) (f : ∀ x ∈ s, l ∉ x.held) : Reach S ok n (s.set i ⟨l :: t.held, rest⟩) :=
  .move _ _ i r (.acquire s i t l rest h next fun _ x hj hl => absurd hl (f x (List.mem_of_getElem? hj)))

theorem reach_release {S : Sys} {ok : Op → Prop} {n : Nat} {s : State} (r : Reach S ok n s) (i : Nat) (t : Thread) (l : Lock) (rest : List Act)
    (h : s[i]? = some t) (next : t.rest = .release l :: rest) : Reach S ok n (s.set i ⟨t.held.erase l, rest⟩) :=
  .move _ _ i r (.release s i t l rest h next)

theorem reach_need {S : Sys} {ok : Op → Prop} {n : Nat} {s : State} (r : Reach S ok n s) (i : Nat) (t : Thread) (l : Lock) (rest : List Act)
    (h : s[i]? = some t) (next : t.rest = .maybe l :: rest) : Reach S ok n (s.set i ⟨t.held, .acquire l :: .release l :: rest⟩) :=
  .move _ _ i r (.need s i t l rest h next)

/-- **C108, refuted** A callback that creates an observable instrument on a meter of its own provider: the thread that collects waits for
itself, for ever, and holds the lock that every other collection and every other creation of an observable instrument needs. -/
theorem C108_callback_creates_violated (S : Sys) (r m : Nat) (h : S.meterProvider m = S.providerOf r) (more exporter : Op)
    (streams : List (Nat × Nat × List Nat)) (data : Bool) :
    ∃ s : State, Reach S (fun o => o = .collect r (.seq (.createObservable m) more) streams data exporter) 1 s ∧ Deadlocked s (fun i => i = 0) := by
  have r0 := Reach.call (S := S) (ok := fun o => o = .collect r (.seq (.createObservable m) more) streams data exporter) (n := 1)
    _ 0 ⟨[], []⟩ _ .start rfl rfl rfl
  have r1 := reach_acquire r0 0 _ (.consumer (S.providerOf r)) _ rfl rfl (by simp)
  have r2 := reach_acquire r1 0 _ (.ids m) _ rfl rfl (by simp)
  have r3 := reach_release r2 0 _ (.ids m) _ rfl rfl
  have r4 := reach_need r3 0 _ (.consumer (S.meterProvider m)) _ rfl rfl
  refine ⟨_, r4, ⟨0, rfl⟩, ?_⟩
  rintro i rfl
  exact ⟨0, rfl, _, _, .consumer (S.meterProvider m), _, rfl, rfl, rfl, by simp [h], fun _ => rfl⟩

/-- **C108, refuted** A callback that collects: from any reader of the same provider, by `collect`, `force_flush` or `get_metrics_data` of the
reader or `force_flush` of the provider. -/
theorem C108_callback_collects_violated (S : Sys) (r r' : Nat) (h : S.providerOf r' = S.providerOf r) (more exporter callbacks' exporter' : Op)
    (streams streams' : List (Nat × Nat × List Nat)) (data data' : Bool) :
    (∃ s : State, Reach S (fun o => o = .collect r (.seq (.collect r' callbacks' streams' data' exporter') more) streams data exporter) 1 s ∧
      Deadlocked s (fun i => i = 0)) ∧
    (∃ s : State, Reach S (fun o => o = .collect r (.seq (.getMetricsData r' callbacks' streams' data') more) streams data exporter) 1 s ∧
      Deadlocked s (fun i => i = 0)) := by
  refine ⟨?_, ?_⟩
  · have r0 := Reach.call (S := S) (ok := fun o => o = .collect r (.seq (.collect r' callbacks' streams' data' exporter') more) streams data exporter)
      (n := 1) _ 0 ⟨[], []⟩ _ .start rfl rfl rfl
    have r1 := reach_acquire r0 0 _ (.consumer (S.providerOf r)) _ rfl rfl (by simp)
    refine ⟨_, r1, ⟨0, rfl⟩, ?_⟩
    rintro i rfl
    exact ⟨0, rfl, _, _, .consumer (S.providerOf r'), _, rfl, rfl, rfl, by simp [h], fun _ => rfl⟩
  · have r0 := Reach.call (S := S) (ok := fun o => o = .collect r (.seq (.getMetricsData r' callbacks' streams' data') more) streams data exporter)
      (n := 1) _ 0 ⟨[], []⟩ _ .start rfl rfl rfl
    have r1 := reach_acquire r0 0 _ (.consumer (S.providerOf r)) _ rfl rfl (by simp)
    have r2 := reach_acquire r1 0 _ (.reader r') _ rfl rfl (by simp)
    refine ⟨_, r2, ⟨0, rfl⟩, ?_⟩
    rintro i rfl
    exact ⟨0, rfl, _, _, .consumer (S.providerOf r'), _, rfl, rfl, rfl, by simp [h], fun _ => rfl⟩

/-- **C108, refuted** A callback that creates any instrument, even a counter, on a proxy meter, while another thread creates an observable
instrument on the same proxy meter: the one holds the lock of the consumer and waits for that of the proxy meter, the other holds that one and
waits for the first. (A proxy meter is what `get_meter` of the API returned before the provider was set; it goes on being used afterwards.) -/
theorem C108_proxy_violated (S : Sys) (r m x : Nat) (h : S.meterProvider x = S.providerOf r) (more exporter : Op)
    (streams : List (Nat × Nat × List Nat)) (data observable : Bool) :
    ∃ s : State, Reach S (fun o => o = .collect r (.seq (.proxyCreate m (some x) observable) more) streams data exporter ∨
        o = .proxyCreate m (some x) true) 2 s ∧ Deadlocked s (fun i => i = 0 ∨ i = 1) := by
  have r0 := Reach.call (S := S) (ok := fun o => o = .collect r (.seq (.proxyCreate m (some x) observable) more) streams data exporter ∨
        o = .proxyCreate m (some x) true) (n := 2) _ 0 ⟨[], []⟩ _ .start rfl rfl (Or.inl rfl)
  have r1 := Reach.call _ 1 ⟨[], []⟩ _ r0 rfl rfl (Or.inr rfl)
  have r2 := reach_acquire r1 0 _ (.consumer (S.providerOf r)) _ rfl rfl (by simp [List.replicate])
  have r3 := reach_acquire r2 1 _ (.proxyMeter m) _ rfl rfl (by simp [List.replicate])
  have r4 := reach_acquire r3 1 _ (.ids x) _ rfl rfl (by simp [List.replicate])
  have r5 := reach_release r4 1 _ (.ids x) _ rfl rfl
  have r6 := reach_need r5 1 _ (.consumer (S.meterProvider x)) _ rfl rfl
  refine ⟨_, r6, ⟨0, Or.inl rfl⟩, ?_⟩
  rintro i (rfl | rfl)
  · exact ⟨1, Or.inr rfl, _, _, .proxyMeter m, _, rfl, rfl, rfl, by simp, fun e => absurd e (by decide)⟩
  · exact ⟨0, Or.inl rfl, _, _, .consumer (S.meterProvider x), _, rfl, rfl, rfl, by simp [h], fun _ => rfl⟩

/-- **C108, refuted** A callback that asks the API for a meter, or creates an instrument on a proxy meter, while another thread sets the global provider
and a proxy meter has an observable instrument. -/
theorem C108_set_provider_violated (S : Sys) (r m x : Nat) (h : S.meterProvider x = S.providerOf r) (more exporter : Op)
    (streams : List (Nat × Nat × List Nat)) (data observable : Bool) :
    (∃ s : State, Reach S (fun o => o = .collect r (.seq (.proxyGetMeter none) more) streams data exporter ∨
        o = .setProvider (S.providerOf r) [(m, x, [true])]) 2 s ∧ Deadlocked s (fun i => i = 0 ∨ i = 1)) ∧
    (∃ s : State, Reach S (fun o => o = .collect r (.seq (.proxyCreate m none observable) more) streams data exporter ∨
        o = .setProvider (S.providerOf r) [(m, x, [true])]) 2 s ∧ Deadlocked s (fun i => i = 0 ∨ i = 1)) := by
  refine ⟨?_, ?_⟩
  · have r0 := Reach.call (S := S) (ok := fun o => o = .collect r (.seq (.proxyGetMeter none) more) streams data exporter ∨
        o = .setProvider (S.providerOf r) [(m, x, [true])]) (n := 2) _ 0 ⟨[], []⟩ _ .start rfl rfl (Or.inl rfl)
    have r1 := Reach.call _ 1 ⟨[], []⟩ _ r0 rfl rfl (Or.inr rfl)
    have r2 := reach_acquire r1 0 _ (.consumer (S.providerOf r)) _ rfl rfl (by simp [List.replicate])
    have r3 := reach_acquire r2 1 _ .setOnce _ rfl rfl (by simp [List.replicate])
    have r4 := reach_acquire r3 1 _ .proxyProvider _ rfl rfl (by simp [List.replicate])
    have r5 := reach_acquire r4 1 _ (.meters (S.providerOf r)) _ rfl rfl (by simp [List.replicate])
    have r6 := reach_release r5 1 _ (.meters (S.providerOf r)) _ rfl rfl
    have r7 := reach_acquire r6 1 _ (.proxyMeter m) _ rfl rfl (by simp [List.replicate])
    have r8 := reach_acquire r7 1 _ (.ids x) _ rfl rfl (by simp [List.replicate])
    have r9 := reach_release r8 1 _ (.ids x) _ rfl rfl
    have r10 := reach_need r9 1 _ (.consumer (S.meterProvider x)) _ rfl rfl
    refine ⟨_, r10, ⟨0, Or.inl rfl⟩, ?_⟩
    rintro i (rfl | rfl)
    · exact ⟨1, Or.inr rfl, _, _, .proxyProvider, _, rfl, rfl, rfl, by simp, fun e => absurd e (by decide)⟩
    · exact ⟨0, Or.inl rfl, _, _, .consumer (S.meterProvider x), _, rfl, rfl, rfl, by simp [h], fun _ => rfl⟩
  · have r0 := Reach.call (S := S) (ok := fun o => o = .collect r (.seq (.proxyCreate m none observable) more) streams data exporter ∨
        o = .setProvider (S.providerOf r) [(m, x, [true])]) (n := 2) _ 0 ⟨[], []⟩ _ .start rfl rfl (Or.inl rfl)
    have r1 := Reach.call _ 1 ⟨[], []⟩ _ r0 rfl rfl (Or.inr rfl)
    have r2 := reach_acquire r1 0 _ (.consumer (S.providerOf r)) _ rfl rfl (by simp [List.replicate])
    have r3 := reach_acquire r2 1 _ .setOnce _ rfl rfl (by simp [List.replicate])
    have r4 := reach_acquire r3 1 _ .proxyProvider _ rfl rfl (by simp [List.replicate])
    have r5 := reach_acquire r4 1 _ (.meters (S.providerOf r)) _ rfl rfl (by simp [List.replicate])
    have r6 := reach_release r5 1 _ (.meters (S.providerOf r)) _ rfl rfl
    have r7 := reach_acquire r6 1 _ (.proxyMeter m) _ rfl rfl (by simp [List.replicate])
    have r8 := reach_acquire r7 1 _ (.ids x) _ rfl rfl (by simp [List.replicate])
    have r9 := reach_release r8 1 _ (.ids x) _ rfl rfl
    have r10 := reach_need r9 1 _ (.consumer (S.meterProvider x)) _ rfl rfl
    refine ⟨_, r10, ⟨0, Or.inl rfl⟩, ?_⟩
    rintro i (rfl | rfl)
    · exact ⟨1, Or.inr rfl, _, _, .proxyMeter m, _, rfl, rfl, rfl, by simp, fun e => absurd e (by decide)⟩
    · exact ⟨0, Or.inl rfl, _, _, .consumer (S.meterProvider x), _, rfl, rfl, rfl, by simp [h], fun _ => rfl⟩

/-- **C108, refuted** Two providers: a callback of the one creates an observable instrument on a meter of the other, and the other way round. -/
theorem C108_two_providers_violated (S : Sys) (r m r' m' : Nat) (h : S.meterProvider m = S.providerOf r) (h' : S.meterProvider m' = S.providerOf r')
    (ne : S.providerOf r ≠ S.providerOf r') (e : Op) (streams : List (Nat × Nat × List Nat)) (data : Bool) :
    ∃ s : State, Reach S (fun o => o = .collect r (.createObservable m') streams data e ∨ o = .collect r' (.createObservable m) streams data e) 2 s ∧
      Deadlocked s (fun i => i = 0 ∨ i = 1) := by
  have r0 := Reach.call (S := S) (ok := fun o => o = .collect r (.createObservable m') streams data e ∨
    o = .collect r' (.createObservable m) streams data e) (n := 2) _ 0 ⟨[], []⟩ _ .start rfl rfl (Or.inl rfl)
  have r1 := Reach.call _ 1 ⟨[], []⟩ _ r0 rfl rfl (Or.inr rfl)
  have r2 := reach_acquire r1 0 _ (.consumer (S.providerOf r)) _ rfl rfl (by simp [List.replicate])
  have r3 := reach_acquire r2 1 _ (.consumer (S.providerOf r')) _ rfl rfl (by simp [List.replicate, ne.symm])
  have r4 := reach_acquire r3 0 _ (.ids m') _ rfl rfl (by simp [List.replicate])
  have r5 := reach_release r4 0 _ (.ids m') _ rfl rfl
  have r6 := reach_need r5 0 _ (.consumer (S.meterProvider m')) _ rfl rfl
  have r7 := reach_acquire r6 1 _ (.ids m) _ rfl rfl (by simp [List.replicate])
  have r8 := reach_release r7 1 _ (.ids m) _ rfl rfl
  have r9 := reach_need r8 1 _ (.consumer (S.meterProvider m)) _ rfl rfl
  refine ⟨_, r9, ⟨0, Or.inl rfl⟩, ?_⟩
  rintro i (rfl | rfl)
  · exact ⟨1, Or.inr rfl, _, _, .consumer (S.meterProvider m'), _, rfl, rfl, rfl, by simp [h'], fun e => absurd e (by decide)⟩
  · exact ⟨0, Or.inl rfl, _, _, .consumer (S.meterProvider m), _, rfl, rfl, rfl, by simp [h], fun _ => rfl⟩

/-- **C108, refuted** An exporter that flushes the periodic reader it exports for, when there is data again. -/
theorem C108_exporter_flushes_violated (S : Sys) (r : Nat) (h : S.periodic r = true) (more : Op) : ∃ s : State,
    Reach S (fun o => o = .collect r .skip [] true (.collect r .skip [] true more)) 1 s ∧ Deadlocked s (fun i => i = 0) := by
  have r0 := Reach.call (S := S) (ok := fun o => o = .collect r .skip [] true (.collect r .skip [] true more)) (n := 1)
    _ 0 ⟨[], []⟩ _ .start rfl rfl rfl
  have e : acts S (.collect r .skip [] true (.collect r .skip [] true more)) =
      .acquire (.consumer (S.providerOf r)) :: .acquire (.storage r) :: .release (.storage r) :: .release (.consumer (S.providerOf r)) ::
      .acquire (.exporting r) ::
      .acquire (.consumer (S.providerOf r)) :: .acquire (.storage r) :: .release (.storage r) :: .release (.consumer (S.providerOf r)) ::
      .acquire (.exporting r) :: (acts S more ++ [.release (.exporting r), .release (.exporting r)]) := by
    simp [acts, collect, consumerCollect, storageCollect, receive, h, Locks.within]
  rw [e] at r0
  have r1 := reach_acquire r0 0 _ (.consumer (S.providerOf r)) _ rfl rfl (by simp)
  have r2 := reach_acquire r1 0 _ (.storage r) _ rfl rfl (by simp)
  have r3 := reach_release r2 0 _ (.storage r) _ rfl rfl
  have r4 := reach_release r3 0 _ (.consumer (S.providerOf r)) _ rfl rfl
  have r5 := reach_acquire r4 0 _ (.exporting r) _ rfl rfl (by simp)
  have r6 := reach_acquire r5 0 _ (.consumer (S.providerOf r)) _ rfl rfl (by simp)
  have r7 := reach_acquire r6 0 _ (.storage r) _ rfl rfl (by simp)
  have r8 := reach_release r7 0 _ (.storage r) _ rfl rfl
  have r9 := reach_release r8 0 _ (.consumer (S.providerOf r)) _ rfl rfl
  refine ⟨_, r9, ⟨0, rfl⟩, ?_⟩
  rintro i rfl
  exact ⟨0, rfl, _, _, .exporting r, _, rfl, rfl, rfl, by simp, fun _ => rfl⟩

/-- **C109, refuted** A log handler that adds an event to the current span, and a call on that span about which the SDK logs: an attribute of a wrong
type (`set_attribute("k", None)`), any attribute after the end, a status with a superfluous description, a second `end()`. The thread waits for
itself, for ever. -/
theorem C109_event_handler_violated (S : Sys) (x h : Nat) (o : Op)
    (ho : o = .setAttributes x (.store x (.log h (.addEvent x))) ∨ o = .setAttributes x (.log h (.addEvent x)) ∨
      o = .setStatus x (.log h (.addEvent x)) ∨ o = .boundary x (.log h (.addEvent x)) .skip) :
    ∃ s : State, Reach S (fun o' => o' = o) 1 s ∧ Deadlocked s (fun i => i = 0) := by
  have fin : ∀ s : State, ∀ t : Thread, ∀ rest : List Act, s[0]? = some t → t.rest = .acquire (.span x) :: rest → .span x ∈ t.held →
      Deadlocked s (fun i => i = 0) := by
    intro s t rest h1 h2 h3
    refine ⟨⟨0, rfl⟩, ?_⟩
    rintro i rfl
    exact ⟨0, rfl, t, t, .span x, rest, h1, h2, h1, h3, fun _ => rfl⟩
  rcases ho with rfl | rfl | rfl | rfl
  · have r0 := Reach.call (S := S) (ok := fun o' => o' = .setAttributes x (.store x (.log h (.addEvent x)))) (n := 1) _ 0 ⟨[], []⟩ _ .start rfl rfl rfl
    have r1 := reach_acquire r0 0 _ (.span x) _ rfl rfl (by simp)
    have r2 := reach_acquire r1 0 _ (.attributes x) _ rfl rfl (by simp)
    have r3 := reach_acquire r2 0 _ (.handler h) _ rfl rfl (by simp)
    exact ⟨_, r3, fin _ _ _ rfl rfl (by simp)⟩
  · have r0 := Reach.call (S := S) (ok := fun o' => o' = .setAttributes x (.log h (.addEvent x))) (n := 1) _ 0 ⟨[], []⟩ _ .start rfl rfl rfl
    have r1 := reach_acquire r0 0 _ (.span x) _ rfl rfl (by simp)
    have r3 := reach_acquire r1 0 _ (.handler h) _ rfl rfl (by simp)
    exact ⟨_, r3, fin _ _ _ rfl rfl (by simp)⟩
  · have r0 := Reach.call (S := S) (ok := fun o' => o' = .setStatus x (.log h (.addEvent x))) (n := 1) _ 0 ⟨[], []⟩ _ .start rfl rfl rfl
    have r1 := reach_acquire r0 0 _ (.span x) _ rfl rfl (by simp)
    have r3 := reach_acquire r1 0 _ (.handler h) _ rfl rfl (by simp)
    exact ⟨_, r3, fin _ _ _ rfl rfl (by simp)⟩
  · have r0 := Reach.call (S := S) (ok := fun o' => o' = .boundary x (.log h (.addEvent x)) .skip) (n := 1) _ 0 ⟨[], []⟩ _ .start rfl rfl rfl
    have r1 := reach_acquire r0 0 _ (.span x) _ rfl rfl (by simp)
    have r3 := reach_acquire r1 0 _ (.handler h) _ rfl rfl (by simp)
    exact ⟨_, r3, fin _ _ _ rfl rfl (by simp)⟩

/-- **C109, refuted** Two threads that share span `x`: the one logs something of its own and the handler adds an event to `x`, the other sets an attribute of
a wrong type, and its handler only touches a span `y` of its own. -/
theorem C109_shared_span_violated (S : Sys) (x y h : Nat) :
    ∃ s : State, Reach S (fun o => o = .log h (.addEvent x) ∨ o = .setAttributes x (.store x (.log h (.addEvent y)))) 2 s ∧
      Deadlocked s (fun i => i = 0 ∨ i = 1) := by
  have r0 := Reach.call (S := S) (ok := fun o => o = .log h (.addEvent x) ∨ o = .setAttributes x (.store x (.log h (.addEvent y)))) (n := 2)
    _ 0 ⟨[], []⟩ _ .start rfl rfl (Or.inl rfl)
  have r1 := Reach.call _ 1 ⟨[], []⟩ _ r0 rfl rfl (Or.inr rfl)
  have r2 := reach_acquire r1 0 _ (.handler h) _ rfl rfl (by simp [List.replicate])
  have r3 := reach_acquire r2 1 _ (.span x) _ rfl rfl (by simp [List.replicate])
  have r4 := reach_acquire r3 1 _ (.attributes x) _ rfl rfl (by simp [List.replicate])
  refine ⟨_, r4, ⟨0, Or.inl rfl⟩, ?_⟩
  rintro i (rfl | rfl)
  · exact ⟨1, Or.inr rfl, _, _, .span x, _, rfl, rfl, rfl, by simp, fun e => absurd e (by decide)⟩
  · exact ⟨0, Or.inl rfl, _, _, .handler h, _, rfl, rfl, rfl, by simp, fun e => absurd e (by decide)⟩

/-- **C109, refuted** A log handler that counts messages: the one thread logs its first message, the handler records the first measurement of its counter; the
other records the first measurement of an instrument whose views conflict, about which the SDK logs. -/
theorem C109_counting_handler_violated (S : Sys) (r i a j c h : Nat) :
    ∃ s : State, Reach S (fun o => o = .log h (.seq (.matchViews r .skip) (.record i a)) ∨
        o = .seq (.matchViews r (.log h (.record i a))) (.record j c)) 2 s ∧ Deadlocked s (fun i => i = 0 ∨ i = 1) := by
  have r0 := Reach.call (S := S) (ok := fun o => o = .log h (.seq (.matchViews r .skip) (.record i a)) ∨
        o = .seq (.matchViews r (.log h (.record i a))) (.record j c)) (n := 2)
    _ 0 ⟨[], []⟩ _ .start rfl rfl (Or.inl rfl)
  have r1 := Reach.call _ 1 ⟨[], []⟩ _ r0 rfl rfl (Or.inr rfl)
  have r2 := reach_acquire r1 0 _ (.handler h) _ rfl rfl (by simp [List.replicate])
  have r3 := reach_acquire r2 1 _ (.storage r) _ rfl rfl (by simp [List.replicate])
  refine ⟨_, r3, ⟨0, Or.inl rfl⟩, ?_⟩
  rintro i (rfl | rfl)
  · exact ⟨1, Or.inr rfl, _, _, .storage r, _, rfl, rfl, rfl, by simp, fun e => absurd e (by decide)⟩
  · exact ⟨0, Or.inl rfl, _, _, .handler h, _, rfl, rfl, rfl, by simp, fun e => absurd e (by decide)⟩

/-! ## Locks are given back, whatever the application does -/

/-- What is left to do gives all locks back, in whatever order it takes them. -/
def gives : List Lock → List Act → Prop
  | H, [] => H = []
  | H, .acquire l :: r => gives (l :: H) r
  | H, .release l :: r => l ∈ H ∧ gives (H.erase l) r
  | H, .maybe _ :: r => gives H r

/-- Gives back what it takes. -/
def Neutral (A : List Act) : Prop := ∀ (H : List Lock) (r : List Act), gives H r → gives H (A ++ r)

theorem Neutral.nil : Neutral [] := fun _ _ h => h

theorem Neutral.append {A B : List Act} (a : Neutral A) (b : Neutral B) : Neutral (A ++ B) := by
  intro H r hr
  rw [List.append_assoc]
  exact a H _ (b H r hr)

theorem Neutral.flatMap {α : Type} (f : α → List Act) (l : List α) (h : ∀ x : α, Neutral (f x)) : Neutral (l.flatMap f) := by
  induction l with
  | nil => exact Neutral.nil
  | cons a t ih =>
    rw [List.flatMap_cons]
    exact (h a).append ih

theorem Neutral.within {l : Lock} {A : List Act} (a : Neutral A) : Neutral (within l A) := by
  intro H r hr
  have e : Locks.within l A ++ r = .acquire l :: (A ++ .release l :: r) := by simp [Locks.within]
  rw [e]
  refine a _ _ ⟨by simp, ?_⟩
  rw [List.erase_cons_head]
  exact hr

theorem Neutral.maybe {l : Lock} {A : List Act} (a : Neutral A) : Neutral (.maybe l :: A) := fun H r hr => a H r hr

theorem neutral_consume (S : Sys) (r i a : Nat) : Neutral (consume S r i a) :=
  Neutral.maybe (Neutral.flatMap _ _ fun _ => Neutral.maybe (Neutral.within Neutral.nil))

theorem neutral_create (S : Sys) (m : Nat) (o : Bool) : Neutral (create S m o) := by
  cases o
  · exact (Neutral.within Neutral.nil).append (Neutral.within Neutral.nil)
  · exact (Neutral.within Neutral.nil).append (Neutral.maybe (Neutral.within Neutral.nil))

theorem neutral_collect (S : Sys) (r : Nat) (C E : List Act) (l : List (Nat × Nat × List Nat)) (data : Bool) (c : Neutral C) (e : Neutral E) :
    Neutral (collect S r C l data E) := by
  refine (Neutral.within (c.append (Neutral.within (Neutral.flatMap _ _ fun _ => Neutral.within (Neutral.flatMap _ _ fun _ =>
    Neutral.within Neutral.nil))))).append ?_
  cases data
  · exact Neutral.nil
  · rw [if_pos rfl]
    unfold receive
    split
    · exact Neutral.within e
    · exact Neutral.within Neutral.nil

theorem neutral_acts (S : Sys) (o : Op) : Neutral (acts S o) := by
  induction o with
  | skip => exact Neutral.nil
  | seq a b iha ihb => exact iha.append ihb
  | record i a => exact Neutral.flatMap _ _ fun _ => neutral_consume S _ _ _
  | observed r i a => exact neutral_consume S r i a
  | createSync m => exact neutral_create S m false
  | createObservable m => exact neutral_create S m true
  | getMeter p => exact Neutral.within Neutral.nil
  | proxyGetMeter real =>
    refine Neutral.within ?_
    cases real with
    | none => exact Neutral.nil
    | some p => exact Neutral.within Neutral.nil
  | proxyCreate m real o =>
    refine Neutral.within ?_
    cases real with
    | none => exact Neutral.nil
    | some x => exact neutral_create S x o
  | setProvider p l =>
    exact Neutral.within (Neutral.within (Neutral.flatMap _ _ fun x =>
      (Neutral.within Neutral.nil).append (Neutral.within (Neutral.flatMap _ _ fun b => neutral_create S x.2.1 b))))
  | collect r c l data e ihc ihe => exact neutral_collect S r _ _ l data ihc ihe
  | matchViews r l ih => exact Neutral.within ih
  | log h e ih => exact Neutral.within ih
  | setAttributes x s ih => exact Neutral.within ih
  | store x l ih => exact Neutral.within ih
  | addEvent x => exact Neutral.within (Neutral.within Neutral.nil)
  | addLink x => exact Neutral.within (Neutral.within Neutral.nil)
  | updateName x => exact Neutral.within Neutral.nil
  | setStatus x l ih => exact Neutral.within ih
  | boundary x l p ihl ihp => exact (Neutral.within ihl).append ihp
  | readSpan x => exact ((Neutral.within Neutral.nil).append (Neutral.within Neutral.nil)).append (Neutral.within Neutral.nil)
  | getMetricsData r c l data ihc => exact Neutral.within (neutral_collect S r _ _ l data ihc Neutral.nil)

theorem gives_set {s : State} {i : Nat} {t x : Thread} (h : s[i]? = some t) (o : ∀ (j : Nat) (y : Thread), s[j]? = some y → gives y.held y.rest)
    (hx : gives x.held x.rest) : ∀ (j : Nat) (y : Thread), (s.set i x)[j]? = some y → gives y.held y.rest := by
  intro j tj hj
  rw [get_set h] at hj
  split at hj
  · cases hj
    exact hx
  · exact o j tj hj

theorem gives_reach {S : Sys} {ok : Op → Prop} {n : Nat} {s : State} (r : Reach S ok n s) :
    ∀ (j : Nat) (y : Thread), s[j]? = some y → gives y.held y.rest := by
  induction r with
  | start =>
    intro i t hi
    rw [List.getElem?_replicate] at hi
    split at hi
    · cases hi
      rfl
    · cases hi
  | call s i t o r h idle allowed ih =>
    refine gives_set h ih ?_
    have w := ih i t h
    rw [idle] at w
    have hn : t.held = [] := w
    show gives t.held (acts S o)
    rw [hn]
    simpa using neutral_acts S o [] [] rfl
  | move s s' i r m ih =>
    cases m with
    | acquire t l rest h next ok =>
      have := ih i t h
      rw [next] at this
      exact gives_set h ih this
    | release t l rest h next =>
      have := ih i t h
      rw [next] at this
      exact gives_set h ih this.2
    | need t l rest h next =>
      have := ih i t h
      rw [next] at this
      exact gives_set h ih ⟨by simp, by rw [List.erase_cons_head]; exact this⟩
    | needNot t l rest h next =>
      have := ih i t h
      rw [next] at this
      exact gives_set h ih this

/-- **C108** Whatever calls are made, safe or not: no lock is ever held by two threads, a thread only gives back locks that it holds, and a thread that is out of
its call holds none. -/
theorem C108_released (S : Sys) (ok : Op → Prop) (n : Nat) (s : State) (r : Reach S ok n s) :
    (∀ (i j : Nat) (ti tj : Thread) (l : Lock), s[i]? = some ti → s[j]? = some tj → l ∈ ti.held → l ∈ tj.held → i = j) ∧
    (∀ (i : Nat) (t : Thread) (l : Lock) (rest : List Act), s[i]? = some t → t.rest = .release l :: rest → l ∈ t.held) ∧
    (∀ (i : Nat) (t : Thread), s[i]? = some t → t.rest = [] → t.held = []) := by
  refine ⟨exclusive_reach r, fun i t l rest h e => ?_, fun i t h e => ?_⟩
  · have w := gives_reach r i t h
    rw [e] at w
    exact w.1
  · have w := gives_reach r i t h
    rw [e] at w
    exact w

/-- A system for examples: readers 0 (periodic) and 1 (in memory) of provider 0, one view each. -/
def exampleSys : Sys :=
  ⟨fun _ => 0, fun p => if p = 0 then [0, 1] else [], fun _ => 0, fun _ => 0, fun _ _ => 1, fun _ _ _ a => a, fun r => r == 0⟩

/-- The hypotheses of `C108_no_deadlock` are met: a callback that records and creates a counter, an exporter that creates an observable gauge on a proxy
meter, a thread that sets the provider. -/
example : Safe (.collect 0 (.seq (.record 3 1) (.createSync 2)) [(3, 0, [1])] true (.proxyCreate 5 (some 2) true)) ∧
    Safe (.setProvider 0 [(5, 2, [true, false])]) ∧ Safe (.getMetricsData 1 (.observed 1 4 7) [] true) := ⟨⟨⟨trivial, trivial⟩, trivial⟩, trivial, trivial⟩

/-- The hypotheses of `C109_no_deadlock` are met: a handler that adds an event and counts, while spans are used and metrics collected. -/
example : HandlerSafe (.log 0 (.seq (.addEvent 3) (.seq (.matchViews 0 .skip) (.record 1 2)))) ∧
    HandlerSafe (.seq (.setAttributes 3 (.seq (.store 3 .skip) (.store 3 .skip))) (.boundary 3 .skip (.record 5 0))) ∧
    HandlerSafe (.collect 0 (.record 1 1) [] true (.createObservable 4)) ∧ ¬ HandlerSafe (.setAttributes 3 (.store 3 (.log 0 .skip))) :=
  ⟨⟨⟨trivial, trivial, trivial⟩, trivial, trivial, trivial⟩, ⟨⟨⟨trivial, trivial⟩, trivial, trivial⟩, ⟨trivial, trivial⟩, trivial, trivial⟩,
    ⟨⟨trivial, trivial⟩, trivial, trivial⟩, fun h => h.1⟩

example : ∃ s : State, Reach exampleSys Safe 2 s ∧ (∃ j : Nat, Waits s 1 j) ∧ ∀ D : Nat → Prop, ¬ Deadlocked s D := by
  have r0 := Reach.call (S := exampleSys) (ok := Safe) (n := 2) _ 0 ⟨[], []⟩ (.collect 0 .skip [] false .skip) .start rfl rfl ⟨trivial, trivial⟩
  have r1 := Reach.call _ 1 ⟨[], []⟩ (.collect 1 .skip [] false .skip) r0 rfl rfl ⟨trivial, trivial⟩
  have r2 := reach_acquire r1 0 _ (.consumer 0) _ rfl rfl (by decide)
  exact ⟨_, r2, ⟨0, _, _, .consumer 0, _, rfl, rfl, rfl, by decide, fun e => absurd e (by decide)⟩, C108_no_deadlock _ _ _ r2⟩

end Locks
end Otel
