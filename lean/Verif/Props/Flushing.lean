import Verif.Spec.Flushing
import Verif.Props.Batch
/-!
# C131: what a successful `force_flush` of the provider means
-/
namespace Otel
namespace Flushing
open Spec
open scoped List
variable {σ : Type}

/-- What every step of a processor keeps. -/
structure Le (p p' : Batch.St σ) : Prop where
  accepted : p.accepted <+: p'.accepted
  done : p.done = true → p'.done = true
  held : ∀ x, x ∈ p.inflight ∨ x ∈ p.accepted → x ∈ p'.inflight ∨ x ∈ p'.accepted
  flushes : ∀ (i : Nat) (f : Batch.Flush), p.flushes[i]? = some f → ∃ f', p'.flushes[i]? = some f' ∧ f'.before = f.before ∧
    ∀ ok bd, f.state = .returned ok bd → f'.state = .returned ok bd

theorem Le.refl (p : Batch.St σ) : Le p p := ⟨List.prefix_refl _, id, fun _ => id, fun _ f h => ⟨f, h, rfl, fun _ _ => id⟩⟩

theorem get_set {X : Type} {l : List X} {i j : Nat} {a t : X} (h : (l.set i a)[j]? = some t) : (i = j ∧ t = a) ∨ (i ≠ j ∧ l[j]? = some t) := by
  rw [List.getElem?_set] at h
  by_cases hij : i = j
  · rw [if_pos hij] at h
    split at h
    · exact .inl ⟨hij, (Option.some.inj h).symm⟩
    · cases h
  · rw [if_neg hij] at h
    exact .inr ⟨hij, h⟩

theorem set_self {X : Type} {l : List X} {i : Nat} {t : X} (a : X) (h : l[i]? = some t) : (l.set i a)[i]? = some a := by
  have hi := (List.getElem?_eq_some_iff.mp h).1
  rw [List.getElem?_set, if_pos rfl, if_pos hi]

theorem set_other {X : Type} {l : List X} {i j : Nat} (a : X) (h : i ≠ j) : (l.set i a)[j]? = l[j]? := by
  rw [List.getElem?_set, if_neg h]

theorem le_set {p : Batch.St σ} {i b : Nat} {st st' : Batch.FState} (h : p.flushes[i]? = some ⟨b, st⟩) (hst : ∀ ok bd, st ≠ .returned ok bd)
    (j : Nat) (f : Batch.Flush) (hf : p.flushes[j]? = some f) :
    ∃ f', (p.flushes.set i ⟨b, st'⟩)[j]? = some f' ∧ f'.before = f.before ∧ ∀ ok bd, f.state = .returned ok bd → f'.state = .returned ok bd := by
  by_cases hij : i = j
  · subst hij
    rw [h] at hf
    cases hf
    exact ⟨_, set_self _ h, rfl, fun ok bd e => absurd e (hst ok bd)⟩
  · exact ⟨f, by rw [set_other _ hij]; exact hf, rfl, fun _ _ => id⟩

theorem le_push (c : Batch.Cfg σ) (p : Batch.St σ) (i : Nat) (x : σ) (h : p.inflight[i]? = some x) :
    Le p (Batch.push c { p with inflight := p.inflight.eraseIdx i } x) := by
  have hh : ∀ y, y ∈ p.inflight ∨ y ∈ p.accepted → y ∈ p.inflight.eraseIdx i ∨ y ∈ p.accepted ++ [x] := by
    intro y hy
    rcases hy with hy | hy
    · by_cases hxy : y = x
      · simp [hxy]
      · left
        obtain ⟨j, hj⟩ := List.mem_iff_getElem?.mp hy
        have hne : j ≠ i := by
          rintro rfl
          rw [h] at hj
          exact hxy (Option.some.inj hj).symm
        exact List.mem_eraseIdx_iff_getElem?.mpr ⟨j, hne, hj⟩
    · simp [hy]
  have key : ∀ q : Batch.St σ, q.accepted = p.accepted ++ [x] → q.done = p.done → q.inflight = p.inflight.eraseIdx i → q.flushes = p.flushes → Le p q := by
    intro q h1 h2 h3 h4
    refine ⟨by rw [h1]; exact List.prefix_append _ _, by rw [h2]; exact id, ?_, ?_⟩
    · rw [h1, h3]; exact hh
    · rw [h4]; exact (Le.refl p).flushes
  unfold Batch.push
  split
  · split <;> exact key _ rfl rfl rfl rfl
  · exact key _ rfl rfl rfl rfl

theorem le_same {p q : Batch.St σ} (h1 : q.accepted = p.accepted) (h2 : q.done = p.done) (h3 : q.inflight = p.inflight) (h4 : q.flushes = p.flushes) :
    Le p q := by
  refine ⟨by rw [h1]; exact List.prefix_refl _, by rw [h2]; exact id, by rw [h1, h3]; exact fun _ => id, by rw [h4]; exact (Le.refl p).flushes⟩

theorem le_step (c : Batch.Cfg σ) (p : Batch.St σ) (a : Batch.Act σ) : Le p (Batch.step c p a) := by
  cases a with
  | offer x =>
    simp only [Batch.step]
    split
    · exact Le.refl p
    · refine ⟨List.prefix_refl _, id, ?_, (Le.refl p).flushes⟩
      intro y hy
      rcases hy with hy | hy
      · exact .inl (List.mem_append_left _ hy)
      · exact .inr hy
  | append i =>
    simp only [Batch.step]
    split
    · next x hx => exact le_push c p i x hx
    · exact Le.refl p
  | flushCall =>
    refine ⟨List.prefix_refl _, id, fun _ => id, ?_⟩
    intro i f hf
    refine ⟨f, ?_, rfl, fun _ _ => id⟩
    simp only [Batch.step]
    rw [List.getElem?_append_left (List.getElem?_eq_some_iff.mp hf).1]
    exact hf
  | flushReq i =>
    simp only [Batch.step]
    split
    · next b hi =>
      split
      · exact ⟨List.prefix_refl _, id, fun _ => id, le_set hi (by simp)⟩
      · exact ⟨List.prefix_refl _, id, fun _ => id, le_set hi (by simp)⟩
    · exact Le.refl p
  | flushRet i ok =>
    simp only [Batch.step]
    split
    · next b r hi =>
      split
      · exact Le.refl p
      · exact ⟨List.prefix_refl _, id, fun _ => id, le_set hi (by simp)⟩
    · exact Le.refl p
  | shutCall => exact ⟨List.prefix_refl _, fun _ => rfl, fun _ => id, (Le.refl p).flushes⟩
  | shutJoin =>
    simp only [Batch.step]
    split
    · exact le_same rfl rfl rfl rfl
    · exact Le.refl p
  | worker =>
    simp only [Batch.step, Batch.wstep]
    split <;> (try split) <;> (try split) <;> exact le_same rfl rfl rfl rfl

/-- A processor answers at once only after it was shut down. -/
theorem refused_done (c : Batch.Cfg σ) (l : List (Batch.Act σ)) (f : Batch.Flush) (hf : f ∈ (Batch.run c l).flushes) (ok : Bool)
    (h : f.state = .returned ok true) : (Batch.run c l).done = true := by
  induction l using List.reverseRecOn generalizing f ok with
  | nil => simp [Batch.run, Batch.init] at hf
  | append_singleton l a ih =>
    have e : Batch.run c (l ++ [a]) = Batch.step c (Batch.run c l) a := by simp [Batch.run]
    rw [e] at hf ⊢
    generalize Batch.run c l = p at *
    have hold : f ∈ p.flushes → (Batch.step c p a).done = true := fun hm => (le_step c p a).done (ih f hm ok h)
    cases a with
    | offer x => apply hold; simp only [Batch.step] at hf; split at hf <;> exact hf
    | append i =>
      apply hold
      simp only [Batch.step] at hf
      split at hf
      · unfold Batch.push at hf
        split at hf
        · split at hf <;> exact hf
        · exact hf
      · exact hf
    | flushCall =>
      simp only [Batch.step, List.mem_append, List.mem_singleton] at hf
      rcases hf with hf | rfl
      · exact hold hf
      · simp only at h
        by_cases hd : p.done = true
        · exact hd
        · simp [hd] at h
    | flushReq i =>
      apply hold
      simp only [Batch.step] at hf
      split at hf
      · split at hf
        · rcases List.mem_or_eq_of_mem_set hf with hf | rfl
          · exact hf
          · cases h
        · rcases List.mem_or_eq_of_mem_set hf with hf | rfl
          · exact hf
          · cases h
      · exact hf
    | flushRet i ok' =>
      apply hold
      simp only [Batch.step] at hf
      split at hf
      · split at hf
        · exact hf
        · rcases List.mem_or_eq_of_mem_set hf with hf | rfl
          · exact hf
          · cases h
      · exact hf
    | shutCall => rfl
    | shutJoin => apply hold; simp only [Batch.step] at hf; split at hf <;> exact hf
    | worker =>
      apply hold
      simp only [Batch.step] at hf
      rw [(Batch.frame_wstep c p).2.1] at hf
      exact hf

variable {cfgs : List (Batch.Cfg σ)}

/-- What every step of the system keeps of the processors. -/
structure PLe (cfgs : List (Batch.Cfg σ)) (ps ps' : List (Batch.St σ)) : Prop where
  length : ps'.length = ps.length
  each : ∀ (k : Nat) (p' : Batch.St σ), ps'[k]? = some p' → ∃ p, ps[k]? = some p ∧ Le p p' ∧
    ∀ c, cfgs[k]? = some c → (∃ l, p = Batch.run c l) → ∃ l, p' = Batch.run c l

theorem ple_at (ps : List (Batch.St σ)) (k : Nat) (a : Batch.Act σ) : PLe cfgs ps (atProc cfgs ps k a) := by
  unfold atProc
  split
  · next c p hc hp =>
    refine ⟨by simp, ?_⟩
    intro j p' hp'
    rcases get_set hp' with ⟨rfl, rfl⟩ | ⟨-, h⟩
    · refine ⟨p, hp, le_step c p a, ?_⟩
      rintro c' hc' ⟨l, rfl⟩
      rw [hc] at hc'
      cases hc'
      exact ⟨l ++ [a], by simp [Batch.run]⟩
    · exact ⟨p', h, Le.refl p', fun _ _ => id⟩
  · exact ⟨rfl, fun j p' hp' => ⟨p', hp', Le.refl p', fun _ _ => id⟩⟩

theorem at_self {ps : List (Batch.St σ)} {k : Nat} {c : Batch.Cfg σ} {p : Batch.St σ} (hc : cfgs[k]? = some c) (hp : ps[k]? = some p) (a : Batch.Act σ) :
    (atProc cfgs ps k a)[k]? = some (Batch.step c p a) := by
  unfold atProc
  rw [hc, hp]
  exact set_self _ hp

/-- What has become of a span that a processor was told of. -/
def Fate (c : Batch.Cfg σ) (p : Batch.St σ) (x : σ) : Prop := c.sampled x = false ∨ p.done = true ∨ x ∈ p.accepted

/-- … that is being told. -/
def Fate' (c : Batch.Cfg σ) (p : Batch.St σ) (x : σ) : Prop := c.sampled x = false ∨ p.done = true ∨ x ∈ p.inflight ∨ x ∈ p.accepted

/-- What holds of a call of `end`. -/
def EndOk (cfgs : List (Batch.Cfg σ)) (ps : List (Batch.St σ)) (t : EndCall σ) : Prop :=
  ∀ (k : Nat) (c : Batch.Cfg σ) (p : Batch.St σ), cfgs[k]? = some c → ps[k]? = some p →
    (k < t.pos → Fate c p t.span) ∧ (k = t.pos → t.offered = true → Fate' c p t.span)

/-- What holds of a call of `force_flush`; `base`: what each processor had accepted, and whether it was shut down, at some moment before. -/
def CallOk (cfgs : List (Batch.Cfg σ)) (base : Nat → List σ × Bool) (ps : List (Batch.St σ)) (t : FCall) : Prop :=
  (∀ (k i : Nat) (p : Batch.St σ), t.idxs[k]? = some i → ps[k]? = some p → ∃ fl, p.flushes[i]? = some fl ∧ (base k).1.length ≤ fl.before ∧
    ((base k).2 = true → fl.state = .returned true true) ∧
    ((k + 1 < t.idxs.length ∨ (t.waiting = false ∧ t.res ≠ some false)) → ∃ bd, fl.state = .returned true bd)) ∧
  (t.res = some true → cfgs.length ≤ t.idxs.length)

/-- The invariant. -/
structure Inv (cfgs : List (Batch.Cfg σ)) (base : Nat → List σ × Bool) (n0 : Nat) (s : St σ) : Prop where
  len : s.procs.length = cfgs.length
  hist : ∀ (k : Nat) (c : Batch.Cfg σ) (p : Batch.St σ), cfgs[k]? = some c → s.procs[k]? = some p → ∃ l, p = Batch.run c l
  low : ∀ (k : Nat) (p : Batch.St σ), s.procs[k]? = some p → ((base k).1 <+: p.accepted) ∧ ((base k).2 = true → p.done = true)
  ends : ∀ (e : Nat) (t : EndCall σ), s.ends[e]? = some t → EndOk cfgs s.procs t
  calls : ∀ (f : Nat) (t : FCall), n0 ≤ f → s.flushes[f]? = some t → CallOk cfgs base s.procs t

theorem endOk_le {ps ps' : List (Batch.St σ)} (h : PLe cfgs ps ps') {t : EndCall σ} (ht : EndOk cfgs ps t) : EndOk cfgs ps' t := by
  intro k c p' hc hp'
  obtain ⟨p, hp, hle, -⟩ := h.each k p' hp'
  obtain ⟨h1, h2⟩ := ht k c p hc hp
  refine ⟨fun hk => ?_, fun hk ho => ?_⟩
  · rcases h1 hk with h1 | h1 | h1
    · exact .inl h1
    · exact .inr (.inl (hle.done h1))
    · exact .inr (.inr (hle.accepted.subset h1))
  · rcases h2 hk ho with h1 | h1 | h1
    · exact .inl h1
    · exact .inr (.inl (hle.done h1))
    · exact .inr (.inr (hle.held _ h1))

theorem callOk_le {base : Nat → List σ × Bool} {ps ps' : List (Batch.St σ)} (h : PLe cfgs ps ps') {t : FCall} (ht : CallOk cfgs base ps t) :
    CallOk cfgs base ps' t := by
  refine ⟨?_, ht.2⟩
  intro k i p' hi hp'
  obtain ⟨p, hp, hle, -⟩ := h.each k p' hp'
  obtain ⟨fl, h1, h2, h3, h4⟩ := ht.1 k i p hi hp
  obtain ⟨fl', g1, g2, g3⟩ := hle.flushes i fl h1
  refine ⟨fl', g1, by rw [g2]; exact h2, fun hb => g3 _ _ (h3 hb), fun hc => ?_⟩
  obtain ⟨bd, h4⟩ := h4 hc
  exact ⟨bd, g3 _ _ h4⟩

theorem inv_le {base : Nat → List σ × Bool} {n0 : Nat} {s : St σ} (h : Inv cfgs base n0 s) {ps : List (Batch.St σ)} (hle : PLe cfgs s.procs ps) :
    Inv cfgs base n0 { s with procs := ps } where
  len := hle.length.trans h.len
  hist := by
    intro k c p' hc hp'
    obtain ⟨p, hp, -, hl⟩ := hle.each k p' hp'
    exact hl c hc (h.hist k c p hc hp)
  low := by
    intro k p' hp'
    obtain ⟨p, hp, hl, -⟩ := hle.each k p' hp'
    obtain ⟨h1, h2⟩ := h.low k p hp
    exact ⟨h1.trans hl.accepted, fun hb => hl.done (h2 hb)⟩
  ends := fun e t ht => endOk_le hle (h.ends e t ht)
  calls := fun f t hf ht => callOk_le hle (h.calls f t hf ht)

theorem inv_setEnd {base : Nat → List σ × Bool} {n0 : Nat} {s : St σ} (h : Inv cfgs base n0 s) (e : Nat) (t : EndCall σ) (ht : EndOk cfgs s.procs t) :
    Inv cfgs base n0 { s with ends := s.ends.set e t } where
  len := h.len
  hist := h.hist
  low := h.low
  ends := by
    intro e' t' he
    rcases get_set he with ⟨-, rfl⟩ | ⟨-, he⟩
    · exact ht
    · exact h.ends e' t' he
  calls := h.calls

theorem inv_setCall {base : Nat → List σ × Bool} {n0 : Nat} {s : St σ} (h : Inv cfgs base n0 s) (f : Nat) (t : FCall)
    (ht : n0 ≤ f → CallOk cfgs base s.procs t) : Inv cfgs base n0 { s with flushes := s.flushes.set f t } where
  len := h.len
  hist := h.hist
  low := h.low
  ends := h.ends
  calls := by
    intro f' t' hf he
    rcases get_set he with ⟨rfl, rfl⟩ | ⟨-, he⟩
    · exact ht hf
    · exact h.calls f' t' hf he

variable [DecidableEq σ]

theorem inv_endStep {base : Nat → List σ × Bool} {n0 : Nat} {s : St σ} (h : Inv cfgs base n0 s) (e i : Nat) (t : EndCall σ) (ht : s.ends[e]? = some t) :
    Inv cfgs base n0 (endStep cfgs s e i t) := by
  have hok := h.ends e t ht
  unfold endStep
  split
  · exact h
  · next p hp =>
    by_cases ho : t.offered = true
    · rw [if_pos ho]
      by_cases hi : p.inflight[i]? = some t.span
      · rw [if_pos hi]
        have hle : PLe cfgs s.procs (atProc cfgs s.procs t.pos (.append i)) := ple_at _ _ _
        refine inv_setEnd (inv_le h hle) e _ ?_
        intro k c p' hc hp'
        refine ⟨fun hk => ?_, fun _ hf => by cases hf⟩
        by_cases hkp : k = t.pos
        · subst hkp
          rw [at_self hc hp] at hp'
          cases hp'
          refine .inr (.inr ?_)
          simp only [Batch.step, hi, Batch.push]
          split
          · split <;> simp
          · simp
        · exact (endOk_le hle hok k c p' hc hp').1 (by simp only at hk; omega)
      · rw [if_neg hi]
        by_cases hm : t.span ∈ p.inflight
        · rw [if_pos hm]; exact h
        · rw [if_neg hm]
          refine inv_setEnd h e _ ?_
          intro k c p' hc hp'
          refine ⟨fun hk => ?_, fun _ hf => by cases hf⟩
          by_cases hkp : k = t.pos
          · subst hkp
            rw [hp] at hp'
            cases hp'
            rcases (hok _ c p hc hp).2 rfl ho with h1 | h1 | h1 | h1
            · exact .inl h1
            · exact .inr (.inl h1)
            · exact absurd h1 hm
            · exact .inr (.inr h1)
          · exact (hok k c p' hc hp').1 (by simp only at hk; omega)
    · rw [if_neg ho]
      have hle : PLe cfgs s.procs (atProc cfgs s.procs t.pos (.offer t.span)) := ple_at _ _ _
      refine inv_setEnd (inv_le h hle) e _ ?_
      intro k c p' hc hp'
      refine ⟨fun hk => (endOk_le hle hok k c p' hc hp').1 hk, fun hk _ => ?_⟩
      simp only at hk
      subst hk
      rw [at_self hc hp] at hp'
      cases hp'
      simp only [Batch.step, Fate']
      cases hd : p.done
      · cases hs : c.sampled t.span
        · simp
        · simp
      · simp [hd]

theorem inv_flushStep {base : Nat → List σ × Bool} {n0 : Nat} {s : St σ} (h : Inv cfgs base n0 s) (f : Nat) (late : Bool) (t : FCall)
    (ht : s.flushes[f]? = some t) : Inv cfgs base n0 (flushStep cfgs s f late t) := by
  unfold flushStep
  by_cases hr : t.res = none
  swap
  · rw [if_pos hr]; exact h
  rw [if_neg (by simp [hr])]
  by_cases hw : t.waiting = true
  · rw [if_pos hw]
    split
    · next i p hi hp =>
      refine inv_setCall h f _ (fun hn => ?_)
      have hok := h.calls f t hn ht
      have hlast : t.idxs[t.idxs.length - 1]? = some i := by rw [← hi, List.getLast?_eq_getElem?]
      obtain ⟨fl, g1, -⟩ := hok.1 _ i p hlast hp
      obtain ⟨b, st⟩ := fl
      rw [g1]
      cases st with
      | checked => exact hok
      | waiting r => exact hok
      | returned ok bd =>
        cases ok with
        | false =>
          refine ⟨?_, by simp [answered]⟩
          intro k j q hj hq
          obtain ⟨fl, e1, e2, e3, e4⟩ := hok.1 k j q hj hq
          refine ⟨fl, e1, e2, e3, fun hc => e4 ?_⟩
          rcases hc with hc | ⟨-, hc⟩
          · exact .inl hc
          · exact absurd rfl hc
        | true =>
          refine ⟨?_, by simp [answered]⟩
          intro k j q hj hq
          obtain ⟨fl, e1, e2, e3, e4⟩ := hok.1 k j q hj hq
          refine ⟨fl, e1, e2, e3, fun hc => ?_⟩
          by_cases hk : k + 1 < t.idxs.length
          · exact e4 (.inl hk)
          · have hl : k < t.idxs.length := (List.getElem?_eq_some_iff.mp hj).1
            have hk : k = t.idxs.length - 1 := by omega
            subst hk
            have hji : j = i := by
              have : t.idxs[t.idxs.length - 1]? = some j := hj
              rw [hlast] at this; exact (Option.some.inj this).symm
            subst hji
            rw [hp] at hq
            cases hq
            rw [g1] at e1
            cases e1
            exact ⟨bd, rfl⟩
    · exact h
  · rw [if_neg hw]
    have hw : t.waiting = false := by simpa using hw
    split
    · next hn =>
      refine inv_setCall h f _ (fun hf => ?_)
      have hok := h.calls f t hf ht
      refine ⟨?_, fun _ => ?_⟩
      · intro k j q hj hq
        obtain ⟨fl, e1, e2, e3, e4⟩ := hok.1 k j q hj hq
        exact ⟨fl, e1, e2, e3, fun _ => e4 (.inr ⟨hw, by simp [hr]⟩)⟩
      · have := List.getElem?_eq_none_iff.mp hn
        have hlen := h.len
        simp only
        omega
    · next p hp =>
      cases late with
      | true =>
        refine inv_setCall h f _ (fun hf => ?_)
        have hok := h.calls f t hf ht
        refine ⟨?_, by simp⟩
        intro k j q hj hq
        obtain ⟨fl, e1, e2, e3, e4⟩ := hok.1 k j q hj hq
        exact ⟨fl, e1, e2, e3, fun _ => e4 (.inr ⟨hw, by simp [hr]⟩)⟩
      | false =>
        have hle : PLe cfgs s.procs (atProc cfgs s.procs t.idxs.length .flushCall) := ple_at _ _ _
        refine inv_setCall (inv_le h hle) f _ (fun hf => ?_)
        have hok := callOk_le hle (h.calls f t hf ht)
        refine ⟨?_, by simp⟩
        intro k j q hj hq
        simp only at hj hq
        by_cases hk : k < t.idxs.length
        · rw [List.getElem?_append_left hk] at hj
          obtain ⟨fl, e1, e2, e3, e4⟩ := hok.1 k j q hj hq
          exact ⟨fl, e1, e2, e3, fun _ => e4 (.inr ⟨hw, by simp [hr]⟩)⟩
        · have hlt := (List.getElem?_eq_some_iff.mp hj).1
          simp only [List.length_append, List.length_singleton] at hlt
          have hk : k = t.idxs.length := by omega
          subst hk
          rw [List.getElem?_concat_length] at hj
          cases hj
          obtain ⟨c, hc⟩ : ∃ c, cfgs[t.idxs.length]? = some c := by
            have := (List.getElem?_eq_some_iff.mp hp).1
            have hlen := h.len
            exact ⟨_, List.getElem?_eq_getElem (by omega)⟩
          rw [at_self hc hp] at hq
          cases hq
          obtain ⟨l1, l2⟩ := h.low _ p hp
          refine ⟨_, by simp only [Batch.step]; rw [List.getElem?_concat_length], l1.length_le, fun hb => by simp [l2 hb], fun hcc => ?_⟩
          simp at hcc

theorem inv_step {base : Nat → List σ × Bool} {n0 : Nat} {s : St σ} (h : Inv cfgs base n0 s) (a : Act σ) :
    Inv cfgs base n0 (step cfgs s a) := by
  cases a with
  | internal k a => exact inv_le h (ple_at _ _ _)
  | endCall x =>
    refine ⟨h.len, h.hist, h.low, ?_, h.calls⟩
    intro e t he
    simp only [step] at he
    by_cases hl : e < s.ends.length
    · rw [List.getElem?_append_left hl] at he; exact h.ends e t he
    · have hlt := (List.getElem?_eq_some_iff.mp he).1
      simp only [List.length_append, List.length_singleton] at hlt
      have hk : e = s.ends.length := by omega
      subst hk
      rw [List.getElem?_concat_length] at he
      cases he
      intro k c p _ _
      exact ⟨fun hk => absurd hk (Nat.not_lt_zero _), fun _ hf => by cases hf⟩
  | endNext e i =>
    simp only [step]
    split
    · exact h
    · next t ht => exact inv_endStep h e i t ht
  | flushCall =>
    refine ⟨h.len, h.hist, h.low, h.ends, ?_⟩
    intro f t hf he
    simp only [step] at he
    by_cases hl : f < s.flushes.length
    · rw [List.getElem?_append_left hl] at he; exact h.calls f t hf he
    · have hlt := (List.getElem?_eq_some_iff.mp he).1
      simp only [List.length_append, List.length_singleton] at hlt
      have hk : f = s.flushes.length := by omega
      subst hk
      rw [List.getElem?_concat_length] at he
      cases he
      exact ⟨by simp, by simp⟩
  | flushNext f late =>
    simp only [step]
    split
    · exact h
    · next t ht => exact inv_flushStep h f late t ht

theorem inv_init : Inv cfgs (fun _ => ([], false)) 0 (init cfgs) where
  len := by simp [init]
  hist := by
    intro k c p hc hp
    simp only [init, List.getElem?_map, hc, Option.map_some, Option.some.injEq] at hp
    exact ⟨[], hp.symm⟩
  low := by
    intro k p _
    exact ⟨List.nil_prefix, by simp⟩
  ends := by simp [init]
  calls := by simp [init]

theorem inv_fold {base : Nat → List σ × Bool} {n0 : Nat} {s : St σ} (h : Inv cfgs base n0 s) (acts : List (Act σ)) :
    Inv cfgs base n0 (acts.foldl (step cfgs) s) := by
  induction acts generalizing s with
  | nil => exact h
  | cons a l ih => exact ih (inv_step h a)

/-- What the processors have accepted, and whether they are shut down, now. -/
def now (s : St σ) (k : Nat) : List σ × Bool :=
  match s.procs[k]? with
  | some p => (p.accepted, p.done)
  | none => ([], false)

theorem inv_from (a b : List (Act σ)) :
    Inv cfgs (now (run cfgs a)) (run cfgs a).flushes.length (run cfgs (a ++ b)) := by
  have h : Inv cfgs (fun _ => ([], false)) 0 (run cfgs a) := inv_fold inv_init a
  have e : run cfgs (a ++ b) = b.foldl (step cfgs) (run cfgs a) := by simp [run]
  rw [e]
  refine inv_fold ⟨h.len, h.hist, ?_, h.ends, ?_⟩ b
  · intro k p hp
    simp [now, hp]
  · intro f t hf he
    have := (List.getElem?_eq_some_iff.mp he).1
    omega

theorem inv_run (a : List (Act σ)) : Inv cfgs (fun _ => ([], false)) 0 (run cfgs a) := inv_fold inv_init a

variable (cfgs)

/-- **C131** If the provider's `force_flush` was called after `end` had returned and has returned `True`, then each processor that takes the span and
was not shut down has handed it to its exporter, or has dropped it because its queue was full; whatever other threads and the workers do. -/
theorem C131_flush (a b : List (Act σ)) (e f : Nat) (x : σ) (he : EndReturned (run cfgs a) e x) (hf : (run cfgs a).flushes.length ≤ f)
    (hs : Succeeded (run cfgs (a ++ b)) f) (k : Nat) (c : Batch.Cfg σ) (p : Batch.St σ) (hc : cfgs[k]? = some c)
    (hp : (run cfgs (a ++ b)).procs[k]? = some p) (hx : c.sampled x = true) :
    x ∈ Batch.exported p ∨ x ∈ Batch.evicted p ∨ ShutAlready (run cfgs (a ++ b)) f k := by
  have h := inv_from (cfgs := cfgs) a b
  have h0 := inv_run (cfgs := cfgs) a
  obtain ⟨idxs, hs⟩ := hs
  obtain ⟨ho1, ho2⟩ := h.calls f _ hf hs
  have hlen := ho2 rfl
  have hk : k < cfgs.length := (List.getElem?_eq_some_iff.mp hc).1
  have hi : idxs[k]? = some idxs[k] := List.getElem?_eq_getElem (by simp only at hlen; omega)
  obtain ⟨fl, g1, g2, g3, g4⟩ := ho1 k _ p hi hp
  obtain ⟨bd, g4⟩ := g4 (.inr ⟨rfl, by simp⟩)
  obtain ⟨bf, st⟩ := fl
  simp only at g2 g3 g4
  subst g4
  cases bd with
  | true => exact .inr (.inr ⟨_, _, p, bf, hs, hi, hp, g1⟩)
  | false =>
    obtain ⟨n, he, hn⟩ := he
    obtain ⟨p0, hp0⟩ : ∃ p0, (run cfgs a).procs[k]? = some p0 := ⟨_, List.getElem?_eq_getElem (by rw [h0.len]; exact hk)⟩
    obtain ⟨w, -⟩ := h0.ends e _ he k c _ hc hp0
    rw [h0.len] at hn
    rcases w (by simp only; omega) with w | w | w
    · simp only at w; rw [hx] at w; cases w
    · exact absurd (g3 (by simp [now, hp0, w])) (by simp)
    · obtain ⟨l, rfl⟩ := h.hist k c p hc hp
      have low := (h.low k _ hp).1
      simp only [now, hp0] at low g2
      obtain ⟨-, ee, dd, h1, h2, h3⟩ := Batch.C25_successful_flush_partial c l ⟨bf, .returned true false⟩ (List.mem_of_getElem? g1) rfl
      have hmem : x ∈ (Batch.run c l).accepted.take bf := by
        obtain ⟨tl, htl⟩ := low
        rw [← htl, List.take_append]
        refine List.mem_append_left _ ?_
        rw [List.take_of_length_le g2]
        exact w
      rcases (Batch.shuffle_mem _ _ _ h3 x).mp hmem with hm | hm
      · exact .inl (h1.subset hm)
      · exact .inr (.inl (h2.subset hm))

/-- **C131** A processor answers at once only if it was shut down, so that the span has been handed over or dropped by all processors that have
not been. -/
theorem C131_shut (a : List (Act σ)) (f k : Nat) (p : Batch.St σ) (hp : (run cfgs a).procs[k]? = some p) (h : ShutAlready (run cfgs a) f k) : p.done = true := by
  obtain ⟨t, i, q, b, -, -, hq, hi⟩ := h
  rw [hp] at hq
  cases hq
  have inv := inv_run (cfgs := cfgs) a
  have hk := (List.getElem?_eq_some_iff.mp hp).1
  rw [inv.len] at hk
  obtain ⟨l, rfl⟩ := inv.hist k cfgs[k] p (List.getElem?_eq_getElem hk) hp
  exact refused_done _ l _ (List.mem_of_getElem? hi) true rfl

/-- **C131** Each processor by itself behaves as in `Batch`: there, order, batch sizes and the absence of duplicates are shown. -/
theorem C131_each (a : List (Act σ)) (k : Nat) (c : Batch.Cfg σ) (p : Batch.St σ) (hc : cfgs[k]? = some c) (hp : (run cfgs a).procs[k]? = some p) :
    ∃ l, p = Batch.run c l := (inv_run (cfgs := cfgs) a).hist k c p hc hp

/-- Two processors, one of which takes only small numbers. -/
def two : List (Batch.Cfg Nat) :=
  [⟨2, 2, fun n => decide (n < 10), by decide, by decide⟩, ⟨1, 1, fun _ => true, by decide, by decide⟩]

/-- Someone ends the span `x`, and both processors are told (the `e`th call of `end`). -/
def ending (x e : Nat) : List (Act Nat) := [.endCall x, .endNext e 0, .endNext e 0, .endNext e 0, .endNext e 0]

/-- The provider is flushed (its `f`th call), and the workers do their work. -/
def flushing (f : Nat) : List (Act Nat) :=
  [.flushCall, .flushNext f false, .internal 0 (.flushReq f)] ++ List.replicate 20 (.internal 0 .worker) ++
  [.internal 0 (.flushRet f true), .flushNext f false, .flushNext f false, .internal 1 (.flushReq f)] ++ List.replicate 20 (.internal 1 .worker) ++
  [.internal 1 (.flushRet f true), .flushNext f false, .flushNext f false]

/-- Two spans are ended and the provider is flushed: the first processor exports both, the second has room for one only. -/
example : let s := run two (ending 1 0 ++ ending 2 1 ++ flushing 0);
    s.flushes.map FCall.res = [some true] ∧ s.procs.map Batch.exported = [[1, 2], [2]] ∧ s.procs.map Batch.evicted = [[], [1]] := by
  decide +kernel

example : EndReturned (run two (ending 1 0)) 0 1 := ⟨2, by decide +kernel, by decide +kernel⟩
example : Succeeded (run two (ending 1 0 ++ flushing 0)) 0 := ⟨[0, 0], by decide +kernel⟩

/-- **C131**, violated: `True` does not mean that the span was exported: a processor whose queue was full has dropped it. -/
theorem C131_dropped_violated : ∃ acts : List (Act Nat), EndReturned (run two (ending 1 0)) 0 1 ∧
    Succeeded (run two (ending 1 0 ++ acts)) 0 ∧ (run two (ending 1 0)).flushes = [] ∧
    ((run two (ending 1 0 ++ acts)).procs.map (fun p => (Batch.exported p).contains 1)) = [true, false] :=
  ⟨ending 2 1 ++ flushing 0, ⟨2, by decide +kernel, by decide +kernel⟩, ⟨[0, 0], by decide +kernel⟩, by decide +kernel, by decide +kernel⟩

/-- **C131**, violated: `force_flush` of a provider one of whose processors is being shut down returns `True` although a span is neither handed over
nor dropped. -/
theorem C131_shut_violated : ∃ acts : List (Act Nat), EndReturned (run two (ending 1 0)) 0 1 ∧ Succeeded (run two (ending 1 0 ++ acts)) 0 ∧
    (run two (ending 1 0)).flushes = [] ∧ ((run two (ending 1 0 ++ acts)).procs.map Batch.exported) = [[], []] ∧
    ((run two (ending 1 0 ++ acts)).procs.map Batch.evicted) = [[], []] :=
  ⟨[.internal 0 .shutCall, .internal 1 .shutCall, .flushCall, .flushNext 0 false, .flushNext 0 false, .flushNext 0 false, .flushNext 0 false,
    .flushNext 0 false], ⟨2, by decide +kernel, by decide +kernel⟩, ⟨[0, 0], by decide +kernel⟩, by decide +kernel, by decide +kernel, by decide +kernel⟩

/-- **C131**, violated: if the first processor does not flush in time, the ones after it are not flushed at all. -/
theorem C131_rest_violated : ∃ acts : List (Act Nat), (run two (ending 1 0 ++ acts)).flushes.map FCall.res = [some false] ∧
    ((run two (ending 1 0 ++ acts)).procs.map (fun p => p.flushes.length)) = [1, 0] ∧ ((run two (ending 1 0 ++ acts)).procs.map Batch.St.queue) = [[1], [1]] :=
  ⟨[.flushCall, .flushNext 0 false, .internal 0 (.flushReq 0), .internal 0 (.flushRet 0 false), .flushNext 0 false], by decide +kernel, by decide +kernel,
    by decide +kernel⟩

end Flushing
end Otel
