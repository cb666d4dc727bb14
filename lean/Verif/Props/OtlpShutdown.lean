import Verif.Model.OtlpShutdown
/-!
# C69: shutting down a gRPC exporter while it exports
-/
namespace Otel
namespace GrpcShutdown
open Export (Verdict Outcome)

/-- An export is between taking the lock and giving it back. -/
def EPc.inside : EPc → Bool
  | .entered _ | .flying _ | .sleeping _ | .leaving _ | .again _ => true
  | _ => false
/-- A shutdown is between taking the lock and giving it back. -/
def SPc.inside : SPc → Bool
  | .got | .flagged | .closed => true
  | _ => false

/-- A thread (left: exporting, right: shutting down) is inside the lock. -/
def Inside (s : St) : Nat ⊕ Nat → Prop
  | .inl t => (s.exporter t).inside = true
  | .inr t => (s.stopper t).inside = true

/-- The lock is held iff exactly one thread is inside. -/
structure Ok (s : St) : Prop where
  one : ∀ h h', Inside s h → Inside s h' → h = h'
  free : s.locked = false → ∀ h, ¬ Inside s h

/-- What the flags mean. -/
structure Flags (s : St) : Prop where
  seen : ∀ t, s.stopper t = .flagged ∨ s.stopper t = .closed ∨ s.stopper t = .done → s.shut = true
  closed : s.channelClosed = true → s.shut = true ∧ ∀ u n, s.exporter u ≠ .flying n
  got : ∀ t, s.stopper t ≠ .raised

theorem inside_setE (s : St) (t : Nat) (pc : EPc) (h : Nat ⊕ Nat) :
    Inside (setE s t pc) h ↔ if h = .inl t then pc.inside = true else Inside s h := by
  cases h with
  | inl u =>
    simp only [Inside, setE, Sum.inl.injEq]
    by_cases hu : u = t <;> simp [hu]
  | inr u => simp [Inside, setE]

theorem inside_setS (s : St) (t : Nat) (pc : SPc) (h : Nat ⊕ Nat) :
    Inside (setS s t pc) h ↔ if h = .inr t then pc.inside = true else Inside s h := by
  cases h with
  | inl u => simp [Inside, setS]
  | inr u =>
    simp only [Inside, setS, Sum.inr.injEq]
    by_cases hu : u = t <;> simp [hu]

theorem ok_of_iff (s s' : St) (ho : Ok s) (hl : s'.locked = s.locked) (hin : ∀ x, Inside s' x ↔ Inside s x) : Ok s' :=
  ⟨fun a b ha hb => ho.one a b ((hin a).1 ha) ((hin b).1 hb), fun h x hx => ho.free (hl ▸ h) x ((hin x).1 hx)⟩

theorem ok_of_single (s' : St) (y : Nat ⊕ Nat) (hl : s'.locked = true) (hin : ∀ x, Inside s' x → x = y) : Ok s' :=
  ⟨fun a b ha hb => by rw [hin a ha, hin b hb], fun h => by rw [hl] at h; simp at h⟩

theorem ok_of_none (s' : St) (hin : ∀ x, ¬ Inside s' x) : Ok s' := ⟨fun a _ ha => absurd ha (hin a), fun _ => hin⟩

theorem ok_stayE (s : St) (t : Nat) (pc : EPc) (ho : Ok s) (h : pc.inside = (s.exporter t).inside) : Ok (setE s t pc) := by
  refine ok_of_iff s _ ho rfl ?_
  intro x
  rw [inside_setE]
  split
  · rename_i hx; subst hx; simp [Inside, h]
  · rfl

theorem ok_stayS (s s2 : St) (t : Nat) (pc : SPc) (ho : Ok s) (h : pc.inside = (s.stopper t).inside) (hl : s2.locked = s.locked)
    (he : s2.exporter = s.exporter) (hs : s2.stopper = s.stopper) : Ok (setS s2 t pc) := by
  refine ok_of_iff s _ ho hl ?_
  intro x
  rw [inside_setS]
  split
  · rename_i hx; subst hx; simp [Inside, h]
  · cases x <;> simp [Inside, he, hs]

theorem ok_leaveE (s : St) (t : Nat) (pc : EPc) (ho : Ok s) (h : (s.exporter t).inside = true) (hp : pc.inside = false) :
    Ok (setE { s with locked := false } t pc) := by
  apply ok_of_none
  intro x
  rw [inside_setE]
  split
  · simp [hp]
  · rename_i hx; intro hi; exact hx (ho.one x (.inl t) hi h)

theorem ok_step (s s' : St) (hs : Step False s s') (ho : Ok s) : Ok s' := by
  cases hs with
  | begin t h => exact ok_stayE s t _ ho (by rw [h]; split <;> rfl)
  | round t n h => exact ok_stayE s t _ ho (by rw [h]; split <;> rfl)
  | acquire t n h hl =>
    apply ok_of_single _ (.inl t) rfl
    intro x hx
    rw [inside_setE] at hx
    split at hx
    · assumption
    · exact absurd hx (ho.free hl x)
  | call t n h => exact ok_stayE s t _ ho (by rw [h]; split <;> rfl)
  | answer t n v h =>
    apply ok_stayE s t _ ho
    rw [h]
    cases v with
    | retry d => simp only; split <;> rfl
    | _ => rfl
  | wake t n h => exact ok_stayE s t _ ho (by rw [h]; rfl)
  | leave t o h => exact ok_leaveE s t _ ho (by rw [h]; rfl) rfl
  | leaveAgain t n h => exact ok_leaveE s t _ ho (by rw [h]; rfl) (by split <;> rfl)
  | sBegin t h => exact ok_stayS s s t _ ho (by rw [h]; split <;> rfl) rfl rfl rfl
  | sAcquire t h hl =>
    apply ok_of_single _ (.inr t) rfl
    intro x hx
    rw [inside_setS] at hx
    split at hx
    · assumption
    · exact absurd hx (ho.free hl x)
  | sTimeout t h hl ht => exact ht.elim
  | sFlag t h => exact ok_stayS s _ t _ ho (by rw [h]; rfl) rfl rfl rfl
  | sClose t h => exact ok_stayS s _ t _ ho (by rw [h]; rfl) rfl rfl rfl
  | sRelease t h =>
    apply ok_of_none
    intro x
    rw [inside_setS]
    split
    · split <;> simp [SPc.inside]
    · rename_i hx; intro hx'; exact hx (ho.one x (.inr t) hx' (by simp [Inside, h, SPc.inside]))

theorem ok_reach (s : St) (h : Reach False s) : Ok s := by
  induction h with
  | init => exact ok_of_none _ (by intro h hi; cases h <;> simp [Inside, init, EPc.inside, SPc.inside] at hi)
  | step s s' _ hs ho => exact ok_step s s' hs ho

theorem flags_setE (s s2 : St) (t : Nat) (pc : EPc) (hf : Flags s) (h1 : s2.shut = s.shut) (h2 : s2.channelClosed = s.channelClosed)
    (h3 : s2.exporter = s.exporter) (h4 : s2.stopper = s.stopper) (hp : s.channelClosed = true → ∀ n, pc ≠ .flying n) :
    Flags (setE s2 t pc) := by
  refine ⟨fun u hu => ?_, fun hc => ⟨?_, ?_⟩, fun u => ?_⟩
  · simp only [setE, h4, h1] at hu ⊢; exact hf.seen u hu
  · simp only [setE, h1]; simp only [setE, h2] at hc; exact (hf.closed hc).1
  · simp only [setE, h2] at hc
    intro u n
    simp only [setE, h3]
    by_cases hu : u = t
    · simp only [hu, if_true]; exact hp hc n
    · simp only [hu, if_false]; exact (hf.closed hc).2 u n
  · simp only [setE, h4]; exact hf.got u

theorem flags_step (s s' : St) (hs : Step False s s') (ho : Ok s) (hf : Flags s) : Flags s' := by
  cases hs with
  | begin t h => exact flags_setE s s t _ hf rfl rfl rfl rfl (fun _ n => by split <;> simp)
  | round t n h => exact flags_setE s s t _ hf rfl rfl rfl rfl (fun _ n => by split <;> simp)
  | acquire t n h hl => exact flags_setE s _ t _ hf rfl rfl rfl rfl (fun _ n => by simp)
  | call t n h => exact flags_setE s s t _ hf rfl rfl rfl rfl (fun hc n => by simp [hc])
  | answer t n v h =>
    refine flags_setE s s t _ hf rfl rfl rfl rfl (fun _ n => ?_)
    cases v with
    | retry d => simp only; split <;> simp
    | _ => simp
  | wake t n h => exact flags_setE s s t _ hf rfl rfl rfl rfl (fun _ n => by simp)
  | leave t o h => exact flags_setE s _ t _ hf rfl rfl rfl rfl (fun _ n => by simp)
  | leaveAgain t n h => exact flags_setE s _ t _ hf rfl rfl rfl rfl (fun _ n => by split <;> simp)
  | sBegin t h =>
    refine ⟨fun u hu => ?_, hf.closed, fun u => ?_⟩
    · simp only [setS] at hu ⊢
      by_cases hut : u = t
      · simp only [hut, if_true] at hu
        cases hsh : s.shut with
        | true => rfl
        | false => rw [hsh] at hu; simp at hu
      · simp only [hut, if_false] at hu; exact hf.seen u hu
    · simp only [setS]
      by_cases hut : u = t
      · simp only [hut, if_true]; split <;> simp
      · simp only [hut, if_false]; exact hf.got u
  | sAcquire t h hl =>
    refine ⟨fun u hu => ?_, hf.closed, fun u => ?_⟩
    · simp only [setS] at hu ⊢
      by_cases hut : u = t
      · simp [hut] at hu
      · simp only [hut, if_false] at hu; exact hf.seen u hu
    · simp only [setS]
      by_cases hut : u = t
      · simp [hut]
      · simp only [hut, if_false]; exact hf.got u
  | sTimeout t h hl ht => exact ht.elim
  | sFlag t h =>
    refine ⟨fun u _ => rfl, fun hc => ⟨rfl, (hf.closed hc).2⟩, fun u => ?_⟩
    simp only [setS]
    by_cases hut : u = t
    · simp [hut]
    · simp only [hut, if_false]; exact hf.got u
  | sClose t h =>
    have hsh : s.shut = true := hf.seen t (.inl h)
    refine ⟨fun u _ => hsh, fun _ => ⟨hsh, ?_⟩, fun u => ?_⟩
    · intro u n hu
      have := ho.one (.inl u) (.inr t) (by simp only [Inside]; rw [show s.exporter u = .flying n from hu]; rfl) (by simp [Inside, h, SPc.inside])
      simp at this
    · simp only [setS]
      by_cases hut : u = t
      · simp [hut]
      · simp only [hut, if_false]; exact hf.got u
  | sRelease t h =>
    have hsh : s.shut = true := hf.seen t (.inr (.inl h))
    have hl : s.locked = true := by
      cases hl : s.locked with
      | true => rfl
      | false => exact absurd (by simp [Inside, h, SPc.inside]) (ho.free hl (.inr t))
    refine ⟨fun u _ => hsh, hf.closed, fun u => ?_⟩
    simp only [setS, hl, if_true]
    by_cases hut : u = t
    · simp [hut]
    · simp only [hut, if_false]; exact hf.got u

theorem flags_reach (s : St) (h : Reach False s) : Flags s := by
  induction h with
  | init => exact ⟨by simp [init], by simp [init], by simp [init]⟩
  | step s s' hr hs hf => exact flags_step s s' hs (ok_reach s hr) hf

/-- **C69** Unless a shutdown gives up waiting, at most one request is in progress at any time, and the channel is never closed under one. -/
theorem C69_not_cut (s : St) (h : Reach False s) :
    (∀ t u n m, s.exporter t = .flying n → s.exporter u = .flying m → t = u) ∧
    (s.channelClosed = true → ∀ u n, s.exporter u ≠ .flying n) := by
  refine ⟨?_, fun hc => ((flags_reach s h).closed hc).2⟩
  intro t u n m ht hu
  have := (ok_reach s h).one (.inl t) (.inl u) (by simp only [Inside]; rw [ht]; rfl) (by simp only [Inside]; rw [hu]; rfl)
  exact Sum.inl.inj this

/-- **C69** Unless it gives up waiting, `shutdown` does not raise, and when it has returned the exporter is shut down. -/
theorem C69_shutdown_ok (s : St) (h : Reach False s) (t : Nat) : s.stopper t ≠ .raised ∧ (s.stopper t = .done → s.shut = true) :=
  ⟨(flags_reach s h).got t, fun hd => (flags_reach s h).seen t (.inr (.inr hd))⟩

/-- Any number of steps. -/
inductive Steps (timeouts : Prop) : St → St → Prop
  | refl (s : St) : Steps timeouts s s
  | step (a b c : St) (h : Steps timeouts a b) (hs : Step timeouts b c) : Steps timeouts a c

theorem steps_reach (timeouts : Prop) (s s' : St) (h : Reach timeouts s) (hs : Steps timeouts s s') : Reach timeouts s' := by
  induction hs with
  | refl => exact h
  | step b c _ hbc ih => exact .step _ _ ih hbc

/-- **C69** An export that begins when the exporter is shut down makes no request and returns FAILURE, timeouts or not; so does one that is
about to start another round. -/
theorem C69_after_shutdown (timeouts : Prop) (s s' : St) (hs : s.shut = true) (t : Nat)
    (hi : s.exporter t = .idle ∨ ∃ n, s.exporter t = .top n) (h : Steps timeouts s s') :
    s'.exporter t = s.exporter t ∨ s'.exporter t = .done .failure := by
  have main : s'.shut = true ∧ (s'.exporter t = s.exporter t ∨ s'.exporter t = .done .failure) := by
    induction h with
    | refl => exact ⟨hs, .inl rfl⟩
    | step b c _ hbc ih =>
      obtain ⟨i1, i2⟩ := ih
      have hE : ∀ (b2 : St) (u : Nat) (pc : EPc), b2.shut = b.shut → b2.exporter = b.exporter →
          (u = t → pc = .done .failure) →
          (setE b2 u pc).shut = true ∧ ((setE b2 u pc).exporter t = s.exporter t ∨ (setE b2 u pc).exporter t = .done .failure) := by
        intro b2 u pc h1 h2 h3
        refine ⟨by simp [setE, h1, i1], ?_⟩
        simp only [setE, h2]
        by_cases hut : t = u
        · simp only [hut, if_true]; exact .inr (h3 hut.symm)
        · simp only [hut, if_false]; exact i2
      have hbt : b.exporter t = .idle ∨ (∃ n, b.exporter t = .top n) ∨ b.exporter t = .done .failure := by
        rcases i2 with i2 | i2
        · rw [i2]; rcases hi with hi | hi
          · exact .inl hi
          · exact .inr (.inl hi)
        · exact .inr (.inr i2)
      have hno : ∀ u (pc : EPc), b.exporter u = pc → pc ≠ .idle → (∀ n, pc ≠ .top n) → (pc ≠ .done .failure) → u ≠ t := by
        intro u pc hu h1 h2 h3 hut
        rw [hut] at hu
        rcases hbt with h | ⟨n, h⟩ | h
        · rw [h] at hu; exact h1 hu.symm
        · rw [h] at hu; exact h2 n hu.symm
        · rw [h] at hu; exact h3 hu.symm
      cases hbc with
      | begin u hu => exact hE b u _ rfl rfl (fun _ => by simp [i1])
      | round u n hu => exact hE b u _ rfl rfl (fun _ => by simp [i1])
      | acquire u n hu hl => exact hE _ u _ rfl rfl (fun hut => absurd hut (hno u _ hu (by simp) (by simp) (by simp)))
      | call u n hu => exact hE _ u _ rfl rfl (fun hut => absurd hut (hno u _ hu (by simp) (by simp) (by simp)))
      | answer u n v hu => exact hE _ u _ rfl rfl (fun hut => absurd hut (hno u _ hu (by simp) (by simp) (by simp)))
      | wake u n hu => exact hE _ u _ rfl rfl (fun hut => absurd hut (hno u _ hu (by simp) (by simp) (by simp)))
      | leave u o hu => exact hE _ u _ rfl rfl (fun hut => absurd hut (hno u _ hu (by simp) (by simp) (by simp)))
      | leaveAgain u n hu => exact hE _ u _ rfl rfl (fun hut => absurd hut (hno u _ hu (by simp) (by simp) (by simp)))
      | sBegin u hu => exact ⟨i1, i2⟩
      | sAcquire u hu hl => exact ⟨i1, i2⟩
      | sTimeout u hu hl ht => exact ⟨i1, i2⟩
      | sFlag u hu => exact ⟨rfl, i2⟩
      | sClose u hu => exact ⟨i1, i2⟩
      | sRelease u hu => exact ⟨i1, i2⟩
  exact main.2

/-- **C69** (refutation, finding) An export that had checked the flag before the shutdown, and then waited for the lock, raises: it uses the
closed channel. No timeout is needed. -/
theorem C69_late_export_raises : ∃ s, Reach False s ∧ s.exporter 0 = .done .raised ∧ s.stopper 0 = .done ∧ s.locked = false := by
  have h0 : Reach False init := .init
  have h1 := Reach.step _ _ h0 (.begin _ 0 rfl)
  have h2 := Reach.step _ _ h1 (.round _ 0 0 rfl)
  have h3 := Reach.step _ _ h2 (.sBegin _ 0 rfl)
  have h4 := Reach.step _ _ h3 (.sAcquire _ 0 rfl rfl)
  have h5 := Reach.step _ _ h4 (.sFlag _ 0 rfl)
  have h6 := Reach.step _ _ h5 (.sClose _ 0 rfl)
  have h7 := Reach.step _ _ h6 (.sRelease _ 0 rfl)
  have h8 := Reach.step _ _ h7 (.acquire _ 0 0 rfl rfl)
  have h9 := Reach.step _ _ h8 (.call _ 0 0 rfl)
  have h10 := Reach.step _ _ h9 (.leave _ 0 .raised rfl)
  exact ⟨_, h10, rfl, rfl, rfl⟩

/-- **C69** (refutation, finding) If `shutdown` gives up waiting (an export may sleep for more than its 30 seconds with the lock held) it
closes the channel under the request and releases the lock of the export, which then raises although the server had accepted the data. -/
theorem C69_timeout_breaks : ∃ s s' s'', Reach True s ∧ s.exporter 0 = .flying 0 ∧ s.channelClosed = true ∧
    Step True s s' ∧ s' = setE s 0 (.leaving .success) ∧ Step True s' s'' ∧ s''.exporter 0 = .done .raised := by
  have h0 : Reach True init := .init
  have h1 := Reach.step _ _ h0 (.begin _ 0 rfl)
  have h2 := Reach.step _ _ h1 (.round _ 0 0 rfl)
  have h3 := Reach.step _ _ h2 (.sBegin _ 0 rfl)
  have h4 := Reach.step _ _ h3 (.acquire _ 0 0 rfl rfl)
  have h5 := Reach.step _ _ h4 (.call _ 0 0 rfl)
  have h6 := Reach.step _ _ h5 (.sTimeout _ 0 rfl rfl trivial)
  have h7 := Reach.step _ _ h6 (.sFlag _ 0 rfl)
  have h8 := Reach.step _ _ h7 (.sClose _ 0 rfl)
  have h9 := Reach.step _ _ h8 (.sRelease _ 0 rfl)
  exact ⟨_, _, _, h9, rfl, rfl, .answer _ 0 0 .ok rfl, rfl, .leave _ 0 .success rfl, rfl⟩

/-- The ordinary run: an export succeeds, then a shutdown. -/
example : ∃ s, Reach False s ∧ s.exporter 0 = .done .success ∧ s.stopper 0 = .done ∧ s.channelClosed = true := by
  have h0 : Reach False init := .init
  have h1 := Reach.step _ _ h0 (.begin _ 0 rfl)
  have h2 := Reach.step _ _ h1 (.round _ 0 0 rfl)
  have h4 := Reach.step _ _ h2 (.acquire _ 0 0 rfl rfl)
  have h5 := Reach.step _ _ h4 (.call _ 0 0 rfl)
  have h6 := Reach.step _ _ h5 (.answer _ 0 0 .ok rfl)
  have h7 := Reach.step _ _ h6 (.leave _ 0 .success rfl)
  have h8 := Reach.step _ _ h7 (.sBegin _ 0 rfl)
  have h9 := Reach.step _ _ h8 (.sAcquire _ 0 rfl rfl)
  have h10 := Reach.step _ _ h9 (.sFlag _ 0 rfl)
  have h11 := Reach.step _ _ h10 (.sClose _ 0 rfl)
  have h12 := Reach.step _ _ h11 (.sRelease _ 0 rfl)
  exact ⟨_, h12, rfl, rfl, rfl⟩

end GrpcShutdown
end Otel
