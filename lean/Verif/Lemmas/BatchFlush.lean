import Verif.Lemmas.Batch
/-!
# Flush requests of the batch processor
-/
namespace Otel
namespace Batch
variable {σ : Type}

/-- The flush requests the worker holds at a program point. -/
def held : PC σ → List Nat
  | .len1 f | .len2 f | .decide f _ | .emptyQ f _ | .doneQ f _ | .final f => f.toList
  | .flushLoop r _ | .notify r => [r]
  | .fill (.flush r _) _ | .call (.flush r _) _ | .running (.flush r _) _ => [r]
  | .fill (.drain f g) _ | .call (.drain f g) _ | .running (.drain f g) _ => f.toList ++ g.toList
  | .drainLoop f g | .notifyF f g => f.toList ++ g.toList
  | .notifyG g => g.toList
  | _ => []

/-- Every request that exists, once. -/
def reqs (s : St σ) : List Nat := s.events ++ held s.pc ++ s.req.toList

theorem setEvent_eq (e : List Nat) (f : Option Nat) : setEvent e f = e ++ f.toList := by
  cases f <;> simp [setEvent]

theorem held_beginExport (f : Option Nat) (n : Nat) : held (beginExport f n : PC σ) = f.toList := by
  cases f <;> rfl

theorem held_afterBatch (m : Mode) (k : Nat) : held (afterBatch k m : PC σ) = held (.running m k : PC σ) := by
  cases m with
  | single => rfl
  | flush r n => simp only [afterBatch]; split <;> rfl
  | drain f g => rfl

theorem reqs_wstep (c : Cfg σ) (s : St σ) : reqs (wstep c s) = reqs s := by
  unfold wstep
  split <;> rename_i hpc <;> simp only [reqs, hpc]
  · split <;> rfl
  · split <;> rfl
  · simp [held]
  · rfl
  · split
    · rename_i h; rw [h.2]; rfl
    · rw [held_beginExport]; rfl
  · rfl
  · simp [held]
  · rfl
  · split
    · simp [setEvent_eq, held]
    · simp [held]
  · split
    · rfl
    · rw [held_beginExport]; rfl
  · split <;> rfl
  · rename_i m buf
    split
    · cases m <;> rfl
    · split <;> cases m <;> rfl
  · rename_i m buf; cases m <;> rfl
  · rw [held_afterBatch]
  · simp [held]
  · simp [held]
  · split <;> rfl
  · simp [held, setEvent_eq]
  · simp [held, setEvent_eq]
  
/-- Requests are distinct and were created before. -/
def Fresh (s : St σ) : Prop := (reqs s).Nodup ∧ ∀ r ∈ reqs s, r < s.nextReq

theorem nextReq_wstep (c : Cfg σ) (s : St σ) : (wstep c s).nextReq = s.nextReq := by
  unfold wstep
  split <;> (try rfl) <;> (split <;> (try rfl) <;> (split <;> rfl))

theorem push_frame (c : Cfg σ) (s : St σ) (x : σ) :
    (push c s x).events = s.events ∧ (push c s x).pc = s.pc ∧ (push c s x).req = s.req ∧
    (push c s x).nextReq = s.nextReq ∧ (push c s x).flushes = s.flushes ∧ (push c s x).log = s.log ∧
    (push c s x).done = s.done ∧ (push c s x).inflight = s.inflight ∧ (push c s x).joining = s.joining ∧
    (push c s x).doneAt = s.doneAt := by
  unfold push
  split
  · split <;> simp
  · simp

theorem fresh_step (c : Cfg σ) (s : St σ) (a : Act σ) (h : Fresh s) : Fresh (step c s a) := by
  cases a with
  | offer x => simp only [step]; split <;> exact h
  | append i =>
    simp only [step]
    split
    · rename_i x hx
      obtain ⟨e1, e2, e3, e4, _⟩ := push_frame c { s with inflight := s.inflight.eraseIdx i } x
      unfold Fresh reqs
      rw [e1, e2, e3, e4]; exact h
    · exact h
  | flushCall => exact h
  | flushReq i =>
    simp only [step]
    split
    · split
      · exact h
      · rename_i hr
        unfold Fresh reqs at *
        simp only [hr, Option.toList_none, List.append_nil, Option.toList_some] at *
        refine ⟨?_, ?_⟩
        · rw [List.nodup_append]
          refine ⟨h.1, by simp, ?_⟩
          intro a ha b hb
          have := h.2 a ha
          simp only [List.mem_singleton] at hb
          omega
        · intro r hr
          rw [List.mem_append] at hr
          rcases hr with hr | hr
          · have := h.2 r hr; omega
          · simp only [List.mem_singleton] at hr; omega
    · exact h
  | flushRet i ok =>
    simp only [step]
    split
    · split <;> exact h
    · exact h
  | shutCall => exact h
  | shutJoin => simp only [step]; split <;> exact h
  | worker =>
    simp only [step, Fresh]
    rw [reqs_wstep, nextReq_wstep]; exact h

/-- What the worker still owes a caller that had seen `b` spans accepted, when it holds the caller's request. -/
def owes (pc : PC σ) (gone b : Int) : Prop :=
  match pc with
  | .decide _ n | .emptyQ _ n | .doneQ _ n => b ≤ gone + n
  | .flushLoop _ n => b ≤ gone + n
  | .fill (.flush _ n) buf | .call (.flush _ n) buf => b ≤ gone - buf.length + n
  | .running (.flush _ n) k => b ≤ gone - k + n
  | .notify _ | .notifyF _ _ | .notifyG _ => b ≤ gone
  | _ => True

/-- Everything among the first `b` accepted spans has left the queue and, unless evicted, been handed to the exporter. -/
def Settled (s : St σ) (b : Nat) : Prop :=
  b ≤ s.gone.length ∧ (popped (s.gone.take b)).length ≤ (exported s).length

/-- The invariant of one `force_flush` call. -/
def FlushOK (s : St σ) (f : Flush) : Prop :=
  f.before ≤ s.accepted.length ∧
  (∀ r, f.state = .waiting r →
    s.req = some r ∨ (r ∈ held s.pc ∧ owes s.pc s.gone.length f.before) ∨ (r ∈ s.events ∧ Settled s f.before)) ∧
  (f.state = .returned true false → Settled s f.before)

theorem settled_mono (s s' : St σ) (b : Nat) (h : Settled s b) (hg : s.gone <+: s'.gone)
    (he : (exported s).length ≤ (exported s').length) : Settled s' b := by
  obtain ⟨t, ht⟩ := hg
  refine ⟨?_, ?_⟩
  · have := h.1; rw [← ht]; simp; omega
  · rw [← ht, List.take_append_of_le_length h.1]; have := h.2; omega

theorem owes_mono (pc : PC σ) (g g' b : Int) (h : owes pc g b) (hg : g ≤ g') : owes pc g' b := by
  unfold owes at *
  split at h <;> first | trivial | omega

/-- Settled as soon as everything has left the queue and nothing is in the worker's buffer. -/
theorem settled_of (c : Cfg σ) (s : St σ) (b : Nat) (hd : Data c s) (hb : bufOf s.pc = []) (h : b ≤ s.gone.length) :
    Settled s b := by
  refine ⟨h, ?_⟩
  have := hd.exp
  rw [hb, List.append_nil] at this
  rw [this]
  have h2 : popped s.gone = popped (s.gone.take b) ++ popped (s.gone.drop b) := by
    rw [← popped_append, List.take_append_drop]
  rw [h2]; simp

theorem acc_len (c : Cfg σ) (s : St σ) (hd : Data c s) : s.accepted.length = s.gone.length + s.queue.length := by
  rw [hd.acc]; simp

theorem gone_wstep (c : Cfg σ) (s : St σ) : s.gone <+: (wstep c s).gone := by
  unfold wstep
  split <;> (try exact List.prefix_rfl) <;> (split <;> (try exact List.prefix_rfl) <;> (split <;> (try exact List.prefix_rfl)))
  exact List.prefix_append _ _

theorem exported_wstep (c : Cfg σ) (s : St σ) : exported s <+: exported (wstep c s) := by
  unfold wstep exported
  split <;> (try exact List.prefix_rfl) <;> (try (split <;> (try exact List.prefix_rfl) <;> (split <;> exact List.prefix_rfl)))
  simp [batches_append]

theorem frame_wstep (c : Cfg σ) (s : St σ) : (wstep c s).accepted = s.accepted ∧ (wstep c s).flushes = s.flushes ∧
    (wstep c s).done = s.done ∧ (wstep c s).inflight = s.inflight ∧ (wstep c s).joining = s.joining ∧
    (wstep c s).doneAt = s.doneAt := by
  unfold wstep
  split <;> (try exact ⟨rfl, rfl, rfl, rfl, rfl, rfl⟩) <;> (split <;> (try exact ⟨rfl, rfl, rfl, rfl, rfl, rfl⟩) <;> (split <;> exact ⟨rfl, rfl, rfl, rfl, rfl, rfl⟩))

/-- The worker keeps its debts. -/
theorem owes_wstep (c : Cfg σ) (s : St σ) (hd : Data c s) (r b : Nat) (hb : b ≤ s.accepted.length)
    (h : s.req = some r ∨ (r ∈ held s.pc ∧ owes s.pc s.gone.length b)) :
    (wstep c s).req = some r ∨ (r ∈ held (wstep c s).pc ∧ owes (wstep c s).pc (wstep c s).gone.length b) ∨
    (r ∈ (wstep c s).events ∧ b ≤ (wstep c s).gone.length ∧ bufOf (wstep c s).pc = []) := by
  have hlen := acc_len c s hd
  unfold wstep
  split <;> rename_i hpc <;> rw [hpc] at h
  · -- top
    rcases h with h | h
    · exact Or.inl h
    · simp [held] at h
  · rcases h with h | h
    · exact Or.inl h
    · simp [held] at h
  · rcases h with h | h
    · exact Or.inr (Or.inl ⟨by simp [held, h], trivial⟩)
    · simp [held] at h
  · rcases h with h | h
    · exact Or.inl h
    · refine Or.inr (Or.inl ⟨h.1, ?_⟩)
      simp only [owes]; omega
  · rcases h with h | h
    · exact Or.inl h
    · refine Or.inr (Or.inl ?_)
      rename_i f n
      have hf : f = some r := by simpa [held] using h.1
      subst hf
      simp [beginExport, held]
      exact h.2
  · rcases h with h | h
    · exact Or.inl h
    · simp [held] at h
  · rcases h with h | h
    · exact Or.inr (Or.inl ⟨by simp [held, h], trivial⟩)
    · simp [held] at h
  · rcases h with h | h
    · exact Or.inl h
    · refine Or.inr (Or.inl ⟨h.1, ?_⟩)
      simp only [owes]; omega
  · rename_i f n
    split
    · rename_i hq
      rcases h with h | h
      · exact Or.inl h
      · have hf : f = some r := by simpa [held] using h.1
        refine Or.inr (Or.inr ⟨by simp [setEvent_eq, hf], ?_, rfl⟩)
        rw [hq] at hlen; simp at hlen ⊢; omega
    · rcases h with h | h
      · exact Or.inl h
      · exact Or.inr (Or.inl h)
  · rename_i f n
    rcases h with h | h
    · exact Or.inl h
    · have hf : f = some r := by simpa [held] using h.1
      subst hf
      refine Or.inr (Or.inl ?_)
      dsimp only
      split
      · exact ⟨by simp [held], trivial⟩
      · exact ⟨by simp [beginExport, held], h.2⟩
  · rename_i r' n
    rcases h with h | h
    · exact Or.inl h
    · refine Or.inr (Or.inl ?_)
      dsimp only
      split
      · rename_i hq
        refine ⟨h.1, ?_⟩
        rw [hq] at hlen; simp [owes] at hlen ⊢; omega
      · refine ⟨h.1, ?_⟩
        have := h.2
        simpa [owes] using this
  · rename_i m buf
    split
    · rcases h with h | h
      · exact Or.inl h
      · refine Or.inr (Or.inl ?_)
        cases m <;> exact h
    · split
      · rcases h with h | h
        · exact Or.inl h
        · refine Or.inr (Or.inl ?_)
          cases m with
          | single => simp [held] at h
          | flush r' n =>
            refine ⟨h.1, ?_⟩
            have := h.2
            simp [owes] at this ⊢; omega
          | drain f g => exact ⟨h.1, trivial⟩
      · rcases h with h | h
        · exact Or.inl h
        · refine Or.inr (Or.inl ?_)
          cases m <;> exact h
  · rename_i m buf
    rcases h with h | h
    · exact Or.inl h
    · refine Or.inr (Or.inl ?_)
      cases m <;> exact h
  · rename_i m k
    rcases h with h | h
    · exact Or.inl h
    · refine Or.inr (Or.inl ?_)
      dsimp only
      rw [held_afterBatch]
      refine ⟨h.1, ?_⟩
      cases m with
      | single => trivial
      | flush r' n =>
        have := h.2
        simp only [owes] at this
        simp only [afterBatch]
        split <;> simp only [owes] <;> omega
      | drain f g => trivial
  · rename_i r'
    rcases h with h | h
    · exact Or.inl h
    · refine Or.inr (Or.inr ?_)
      have h1 : r = r' := by simpa [held] using h.1
      have h2 := h.2
      simp only [owes] at h2
      exact ⟨by simp [h1], by dsimp only; omega, rfl⟩
  · rename_i f
    refine Or.inr (Or.inl ?_)
    rcases h with h | h
    · exact ⟨by simp [held, h], trivial⟩
    · have := h.1
      exact ⟨by simp [held] at this ⊢; exact Or.inl this, trivial⟩
  · rename_i f g
    rcases h with h | h
    · exact Or.inl h
    · refine Or.inr (Or.inl ?_)
      dsimp only
      split
      · rename_i hq
        refine ⟨h.1, ?_⟩
        rw [hq] at hlen; simp [owes] at hlen ⊢; omega
      · exact ⟨h.1, trivial⟩
  · rename_i f g
    rcases h with h | h
    · exact Or.inl h
    · have h2 := h.2
      simp only [owes] at h2
      have h1 := h.1
      simp only [held, List.mem_append] at h1
      rcases h1 with h1 | h1
      · exact Or.inr (Or.inr ⟨by simp [setEvent_eq]; right; simpa using h1, by dsimp only; omega, rfl⟩)
      · exact Or.inr (Or.inl ⟨h1, h2⟩)
  · rename_i g
    rcases h with h | h
    · exact Or.inl h
    · have h2 := h.2
      simp only [owes] at h2
      exact Or.inr (Or.inr ⟨by simp [setEvent_eq]; right; simpa [held] using h.1, by dsimp only; omega, rfl⟩)
  · rcases h with h | h
    · exact Or.inl h
    · simp [held] at h

theorem events_wstep (c : Cfg σ) (s : St σ) : s.events <+: (wstep c s).events := by
  unfold wstep
  split <;> (try exact List.prefix_rfl) <;> (try exact List.prefix_append _ _) <;>
    (try (rw [setEvent_eq]; exact List.prefix_append _ _)) <;>
    (split <;> (try exact List.prefix_rfl) <;> (try (simp only [setEvent_eq]; exact List.prefix_append _ _)) <;> (split <;> exact List.prefix_rfl))

theorem flushOK_wstep (c : Cfg σ) (s : St σ) (hd : Data c s) (f : Flush) (h : FlushOK s f) : FlushOK (wstep c s) f := by
  have hd' := data_wstep c s hd
  have hmono : ∀ b, Settled s b → Settled (wstep c s) b := fun b hb =>
    settled_mono s _ b hb (gone_wstep c s) (exported_wstep c s).length_le
  refine ⟨by rw [(frame_wstep c s).1]; exact h.1, ?_, fun hr => hmono _ (h.2.2 hr)⟩
  intro r hr
  rcases h.2.1 r hr with h1 | h1 | h1
  · rcases owes_wstep c s hd r f.before h.1 (Or.inl h1) with h2 | h2 | h2
    · exact Or.inl h2
    · exact Or.inr (Or.inl h2)
    · exact Or.inr (Or.inr ⟨h2.1, settled_of c _ _ hd' h2.2.2 h2.2.1⟩)
  · rcases owes_wstep c s hd r f.before h.1 (Or.inr h1) with h2 | h2 | h2
    · exact Or.inl h2
    · exact Or.inr (Or.inl h2)
    · exact Or.inr (Or.inr ⟨h2.1, settled_of c _ _ hd' h2.2.2 h2.2.1⟩)
  · exact Or.inr (Or.inr ⟨(events_wstep c s).subset h1.1, hmono _ h1.2⟩)

/-- A step that leaves the worker, the requests and the data alone keeps the invariant of a call. -/
theorem flushOK_frame (s s' : St σ) (f : Flush) (h : FlushOK s f) (ha : s.accepted.length ≤ s'.accepted.length)
    (hr : s'.req = s.req) (hp : s'.pc = s.pc) (hg : s.gone <+: s'.gone) (he : s'.events = s.events)
    (hx : exported s' = exported s) : FlushOK s' f := by
  have hmono : ∀ b, Settled s b → Settled s' b := fun b hb => settled_mono s _ b hb hg (by rw [hx])
  refine ⟨by have := h.1; omega, ?_, fun q => hmono _ (h.2.2 q)⟩
  intro r hw
  rw [hr, hp, he]
  rcases h.2.1 r hw with h1 | h1 | h1
  · exact Or.inl h1
  · refine Or.inr (Or.inl ⟨h1.1, owes_mono _ _ _ _ h1.2 ?_⟩)
    have := hg.length_le; omega
  · exact Or.inr (Or.inr ⟨h1.1, hmono _ h1.2⟩)

theorem mem_set_of {α : Type} (l : List α) (i : Nat) (x y : α) (h : y ∈ l.set i x) : y = x ∨ y ∈ l := by
  rcases List.mem_or_eq_of_mem_set h with h | h
  · exact Or.inr h
  · exact Or.inl h

theorem flushes_step (c : Cfg σ) (s : St σ) (a : Act σ) (hd : Data c s) (hf : Fresh s)
    (h : ∀ f ∈ s.flushes, FlushOK s f) : ∀ f ∈ (step c s a).flushes, FlushOK (step c s a) f := by
  cases a with
  | offer x =>
    simp only [step]
    split
    · exact h
    · intro f hm
      exact flushOK_frame s _ f (h f hm) (Nat.le_refl _) rfl rfl List.prefix_rfl rfl rfl
  | append i =>
    simp only [step]
    split
    · rename_i x hx
      obtain ⟨ev, e1, _⟩ := push_spec c { s with inflight := s.inflight.eraseIdx i } x hd.size
      rw [e1]
      intro f hm
      exact flushOK_frame s _ f (h f hm) (by simp) rfl rfl (List.prefix_append _ _) rfl rfl
    · exact h
  | flushCall =>
    simp only [step]
    intro f hm
    simp only [List.mem_append, List.mem_singleton] at hm
    rcases hm with hm | hm
    · exact flushOK_frame s _ f (h f hm) (Nat.le_refl _) rfl rfl List.prefix_rfl rfl rfl
    · subst hm
      refine ⟨Nat.le_refl _, ?_, ?_⟩
      · intro r hr; dsimp only at hr; split at hr <;> cases hr
      · intro hr; dsimp only at hr; split at hr <;> cases hr
  | flushReq i =>
    simp only [step]
    split
    · rename_i b hi
      have hm0 := List.mem_of_getElem? hi
      split
      · rename_i r hr
        intro f hm
        rcases mem_set_of _ _ _ _ hm with he | hm
        · subst he
          refine ⟨(h _ hm0).1, ?_, by intro q; cases q⟩
          intro r' hr'; cases hr'
          exact Or.inl hr
        · exact flushOK_frame s _ f (h f hm) (Nat.le_refl _) rfl rfl List.prefix_rfl rfl rfl
      · rename_i hr
        intro f hm
        rcases mem_set_of _ _ _ _ hm with he | hm
        · subst he
          refine ⟨(h _ hm0).1, ?_, by intro q; cases q⟩
          intro r' hr'; cases hr'
          exact Or.inl rfl
        · have h0 := h f hm
          refine ⟨h0.1, ?_, h0.2.2⟩
          intro r' hr'
          rcases h0.2.1 r' hr' with h1 | h1
          · rw [hr] at h1; cases h1
          · exact Or.inr h1
    · exact h
  | flushRet i ok =>
    simp only [step]
    split
    · rename_i b r hi
      have hm0 := List.mem_of_getElem? hi
      split
      · exact h
      · rename_i hn
        intro f hm
        rcases mem_set_of _ _ _ _ hm with he | hm
        · subst he
          refine ⟨(h _ hm0).1, (by intro r q; cases q), ?_⟩
          intro hr
          cases ok with
          | false => cases hr
          | true =>
            have hev : r ∈ s.events := by
              by_contra hc; exact hn ⟨rfl, hc⟩
            have hnd := hf.1
            unfold reqs at hnd
            rcases (h _ hm0).2.1 r rfl with h1 | h1 | h1
            · rw [h1, List.nodup_append] at hnd
              exact absurd rfl (hnd.2.2 r (by simp [hev]) r (by simp))
            · rw [List.nodup_append, List.nodup_append] at hnd
              exact absurd rfl (hnd.1.2.2 r hev r h1.1)
            · exact h1.2
        · exact flushOK_frame s _ f (h f hm) (Nat.le_refl _) rfl rfl List.prefix_rfl rfl rfl
    · exact h
  | shutCall =>
    intro f hm
    exact flushOK_frame s _ f (h f hm) (Nat.le_refl _) rfl rfl List.prefix_rfl rfl rfl
  | shutJoin =>
    simp only [step]
    split
    · intro f hm
      exact flushOK_frame s _ f (h f hm) (Nat.le_refl _) rfl rfl List.prefix_rfl rfl
        (by simp [exported, batches_append, batches])
    · exact h
  | worker =>
    simp only [step]
    intro f hm
    rw [(frame_wstep c s).2.1] at hm
    exact flushOK_wstep c s hd f (h f hm)

theorem flushes_run (c : Cfg σ) (acts : List (Act σ)) : ∀ f ∈ (run c acts).flushes, FlushOK (run c acts) f := by
  have : ∀ (acts : List (Act σ)) (s : St σ), Data c s → Fresh s → (∀ f ∈ s.flushes, FlushOK s f) →
      ∀ f ∈ (acts.foldl (step c) s).flushes, FlushOK (acts.foldl (step c) s) f := by
    intro acts
    induction acts with
    | nil => intro s _ _ h; exact h
    | cons a acts ih =>
      intro s hd hf h
      exact ih _ (data_step c s a hd) (fresh_step c s a hf) (flushes_step c s a hd hf h)
  exact this acts _ ⟨rfl, rfl, Nat.zero_le _, by simp [init]⟩ ⟨by simp [init, reqs, held], by simp [init, reqs, held]⟩
    (by simp [init])

end Batch
end Otel
