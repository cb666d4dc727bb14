import Verif.Lemmas.BatchFlush
import Mathlib.Data.List.Perm.Subperm
import Mathlib.Data.List.Perm.Basic
/-!
# Shutting the batch processor down
-/
namespace Otel
namespace Batch
variable {σ : Type}

/-- Program points after the worker's main loop. -/
def after : PC σ → Bool
  | .final _ | .drainLoop _ _ | .notifyF _ _ | .notifyG _ | .stopped => true
  | .fill (.drain _ _) _ | .call (.drain _ _) _ | .running (.drain _ _) _ => true
  | _ => false

/-- Program points after the queue was seen empty for the last time. -/
def drained : PC σ → Bool
  | .notifyF _ _ | .notifyG _ | .stopped => true
  | _ => false

/-- The exporter calls are exports followed by shut-downs. -/
def LogOK (s : St σ) : Prop :=
  ∃ (bs : List (List σ)) (k : Nat), s.log = bs.map Ev.export ++ List.replicate k Ev.shutdown ∧ (0 < k → s.pc = .stopped)

/-- The invariant about shutting down. -/
structure Shut (s : St σ) : Prop where
  flag : s.done = true ↔ s.doneAt.isSome = true
  aft : after s.pc = true → s.done = true
  join : 0 < s.joining → s.done = true
  late : ∀ d fl, s.doneAt = some (d, fl) → d ≤ s.accepted.length ∧ (s.accepted.drop d ++ s.inflight).Perm fl
  drn : drained s.pc = true → ∀ d fl, s.doneAt = some (d, fl) → d ≤ s.gone.length
  log : LogOK s

theorem after_beginExport (f : Option Nat) (n : Nat) : after (beginExport f n : PC σ) = false := by
  cases f <;> rfl
theorem drained_beginExport (f : Option Nat) (n : Nat) : drained (beginExport f n : PC σ) = false := by
  cases f <;> rfl
theorem after_afterBatch (m : Mode) (k : Nat) : after (afterBatch k m : PC σ) = after (.running m k : PC σ) := by
  cases m with
  | single => rfl
  | flush r n => simp only [afterBatch]; split <;> rfl
  | drain f g => rfl
theorem drained_afterBatch (m : Mode) (k : Nat) : drained (afterBatch k m : PC σ) = false := by
  cases m with
  | single => rfl
  | flush r n => simp only [afterBatch]; split <;> rfl
  | drain f g => rfl

theorem after_wstep (c : Cfg σ) (s : St σ) (h : after s.pc = true → s.done = true) :
    after (wstep c s).pc = true → s.done = true := by
  unfold wstep
  split <;> rename_i hpc <;> rw [hpc] at h <;> intro ha
  · by_contra hn; simp [hn, after] at ha
  · by_contra hn; simp [hn, after] at ha
  · simp [after] at ha
  · simp [after] at ha
  · dsimp only at ha
    split at ha
    · simp [after] at ha
    · rw [after_beginExport] at ha; cases ha
  · simp [after] at ha
  · simp [after] at ha
  · simp [after] at ha
  · split at ha <;> simp [after] at ha
  · by_contra hn
    rw [if_neg hn, after_beginExport] at ha; cases ha
  · dsimp only at ha; split at ha <;> simp [after] at ha
  · rename_i m buf
    split at ha
    · cases m <;> first | exact h rfl | simp [after] at ha
    · split at ha <;> (cases m <;> first | exact h rfl | simp [after] at ha)
  · rename_i m buf
    cases m <;> first | exact h rfl | simp [after] at ha
  · rw [after_afterBatch] at ha; exact h ha
  · simp [after] at ha
  · exact h rfl
  · exact h rfl
  · exact h rfl
  · exact h rfl
  · exact h rfl

theorem drained_wstep (c : Cfg σ) (s : St σ) (h : drained (wstep c s).pc = true) : drained s.pc = true ∨ s.queue = [] := by
  unfold wstep at h
  split at h <;> rename_i hpc <;> rw [hpc]
  · dsimp only at h; split at h <;> simp [drained] at h
  · dsimp only at h; split at h <;> simp [drained] at h
  · simp [drained] at h
  · simp [drained] at h
  · dsimp only at h
    split at h
    · simp [drained] at h
    · rw [drained_beginExport] at h; cases h
  · simp [drained] at h
  · simp [drained] at h
  · simp [drained] at h
  · split at h <;> simp [drained] at h
  · dsimp only at h
    split at h
    · simp [drained] at h
    · rw [drained_beginExport] at h; cases h
  · dsimp only at h; split at h <;> simp [drained] at h
  · rename_i m buf
    split at h
    · cases m <;> simp [drained] at h
    · split at h <;> (cases m <;> simp [drained] at h)
  · rename_i m buf
    cases m <;> simp [drained] at h
  · rw [drained_afterBatch] at h; cases h
  · simp [drained] at h
  · simp [drained] at h
  · by_contra hn
    simp only [drained, not_or] at hn
    rw [if_neg hn.2] at h; simp [drained] at h
  · exact Or.inl rfl
  · exact Or.inl rfl
  · exact Or.inl rfl

theorem log_wstep (c : Cfg σ) (s : St σ) (h : LogOK s) : LogOK (wstep c s) := by
  obtain ⟨bs, k, hl, hk⟩ := h
  by_cases hp : s.pc = .stopped
  · have : wstep c s = s := by unfold wstep; rw [hp]
    rw [this]; exact ⟨bs, k, hl, hk⟩
  · have hk0 : k = 0 := by
      by_contra hc; exact hp (hk (Nat.pos_of_ne_zero hc))
    subst hk0
    have : (wstep c s).log = s.log ∨ ∃ b, (wstep c s).log = s.log ++ [.export b] := by
      unfold wstep
      split <;> (try exact Or.inl rfl) <;> (try exact Or.inr ⟨_, rfl⟩) <;>
        (split <;> (try exact Or.inl rfl) <;> (split <;> exact Or.inl rfl))
    rcases this with h1 | ⟨b, h1⟩
    · exact ⟨bs, 0, by rw [h1]; exact hl, by simp⟩
    · exact ⟨bs ++ [b], 0, by rw [h1, hl]; simp, by simp⟩

theorem shut_wstep (c : Cfg σ) (s : St σ) (hd : Data c s) (h : Shut s) : Shut (wstep c s) := by
  obtain ⟨f1, f2, f3, f4, f5, f6⟩ := frame_wstep c s
  refine ⟨by rw [f3, f6]; exact h.flag, ?_, by rw [f3, f5]; exact h.join, ?_, ?_, log_wstep c s h.log⟩
  · rw [f3]; exact after_wstep c s h.aft
  · rw [f1, f4, f6]; exact h.late
  · rw [f6]
    intro hdr d fl hda
    have hg := (gone_wstep c s).length_le
    rcases drained_wstep c s hdr with h1 | h1
    · have := h.drn h1 d fl hda; omega
    · have := (h.late d fl hda).1
      have hl := acc_len c s hd
      rw [h1] at hl; simp at hl; omega

theorem shut_frame (s s' : St σ) (h : Shut s) (h1 : s'.done = s.done) (h2 : s'.doneAt = s.doneAt) (h3 : s'.pc = s.pc)
    (h4 : s'.joining = s.joining) (h5 : s'.accepted = s.accepted) (h6 : s'.inflight = s.inflight)
    (h7 : s'.gone = s.gone) (h8 : s'.log = s.log) : Shut s' := by
  obtain ⟨a, b, c', d, e, f⟩ := h
  refine ⟨by rw [h1, h2]; exact a, by rw [h1, h3]; exact b, by rw [h4, h1]; exact c', by rw [h2, h5, h6]; exact d,
    by rw [h3, h2, h7]; exact e, ?_⟩
  unfold LogOK; rw [h8, h3]; exact f

theorem shut_step (c : Cfg σ) (s : St σ) (a : Act σ) (hd : Data c s) (h : Shut s) : Shut (step c s a) := by
  cases a with
  | offer x =>
    simp only [step]
    split
    · exact h
    · rename_i hn
      have hnd : s.doneAt = none := by
        have := h.flag
        cases hda : s.doneAt with
        | none => rfl
        | some v => rw [hda] at this; simp at hn this; simp [this] at hn
      refine ⟨h.flag, h.aft, h.join, ?_, h.drn, h.log⟩
      intro d fl hc
      simp only [hnd] at hc; cases hc
  | append i =>
    simp only [step]
    split
    · rename_i x hx
      obtain ⟨ev, e1, _⟩ := push_spec c { s with inflight := s.inflight.eraseIdx i } x hd.size
      rw [e1]
      refine ⟨h.flag, h.aft, h.join, ?_, ?_, h.log⟩
      · intro d fl hda
        obtain ⟨l1, l2⟩ := h.late d fl hda
        refine ⟨by simp; omega, ?_⟩
        dsimp only
        rw [List.drop_append_of_le_length l1, List.append_assoc]
        refine List.Perm.trans (List.Perm.append_left _ ?_) l2
        have hi : i < s.inflight.length := by
          rcases Nat.lt_or_ge i s.inflight.length with hh | hh
          · exact hh
          · rw [List.getElem?_eq_none hh] at hx; cases hx
        have hx' : s.inflight[i] = x := by
          rw [List.getElem?_eq_getElem hi] at hx; exact Option.some.inj hx
        simp only [List.singleton_append]
        rw [← hx']
        exact List.getElem_cons_eraseIdx_perm hi
      · intro hp d fl hda
        have := h.drn hp d fl hda
        simp; omega
    · exact h
  | flushCall => exact shut_frame s _ h rfl rfl rfl rfl rfl rfl rfl rfl
  | flushReq i =>
    simp only [step]
    split
    · split
      · exact shut_frame s _ h rfl rfl rfl rfl rfl rfl rfl rfl
      · exact shut_frame s _ h rfl rfl rfl rfl rfl rfl rfl rfl
    · exact h
  | flushRet i ok =>
    simp only [step]
    split
    · split
      · exact h
      · exact shut_frame s _ h rfl rfl rfl rfl rfl rfl rfl rfl
    · exact h
  | shutCall =>
    simp only [step]
    cases hdn : s.done with
    | true =>
      simp only [if_true]
      refine ⟨by simp; exact h.flag.mp hdn, fun _ => rfl, fun _ => rfl, h.late, h.drn, h.log⟩
    | false =>
      simp only [Bool.false_eq_true, if_false]
      refine ⟨by simp, fun _ => rfl, fun _ => rfl, ?_, ?_, h.log⟩
      · intro d fl hda
        cases hda
        exact ⟨Nat.le_refl _, by simp⟩
      · intro hp
        exfalso
        have ha : after s.pc = true := by
          simp only at hp
          revert hp
          cases s.pc <;> simp [drained, after]
        have := h.aft ha
        rw [hdn] at this; cases this
  | shutJoin =>
    simp only [step]
    split
    · rename_i k hj hp
      refine ⟨h.flag, h.aft, ?_, h.late, h.drn, ?_⟩
      · intro _; exact h.join (by omega)
      · obtain ⟨bs, k', hl, hk⟩ := h.log
        refine ⟨bs, k' + 1, ?_, fun _ => hp⟩
        simp only [hl, List.append_assoc, List.replicate_succ']
    · exact h
  | worker => exact shut_wstep c s hd h

theorem shut_run (c : Cfg σ) (acts : List (Act σ)) : Shut (run c acts) := by
  have : ∀ (acts : List (Act σ)) (s : St σ), Data c s → Shut s → Shut (acts.foldl (step c) s) := by
    intro acts
    induction acts with
    | nil => intro s _ h; exact h
    | cons a acts ih => intro s hd h; exact ih _ (data_step c s a hd) (shut_step c s a hd h)
  refine this acts _ ⟨rfl, rfl, Nat.zero_le _, by simp [init]⟩ ⟨by simp [init], by simp [init, after], by simp [init], by simp [init], by simp [init], ⟨[], 0, rfl, by simp⟩⟩

/-! ### Progress -/

/-- How often the worker is scheduled. -/
def workerSteps : List (Act σ) → Nat
  | [] => 0
  | .worker :: l => workerSteps l + 1
  | _ :: l => workerSteps l

/-- A measure that every worker step decreases, and nothing increases, reaches zero. -/
theorem progress (c : Cfg σ) (I : St σ → Prop) (μ : St σ → Nat)
    (hI : ∀ s a, I s → I (step c s a))
    (hw : ∀ s, I s → μ (step c s .worker) < μ s ∨ μ (step c s .worker) = 0)
    (ho : ∀ s a, I s → μ (step c s a) ≤ μ s) :
    ∀ (acts : List (Act σ)) (s : St σ), I s → μ s ≤ workerSteps acts → μ (acts.foldl (step c) s) = 0 := by
  intro acts
  induction acts with
  | nil => intro s _ h; simpa [workerSteps] using h
  | cons a acts ih =>
    intro s hs h
    simp only [List.foldl_cons]
    refine ih _ (hI s a hs) ?_
    have h1 := ho s a hs
    cases a with
    | worker =>
      simp only [workerSteps] at h
      rcases hw s hs with h2 | h2 <;> omega
    | _ => simp only [workerSteps] at h; omega

/-- Weight of a program point while shutting down. -/
def weight : PC σ → Nat
  | .stopped => 0
  | .notifyG _ => 1
  | .notifyF _ _ => 2
  | .drainLoop _ _ => 3
  | .fill (.drain _ _) [] => 2
  | .fill (.drain _ _) (_ :: _) => 7
  | .call (.drain _ _) _ => 6
  | .running (.drain _ _) _ => 5
  | .final _ => 4
  | .top => 5
  | .check => 5
  | .notify _ => 6
  | .flushLoop _ _ => 7
  | .fill _ [] => 6
  | .fill _ (_ :: _) => 12
  | .call _ _ => 11
  | .running _ _ => 10
  | .doneQ _ _ => 5
  | .emptyQ _ _ => 6
  | .len2 _ => 7
  | .take2 => 8
  | .wait => 9
  | .decide _ _ => 10
  | .len1 _ => 11
  | .take1 => 12

/-- What is left to do. -/
def work (s : St σ) : Nat := 10 * s.queue.length + 11 * s.inflight.length + weight s.pc

theorem weight_beginExport (f : Option Nat) (n : Nat) : weight (beginExport f n : PC σ) ≤ 7 := by
  cases f <;> simp [beginExport, weight]

theorem work_wstep (c : Cfg σ) (s : St σ) (hb : BatchOK c s) (hdone : s.done = true) (hp : s.pc ≠ .stopped) :
    work (wstep c s) < work s := by
  have hb2 := hb.2
  unfold wstep
  split <;> rename_i hpc <;> rw [hpc] at hb2 <;> simp only [work, hpc]
  · simp [hdone, weight]
  · simp [hdone, weight]
  · simp [weight]
  · simp [weight]
  · split
    · simp [weight]
    · rename_i f n _
      have := weight_beginExport (σ := σ) f n
      have h10 : weight (.decide f n : PC σ) = 10 := rfl
      omega
  · simp [weight]
  · simp [weight]
  · simp [weight]
  · split <;> simp [weight]
  · simp [hdone, weight]
  · split <;> simp [weight]
  · rename_i m buf
    simp only at hb2
    split
    · rename_i hq
      rw [hq] at hb2
      have hbuf : buf ≠ [] := by simpa using hb2.2
      cases buf with
      | nil => exact absurd rfl hbuf
      | cons x b => cases m <;> simp [weight]
    · rename_i x q hq
      split
      · cases buf <;> cases m <;> simp [weight, hq] <;> omega
      · rename_i hn
        have hp := c.pos
        cases buf with
        | nil => simp at hn; omega
        | cons x b => cases m <;> simp [weight]
  · rename_i m buf; cases m <;> simp [weight]
  · rename_i m k
    cases m with
    | single => simp [afterBatch, weight]
    | flush r n => simp only [afterBatch]; split <;> simp [weight]
    | drain f g => simp [afterBatch, weight]
  · simp [weight]
  · simp [weight]
  · split <;> simp [weight]
  · simp [weight]
  · simp [weight]
  · exact absurd hpc hp

theorem done_step (c : Cfg σ) (s : St σ) (a : Act σ) (h : s.done = true) : (step c s a).done = true := by
  cases a with
  | offer x => simp only [step]; split <;> exact h
  | append i =>
    simp only [step]
    split
    · rw [(push_frame c _ _).2.2.2.2.2.2.1]; exact h
    · exact h
  | flushCall => exact h
  | flushReq i => simp only [step]; split <;> (try split) <;> exact h
  | flushRet i ok => simp only [step]; split <;> (try split) <;> exact h
  | shutCall => rfl
  | shutJoin => simp only [step]; split <;> exact h
  | worker => simp only [step]; rw [(frame_wstep c s).2.2.1]; exact h

theorem weight_pos (pc : PC σ) (h : weight pc = 0) : pc = .stopped := by
  unfold weight at h
  split at h <;> first | rfl | omega

theorem work_step (c : Cfg σ) (s : St σ) (a : Act σ) (hd : Data c s) (hb : BatchOK c s) (h : s.done = true) :
    work (step c s a) ≤ work s := by
  cases a with
  | offer x => simp [step, h]
  | append i =>
    simp only [step]
    split
    · rename_i x hx
      obtain ⟨ev, e1, e2, _⟩ := push_spec c { s with inflight := s.inflight.eraseIdx i } x hd.size
      have hi : i < s.inflight.length := by
        rcases Nat.lt_or_ge i s.inflight.length with hh | hh
        · exact hh
        · rw [List.getElem?_eq_none hh] at hx; cases hx
      have hl := congrArg List.length e2
      simp only [List.length_append, List.length_singleton] at hl
      obtain ⟨f1, f2, f3, f4, f5, f6, f7, f8, _⟩ := push_frame c { s with inflight := s.inflight.eraseIdx i } x
      simp only [work]
      rw [f2, f8]
      simp only [List.length_eraseIdx_of_lt hi]
      omega
    · exact Nat.le_refl _
  | flushCall => exact Nat.le_refl _
  | flushReq i => simp only [step]; split <;> (try split) <;> exact Nat.le_refl _
  | flushRet i ok => simp only [step]; split <;> (try split) <;> exact Nat.le_refl _
  | shutCall => exact Nat.le_refl _
  | shutJoin => simp only [step]; split <;> exact Nat.le_refl _
  | worker =>
    simp only [step]
    by_cases hp : s.pc = .stopped
    · have : wstep c s = s := by unfold wstep; rw [hp]
      rw [this]
    · exact Nat.le_of_lt (work_wstep c s hb h hp)

/-- Once the worker has stopped nothing more is exported. -/
theorem stopped_step (c : Cfg σ) (s : St σ) (a : Act σ) (h : s.pc = .stopped) :
    (step c s a).pc = .stopped ∧ exported (step c s a) = exported s := by
  cases a with
  | offer x => simp only [step]; split <;> exact ⟨h, rfl⟩
  | append i =>
    simp only [step]
    split
    · obtain ⟨f1, f2, f3, f4, f5, f6, _⟩ := push_frame c { s with inflight := s.inflight.eraseIdx i } ‹σ›
      unfold exported
      rw [f2, f6]; exact ⟨h, rfl⟩
    · exact ⟨h, rfl⟩
  | flushCall => exact ⟨h, rfl⟩
  | flushReq i => simp only [step]; split <;> (try split) <;> exact ⟨h, rfl⟩
  | flushRet i ok => simp only [step]; split <;> (try split) <;> exact ⟨h, rfl⟩
  | shutCall => exact ⟨h, rfl⟩
  | shutJoin =>
    simp only [step]
    split
    · exact ⟨h, by simp [exported, batches_append, batches]⟩
    · exact ⟨h, rfl⟩
  | worker =>
    simp only [step]
    have : wstep c s = s := by unfold wstep; rw [h]
    rw [this]; exact ⟨h, rfl⟩

theorem stopped_run (c : Cfg σ) (acts : List (Act σ)) (s : St σ) (h : s.pc = .stopped) :
    (acts.foldl (step c) s).pc = .stopped ∧ exported (acts.foldl (step c) s) = exported s := by
  induction acts generalizing s with
  | nil => exact ⟨h, rfl⟩
  | cons a acts ih =>
    obtain ⟨h1, h2⟩ := stopped_step c s a h
    obtain ⟨h3, h4⟩ := ih _ h1
    exact ⟨h3, h4.trans h2⟩

open Classical in
/-- While shutting down, the worker stops after a bounded number of its own steps. -/
theorem stops (c : Cfg σ) (acts : List (Act σ)) (s : St σ) (hd : Data c s) (hb : BatchOK c s) (h : s.done = true)
    (hw : work s ≤ workerSteps acts) : (acts.foldl (step c) s).pc = .stopped := by
  -- the measure is the work, cut to zero once the worker has stopped
  have key := progress c (fun s => Data c s ∧ BatchOK c s ∧ s.done = true)
    (fun s => if s.pc = .stopped then 0 else work s) ?_ ?_ ?_ acts s ⟨hd, hb, h⟩ ?_
  · by_contra hn
    simp only [if_neg hn] at key
    have : weight (acts.foldl (step c) s).pc = 0 := by unfold work at key; omega
    exact hn (weight_pos _ this)
  · intro s a ⟨h1, h2, h3⟩
    exact ⟨data_step c s a h1, batch_step c s a h1 h2, done_step c s a h3⟩
  · intro s ⟨h1, h2, h3⟩
    by_cases hp : s.pc = .stopped
    · right; simp [(stopped_step c s .worker hp).1]
    · left
      simp only [if_neg hp]
      have := work_wstep c s h2 h3 hp
      by_cases hq : (step c s .worker).pc = .stopped
      · rw [if_pos hq]
        have : 0 < weight s.pc := Nat.pos_of_ne_zero (fun h0 => hp (weight_pos _ h0))
        unfold work; omega
      · rw [if_neg hq]; exact this
  · intro s a ⟨h1, h2, h3⟩
    by_cases hp : s.pc = .stopped
    · simp [(stopped_step c s a hp).1]
    · simp only [if_neg hp]
      by_cases hq : (step c s a).pc = .stopped
      · simp [hq]
      · simp only [if_neg hq]; exact work_step c s a h1 h2 h3
  · by_cases hq : s.pc = .stopped
    · simp [hq]
    · simp only [if_neg hq]; exact hw

end Batch
end Otel
