import Verif.Lemmas.BatchLive
/-!
# Progress of the batch processor without a flush
-/
namespace Otel
namespace Batch
variable {σ : Type}

/-- Worker steps until the next span leaves a non-empty queue. -/
def toPop (c : Cfg σ) : PC σ → Nat
  | .fill _ buf => if buf.length < c.maxBatch then 1 else 18
  | .flushLoop _ _ => 2
  | .doneQ _ _ => 3
  | .emptyQ _ _ => 4
  | .len2 _ => 5
  | .take2 => 6
  | .wait => 7
  | .decide _ _ => 8
  | .len1 _ => 9
  | .take1 => 10
  | .check => 11
  | .top => 12
  | .notify _ => 13
  | .running _ _ => 16
  | .call _ _ => 17
  | _ => 0

/-- Worker steps until the buffer is handed over. -/
def toCall (c : Cfg σ) : PC σ → Nat
  | .fill _ buf => c.maxBatch - buf.length + 2
  | .call _ _ => 1
  | _ => 0

open Classical in
/-- Worker steps until the first `b` accepted spans are handed over. -/
noncomputable def untilSettled (c : Cfg σ) (b : Nat) (s : St σ) : Nat :=
  if s.done = true ∨ Settled s b then 0
  else if s.gone.length < b then (b - s.gone.length) * (c.maxBatch + 19) + toPop c s.pc
  else toCall c s.pc

/-- The invariant under which spans are settled. -/
structure Owed (c : Cfg σ) (b : Nat) (s : St σ) : Prop where
  data : Data c s
  batch : BatchOK c s
  shut : Shut s
  le : b ≤ s.accepted.length

theorem gone_other (c : Cfg σ) (s : St σ) (a : Act σ) (h : a ≠ .worker) (hd : Data c s) :
    s.gone <+: (step c s a).gone ∧ (exported s).length ≤ (exported (step c s a)).length := by
  cases a with
  | worker => exact absurd rfl h
  | offer x => simp only [step]; split <;> exact ⟨List.prefix_rfl, Nat.le_refl _⟩
  | append i =>
    simp only [step]
    split
    · rename_i x hx
      unfold push exported
      simp only
      split
      · split
        · exact ⟨List.prefix_append _ _, Nat.le_refl _⟩
        · exact ⟨List.prefix_rfl, Nat.le_refl _⟩
      · exact ⟨List.prefix_rfl, Nat.le_refl _⟩
    · exact ⟨List.prefix_rfl, Nat.le_refl _⟩
  | flushCall => exact ⟨List.prefix_rfl, Nat.le_refl _⟩
  | flushReq i => simp only [step]; split <;> (try split) <;> exact ⟨List.prefix_rfl, Nat.le_refl _⟩
  | flushRet i ok => simp only [step]; split <;> (try split) <;> exact ⟨List.prefix_rfl, Nat.le_refl _⟩
  | shutCall => exact ⟨List.prefix_rfl, Nat.le_refl _⟩
  | shutJoin =>
    simp only [step]
    split
    · unfold exported; simp [batches_append, batches]
    · exact ⟨List.prefix_rfl, Nat.le_refl _⟩

theorem accepted_step (c : Cfg σ) (s : St σ) (a : Act σ) : s.accepted <+: (step c s a).accepted := by
  cases a with
  | worker => simp only [step]; rw [(frame_wstep c s).1]; exact List.prefix_rfl
  | append i =>
    simp only [step]
    split
    · unfold push
      simp only
      split
      · split <;> exact List.prefix_append _ _
      · exact List.prefix_append _ _
    · exact List.prefix_rfl
  | offer x => simp only [step]; split <;> exact List.prefix_rfl
  | flushCall => exact List.prefix_rfl
  | flushReq i => simp only [step]; split <;> (try split) <;> exact List.prefix_rfl
  | flushRet i ok => simp only [step]; split <;> (try split) <;> exact List.prefix_rfl
  | shutCall => exact List.prefix_rfl
  | shutJoin => simp only [step]; split <;> exact List.prefix_rfl

theorem accepted_steps (c : Cfg σ) (acts : List (Act σ)) (s : St σ) : s.accepted <+: (acts.foldl (step c) s).accepted := by
  induction acts generalizing s with
  | nil => exact List.prefix_rfl
  | cons a l ih => exact (accepted_step c s a).trans (ih _)

theorem owed_step (c : Cfg σ) (b : Nat) (s : St σ) (a : Act σ) (h : Owed c b s) : Owed c b (step c s a) := by
  exact ⟨data_step c s a h.data, batch_step c s a h.data h.batch, shut_step c s a h.data h.shut, Nat.le_trans h.le (accepted_step c s a).length_le⟩

theorem settled_step (c : Cfg σ) (b : Nat) (s : St σ) (a : Act σ) (hd : Data c s) (h : Settled s b) : Settled (step c s a) b := by
  by_cases ha : a = .worker
  · subst ha
    exact settled_mono s _ b h (gone_wstep c s) (exported_wstep c s).length_le
  · obtain ⟨h1, h2⟩ := gone_other c s a ha hd
    exact settled_mono s _ b h h1 h2

theorem toPop_le (c : Cfg σ) (pc : PC σ) : toPop c pc ≤ 18 := by
  unfold toPop; split <;> (try split) <;> omega

theorem toCall_le (c : Cfg σ) (pc : PC σ) : toCall c pc ≤ c.maxBatch + 2 := by
  unfold toCall; split <;> omega

theorem untilSettled_other (c : Cfg σ) (b : Nat) (s : St σ) (a : Act σ) (hd : Data c s) (h : a ≠ .worker) :
    untilSettled c b (step c s a) ≤ untilSettled c b s := by
  unfold untilSettled
  by_cases h0 : s.done = true ∨ Settled s b
  · rw [if_pos, if_pos h0]
    rcases h0 with h0 | h0
    · exact .inl (done_step c s a h0)
    · exact .inr (settled_step c b s a hd h0)
  · rw [if_neg h0]
    split
    · exact Nat.zero_le _
    · have hg := (gone_other c s a h hd).1.length_le
      have hpc := (pc_other c s a h).1
      rw [hpc]
      have hle := toCall_le c s.pc
      by_cases h1 : s.gone.length < b
      · rw [if_pos h1]
        split
        · rename_i h2
          have : (b - (step c s a).gone.length) * (c.maxBatch + 19) ≤ (b - s.gone.length) * (c.maxBatch + 19) := Nat.mul_le_mul_right _ (by omega)
          omega
        · have : 1 * (c.maxBatch + 19) ≤ (b - s.gone.length) * (c.maxBatch + 19) := Nat.mul_le_mul_right _ (by omega)
          omega
      · rw [if_neg h1, if_neg (by omega)]

theorem untilSettled_worker (c : Cfg σ) (b : Nat) (s : St σ) (h : Owed c b s) :
    untilSettled c b (step c s .worker) < untilSettled c b s ∨ untilSettled c b (step c s .worker) = 0 := by
  have hnext := owed_step c b s .worker h
  by_cases h0 : s.done = true ∨ Settled s b
  · right
    unfold untilSettled
    rw [if_pos]
    rcases h0 with h0 | h0
    · exact .inl (done_step c s .worker h0)
    · exact .inr (settled_step c b s .worker h.data h0)
  · by_cases h0' : (step c s .worker).done = true ∨ Settled (step c s .worker) b
    · right; unfold untilSettled; rw [if_pos h0']
    · left
      simp only [step] at h0' hnext ⊢
      have hdone : s.done = false := by
        cases hx : s.done with
        | true => exact absurd (.inl hx) h0
        | false => rfl
      have haf : after s.pc = false := by
        cases hx : after s.pc with
        | true => exact absurd (.inl (h.shut.aft hx)) h0
        | false => rfl
      have hacc := acc_len c s h.data
      have hle := h.le
      unfold untilSettled
      rw [if_neg h0, if_neg h0']
      have hg := (gone_wstep c s).length_le
      have hcall := toCall_le c (wstep c s).pc
      have hpop := toPop_le c (wstep c s).pc
      by_cases h1 : s.gone.length < b
      · rw [if_pos h1]
        have hq : s.queue ≠ [] := by
          intro hq; rw [hq] at hacc; simp at hacc; omega
        by_cases hgrow : s.gone.length < (wstep c s).gone.length
        · split
          · rename_i h2
            have : (b - (wstep c s).gone.length + 1) * (c.maxBatch + 19) ≤ (b - s.gone.length) * (c.maxBatch + 19) := Nat.mul_le_mul_right _ (by omega)
            rw [Nat.add_mul] at this
            omega
          · have : 1 * (c.maxBatch + 19) ≤ (b - s.gone.length) * (c.maxBatch + 19) := Nat.mul_le_mul_right _ (by omega)
            omega
        · have heq : (wstep c s).gone.length = s.gone.length := by omega
          rw [if_pos (by omega), heq]
          suffices toPop c (wstep c s).pc < toPop c s.pc by omega
          revert hgrow haf
          unfold wstep
          cases hpc : s.pc with
          | top => intro _ _; simp [hdone, toPop]
          | check => intro _ _; simp [hdone, toPop]
          | take1 => intro _ _; simp [toPop]
          | len1 f => intro _ _; simp [toPop]
          | decide f n =>
            intro _ _
            simp only
            split
            · simp [toPop]
            · cases f <;> simp [beginExport, toPop, c.pos]
          | wait => intro _ _; simp [toPop]
          | take2 => intro _ _; simp [toPop]
          | len2 f => intro _ _; simp [toPop]
          | emptyQ f n => intro _ _; simp [hq, toPop]
          | doneQ f n => intro _ _; cases f <;> simp [hdone, beginExport, toPop, c.pos]
          | flushLoop r n => intro _ _; simp [hq, toPop, c.pos]
          | fill m buf =>
            intro _ hgrow
            cases hqq : s.queue with
            | nil => exact absurd hqq hq
            | cons x q =>
              rw [hqq] at hgrow
              simp only at hgrow ⊢
              split at hgrow
              · simp at hgrow
              · rename_i hb
                rw [if_neg hb]
                simp [toPop, hb]
          | call m buf => intro _ _; simp [toPop]
          | running m k =>
            intro haf _
            cases m with
            | single => simp [afterBatch, toPop]
            | flush r n => simp only [afterBatch]; split <;> simp [toPop]
            | drain f g => cases haf
          | notify r => intro _ _; simp [toPop]
          | final f => intro haf _; cases haf
          | drainLoop f g => intro haf _; cases haf
          | notifyF f g => intro haf _; cases haf
          | notifyG g => intro haf _; cases haf
          | stopped => intro haf _; cases haf
      · rw [if_neg h1, if_neg (by omega)]
        have hbuf : bufOf s.pc ≠ [] := fun hb => h0 (.inr (settled_of c s b h.data hb (by omega)))
        have hbuf' : bufOf (wstep c s).pc ≠ [] := fun hb => h0' (.inr (settled_of c _ b hnext.data hb (by omega)))
        revert hbuf hbuf'
        unfold wstep
        cases hpc : s.pc with
        | fill m buf =>
          intro _ _
          have hk : buf.length ≤ c.maxBatch := by have := h.batch.2; rw [hpc] at this; exact this.1
          cases hqq : s.queue with
          | nil => simp [toCall]
          | cons x q =>
            simp only
            split
            · rename_i hb; simp only [toCall, List.length_append, List.length_singleton]; omega
            · simp [toCall]
        | call m buf => intro _ hb; exact absurd rfl hb
        | _ => intro hb _; exact absurd rfl hb

/-- How many worker steps hand over everything accepted. -/
def settleBound (c : Cfg σ) : Nat := c.maxQueue * (c.maxBatch + 19) + c.maxBatch + 20

theorem owed_run (c : Cfg σ) (acts : List (Act σ)) : Owed c (run c acts).accepted.length (run c acts) :=
  ⟨data_run c acts, batch_run c acts, shut_run c acts, Nat.le_refl _⟩

theorem settles (c : Cfg σ) (acts' : List (Act σ)) (s : St σ) (h : Owed c s.accepted.length s)
    (hw : settleBound c ≤ workerSteps acts') :
    (acts'.foldl (step c) s).done = true ∨ Settled (acts'.foldl (step c) s) s.accepted.length := by
  have hb : untilSettled c s.accepted.length s ≤ settleBound c := by
    unfold untilSettled settleBound
    have h1 := acc_len c s h.data
    have h2 := h.data.size
    have h3 := toPop_le c s.pc
    have h4 := toCall_le c s.pc
    split
    · exact Nat.zero_le _
    · split
      · have : (s.accepted.length - s.gone.length) * (c.maxBatch + 19) ≤ c.maxQueue * (c.maxBatch + 19) := Nat.mul_le_mul_right _ (by omega)
        omega
      · omega
  have key := progress c (Owed c s.accepted.length) (untilSettled c s.accepted.length) (fun s a hs => owed_step c _ s a hs)
    (fun s hs => untilSettled_worker c _ s hs) (fun s' a hs => by
      by_cases ha : a = .worker
      · subst ha; rcases untilSettled_worker c _ s' hs with h1 | h1 <;> omega
      · exact untilSettled_other c _ s' a hs.data ha) acts' s h (Nat.le_trans hb hw)
  have howed : ∀ (acts' : List (Act σ)) (s' : St σ) (b : Nat), Owed c b s' → Owed c b (acts'.foldl (step c) s') := by
    intro acts'
    induction acts' with
    | nil => intro s' b h; exact h
    | cons a acts' ih => intro s' b h; exact ih _ _ (owed_step c b s' a h)
  have hend := howed acts' s _ h
  generalize acts'.foldl (step c) s = t at key hend
  unfold untilSettled at key
  split at key
  · assumption
  · rename_i hn
    split at key
    · have : 1 * (c.maxBatch + 19) ≤ (s.accepted.length - t.gone.length) * (c.maxBatch + 19) := Nat.mul_le_mul_right _ (by omega)
      omega
    · rename_i h2
      by_cases hbuf : bufOf t.pc = []
      · exact .inr (settled_of c t _ hend.data hbuf (by omega))
      · exfalso
        revert hbuf key
        cases t.pc <;> simp [toCall, bufOf]

end Batch
end Otel
