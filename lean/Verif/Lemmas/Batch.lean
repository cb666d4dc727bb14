import Verif.Model.Batch
import Mathlib.Tactic.Linarith
import Mathlib.Tactic.ByContra
import Mathlib.Data.List.Basic
/-!
# Invariants of the batch processor
-/
namespace Otel
namespace Batch
variable {σ : Type}

/-- The spans popped but not yet handed over. -/
def bufOf : PC σ → List σ
  | .fill _ b => b
  | .call _ b => b
  | _ => []

/-- The popped spans, in order. -/
def popped (l : List (σ × Bool)) : List σ := (l.filter (fun p => p.2)).map Prod.fst

theorem popped_append (a b : List (σ × Bool)) : popped (a ++ b) = popped a ++ popped b := by
  simp [popped]

theorem popped_false (x : σ) : popped [(x, false)] = [] := rfl
theorem popped_true (x : σ) : popped [(x, true)] = [x] := rfl

theorem batches_append (a b : List (Ev σ)) : batches (a ++ b) = batches a ++ batches b := by
  induction a with
  | nil => rfl
  | cons e a ih => cases e <;> simp [batches, ih]

/-- The data invariant. -/
structure Data (c : Cfg σ) (s : St σ) : Prop where
  acc : s.accepted = s.gone.map Prod.fst ++ s.queue
  exp : exported s ++ bufOf s.pc = popped s.gone
  size : s.queue.length ≤ c.maxQueue
  samp : ∀ x ∈ s.accepted ++ s.inflight, c.sampled x = true

theorem bufOf_beginExport (f : Option Nat) (n : Nat) : bufOf (beginExport f n : PC σ) = [] := by
  cases f <;> rfl

theorem bufOf_afterBatch (k : Nat) (m : Mode) : bufOf (afterBatch k m : PC σ) = [] := by
  cases m with
  | single => rfl
  | flush r n => simp only [afterBatch]; split <;> rfl
  | drain f g => rfl

/-- A worker step that only moves the program counter between places without a buffer. -/
theorem data_pc (c : Cfg σ) (s s' : St σ) (h : Data c s) (hq : s'.queue = s.queue) (hg : s'.gone = s.gone)
    (ha : s'.accepted = s.accepted) (hi : s'.inflight = s.inflight) (hl : s'.log = s.log)
    (hb : bufOf s'.pc = bufOf s.pc) : Data c s' := by
  refine ⟨by rw [ha, hg, hq]; exact h.acc, ?_, by rw [hq]; exact h.size, by rw [ha, hi]; exact h.samp⟩
  rw [hb, hg]; unfold exported; rw [hl]; exact h.exp

theorem data_wstep (c : Cfg σ) (s : St σ) (h : Data c s) : Data c (wstep c s) := by
  unfold wstep
  split <;> rename_i hpc
  · refine data_pc c s _ h rfl rfl rfl rfl rfl ?_
    rw [hpc]; dsimp only; split <;> rfl
  · refine data_pc c s _ h rfl rfl rfl rfl rfl ?_
    rw [hpc]; dsimp only; split <;> rfl
  · exact data_pc c s _ h rfl rfl rfl rfl rfl (by rw [hpc]; rfl)
  · exact data_pc c s _ h rfl rfl rfl rfl rfl (by rw [hpc]; rfl)
  · refine data_pc c s _ h rfl rfl rfl rfl rfl ?_
    rw [hpc]; dsimp only; split
    · rfl
    · rw [bufOf_beginExport]; rfl
  · exact data_pc c s _ h rfl rfl rfl rfl rfl (by rw [hpc]; rfl)
  · exact data_pc c s _ h rfl rfl rfl rfl rfl (by rw [hpc]; rfl)
  · exact data_pc c s _ h rfl rfl rfl rfl rfl (by rw [hpc]; rfl)
  · split
    · exact data_pc c s _ h rfl rfl rfl rfl rfl (by rw [hpc]; rfl)
    · exact data_pc c s _ h rfl rfl rfl rfl rfl (by rw [hpc]; rfl)
  · refine data_pc c s _ h rfl rfl rfl rfl rfl ?_
    rw [hpc]; dsimp only; split
    · rfl
    · rw [bufOf_beginExport]; rfl
  · refine data_pc c s _ h rfl rfl rfl rfl rfl ?_
    rw [hpc]; dsimp only; split <;> rfl
  · -- fill
    rename_i m buf
    split
    · exact data_pc c s _ h rfl rfl rfl rfl rfl (by rw [hpc]; rfl)
    · rename_i x q hq
      split
      · refine ⟨?_, ?_, ?_, h.samp⟩
        · have := h.acc; rw [hq] at this; simp [this]
        · have := h.exp
          rw [hpc] at this
          simp only [bufOf] at this ⊢
          rw [popped_append, popped_true, ← this]
          simp [exported]
        · have := h.size; rw [hq] at this; simp at this ⊢; omega
      · exact data_pc c s _ h rfl rfl rfl rfl rfl (by rw [hpc]; rfl)
  · -- call
    rename_i m buf
    refine ⟨h.acc, ?_, h.size, h.samp⟩
    have := h.exp
    rw [hpc] at this
    simp only [bufOf] at this ⊢
    rw [← this]
    simp [exported, batches_append, batches]
  · refine data_pc c s _ h rfl rfl rfl rfl rfl ?_
    rw [hpc, bufOf_afterBatch]; rfl
  · exact data_pc c s _ h rfl rfl rfl rfl rfl (by rw [hpc]; rfl)
  · exact data_pc c s _ h rfl rfl rfl rfl rfl (by rw [hpc]; rfl)
  · refine data_pc c s _ h rfl rfl rfl rfl rfl ?_
    rw [hpc]; dsimp only; split <;> rfl
  · exact data_pc c s _ h rfl rfl rfl rfl rfl (by rw [hpc]; rfl)
  · exact data_pc c s _ h rfl rfl rfl rfl rfl (by rw [hpc]; rfl)
  · exact h

/-- What appending does, whatever the fill level. -/
theorem push_spec (c : Cfg σ) (s : St σ) (x : σ) (h : s.queue.length ≤ c.maxQueue) :
    ∃ ev : List σ, (push c s x) = { s with queue := (push c s x).queue, gone := s.gone ++ ev.map (·, false), accepted := s.accepted ++ [x] } ∧
      ev ++ (push c s x).queue = s.queue ++ [x] ∧ (push c s x).queue.length ≤ c.maxQueue ∧ (push c s x).queue ≠ [] ∧
      (ev ≠ [] → s.queue.length = c.maxQueue) ∧ ev.length ≤ 1 := by
  have hpos := c.pos
  have hle := c.le
  unfold push
  split
  · rename_i y q hq
    split
    · rename_i hf
      refine ⟨[y], rfl, by simp [hq], ?_, by simp, ?_, by simp⟩
      · simp at hf ⊢; omega
      · intro _; rw [hq]; exact hf
    · rename_i hf
      refine ⟨[], ?_, by simp [hq], ?_, by simp, by simp, by simp⟩
      · simp
      · rw [hq] at h; simp at h hf ⊢; omega
  · rename_i hq
    refine ⟨[], ?_, by simp [hq], ?_, by simp, by simp, by simp⟩
    · simp
    · simp; omega

theorem popped_map_false (l : List σ) : popped (l.map (·, false)) = [] := by
  induction l with
  | nil => rfl
  | cons a l ih => simpa [popped] using ih

theorem mem_eraseIdx_of (l : List σ) (i : Nat) (x : σ) (h : x ∈ l.eraseIdx i) : x ∈ l :=
  (List.eraseIdx_sublist l i).subset h

theorem data_step (c : Cfg σ) (s : St σ) (a : Act σ) (h : Data c s) : Data c (step c s a) := by
  cases a with
  | offer x =>
    simp only [step]
    split
    · exact h
    · rename_i hn
      refine ⟨h.acc, h.exp, h.size, ?_⟩
      intro y hy
      simp only [List.mem_append, List.mem_singleton] at hy
      rcases hy with hy | hy | hy
      · exact h.samp y (by simp [hy])
      · exact h.samp y (by simp [hy])
      · subst hy; simp at hn; exact hn.2
  | append i =>
    simp only [step]
    split
    · rename_i x hx
      obtain ⟨ev, e1, e2, e3, _, _⟩ := push_spec c { s with inflight := s.inflight.eraseIdx i } x h.size
      generalize push c { s with inflight := s.inflight.eraseIdx i } x = s' at *
      have hxm : x ∈ s.inflight := List.mem_of_getElem? hx
      refine ⟨?_, ?_, e3, ?_⟩
      · rw [e1]
        simp only [List.map_append, List.map_map]
        have : (List.map (Prod.fst ∘ fun x => (x, false)) ev) = ev := by
          simp [Function.comp_def]
        rw [this, List.append_assoc, e2, h.acc]; simp
      · have := h.exp
        rw [e1]
        simp only [exported, popped_append, popped_map_false, List.append_nil] at this ⊢
        exact this
      · intro y hy
        rw [e1] at hy
        simp only [List.mem_append, List.mem_singleton] at hy
        rcases hy with (hy | hy) | hy
        · exact h.samp y (by simp [hy])
        · subst hy; exact h.samp y (by simp [hxm])
        · exact h.samp y (by simp [mem_eraseIdx_of _ _ _ hy])
    · exact h
  | flushCall => exact data_pc c s _ h rfl rfl rfl rfl rfl rfl
  | flushReq i =>
    simp only [step]
    split
    · split
      · exact data_pc c s _ h rfl rfl rfl rfl rfl rfl
      · exact data_pc c s _ h rfl rfl rfl rfl rfl rfl
    · exact h
  | flushRet i ok =>
    simp only [step]
    split
    · split
      · exact h
      · exact data_pc c s _ h rfl rfl rfl rfl rfl rfl
    · exact h
  | shutCall => exact data_pc c s _ h rfl rfl rfl rfl rfl rfl
  | shutJoin =>
    simp only [step]
    split
    · refine ⟨h.acc, ?_, h.size, h.samp⟩
      have := h.exp
      simp only [exported, batches_append, batches, List.append_nil] at this ⊢
      exact this
    · exact h
  | worker => exact data_wstep c s h

theorem data_run (c : Cfg σ) (acts : List (Act σ)) : Data c (run c acts) := by
  have : ∀ (acts : List (Act σ)) (s : St σ), Data c s → Data c (acts.foldl (step c) s) := by
    intro acts
    induction acts with
    | nil => intro s h; exact h
    | cons a acts ih => intro s h; exact ih _ (data_step c s a h)
  exact this acts _ ⟨rfl, rfl, Nat.zero_le _, by simp [init]⟩

/-- The batch-size invariant. -/
def BatchOK (c : Cfg σ) (s : St σ) : Prop :=
  (∀ b ∈ batches s.log, b ≠ [] ∧ b.length ≤ c.maxBatch) ∧
  (match s.pc with
    | .doneQ _ _ => s.queue ≠ []
    | .fill _ buf => buf.length ≤ c.maxBatch ∧ (buf ≠ [] ∨ s.queue ≠ [])
    | .call _ buf => buf ≠ [] ∧ buf.length ≤ c.maxBatch
    | _ => True)

/-- The part about the program counter, which depends on the queue only through emptiness. -/
def pcOK (c : Cfg σ) (pc : PC σ) (q : List σ) : Prop :=
  match pc with
    | .doneQ _ _ => q ≠ []
    | .fill _ buf => buf.length ≤ c.maxBatch ∧ (buf ≠ [] ∨ q ≠ [])
    | .call _ buf => buf ≠ [] ∧ buf.length ≤ c.maxBatch
    | _ => True

theorem batchOK_iff (c : Cfg σ) (s : St σ) : BatchOK c s ↔
    (∀ b ∈ batches s.log, b ≠ [] ∧ b.length ≤ c.maxBatch) ∧ pcOK c s.pc s.queue := Iff.rfl

theorem pcOK_mono (c : Cfg σ) (pc : PC σ) (q q' : List σ) (h : pcOK c pc q) (hq : q' ≠ []) : pcOK c pc q' := by
  unfold pcOK at *
  split <;> simp_all

theorem pcOK_afterBatch (c : Cfg σ) (k : Nat) (m : Mode) (q : List σ) : pcOK c (afterBatch k m) q := by
  cases m with
  | single => trivial
  | flush r n => simp only [afterBatch]; split <;> trivial
  | drain f g => trivial

theorem batch_wstep (c : Cfg σ) (s : St σ) (h : BatchOK c s) : BatchOK c (wstep c s) := by
  rw [batchOK_iff] at h ⊢
  obtain ⟨h1, h2⟩ := h
  have hp := c.pos
  unfold wstep
  split <;> rename_i hpc <;> rw [hpc] at h2
  · refine ⟨h1, ?_⟩; dsimp only; split <;> trivial
  · refine ⟨h1, ?_⟩; dsimp only; split <;> trivial
  · exact ⟨h1, trivial⟩
  · exact ⟨h1, trivial⟩
  · refine ⟨h1, ?_⟩
    dsimp only
    split
    · trivial
    · rename_i f n hn
      cases f with
      | none =>
        simp only [and_true, not_lt] at hn
        refine ⟨by simp, Or.inr ?_⟩
        intro he; rw [he] at hn; simp at hn; omega
      | some r => trivial
  · exact ⟨h1, trivial⟩
  · exact ⟨h1, trivial⟩
  · exact ⟨h1, trivial⟩
  · split
    · exact ⟨h1, trivial⟩
    · rename_i hq; exact ⟨h1, hq⟩
  · refine ⟨h1, ?_⟩
    dsimp only
    split
    · trivial
    · rename_i f n _
      cases f with
      | none => exact ⟨by simp, Or.inr h2⟩
      | some r => trivial
  · refine ⟨h1, ?_⟩
    dsimp only
    split
    · trivial
    · rename_i hq; exact ⟨by simp, Or.inr hq⟩
  · rename_i m buf
    split
    · rename_i hq
      refine ⟨h1, ?_⟩
      simp only [pcOK, hq] at h2 ⊢
      exact ⟨by simpa using h2.2, h2.1⟩
    · rename_i x q hq
      split
      · refine ⟨h1, ?_⟩
        simp only [pcOK]
        exact ⟨by simp; omega, Or.inl (by simp)⟩
      · rename_i hb
        refine ⟨h1, ?_⟩
        simp only [pcOK] at h2 ⊢
        refine ⟨?_, h2.1⟩
        intro he; rw [he] at hb; simp at hb; omega
  · rename_i m buf
    refine ⟨?_, trivial⟩
    intro b hb
    rw [batches_append] at hb
    simp only [batches, List.mem_append, List.mem_singleton] at hb
    rcases hb with hb | hb
    · exact h1 b hb
    · rw [hb]; exact h2
  · exact ⟨h1, pcOK_afterBatch c _ _ _⟩
  · exact ⟨h1, trivial⟩
  · exact ⟨h1, trivial⟩
  · refine ⟨h1, ?_⟩
    dsimp only
    split
    · trivial
    · rename_i hq; exact ⟨by simp, Or.inr hq⟩
  · exact ⟨h1, trivial⟩
  · exact ⟨h1, trivial⟩
  · rw [← hpc] at h2; exact ⟨h1, h2⟩

theorem batch_step (c : Cfg σ) (s : St σ) (a : Act σ) (hd : Data c s) (h : BatchOK c s) : BatchOK c (step c s a) := by
  rw [batchOK_iff] at h ⊢
  cases a with
  | offer x => simp only [step]; split <;> exact h
  | append i =>
    simp only [step]
    split
    · rename_i x hx
      obtain ⟨ev, e1, e2, e3, e4, _⟩ := push_spec c { s with inflight := s.inflight.eraseIdx i } x hd.size
      generalize push c { s with inflight := s.inflight.eraseIdx i } x = s' at *
      rw [e1]
      exact ⟨h.1, pcOK_mono c _ _ _ h.2 e4⟩
    · exact h
  | flushCall => exact h
  | flushReq i =>
    simp only [step]
    split
    · split <;> exact h
    · exact h
  | flushRet i ok =>
    simp only [step]
    split
    · split <;> exact h
    · exact h
  | shutCall => exact h
  | shutJoin =>
    simp only [step]
    split
    · refine ⟨?_, h.2⟩
      simp only [batches_append, batches, List.append_nil]; exact h.1
    · exact h
  | worker => exact batch_wstep c s h

theorem batch_run (c : Cfg σ) (acts : List (Act σ)) : BatchOK c (run c acts) := by
  have : ∀ (acts : List (Act σ)) (s : St σ), Data c s → BatchOK c s → BatchOK c (acts.foldl (step c) s) := by
    intro acts
    induction acts with
    | nil => intro s _ h; exact h
    | cons a acts ih => intro s hd h; exact ih _ (data_step c s a hd) (batch_step c s a hd h)
  exact this acts _ ⟨rfl, rfl, Nat.zero_le _, by simp [init]⟩ ⟨by simp [init, batches], trivial⟩

end Batch
end Otel
