import Verif.Lemmas.BatchShutdown
/-!
# A pending flush request is served
-/
namespace Otel
namespace Batch
variable {σ : Type}

/-- Counts the worker remembers are at most the queue's capacity; a running export is of at least one span. -/
def numOK (c : Cfg σ) : PC σ → Prop
  | .decide _ n | .emptyQ _ n | .doneQ _ n => n ≤ c.maxQueue
  | .flushLoop _ n | .fill (.flush _ n) _ | .call (.flush _ n) _ => n ≤ c.maxQueue
  | .running (.flush _ n) k => n ≤ c.maxQueue ∧ 0 < k
  | _ => True

theorem numOK_wstep (c : Cfg σ) (s : St σ) (hd : Data c s) (hb : BatchOK c s) (h : numOK c s.pc) :
    numOK c (wstep c s).pc := by
  have hs := hd.size
  have hb2 := hb.2
  unfold wstep
  split <;> rename_i hpc <;> rw [hpc] at h hb2
  · dsimp only; split <;> trivial
  · dsimp only; split <;> trivial
  · trivial
  · exact hs
  · dsimp only
    split
    · trivial
    · rename_i f n _
      cases f with
      | none => trivial
      | some r => simp only [numOK, beginExport] at h ⊢; omega
  · trivial
  · trivial
  · exact hs
  · split
    · trivial
    · exact h
  · rename_i f n
    dsimp only
    split
    · trivial
    · cases f with
      | none => trivial
      | some r => simp only [numOK, beginExport] at h ⊢; omega
  · dsimp only; split
    · trivial
    · exact h
  · rename_i m buf
    split
    · cases m <;> exact h
    · split <;> (cases m <;> exact h)
  · rename_i m buf
    cases m with
    | single => trivial
    | flush r n => exact ⟨h, List.length_pos_iff.mpr hb2.1⟩
    | drain f g => trivial
  · rename_i m k
    cases m with
    | single => trivial
    | flush r n =>
      simp only [afterBatch]
      split
      · trivial
      · simp only [numOK] at h ⊢; omega
    | drain f g => trivial
  · trivial
  · trivial
  · dsimp only; split <;> trivial
  · trivial
  · trivial
  · rw [hpc]; trivial

theorem pc_other (c : Cfg σ) (s : St σ) (a : Act σ) (h : a ≠ .worker) : (step c s a).pc = s.pc ∧ (step c s a).events = s.events := by
  cases a with
  | offer x => simp only [step]; split <;> exact ⟨rfl, rfl⟩
  | append i =>
    simp only [step]
    split
    · exact ⟨(push_frame c _ _).2.1, (push_frame c _ _).1⟩
    · exact ⟨rfl, rfl⟩
  | flushCall => exact ⟨rfl, rfl⟩
  | flushReq i => simp only [step]; split <;> (try split) <;> exact ⟨rfl, rfl⟩
  | flushRet i ok => simp only [step]; split <;> (try split) <;> exact ⟨rfl, rfl⟩
  | shutCall => exact ⟨rfl, rfl⟩
  | shutJoin => simp only [step]; split <;> exact ⟨rfl, rfl⟩
  | worker => exact absurd rfl h

theorem numOK_step (c : Cfg σ) (s : St σ) (a : Act σ) (hd : Data c s) (hb : BatchOK c s) (h : numOK c s.pc) :
    numOK c (step c s a).pc := by
  by_cases ha : a = .worker
  · subst ha; exact numOK_wstep c s hd hb h
  · rw [(pc_other c s a ha).1]; exact h

/-- Worker steps per batch of a flush. -/
def perBatch (c : Cfg σ) : Nat := c.maxBatch + 6
/-- Worker steps to flush `n` spans. -/
def flushCost (c : Cfg σ) (n : Int) : Nat := (n.toNat - 1) * perBatch c + perBatch c

/-- Worker steps until the current export is over. -/
def cost (c : Cfg σ) : PC σ → Nat
  | .notify _ => 1
  | .flushLoop _ n => flushCost c n
  | .fill (.flush _ n) buf => (n.toNat - 1) * perBatch c + (c.maxBatch - buf.length) + 5
  | .call (.flush _ n) _ => (n.toNat - 1) * perBatch c + 4
  | .running (.flush _ n) _ => (n.toNat - 1) * perBatch c + 3
  | .fill .single buf => (c.maxBatch - buf.length) + 5
  | .call .single _ => 4
  | .running .single _ => 3
  | .decide _ n => flushCost c n + 1
  | .doneQ _ n => flushCost c n + 1
  | .emptyQ _ n => flushCost c n + 2
  | .len2 _ => flushCost c c.maxQueue + 3
  | .len1 _ => flushCost c c.maxQueue + 2
  | _ => 0

/-- Worker steps until a request not yet taken is served. -/
def toTake (c : Cfg σ) (pc : PC σ) : Nat :=
  flushCost c c.maxQueue + 3 +
    (match pc with
    | .take1 | .take2 => 1
    | .check | .wait => 2
    | .top => 3
    | pc => 3 + cost c pc)

theorem flushCost_mono (c : Cfg σ) (m n : Int) (h : m ≤ n) : flushCost c m ≤ flushCost c n := by
  unfold flushCost
  have : (m.toNat - 1) ≤ (n.toNat - 1) := by omega
  exact Nat.add_le_add_right (Nat.mul_le_mul_right _ this) _

theorem flushCost_ge (c : Cfg σ) (n : Int) : c.maxBatch + 6 ≤ flushCost c n := by
  unfold flushCost perBatch; omega

/-- After a batch the remaining flush costs no more than what was budgeted. -/
theorem flushCost_dec (c : Cfg σ) (n : Int) (k : Nat) (hk : 0 < k) (h : ¬ n - k ≤ 0) :
    flushCost c (n - k) ≤ (n.toNat - 1) * perBatch c := by
  unfold flushCost
  have h1 : ((n - k).toNat - 1) + 1 ≤ n.toNat - 1 := by omega
  have := Nat.mul_le_mul_right (perBatch c) h1
  rw [Nat.add_mul] at this; omega

/-- One worker step of an export. -/
theorem cost_wstep (c : Cfg σ) (s : St σ) (hd : Data c s) (hb : BatchOK c s) (hn : numOK c s.pc) (hdone : s.done = false)
    (ha : after s.pc = false) (h : 0 < cost c s.pc) :
    cost c (wstep c s).pc < cost c s.pc := by
  have hs := hd.size
  have hb2 := hb.2
  have hp := c.pos
  unfold wstep
  split <;> rename_i hpc <;> rw [hpc] at h hn hb2 ha <;> simp only [hpc]
  · simp [cost] at h
  · simp [cost] at h
  · simp [cost] at h
  · simp only [cost]
    have := flushCost_mono c s.queue.length c.maxQueue (by omega)
    omega
  · rename_i f n
    have := flushCost_ge c n
    split
    · simp [cost]
    · cases f with
      | none => simp [beginExport, cost]; omega
      | some r => simp [beginExport, cost]
  · simp [cost] at h
  · simp [cost] at h
  · simp only [cost]
    have := flushCost_mono c s.queue.length c.maxQueue (by omega)
    omega
  · split <;> simp [cost]
  · rename_i f n
    have := flushCost_ge c n
    cases f with
    | none => simp [hdone, beginExport, cost]; omega
    | some r => simp [hdone, beginExport, cost]
  · rename_i r n
    have := flushCost_ge c n
    split
    · simp [cost]; omega
    · simp [cost, flushCost, perBatch]; omega
  · rename_i m buf
    simp only at hb2
    split
    · rename_i hq
      cases m with
      | single => simp [cost]
      | flush r n => simp [cost]; omega
      | drain f g => simp [after] at ha
    · split
      · cases m with
        | single => simp [cost]; omega
        | flush r n => simp [cost]; omega
        | drain f g => simp [after] at ha
      · cases m with
        | single => simp [cost]
        | flush r n => simp [cost]; omega
        | drain f g => simp [after] at ha
  · rename_i m buf
    cases m <;> simp_all [cost]
  · rename_i m k
    cases m with
    | single => simp [afterBatch, cost]
    | flush r n =>
      simp only [afterBatch]
      split
      · simp [cost]
      · rename_i hnk
        have := flushCost_dec c n k hn.2 hnk
        simp only [cost]; omega
    | drain f g => simp [after] at ha
  · simp [cost]
  · simp [cost] at h
  · simp [cost] at h
  · simp [cost] at h
  · simp [cost] at h
  · simp [cost] at h

open Classical in
/-- Worker steps until request `r` is served, unless the processor is being shut down. -/
noncomputable def untilServed (c : Cfg σ) (r : Nat) (s : St σ) : Nat :=
  if s.done = true ∨ r ∈ s.events then 0 else if r ∈ held s.pc then cost c s.pc else toTake c s.pc

theorem held_cost (c : Cfg σ) (pc : PC σ) (r : Nat) (h : r ∈ held pc) (ha : after pc = false) : 0 < cost c pc := by
  unfold held at h
  split at h <;> first
    | (simp [after] at ha; done)
    | (simp [cost]; done)
    | (have := flushCost_ge c 0; simp only [cost, flushCost, perBatch]; omega)
    | (cases h; done)

/-- The weight of a program point for a request not yet taken. -/
def ahead (c : Cfg σ) : PC σ → Nat
  | .take1 | .take2 => 1
  | .check | .wait => 2
  | .top => 3
  | pc => 3 + cost c pc

theorem toTake_eq (c : Cfg σ) (pc : PC σ) : toTake c pc = flushCost c c.maxQueue + 3 + ahead c pc := by
  cases pc <;> rfl

theorem ahead_le (c : Cfg σ) (pc : PC σ) : ahead c pc ≤ 3 + cost c pc := by
  unfold ahead; split <;> omega

theorem ahead_eq (c : Cfg σ) (pc : PC σ) (h : 0 < cost c pc) : ahead c pc = 3 + cost c pc := by
  unfold ahead; split <;> first | rfl | (simp [cost] at h)

theorem ahead_wstep (c : Cfg σ) (s : St σ) (hd : Data c s) (hb : BatchOK c s) (hn : numOK c s.pc) (hdone : s.done = false)
    (ha : after s.pc = false) (h1 : s.pc ≠ .take1) (h2 : s.pc ≠ .take2) :
    ahead c (wstep c s).pc < ahead c s.pc := by
  by_cases hc : 0 < cost c s.pc
  · have e1 := cost_wstep c s hd hb hn hdone ha hc
    have e2 := ahead_le c (wstep c s).pc
    have e3 := ahead_eq c s.pc hc
    omega
  · cases hp : s.pc with
    | top => simp [wstep, hp, hdone, ahead]
    | check => simp [wstep, hp, hdone, ahead]
    | wait => simp [wstep, hp, ahead]
    | take1 => exact absurd hp h1
    | take2 => exact absurd hp h2
    | len1 f => rw [hp] at hc; simp [cost] at hc
    | len2 f => rw [hp] at hc; simp [cost] at hc
    | decide f n => rw [hp] at hc; simp [cost] at hc
    | emptyQ f n => rw [hp] at hc; simp [cost] at hc
    | doneQ f n => rw [hp] at hc; simp [cost] at hc
    | flushLoop r n => rw [hp] at hc; simp [cost, flushCost, perBatch] at hc
    | fill m b => rw [hp] at hc ha; cases m <;> simp [cost, after] at hc ha
    | call m b => rw [hp] at hc ha; cases m <;> simp [cost, after] at hc ha
    | running m b => rw [hp] at hc ha; cases m <;> simp [cost, after] at hc ha
    | notify r => rw [hp] at hc; simp [cost] at hc
    | final f => rw [hp] at ha; simp [after] at ha
    | drainLoop f g => rw [hp] at ha; simp [after] at ha
    | notifyF f g => rw [hp] at ha; simp [after] at ha
    | notifyG g => rw [hp] at ha; simp [after] at ha
    | stopped => rw [hp] at ha; simp [after] at ha

theorem req_wstep (c : Cfg σ) (s : St σ) : (wstep c s).req = s.req ∨ (wstep c s).req = none := by
  unfold wstep
  split <;> (try exact Or.inl rfl) <;> (try exact Or.inr rfl) <;>
    (split <;> (try exact Or.inl rfl) <;> (split <;> exact Or.inl rfl))

/-- Only taking moves the pending request to the worker. -/
theorem req_kept (c : Cfg σ) (s : St σ) (ha : after s.pc = false) (h1 : s.pc ≠ .take1) (h2 : s.pc ≠ .take2) :
    (wstep c s).req = s.req := by
  unfold wstep
  split <;> rename_i hpc <;> (try rfl)
  · exact absurd hpc h1
  · exact absurd hpc h2
  · split <;> rfl
  · split <;> (try rfl) <;> (split <;> rfl)
  · rw [hpc] at ha; simp [after] at ha

theorem untilServed_worker (c : Cfg σ) (r : Nat) (s : St σ) (hd : Data c s) (hb : BatchOK c s) (hn : numOK c s.pc)
    (hf : Fresh s) (hsh : after s.pc = true → s.done = true) (hr : r ∈ reqs s) :
    untilServed c r (wstep c s) < untilServed c r s ∨ untilServed c r (wstep c s) = 0 := by
  by_cases h0 : (wstep c s).done = true ∨ r ∈ (wstep c s).events
  · right; unfold untilServed; rw [if_pos h0]
  left
  have hdone : s.done = false := by
    rw [(frame_wstep c s).2.2.1] at h0
    rw [not_or] at h0; simpa using h0.1
  have ha : after s.pc = false := by
    by_contra hc; rw [hsh (by simpa using hc)] at hdone; cases hdone
  have hev : ¬ (s.done = true ∨ r ∈ s.events) := by
    rw [not_or] at h0 ⊢
    refine ⟨by simp [hdone], fun hm => h0.2 ((events_wstep c s).subset hm)⟩
  have hr' : r ∈ reqs (wstep c s) := by rw [reqs_wstep]; exact hr
  have hnd := hf.1
  unfold reqs at hnd hr hr'
  rw [not_or] at h0 hev
  simp only [List.mem_append] at hr hr'
  unfold untilServed
  rw [if_neg (not_or.mpr h0), if_neg (not_or.mpr hev)]
  by_cases hh : r ∈ held s.pc
  · rw [if_pos hh]
    have hq : r ∉ s.req.toList := by
      intro hq
      rw [List.nodup_append] at hnd
      exact hnd.2.2 r (by simp [hh]) r hq rfl
    have hh' : r ∈ held (wstep c s).pc := by
      rcases hr' with (h1 | h1) | h1
      · exact absurd h1 h0.2
      · exact h1
      · rcases req_wstep c s with h2 | h2
        · rw [h2] at h1; exact absurd h1 hq
        · rw [h2] at h1; simp at h1
    rw [if_pos hh']
    exact cost_wstep c s hd hb hn hdone ha (held_cost c _ r hh ha)
  · rw [if_neg hh]
    have hq : s.req = some r := by
      rcases hr with (h1 | h1) | h1
      · exact absurd h1 hev.2
      · exact absurd h1 hh
      · simpa using h1
    by_cases h1 : s.pc = .take1
    · have e : (wstep c s).pc = .len1 (some r) := by simp [wstep, h1, hq]
      rw [e, if_pos (by simp [held]), toTake_eq, h1]
      simp [cost, ahead]
    by_cases h2 : s.pc = .take2
    · have e : (wstep c s).pc = .len2 (some r) := by simp [wstep, h2, hq]
      rw [e, if_pos (by simp [held]), toTake_eq, h2]
      simp [cost, ahead]
    have h3 := ahead_wstep c s hd hb hn hdone ha h1 h2
    have h4 := req_kept c s ha h1 h2
    have hh' : r ∉ held (wstep c s).pc := by
      intro hc
      have hnd' : (reqs (wstep c s)).Nodup := by rw [reqs_wstep]; exact hf.1
      unfold reqs at hnd'
      rw [List.nodup_append] at hnd'
      exact hnd'.2.2 r (by simp [hc]) r (by rw [h4, hq]; simp) rfl
    rw [if_neg hh', toTake_eq, toTake_eq]
    omega

/-- The invariant under which a request is served. -/
structure Pending (c : Cfg σ) (r : Nat) (s : St σ) : Prop where
  data : Data c s
  batch : BatchOK c s
  num : numOK c s.pc
  fresh : Fresh s
  shut : Shut s
  mem : r ∈ reqs s

theorem reqs_step (c : Cfg σ) (s : St σ) (a : Act σ) (r : Nat) (h : r ∈ reqs s) : r ∈ reqs (step c s a) := by
  cases a with
  | offer x => simp only [step]; split <;> exact h
  | append i =>
    simp only [step]
    split
    · rename_i x hx
      obtain ⟨e1, e2, e3, _⟩ := push_frame c { s with inflight := s.inflight.eraseIdx i } x
      unfold reqs; rw [e1, e2, e3]; exact h
    · exact h
  | flushCall => exact h
  | flushReq i =>
    simp only [step]
    split
    · split
      · exact h
      · rename_i hr
        unfold reqs at *
        simp only [hr, Option.toList_none, List.append_nil] at h
        exact List.mem_append_left _ h
    · exact h
  | flushRet i ok => simp only [step]; split <;> (try split) <;> exact h
  | shutCall => exact h
  | shutJoin => simp only [step]; split <;> exact h
  | worker => simp only [step]; rw [reqs_wstep]; exact h

theorem pending_step (c : Cfg σ) (r : Nat) (s : St σ) (a : Act σ) (h : Pending c r s) : Pending c r (step c s a) :=
  ⟨data_step c s a h.data, batch_step c s a h.data h.batch, numOK_step c s a h.data h.batch h.num,
   fresh_step c s a h.fresh, shut_step c s a h.data h.shut, reqs_step c s a r h.mem⟩

theorem pending_run (c : Cfg σ) (acts : List (Act σ)) (r : Nat) (h : r ∈ reqs (run c acts)) : Pending c r (run c acts) := by
  have hf : ∀ (acts : List (Act σ)) (s : St σ), Data c s → BatchOK c s → numOK c s.pc → Fresh s →
      numOK c (acts.foldl (step c) s).pc ∧ Fresh (acts.foldl (step c) s) := by
    intro acts
    induction acts with
    | nil => intro s _ _ h1 h2; exact ⟨h1, h2⟩
    | cons a acts ih =>
      intro s h1 h2 h3 h4
      exact ih _ (data_step c s a h1) (batch_step c s a h1 h2) (numOK_step c s a h1 h2 h3) (fresh_step c s a h4)
  have := hf acts (init σ) ⟨rfl, rfl, Nat.zero_le _, by simp [init]⟩ ⟨by simp [init, batches], trivial⟩ trivial
    ⟨by simp [init, reqs, held], by simp [init, reqs, held]⟩
  exact ⟨data_run c acts, batch_run c acts, this.1, this.2, shut_run c acts, h⟩

theorem untilServed_other (c : Cfg σ) (r : Nat) (s : St σ) (a : Act σ) (h : a ≠ .worker) :
    untilServed c r (step c s a) ≤ untilServed c r s := by
  obtain ⟨e1, e2⟩ := pc_other c s a h
  unfold untilServed
  rw [e1, e2]
  by_cases h1 : (step c s a).done = true ∨ r ∈ s.events
  · rw [if_pos h1]; exact Nat.zero_le _
  · rw [if_neg h1]
    have h2 : ¬ (s.done = true ∨ r ∈ s.events) := by
      intro hc
      rcases hc with hc | hc
      · exact h1 (Or.inl (done_step c s a hc))
      · exact h1 (Or.inr hc)
    rw [if_neg h2]

/-- How many worker steps serve any request. -/
def serveBound (c : Cfg σ) : Nat := 2 * (c.maxQueue * (c.maxBatch + 6) + c.maxBatch + 12)

theorem flushCost_le (c : Cfg σ) (n : Int) (h : n ≤ c.maxQueue) : flushCost c n ≤ c.maxQueue * (c.maxBatch + 6) := by
  unfold flushCost perBatch
  have hp := c.pos
  have hl := c.le
  have h1 : (n.toNat - 1) + 1 ≤ c.maxQueue := by omega
  have := Nat.mul_le_mul_right (c.maxBatch + 6) h1
  rw [Nat.add_mul] at this; omega

theorem cost_le (c : Cfg σ) (pc : PC σ) (h : numOK c pc) : cost c pc ≤ c.maxQueue * (c.maxBatch + 6) + 5 + c.maxBatch := by
  have hq := flushCost_le c c.maxQueue (by omega)
  have key : ∀ n : Int, n ≤ c.maxQueue → (n.toNat - 1) * perBatch c + perBatch c ≤ c.maxQueue * (c.maxBatch + 6) :=
    fun n hn => flushCost_le c n hn
  unfold cost
  split <;> simp only [numOK] at h <;> (try omega)
  · have := flushCost_le c _ h; omega
  · have := key _ h; unfold perBatch at *; omega
  · have := key _ h; unfold perBatch at *; omega
  · have := key _ h.1; unfold perBatch at *; omega
  · have := flushCost_le c _ (Int.ofNat_le.mpr h); omega
  · have := flushCost_le c _ (Int.ofNat_le.mpr h); omega
  · have := flushCost_le c _ (Int.ofNat_le.mpr h); omega

theorem untilServed_le (c : Cfg σ) (r : Nat) (s : St σ) (h : numOK c s.pc) : untilServed c r s ≤ serveBound c := by
  have h1 := cost_le c s.pc h
  have h2 := ahead_le c s.pc
  have h3 := flushCost_le c c.maxQueue (by omega)
  unfold untilServed serveBound
  rw [toTake_eq]
  split
  · exact Nat.zero_le _
  · split <;> omega

/-- A request is served after at most `serveBound` worker steps unless the processor is shut down meanwhile. -/
theorem served (c : Cfg σ) (acts acts' : List (Act σ)) (r : Nat) (h : r ∈ reqs (run c acts))
    (hw : serveBound c ≤ workerSteps acts') :
    (acts'.foldl (step c) (run c acts)).done = true ∨ r ∈ (acts'.foldl (step c) (run c acts)).events := by
  have hp := pending_run c acts r h
  have key := progress c (Pending c r) (untilServed c r) (fun s a hs => pending_step c r s a hs)
    (fun s hs => untilServed_worker c r s hs.data hs.batch hs.num hs.fresh hs.shut.aft hs.mem) ?_ acts' _ hp
    (Nat.le_trans (untilServed_le c r _ hp.num) hw)
  · by_contra hc
    have hmem : ∀ (acts' : List (Act σ)) (s : St σ), Pending c r s → Pending c r (acts'.foldl (step c) s) := by
      intro acts'
      induction acts' with
      | nil => intro s h; exact h
      | cons a acts' ih => intro s h; exact ih _ (pending_step c r s a h)
    have hq := hmem acts' _ hp
    unfold untilServed at key
    rw [if_neg hc] at key
    have haf : after (acts'.foldl (step c) (run c acts)).pc = false := by
      by_contra hn
      exact hc (Or.inl (hq.shut.aft (by simpa using hn)))
    split at key
    · rename_i hh
      have := held_cost c _ r hh haf
      omega
    · rw [toTake_eq] at key; omega
  · intro s a hs
    by_cases ha : a = .worker
    · subst ha
      rcases untilServed_worker c r s hs.data hs.batch hs.num hs.fresh hs.shut.aft hs.mem with h1 | h1
      · exact Nat.le_of_lt h1
      · simp only [step]; rw [h1]; exact Nat.zero_le _
    · exact untilServed_other c r s a ha

end Batch
end Otel
