import Verif.Spec.Timely
import Verif.Props.OtlpExport
import Verif.Props.Once
import Mathlib.Tactic.SplitIfs
import Mathlib.Tactic.ByContra
/-!
# C117: how long the batch processor takes
-/
namespace Otel
namespace Timely
variable {σ : Type}

/-! ## Arithmetic of batches -/

theorem w_lt (c : Cfg) (k : Nat) (h : k < c.batch) : k / c.batch * c.slow = 0 := by rw [Nat.div_eq_of_lt h]; simp

theorem w_ge (c : Cfg) (hb : 1 ≤ c.batch) (k : Nat) (h : c.batch ≤ k) : k / c.batch * c.slow = (k - c.batch) / c.batch * c.slow + c.slow := by
  rw [show k = (k - c.batch) + c.batch by omega, Nat.add_div_right _ (by omega), Nat.succ_mul, Nat.add_sub_cancel]

theorem w_mono (c : Cfg) (k k' : Nat) (h : k ≤ k') : k / c.batch * c.slow ≤ k' / c.batch * c.slow := Nat.mul_le_mul_right _ (Nat.div_le_div_right h)

/-- How long `n` spans take, in batches. -/
def z (c : Cfg) (n : Nat) : Nat := (n + c.batch - 1) / c.batch * c.slow

theorem z_zero (c : Cfg) (hb : 1 ≤ c.batch) : z c 0 = 0 := by rw [z, Nat.div_eq_of_lt (by omega)]; simp

theorem z_pos (c : Cfg) (hb : 1 ≤ c.batch) (n : Nat) (h : 1 ≤ n) : z c n = z c (n - c.batch) + c.slow := by
  rcases Nat.lt_or_ge n c.batch with hl | hl
  · rw [show n - c.batch = 0 by omega, z_zero c hb, z, show n + c.batch - 1 = (n - 1) + c.batch by omega, Nat.add_div_right _ (by omega), Nat.div_eq_of_lt (by omega)]
    simp
  · unfold z
    rw [show n + c.batch - 1 = (n - c.batch + c.batch - 1) + c.batch by omega, Nat.add_div_right _ (by omega), Nat.succ_mul]

theorem z_mono (c : Cfg) (n n' : Nat) (h : n ≤ n') : z c n ≤ z c n' := Nat.mul_le_mul_right _ (Nat.div_le_div_right (by omega))

/-! ## Spans -/

/-- When the span at position `k` of the queue is handed over at the latest. -/
def soon (c : Cfg) (now : Nat) (k : Nat) : Pc → Nat
  | .top t => if k < c.batch then now + t else now + (k - c.batch) / c.batch * c.slow + max c.delay c.slow
  | .waiting till => till
  | .woken => if k < c.batch then now else now + (k - c.batch) / c.batch * c.slow + max c.delay c.slow
  | .exporting _ since _ => since + k / c.batch * c.slow + max c.delay c.slow
  | .drain => now + k / c.batch * c.slow
  | .draining since => since + c.slow + k / c.batch * c.slow
  | .exited => now

/-- What a place of the worker implies. -/
def PcOK (c : Cfg) (st : St σ) : Pc → Prop
  | .top t => t ≤ c.delay
  | .waiting till => till ≤ st.now + c.delay ∧ st.now ≤ till ∧ st.queue.length < c.batch ∧ st.pending = [] ∧ st.done = false
  | .woken => True
  | .exporting start since _ => start ≤ since ∧ since ≤ st.now ∧ st.now ≤ since + c.slow
  | .drain => st.done = true ∧ st.pending = []
  | .draining since => st.done = true ∧ since ≤ st.now ∧ st.now ≤ since + c.slow ∧ st.pending = []
  | .exited => st.done = true ∧ st.queue = [] ∧ st.pending = []

structure Inv (c : Cfg) (st : St σ) : Prop where
  pc : PcOK c st st.pc
  room : st.queue.length ≤ c.room
  items : ∀ (k : Nat) (i : Item σ), st.queue[k]? = some i → i.time ≤ st.now ∧ soon c st.now k st.pc ≤ due c i
  handed : ∀ x ∈ st.handed, x.1.time ≤ x.2 ∧ x.2 ≤ due c x.1 ∧ x.2 ≤ st.now

theorem soon_mono (c : Cfg) (st : St σ) (hb : 1 ≤ c.batch) (h : PcOK c st st.pc) (k k' : Nat) (hk : k ≤ k') : soon c st.now k st.pc ≤ soon c st.now k' st.pc := by
  have h1 := w_mono c k k' hk
  have h2 := w_mono c (k - c.batch) (k' - c.batch) (by omega)
  cases hp : st.pc with
  | top t =>
    rw [hp] at h
    have h : t ≤ c.delay := h
    simp only [soon]
    split_ifs <;> omega
  | waiting t => exact Nat.le_refl _
  | woken => simp only [soon]; split_ifs <;> omega
  | exporting a b l => simp only [soon]; omega
  | drain => simp only [soon]; omega
  | draining b => simp only [soon]; omega
  | exited => exact Nat.le_refl _

/-- A span that ends now is not due before it can be handed over. -/
theorem soon_new (c : Cfg) (st : St σ) (hb : 1 ≤ c.batch) (h : PcOK c st st.pc) (hd : st.done = false) (k : Nat) (s : σ) : soon c st.now k st.pc ≤ due c (⟨s, st.now, k⟩ : Item σ) := by
  simp only [due]
  have h2 := w_mono c (k - c.batch) k (by omega)
  cases hp : st.pc with
  | top t =>
    rw [hp] at h
    have h : t ≤ c.delay := h
    simp only [soon]
    split_ifs <;> omega
  | waiting t =>
    rw [hp] at h
    have := h.1
    simp only [soon]
    omega
  | woken => simp only [soon]; split_ifs <;> omega
  | exporting a b l =>
    rw [hp] at h
    have := h.2.1
    simp only [soon]
    omega
  | drain => rw [hp] at h; have := h.1; rw [hd] at this; cases this
  | draining b => rw [hp] at h; have := h.1; rw [hd] at this; cases this
  | exited => rw [hp] at h; have := h.1; rw [hd] at this; cases this

/-- A batch is taken. -/
theorem take_ok (c : Cfg) (st st' : St σ) (hb : 1 ≤ c.batch) (h : Inv c st) (hq : st'.queue = st.queue.drop c.batch) (hn : st'.now = st.now)
    (hh : st'.handed = st.handed ++ (st.queue.take c.batch).map fun i => (i, st.now)) (h1 : ∀ k, k < c.batch → st.now ≤ soon c st.now k st.pc)
    (h2 : ∀ k, c.batch ≤ k → soon c st.now (k - c.batch) st'.pc ≤ soon c st.now k st.pc) (hp : PcOK c st' st'.pc) : Inv c st' := by
  refine ⟨hp, ?_, fun k i hk => ?_, fun x hx => ?_⟩
  · rw [hq, List.length_drop]
    have := h.room
    omega
  · rw [hq, List.getElem?_drop] at hk
    obtain ⟨e1, e2⟩ := h.items _ i hk
    rw [hn]
    refine ⟨e1, Nat.le_trans ?_ e2⟩
    have := h2 (c.batch + k) (by omega)
    rwa [Nat.add_sub_cancel_left] at this
  · rw [hh] at hx
    rcases List.mem_append.mp hx with hx | hx
    · rw [hn]
      exact h.handed x hx
    · obtain ⟨i, hi, rfl⟩ := List.mem_map.mp hx
      obtain ⟨k, hk, hki⟩ := List.getElem_of_mem hi
      have hlt : k < c.batch := by
        rw [List.length_take] at hk
        omega
      have hk' : st.queue[k]? = some i := by
        have := List.getElem?_eq_getElem hk
        rw [hki, List.getElem?_take_of_lt hlt] at this
        exact this
      obtain ⟨e1, e2⟩ := h.items k i hk'
      have := h1 k hlt
      rw [hn]
      exact ⟨e1, by show st.now ≤ due c i; omega, Nat.le_refl _⟩

/-- Nothing but the place changes. -/
theorem move_ok (c : Cfg) (st st' : St σ) (h : Inv c st) (hq : st'.queue = st.queue) (hn : st'.now = st.now) (hh : st'.handed = st.handed)
    (h1 : ∀ k, k < st.queue.length → soon c st.now k st'.pc ≤ soon c st.now k st.pc) (hp : PcOK c st' st'.pc) : Inv c st' := by
  refine ⟨hp, by rw [hq]; exact h.room, fun k i hk => ?_, by rw [hh, hn]; exact h.handed⟩
  rw [hq] at hk
  rw [hn]
  obtain ⟨e1, e2⟩ := h.items k i hk
  exact ⟨e1, Nat.le_trans (h1 k (Once.lt_of_getElem? hk)) e2⟩

theorem push_get (c : Cfg) (st : St σ) (s : σ) (k : Nat) (i : Item σ) (h : (st.push c s).queue[k]? = some i) : (i = ⟨s, st.now, k⟩) ∨ ∃ k', k ≤ k' ∧ st.queue[k']? = some i := by
  unfold St.push at h
  have key : ∀ q : List (Item σ), (q ++ [(⟨s, st.now, q.length⟩ : Item σ)])[k]? = some i → i = ⟨s, st.now, k⟩ ∨ q[k]? = some i := by
    intro q hq
    rcases Nat.lt_trichotomy k q.length with hl | hl | hl
    · rw [List.getElem?_append_left hl] at hq
      exact .inr hq
    · subst hl
      simp at hq
      exact .inl hq.symm
    · rw [List.getElem?_eq_none (by simp; omega)] at hq
      cases hq
  rcases key _ h with e | e
  · exact .inl e
  · right
    split_ifs at e with hfull
    · rw [List.getElem?_tail] at e
      exact ⟨k + 1, by omega, e⟩
    · exact ⟨k, Nat.le_refl _, e⟩

theorem push_length (c : Cfg) (st : St σ) (s : σ) (hr : 1 ≤ c.room) (h : st.queue.length ≤ c.room) :
    (st.push c s).queue.length ≤ c.room ∧ st.queue.length ≤ (st.push c s).queue.length ∧ (st.push c s).queue.length ≤ st.queue.length + 1 := by
  unfold St.push
  split_ifs with hf
  · simp
    omega
  · simp
    omega

theorem inv_step (c : Cfg) (hc : Sound c) (st : St σ) (a : Act σ) (h : Inv c st) : Inv c (step c st a) := by
  have hb := hc.batch
  have hr := hc.room
  cases a with
  | tick d =>
    simp only [step]
    by_cases ha : allows c (st.now + d) st.pc = true
    · rw [if_pos ha]
      have hpc := h.pc
      have hsame : ∀ k, soon c (st.now + d) k st.pc = soon c st.now k st.pc ∨ st.pc = .exited := by
        intro k
        cases hp : st.pc <;> rw [hp] at ha <;> simp [allows] at ha <;> simp [soon]
      refine ⟨?_, h.room, fun k i hk => ?_, fun x hx => ?_⟩
      · cases hp : st.pc <;> rw [hp] at ha hpc <;> simp [allows] at ha <;> simp only [PcOK] at hpc ⊢
        · exact ⟨by omega, by omega, hpc.2.2⟩
        · exact ⟨hpc.1, by omega, by omega⟩
        · exact ⟨hpc.1, by omega, by omega, hpc.2.2.2⟩
        · exact hpc
      · obtain ⟨e1, e2⟩ := h.items k i hk
        refine ⟨Nat.le_add_right_of_le e1, ?_⟩
        rcases hsame k with e | e
        · exact e ▸ e2
        · rw [e] at hpc
          rw [hpc.2.1] at hk
          simp at hk
      · obtain ⟨e1, e2, e3⟩ := h.handed x hx
        exact ⟨e1, e2, Nat.le_add_right_of_le e3⟩
    · rw [if_neg ha]
      exact h
  | finish s =>
    simp only [step]
    by_cases hd : st.done = true
    · rw [if_pos hd]
      exact h
    rw [if_neg hd]
    have hd : st.done = false := by simpa using hd
    obtain ⟨l1, l2, l3⟩ := push_length c st s (by omega) h.room
    have items : ∀ (k : Nat) (i : Item σ), (st.push c s).queue[k]? = some i → i.time ≤ st.now ∧ soon c st.now k st.pc ≤ due c i := by
      intro k i hk
      rcases push_get c st s k i hk with rfl | ⟨k', hle, hk'⟩
      · exact ⟨Nat.le_refl _, soon_new c st hb h.pc hd k s⟩
      · obtain ⟨e1, e2⟩ := h.items k' i hk'
        exact ⟨e1, Nat.le_trans (soon_mono c st hb h.pc k k' hle) e2⟩
    by_cases hl : c.batch ≤ (st.push c s).queue.length
    · rw [if_pos hl]
      have hpc := h.pc
      refine ⟨?_, l1, fun k i hk => ?_, h.handed⟩
      · show PcOK c { st.push c s with pc := wake st.pc } (wake st.pc)
        cases hp : st.pc <;> rw [hp] at hpc <;> simp only [wake, PcOK] at hpc ⊢
        · exact hpc
        · exact hpc
        · exact hpc
        · exact hpc
        · rw [hd] at hpc
          cases hpc.1
      · obtain ⟨e1, e2⟩ := items k i hk
        refine ⟨e1, Nat.le_trans ?_ e2⟩
        show soon c st.now k (wake st.pc) ≤ soon c st.now k st.pc
        cases hp : st.pc <;> simp only [wake, Nat.le_refl]
        rw [hp] at hpc
        have hk' := Once.lt_of_getElem? hk
        have hk'' : k < (st.push c s).queue.length := hk'
        have := hpc.2.2.1
        have := hpc.2.1
        simp only [soon]
        rw [if_pos (by omega)]
        omega
    · rw [if_neg hl]
      have hpc := h.pc
      refine ⟨?_, l1, items, h.handed⟩
      show PcOK c (st.push c s) st.pc
      cases hp : st.pc <;> rw [hp] at hpc <;> simp only [PcOK] at hpc ⊢
      · exact hpc
      · exact ⟨hpc.1, hpc.2.1, by omega, hpc.2.2.2⟩
      · exact hpc
      · exact hpc
      · exact hpc
      · rw [hd] at hpc
        cases hpc.1
  | flush =>
    simp only [step]
    have hpc := h.pc
    by_cases hd : st.done = true
    · rw [if_pos hd]
      exact move_ok c st _ h rfl rfl rfl (fun _ _ => Nat.le_refl _) h.pc
    rw [if_neg hd]
    have hd : st.done = false := by simpa using hd
    refine move_ok c st _ h rfl rfl rfl (fun k hk => ?_) ?_
    · show soon c st.now k (wake st.pc) ≤ soon c st.now k st.pc
      cases hp : st.pc <;> simp only [wake, Nat.le_refl]
      rw [hp] at hpc
      have := hpc.2.2.1
      have := hpc.2.1
      simp only [soon]
      rw [if_pos (by omega)]
      omega
    · show PcOK c { st with pending := st.pending ++ [st.now], pc := wake st.pc } (wake st.pc)
      cases hp : st.pc <;> rw [hp] at hpc <;> simp only [wake, PcOK] at hpc ⊢
      · exact hpc
      · exact hpc
      · rw [hd] at hpc
        cases hpc.1
      · rw [hd] at hpc
        cases hpc.1
      · rw [hd] at hpc
        cases hpc.1
  | shutdown =>
    simp only [step]
    have hpc := h.pc
    by_cases hd : st.done = true
    · rw [if_pos hd]
      exact h
    rw [if_neg hd]
    have hd : st.done = false := by simpa using hd
    refine move_ok c st _ h rfl rfl rfl (fun k hk => ?_) ?_
    · show soon c st.now k (wake st.pc) ≤ soon c st.now k st.pc
      cases hp : st.pc <;> simp only [wake, Nat.le_refl]
      rw [hp] at hpc
      have := hpc.2.2.1
      have := hpc.2.1
      simp only [soon]
      rw [if_pos (by omega)]
      omega
    · show PcOK c { st with done := true, shut := some st.now, pc := wake st.pc } (wake st.pc)
      cases hp : st.pc <;> rw [hp] at hpc <;> simp only [wake, PcOK] at hpc ⊢
      · exact hpc
      · exact hpc
      · rw [hd] at hpc
        cases hpc.1
      · rw [hd] at hpc
        cases hpc.1
      · rw [hd] at hpc
        cases hpc.1
  | work =>
    have hpc := h.pc
    cases hp : st.pc with
    | top t =>
      rw [hp] at hpc
      have hpc : t ≤ c.delay := hpc
      simp only [step, hp]
      have take1 : ∀ k, k < c.batch → st.now ≤ soon c st.now k st.pc := by
        intro k hk
        rw [hp]
        simp only [soon]
        rw [if_pos hk]
        omega
      have take2 : ∀ l k, c.batch ≤ k → soon c st.now (k - c.batch) (.exporting st.now st.now l) ≤ soon c st.now k st.pc := by
        intro l k hk
        rw [hp]
        simp only [soon]
        rw [if_neg (by omega)]
        exact Nat.le_refl _
      by_cases hd : st.done = true
      · rw [if_pos hd]
        refine move_ok c st _ h rfl rfl rfl (fun k hk => ?_) ⟨hd, rfl⟩
        rw [hp]
        simp only [soon]
        by_cases hk : k < c.batch
        · rw [if_pos hk, w_lt c k hk]
          omega
        · rw [if_neg hk, w_ge c hb k (by omega)]
          omega
      rw [if_neg hd]
      by_cases hw : st.queue.length < c.batch ∧ st.pending = []
      · rw [if_pos hw]
        refine move_ok c st _ h rfl rfl rfl (fun k hk => ?_) ⟨by show st.now + t ≤ st.now + c.delay; omega, by show st.now ≤ st.now + t; omega, hw.1, hw.2, by simpa using hd⟩
        rw [hp]
        simp only [soon]
        rw [if_pos (by omega)]
        exact Nat.le_refl _
      rw [if_neg hw]
      by_cases hpe : st.pending = []
      · rw [if_pos hpe]
        exact take_ok c st _ hb h rfl rfl rfl take1 (take2 none) ⟨Nat.le_refl _, Nat.le_refl _, Nat.le_add_right _ _⟩
      rw [if_neg hpe]
      by_cases hq : st.queue = []
      · rw [if_pos hq]
        refine move_ok c st _ h rfl rfl rfl (fun k hk => ?_) (Nat.le_refl _)
        rw [hq] at hk
        simp at hk
      · rw [if_neg hq]
        exact take_ok c st _ hb h rfl rfl rfl take1 (take2 _) ⟨Nat.le_refl _, Nat.le_refl _, Nat.le_add_right _ _⟩
    | waiting till =>
      rw [hp] at hpc
      simp only [step, hp]
      by_cases ht : till ≤ st.now
      · rw [if_pos ht]
        refine move_ok c st _ h rfl rfl rfl (fun k hk => ?_) trivial
        rw [hp]
        have := hpc.2.2.1
        have := hpc.2.1
        simp only [soon]
        rw [if_pos (by omega)]
        omega
      · rw [if_neg ht]
        exact h
    | woken =>
      simp only [step, hp]
      have take1 : ∀ k, k < c.batch → st.now ≤ soon c st.now k st.pc := by
        intro k hk
        rw [hp]
        simp only [soon]
        rw [if_pos hk]
        exact Nat.le_refl _
      have take2 : ∀ l k, c.batch ≤ k → soon c st.now (k - c.batch) (.exporting st.now st.now l) ≤ soon c st.now k st.pc := by
        intro l k hk
        rw [hp]
        simp only [soon]
        rw [if_neg (by omega)]
        exact Nat.le_refl _
      by_cases hq : st.queue = []
      · rw [if_pos hq]
        refine move_ok c st _ h rfl rfl rfl (fun k hk => ?_) (Nat.le_refl _)
        rw [hq] at hk
        simp at hk
      rw [if_neg hq]
      by_cases hd : st.done = true
      · rw [if_pos hd]
        refine move_ok c st _ h rfl rfl rfl (fun k hk => ?_) ⟨hd, rfl⟩
        rw [hp]
        simp only [soon]
        by_cases hk : k < c.batch
        · rw [if_pos hk, w_lt c k hk]
          omega
        · rw [if_neg hk, w_ge c hb k (by omega)]
          omega
      rw [if_neg hd]
      by_cases hpe : st.pending = []
      · rw [if_pos hpe]
        exact take_ok c st _ hb h rfl rfl rfl take1 (take2 none) ⟨Nat.le_refl _, Nat.le_refl _, Nat.le_add_right _ _⟩
      · rw [if_neg hpe]
        exact take_ok c st _ hb h rfl rfl rfl take1 (take2 _) ⟨Nat.le_refl _, Nat.le_refl _, Nat.le_add_right _ _⟩
    | drain =>
      rw [hp] at hpc
      simp only [step, hp]
      by_cases hq : st.queue = []
      · rw [if_pos hq]
        refine move_ok c st _ h rfl rfl rfl (fun k hk => ?_) ⟨hpc.1, hq, hpc.2⟩
        rw [hq] at hk
        simp at hk
      · rw [if_neg hq]
        refine take_ok c st _ hb h rfl rfl rfl (fun k hk => ?_) (fun k hk => ?_) ⟨hpc.1, Nat.le_refl _, Nat.le_add_right _ _, hpc.2⟩
        · rw [hp]
          simp only [soon]
          omega
        · rw [hp]
          simp only [soon]
          rw [w_ge c hb k hk]
          omega
    | exporting a b l => simp only [step, hp]; exact h
    | draining b => simp only [step, hp]; exact h
    | exited => simp only [step, hp]; exact h
  | exported =>
    have hpc := h.pc
    cases hp : st.pc with
    | exporting start since left =>
      rw [hp] at hpc
      obtain ⟨p1, p2, p3⟩ := hpc
      simp only [step, hp]
      by_cases hl : left.getD 0 = 0 ∨ st.queue = []
      · rw [if_pos hl]
        refine move_ok c st _ h rfl rfl rfl (fun k hk => ?_) (Nat.sub_le _ _)
        rw [hp]
        simp only [soon]
        by_cases hk : k < c.batch
        · rw [if_pos hk]
          omega
        · rw [if_neg hk, w_ge c hb k (by omega)]
          omega
      · rw [if_neg hl]
        refine take_ok c st _ hb h rfl rfl rfl (fun k hk => ?_) (fun k hk => ?_) ⟨Nat.le_trans p1 p2, Nat.le_refl _, Nat.le_add_right _ _⟩
        · rw [hp]
          simp only [soon]
          omega
        · rw [hp]
          simp only [soon]
          rw [w_ge c hb k hk]
          omega
    | draining since =>
      rw [hp] at hpc
      simp only [step, hp]
      refine move_ok c st _ h rfl rfl rfl (fun k hk => ?_) ⟨hpc.1, hpc.2.2.2⟩
      rw [hp]
      have := hpc.2.2.1
      simp only [soon]
      omega
    | top t => simp only [step, hp]; exact h
    | waiting t => simp only [step, hp]; exact h
    | woken => simp only [step, hp]; exact h
    | drain => simp only [step, hp]; exact h
    | exited => simp only [step, hp]; exact h

theorem inv_init (c : Cfg) : Inv c (init σ c) := ⟨Nat.le_refl _, Nat.zero_le _, fun k i hk => by simp [init] at hk, fun x hx => by simp [init] at hx⟩

theorem inv_runFrom (c : Cfg) (hc : Sound c) (acts : List (Act σ)) : ∀ st, Inv c st → Inv c (runFrom c st acts) := by
  induction acts with
  | nil => exact fun st h => h
  | cons a l ih => exact fun st h => ih _ (inv_step c hc st a h)

/-- **C117** Every span that a batch processor passes to its exporter is passed on in time (`due`), and one that is still waiting is not overdue. -/
theorem C117_latency (c : Cfg) (hc : Sound c) (acts : List (Act σ)) : (∀ x ∈ (run c acts).handed, x.1.time ≤ x.2 ∧ x.2 ≤ due c x.1) ∧ ∀ i ∈ (run c acts).queue, (run c acts).now ≤ due c i := by
  have h := inv_runFrom c hc acts _ (inv_init (σ := σ) c)
  refine ⟨fun x hx => ⟨(h.handed x hx).1, (h.handed x hx).2.1⟩, fun i hi => ?_⟩
  obtain ⟨k, hk⟩ := List.mem_iff_getElem?.mp hi
  obtain ⟨_, e⟩ := h.items k i hk
  refine Nat.le_trans ?_ e
  have hpc := h.pc
  change (runFrom c (init σ c) acts).now ≤ _
  cases hp : (runFrom c (init σ c) acts).pc <;> rw [hp] at hpc <;> simp only [soon] <;> simp only [PcOK] at hpc
  · split_ifs <;> omega
  · exact hpc.2.1
  · split_ifs <;> omega
  · omega
  · omega
  · omega
  · exact Nat.le_refl _

/-! ## Flushing and shutting down -/

/-- When the worker has finished what it is doing, at the latest. -/
def endBy (c : Cfg) (now len : Nat) : Pc → Nat
  | .exporting _ since left => since + c.slow + z c (left.getD 0)
  | .draining since => since + c.slow + z c len
  | .drain => now + z c len
  | _ => now

/-- 1 for the last round, 2 after the end. -/
def late : Pc → Nat
  | .drain | .draining _ => 1
  | .exited => 2
  | _ => 0

structure Req (c : Cfg) (st : St σ) : Prop where
  left : ∀ (a b : Nat) (l : Option Nat), st.pc = .exporting a b l → l.getD 0 ≤ st.queue.length ∧ c.slow + z c (l.getD 0) ≤ z c c.room
  pend : ∀ x ∈ st.pending, x ≤ st.now ∧ endBy c st.now st.queue.length st.pc ≤ x + z c c.room
  serve : ∀ x ∈ st.serving, x ≤ st.now ∧ endBy c st.now st.queue.length st.pc ≤ x + 2 * z c c.room
  idle : (∀ (a b : Nat) (l : Option Nat), st.pc ≠ .exporting a b l) → late st.pc ≠ 1 → st.serving = []
  ans : ∀ x ∈ st.answered, x.1 ≤ x.2 ∧ x.2 ≤ x.1 + 2 * z c c.room
  shut : ∀ x, st.shut = some x → st.done = true ∧ x ≤ st.now ∧ (late st.pc = 0 → endBy c st.now st.queue.length st.pc ≤ x + z c c.room) ∧
    (late st.pc = 1 → endBy c st.now st.queue.length st.pc ≤ x + 2 * z c c.room)
  done : st.done = true → st.shut ≠ none
  ended : ∀ t, st.ended = some t → st.done = true ∧ ∃ x, st.shut = some x ∧ x ≤ t ∧ t ≤ x + 2 * z c c.room
  over : st.pc = .exited → st.ended ≠ none

/-- The queue's length matters only at the end. -/
theorem endBy_len (c : Cfg) (now n m : Nat) (pc : Pc) (h : late pc ≠ 1) : endBy c now n pc = endBy c now m pc := by
  cases pc <;> simp [late] at h <;> rfl

theorem endBy_wake (c : Cfg) (now n : Nat) (pc : Pc) : endBy c now n (wake pc) = endBy c now n pc := by cases pc <;> rfl
theorem late_wake (pc : Pc) : late (wake pc) = late pc := by cases pc <;> rfl

theorem wake_exporting (pc : Pc) (a b : Nat) (l : Option Nat) : wake pc = .exporting a b l ↔ pc = .exporting a b l := by cases pc <;> simp [wake]
theorem wake_exited (pc : Pc) : wake pc = .exited ↔ pc = .exited := by cases pc <;> simp [wake]

/-- What the worker is doing now will be over soon. -/
theorem endBy_soon (c : Cfg) (hc : Sound c) (st : St σ) (h : Inv c st) (r : Req c st) (hl : late st.pc = 0) : endBy c st.now st.queue.length st.pc ≤ st.now + z c c.room := by
  have hpc := h.pc
  cases hp : st.pc with
  | exporting a b l =>
    rw [hp] at hpc
    obtain ⟨_, h2⟩ := r.left a b l hp
    have := hpc.2.1
    simp only [endBy]
    omega
  | top t => simp only [endBy]; omega
  | waiting t => simp only [endBy]; omega
  | woken => simp only [endBy]; omega
  | drain => rw [hp] at hl; cases hl
  | draining b => rw [hp] at hl; cases hl
  | exited => rw [hp] at hl; cases hl

/-- A flush is begun with the first batch. -/
theorem begin_ok (c : Cfg) (hc : Sound c) (n : Nat) (hn : n ≤ c.room) (h1 : 1 ≤ n) : n - min c.batch n ≤ n - c.batch ∧ c.slow + z c (n - min c.batch n) ≤ z c n ∧ z c n ≤ z c c.room := by
  have hb := hc.batch
  have e : n - min c.batch n = n - c.batch := by omega
  rw [e]
  exact ⟨Nat.le_refl _, by rw [z_pos c hb n h1]; omega, z_mono c _ _ hn⟩

theorem slow_le (c : Cfg) (hc : Sound c) : c.slow + z c 0 ≤ z c c.room := by
  have hb := hc.batch
  have hr := hc.room
  rw [z_zero c hb, z_pos c hb c.room (by omega)]
  omega

theorem answer_ans (c : Cfg) (st : St σ) (h : ∀ x ∈ st.answered, x.1 ≤ x.2 ∧ x.2 ≤ x.1 + 2 * z c c.room) (hs : ∀ x ∈ st.serving, x ≤ st.now ∧ st.now ≤ x + 2 * z c c.room) :
    ∀ x ∈ st.answer.answered, x.1 ≤ x.2 ∧ x.2 ≤ x.1 + 2 * z c c.room := by
  intro x hx
  rcases List.mem_append.mp (show x ∈ st.answered ++ st.serving.map fun c => (c, st.now) from hx) with hx | hx
  · exact h x hx
  · obtain ⟨y, hy, rfl⟩ := List.mem_map.mp hx
    exact hs y hy

theorem req_step (c : Cfg) (hc : Sound c) (st : St σ) (a : Act σ) (h : Inv c st) (r : Req c st) : Req c (step c st a) := by
  have hb := hc.batch
  have hr := hc.room
  have hpc := h.pc
  have hroom := h.room
  have hz0 := z_zero c hb
  have hsl := slow_le c hc
  have hzr := z_mono c _ _ hroom
  cases a with
  | tick d =>
    simp only [step]
    by_cases ha : allows c (st.now + d) st.pc = true
    · rw [if_pos ha]
      have hsame : endBy c (st.now + d) st.queue.length st.pc = endBy c st.now st.queue.length st.pc ∨ st.pc = .exited ∨ ∃ t, st.pc = .waiting t := by
        cases hp : st.pc <;> rw [hp] at ha <;> simp [allows] at ha <;> simp [endBy]
      have hquiet : (st.pc = .exited ∨ ∃ t, st.pc = .waiting t) → st.pending = [] ∧ st.serving = [] := by
        rintro (e | ⟨t, e⟩)
        · exact ⟨by rw [e] at hpc; exact hpc.2.2, r.idle (by rw [e]; simp) (by rw [e]; simp [late])⟩
        · exact ⟨by rw [e] at hpc; exact hpc.2.2.2.1, r.idle (by rw [e]; simp) (by rw [e]; simp [late])⟩
      refine ⟨r.left, fun x hx => ?_, fun x hx => ?_, r.idle, r.ans, fun x hx => ?_, r.done, r.ended, r.over⟩
      · obtain ⟨e1, e2⟩ := r.pend x hx
        refine ⟨Nat.le_add_right_of_le e1, ?_⟩
        rcases hsame with e | e
        · exact e ▸ e2
        · have hx' : x ∈ st.pending := hx
          rw [(hquiet e).1] at hx'
          cases hx'
      · obtain ⟨e1, e2⟩ := r.serve x hx
        refine ⟨Nat.le_add_right_of_le e1, ?_⟩
        rcases hsame with e | e
        · exact e ▸ e2
        · have hx' : x ∈ st.serving := hx
          rw [(hquiet e).2] at hx'
          cases hx'
      · obtain ⟨e0, e1, e2, e3⟩ := r.shut x hx
        refine ⟨e0, Nat.le_add_right_of_le e1, ?_⟩
        rcases hsame with e | e | ⟨t, e⟩
        · exact e ▸ ⟨e2, e3⟩
        · have : late st.pc = 2 := by rw [e]; rfl
          exact ⟨fun hl => by have hl : late st.pc = 0 := hl; omega, fun hl => by have hl : late st.pc = 1 := hl; omega⟩
        · rw [e] at hpc
          rw [hpc.2.2.2.2] at e0
          cases e0
    · rw [if_neg ha]
      exact r
  | finish s =>
    simp only [step]
    by_cases hd : st.done = true
    · rw [if_pos hd]
      exact r
    rw [if_neg hd]
    have hd : st.done = false := by simpa using hd
    obtain ⟨l1, l2, l3⟩ := push_length c st s (by omega) hroom
    have hlate : late st.pc = 0 := by
      cases hp : st.pc <;> rw [hp] at hpc <;> simp only [late] <;> have := hpc.1 <;> rw [hd] at this <;> cases this
    have key : ∀ pc', (pc' = st.pc ∨ pc' = wake st.pc) → Req c { st.push c s with pc := pc' } := by
      intro pc' hpc'
      have e1 : endBy c st.now (st.push c s).queue.length pc' = endBy c st.now st.queue.length st.pc := by
        rcases hpc' with rfl | rfl
        · exact endBy_len c _ _ _ _ (by rw [hlate]; simp)
        · rw [endBy_wake]
          exact endBy_len c _ _ _ _ (by rw [hlate]; simp)
      have e2 : late pc' = late st.pc := by
        rcases hpc' with rfl | rfl
        · rfl
        · exact late_wake _
      have e3 : ∀ a b l, pc' = .exporting a b l ↔ st.pc = .exporting a b l := by
        intro a b l
        rcases hpc' with rfl | rfl
        · rfl
        · exact wake_exporting _ _ _ _
      have e4 : pc' = .exited ↔ st.pc = .exited := by
        rcases hpc' with rfl | rfl
        · rfl
        · exact wake_exited _
      refine ⟨fun a b l hl => ?_, fun x hx => ?_, fun x hx => ?_, fun g1 g2 => ?_, r.ans, fun x hx => ?_, r.done, r.ended, fun g => r.over (e4.mp g)⟩
      · obtain ⟨f1, f2⟩ := r.left a b l ((e3 a b l).mp hl)
        exact ⟨Nat.le_trans f1 l2, f2⟩
      · obtain ⟨f1, f2⟩ := r.pend x hx
        exact ⟨f1, e1 ▸ f2⟩
      · obtain ⟨f1, f2⟩ := r.serve x hx
        exact ⟨f1, e1 ▸ f2⟩
      · exact r.idle (fun a b l hl => g1 a b l ((e3 a b l).mpr hl)) (by rw [← e2]; exact g2)
      · have := (r.shut x hx).1
        rw [hd] at this
        cases this
    split_ifs
    · exact key _ (.inr rfl)
    · exact key _ (.inl rfl)
  | flush =>
    simp only [step]
    by_cases hd : st.done = true
    · rw [if_pos hd]
      refine ⟨r.left, r.pend, r.serve, r.idle, fun x hx => ?_, r.shut, r.done, r.ended, r.over⟩
      rcases List.mem_append.mp hx with hx | hx
      · exact r.ans x hx
      · rw [List.mem_singleton] at hx
        subst hx
        exact ⟨Nat.le_refl _, Nat.le_add_right _ _⟩
    rw [if_neg hd]
    have hd : st.done = false := by simpa using hd
    have hlate : late st.pc = 0 := by
      cases hp : st.pc <;> rw [hp] at hpc <;> simp only [late] <;> have := hpc.1 <;> rw [hd] at this <;> cases this
    have hsoon := endBy_soon c hc st h r hlate
    refine ⟨fun a b l hl => r.left a b l ((wake_exporting _ _ _ _).mp hl), fun x hx => ?_, fun x hx => ?_, fun g1 g2 => ?_, r.ans, fun x hx => ?_, r.done, r.ended, fun g => r.over ((wake_exited _).mp g)⟩
    · show x ≤ st.now ∧ endBy c st.now st.queue.length (wake st.pc) ≤ _
      rw [endBy_wake]
      rcases List.mem_append.mp hx with hx | hx
      · exact r.pend x hx
      · rw [List.mem_singleton] at hx
        subst hx
        exact ⟨Nat.le_refl _, hsoon⟩
    · show x ≤ st.now ∧ endBy c st.now st.queue.length (wake st.pc) ≤ _
      rw [endBy_wake]
      exact r.serve x hx
    · exact r.idle (fun a b l hl => g1 a b l ((wake_exporting _ _ _ _).mpr hl)) (by rw [← late_wake]; exact g2)
    · have := (r.shut x hx).1
      rw [hd] at this
      cases this
  | shutdown =>
    simp only [step]
    by_cases hd : st.done = true
    · rw [if_pos hd]
      exact r
    rw [if_neg hd]
    have hd : st.done = false := by simpa using hd
    have hlate : late st.pc = 0 := by
      cases hp : st.pc <;> rw [hp] at hpc <;> simp only [late] <;> have := hpc.1 <;> rw [hd] at this <;> cases this
    have hsoon := endBy_soon c hc st h r hlate
    refine ⟨fun a b l hl => r.left a b l ((wake_exporting _ _ _ _).mp hl), fun x hx => ?_, fun x hx => ?_, fun g1 g2 => ?_, r.ans, fun x hx => ?_, fun _ => (by simp), fun t ht => ?_, fun g => r.over ((wake_exited _).mp g)⟩
    · show x ≤ st.now ∧ endBy c st.now st.queue.length (wake st.pc) ≤ _
      rw [endBy_wake]
      exact r.pend x hx
    · show x ≤ st.now ∧ endBy c st.now st.queue.length (wake st.pc) ≤ _
      rw [endBy_wake]
      exact r.serve x hx
    · exact r.idle (fun a b l hl => g1 a b l ((wake_exporting _ _ _ _).mpr hl)) (by rw [← late_wake]; exact g2)
    · have hx : st.now = x := Option.some.inj hx
      subst hx
      refine ⟨rfl, Nat.le_refl _, fun _ => ?_, fun hl => ?_⟩
      · show endBy c st.now st.queue.length (wake st.pc) ≤ _
        rw [endBy_wake]
        exact hsoon
      · have hl : late (wake st.pc) = 1 := hl
        rw [late_wake, hlate] at hl
        cases hl
    · have := (r.ended t ht).1
      rw [hd] at this
      cases this
  | work =>
    cases hp : st.pc with
    | exporting a b l => simp only [step, hp]; exact r
    | draining b => simp only [step, hp]; exact r
    | exited => simp only [step, hp]; exact r
    | waiting till =>
      simp only [step, hp]
      split_ifs
      · have hs : st.serving = [] := r.idle (by rw [hp]; simp) (by rw [hp]; simp [late])
        have e : endBy c st.now st.queue.length st.pc = st.now := by rw [hp]; rfl
        rw [hp] at hpc
        refine ⟨fun a b l hl => (by cases hl), fun x hx => ?_, fun x hx => ?_, fun _ _ => hs, r.ans, fun x hx => ?_, r.done, r.ended, fun g => (by cases g)⟩
        · have hx : x ∈ st.pending := hx
          rw [hpc.2.2.2.1] at hx
          cases hx
        · have hx : x ∈ st.serving := hx
          rw [hs] at hx
          cases hx
        · have := (r.shut x hx).1
          rw [hpc.2.2.2.2] at this
          cases this
      · exact r
    | drain =>
      simp only [step, hp]
      rw [hp] at hpc
      have hse : ∀ x ∈ st.serving, x ≤ st.now ∧ st.now + z c st.queue.length ≤ x + 2 * z c c.room := by
        have := r.serve
        rw [hp] at this
        exact this
      have hsh : ∀ x, st.shut = some x → x ≤ st.now ∧ st.now + z c st.queue.length ≤ x + 2 * z c c.room := by
        intro x hx
        have := r.shut x hx
        rw [hp] at this
        exact ⟨this.2.1, this.2.2.2 rfl⟩
      by_cases hq : st.queue = []
      · rw [if_pos hq]
        refine ⟨fun a b l hl => (by cases hl), fun x hx => ?_, fun x hx => (by cases hx), fun _ _ => rfl, answer_ans c st r.ans (fun x hx => ?_), fun x hx => ?_, r.done, fun t ht => ?_, fun _ => (by simp)⟩
        · have hx : x ∈ st.pending := hx
          rw [hpc.2] at hx
          cases hx
        · have := hse x hx
          omega
        · exact ⟨hpc.1, (hsh x hx).1, fun hl => (by cases hl), fun hl => (by cases hl)⟩
        · have ht : st.now = t := Option.some.inj ht
          subst ht
          refine ⟨hpc.1, ?_⟩
          cases hs : st.shut with
          | none => exact absurd hs (r.done hpc.1)
          | some x =>
            have := hsh x hs
            exact ⟨x, hs, this.1, by omega⟩
      · rw [if_neg hq]
        have hlen : 1 ≤ st.queue.length := List.length_pos_iff.mpr hq
        have hzl := z_pos c hb st.queue.length hlen
        have e : endBy c st.now (st.take c).queue.length (.draining st.now) = st.now + z c st.queue.length := by
          simp only [endBy, St.take, List.length_drop]
          omega
        refine ⟨fun a b l hl => (by cases hl), fun x hx => ?_, fun x hx => ?_, fun _ g => absurd rfl g, r.ans, fun x hx => ?_, r.done, fun t ht => ?_, fun g => (by cases g)⟩
        · have hx : x ∈ st.pending := hx
          rw [hpc.2] at hx
          cases hx
        · exact ⟨(hse x hx).1, e ▸ (hse x hx).2⟩
        · exact ⟨hpc.1, (hsh x hx).1, fun hl => (by cases hl), fun _ => e ▸ (hsh x hx).2⟩
        · exact r.ended t ht
    | top t =>
      simp only [step, hp]
      have hs : st.serving = [] := r.idle (by rw [hp]; simp) (by rw [hp]; simp [late])
      have hpe : ∀ x ∈ st.pending, x ≤ st.now ∧ st.now ≤ x + z c c.room := by
        have := r.pend
        rw [hp] at this
        exact this
      have hsh : ∀ x, st.shut = some x → st.done = true ∧ x ≤ st.now ∧ st.now ≤ x + z c c.room := by
        intro x hx
        have := r.shut x hx
        rw [hp] at this
        exact ⟨this.1, this.2.1, this.2.2.1 rfl⟩
      by_cases hd : st.done = true
      · rw [if_pos hd]
        refine ⟨fun a b l hl => (by cases hl), fun x hx => (by cases hx), fun x hx => ?_, fun _ g => absurd rfl g, r.ans, fun x hx => ?_, r.done, r.ended, fun g => (by cases g)⟩
        · have hx : x ∈ st.serving ++ st.pending := hx
          rw [hs, List.nil_append] at hx
          have := hpe x hx
          exact ⟨this.1, by show st.now + z c st.queue.length ≤ _; omega⟩
        · have := hsh x hx
          exact ⟨hd, this.2.1, fun hl => (by cases hl), fun _ => (by show st.now + z c st.queue.length ≤ _; omega)⟩
      rw [if_neg hd]
      have hnoshut : ∀ {x : Nat}, st.shut = some x → False := fun hx => hd (hsh _ hx).1
      by_cases hw : st.queue.length < c.batch ∧ st.pending = []
      · rw [if_pos hw]
        refine ⟨fun a b l hl => (by cases hl), fun x hx => ?_, fun x hx => ?_, fun _ _ => hs, r.ans, fun x hx => (hnoshut hx).elim, r.done, r.ended, fun g => (by cases g)⟩
        · exact hpe x hx
        · have hx : x ∈ st.serving := hx
          rw [hs] at hx
          cases hx
      rw [if_neg hw]
      by_cases hpn : st.pending = []
      · rw [if_pos hpn]
        refine ⟨fun a b l hl => ?_, fun x hx => ?_, fun x hx => ?_, fun g _ => absurd rfl (g st.now st.now none), r.ans, fun x hx => (hnoshut hx).elim, r.done, r.ended, fun g => (by cases g)⟩
        · cases hl
          exact ⟨Nat.zero_le _, hsl⟩
        · have hx : x ∈ st.pending := hx
          rw [hpn] at hx
          cases hx
        · have hx : x ∈ st.serving := hx
          rw [hs] at hx
          cases hx
      rw [if_neg hpn]
      by_cases hq : st.queue = []
      · rw [if_pos hq]
        refine ⟨fun a b l hl => (by cases hl), fun x hx => (by cases hx), fun x hx => (by cases hx), fun _ _ => rfl, ?_, fun x hx => (hnoshut hx).elim, r.done, r.ended, fun g => (by cases g)⟩
        exact answer_ans c { st with serving := st.pending, pending := [] } r.ans (fun x hx => by have := hpe x hx; show x ≤ st.now ∧ st.now ≤ _; omega)
      · rw [if_neg hq]
        obtain ⟨g1, g2, g3⟩ := begin_ok c hc st.queue.length hroom (List.length_pos_iff.mpr hq)
        refine ⟨fun a b l hl => ?_, fun x hx => (by cases hx), fun x hx => ?_, fun g _ => absurd rfl (g _ _ _), r.ans, fun x hx => (hnoshut hx).elim, r.done, r.ended, fun g => (by cases g)⟩
        · cases hl
          refine ⟨?_, Nat.le_trans g2 g3⟩
          show st.queue.length - min c.batch st.queue.length ≤ (st.queue.drop c.batch).length
          rw [List.length_drop]
          exact g1
        · have := hpe x hx
          refine ⟨this.1, ?_⟩
          show st.now + c.slow + z c (st.queue.length - min c.batch st.queue.length) ≤ _
          omega
    | woken =>
      simp only [step, hp]
      have hs : st.serving = [] := r.idle (by rw [hp]; simp) (by rw [hp]; simp [late])
      have hpe : ∀ x ∈ st.pending, x ≤ st.now ∧ st.now ≤ x + z c c.room := by
        have := r.pend
        rw [hp] at this
        exact this
      have hsh : ∀ x, st.shut = some x → st.done = true ∧ x ≤ st.now ∧ st.now ≤ x + z c c.room := by
        intro x hx
        have := r.shut x hx
        rw [hp] at this
        exact ⟨this.1, this.2.1, this.2.2.1 rfl⟩
      by_cases hq : st.queue = []
      · rw [if_pos hq]
        refine ⟨fun a b l hl => (by cases hl), fun x hx => (by cases hx), fun x hx => (by cases hx), fun _ _ => rfl, ?_, fun x hx => ?_, r.done, r.ended, fun g => (by cases g)⟩
        · exact answer_ans c { st with serving := st.pending, pending := [] } r.ans (fun x hx => by have := hpe x hx; show x ≤ st.now ∧ st.now ≤ _; omega)
        · have := hsh x hx
          exact ⟨this.1, this.2.1, fun _ => this.2.2, fun hl => (by cases hl)⟩
      rw [if_neg hq]
      by_cases hd : st.done = true
      · rw [if_pos hd]
        refine ⟨fun a b l hl => (by cases hl), fun x hx => (by cases hx), fun x hx => ?_, fun _ g => absurd rfl g, r.ans, fun x hx => ?_, r.done, r.ended, fun g => (by cases g)⟩
        · have := hpe x hx
          exact ⟨this.1, by show st.now + z c st.queue.length ≤ _; omega⟩
        · have := hsh x hx
          exact ⟨hd, this.2.1, fun hl => (by cases hl), fun _ => (by show st.now + z c st.queue.length ≤ _; omega)⟩
      rw [if_neg hd]
      have hnoshut : ∀ {x : Nat}, st.shut = some x → False := fun hx => hd (hsh _ hx).1
      by_cases hpn : st.pending = []
      · rw [if_pos hpn]
        refine ⟨fun a b l hl => ?_, fun x hx => ?_, fun x hx => ?_, fun g _ => absurd rfl (g st.now st.now none), r.ans, fun x hx => (hnoshut hx).elim, r.done, r.ended, fun g => (by cases g)⟩
        · cases hl
          exact ⟨Nat.zero_le _, hsl⟩
        · have hx : x ∈ st.pending := hx
          rw [hpn] at hx
          cases hx
        · have hx : x ∈ st.serving := hx
          rw [hs] at hx
          cases hx
      rw [if_neg hpn]
      obtain ⟨g1, g2, g3⟩ := begin_ok c hc st.queue.length hroom (List.length_pos_iff.mpr hq)
      refine ⟨fun a b l hl => ?_, fun x hx => (by cases hx), fun x hx => ?_, fun g _ => absurd rfl (g _ _ _), r.ans, fun x hx => (hnoshut hx).elim, r.done, r.ended, fun g => (by cases g)⟩
      · cases hl
        refine ⟨?_, Nat.le_trans g2 g3⟩
        show st.queue.length - min c.batch st.queue.length ≤ (st.queue.drop c.batch).length
        rw [List.length_drop]
        exact g1
      · have := hpe x hx
        refine ⟨this.1, ?_⟩
        show st.now + c.slow + z c (st.queue.length - min c.batch st.queue.length) ≤ _
        omega
  | exported =>
    cases hp : st.pc with
    | top t => simp only [step, hp]; exact r
    | waiting t => simp only [step, hp]; exact r
    | woken => simp only [step, hp]; exact r
    | drain => simp only [step, hp]; exact r
    | exited => simp only [step, hp]; exact r
    | draining since =>
      simp only [step, hp]
      rw [hp] at hpc
      obtain ⟨p1, p2, p3, p4⟩ := hpc
      refine ⟨fun a b l hl => (by cases hl), fun x hx => ?_, fun x hx => ?_, fun _ g => absurd rfl g, r.ans, fun x hx => ?_, r.done, r.ended, fun g => (by cases g)⟩
      · have hx : x ∈ st.pending := hx
        rw [p4] at hx
        cases hx
      · have := r.serve x hx
        rw [hp] at this
        have h2 : since + c.slow + z c st.queue.length ≤ x + 2 * z c c.room := this.2
        exact ⟨this.1, by show st.now + z c st.queue.length ≤ _; omega⟩
      · have := r.shut x hx
        rw [hp] at this
        have h2 : since + c.slow + z c st.queue.length ≤ x + 2 * z c c.room := this.2.2.2 rfl
        exact ⟨this.1, this.2.1, fun hl => (by cases hl), fun _ => (by show st.now + z c st.queue.length ≤ _; omega)⟩
    | exporting start since left =>
      simp only [step, hp]
      rw [hp] at hpc
      obtain ⟨p1, p2, p3⟩ := hpc
      obtain ⟨f1, f2⟩ := r.left _ _ _ hp
      have hpe : ∀ x ∈ st.pending, x ≤ st.now ∧ since + c.slow + z c (left.getD 0) ≤ x + z c c.room := by
        have := r.pend
        rw [hp] at this
        exact this
      have hse : ∀ x ∈ st.serving, x ≤ st.now ∧ since + c.slow + z c (left.getD 0) ≤ x + 2 * z c c.room := by
        have := r.serve
        rw [hp] at this
        exact this
      have hsh : ∀ x, st.shut = some x → st.done = true ∧ x ≤ st.now ∧ since + c.slow + z c (left.getD 0) ≤ x + z c c.room := by
        intro x hx
        have := r.shut x hx
        rw [hp] at this
        exact ⟨this.1, this.2.1, this.2.2.1 rfl⟩
      by_cases hl : left.getD 0 = 0 ∨ st.queue = []
      · rw [if_pos hl]
        refine ⟨fun a b l hl => (by cases hl), fun x hx => ?_, fun x hx => (by cases hx), fun _ _ => rfl, answer_ans c st r.ans (fun x hx => ?_), fun x hx => ?_, r.done, r.ended, fun g => (by cases g)⟩
        · have := hpe x hx
          exact ⟨this.1, by show st.now ≤ _; omega⟩
        · have := hse x hx
          omega
        · have := hsh x hx
          exact ⟨this.1, this.2.1, fun _ => (by show st.now ≤ _; omega), fun hl => (by cases hl)⟩
      · rw [if_neg hl]
        have hn : 1 ≤ left.getD 0 := by
          have : left.getD 0 ≠ 0 := fun e => hl (.inl e)
          omega
        generalize left.getD 0 = n at *
        have hzn := z_pos c hb n hn
        have e : n - min c.batch st.queue.length = n - c.batch := by omega
        have ez : z c (n - min c.batch st.queue.length) = z c (n - c.batch) := by rw [e]
        refine ⟨fun a b l hl => ?_, fun x hx => ?_, fun x hx => ?_, fun g _ => absurd rfl (g _ _ _), r.ans, fun x hx => ?_, r.done, r.ended, fun g => (by cases g)⟩
        · cases hl
          refine ⟨?_, ?_⟩
          · show n - min c.batch st.queue.length ≤ (st.queue.drop c.batch).length
            rw [List.length_drop]
            omega
          · show c.slow + z c (n - min c.batch st.queue.length) ≤ _
            omega
        · have := hpe x hx
          exact ⟨this.1, by show st.now + c.slow + z c (n - min c.batch st.queue.length) ≤ _; omega⟩
        · have := hse x hx
          exact ⟨this.1, by show st.now + c.slow + z c (n - min c.batch st.queue.length) ≤ _; omega⟩
        · have := hsh x hx
          exact ⟨this.1, this.2.1, fun _ => (by show st.now + c.slow + z c (n - min c.batch st.queue.length) ≤ _; omega), fun hl => (by cases hl)⟩

theorem req_init (c : Cfg) : Req c (init σ c) :=
  ⟨fun a b l hl => (by cases hl), fun x hx => (by cases hx), fun x hx => (by cases hx), fun _ _ => rfl, fun x hx => (by cases hx), fun x hx => (by cases hx), fun hd => (by cases hd), fun t ht => (by cases ht), fun g => (by cases g)⟩

theorem both_runFrom (c : Cfg) (hc : Sound c) (acts : List (Act σ)) : ∀ st, Inv c st → Req c st → Inv c (runFrom c st acts) ∧ Req c (runFrom c st acts) := by
  induction acts with
  | nil => exact fun st h r => ⟨h, r⟩
  | cons a l ih => exact fun st h r => ih _ (inv_step c hc st a h) (req_step c hc st a h r)

theorem now_le (c : Cfg) (st : St σ) (h : Inv c st) (hl : late st.pc ≠ 2) : st.now ≤ endBy c st.now st.queue.length st.pc := by
  have hpc := h.pc
  cases hp : st.pc <;> rw [hp] at hpc hl <;> simp only [endBy] <;> simp only [PcOK] at hpc <;> first | omega | skip

/-- **C117** Every `force_flush` whose flush is carried out is answered within twice the time a full queue takes, and one that has not been answered has not waited longer: with a timeout of that
length it returns `True`. -/
theorem C117_flush (c : Cfg) (hc : Sound c) (acts : List (Act σ)) : (∀ x ∈ (run c acts).answered, x.1 ≤ x.2 ∧ x.2 ≤ x.1 + 2 * (rounds c * c.slow)) ∧
    ∀ x ∈ (run c acts).pending ++ (run c acts).serving, (run c acts).now ≤ x + 2 * (rounds c * c.slow) := by
  obtain ⟨h, r⟩ := both_runFrom c hc acts _ (inv_init (σ := σ) c) (req_init c)
  refine ⟨r.ans, fun x hx => ?_⟩
  change (runFrom c (init σ c) acts).now ≤ x + 2 * z c c.room
  by_cases hl : late (runFrom c (init σ c) acts).pc = 2
  · exfalso
    have hp : (runFrom c (init σ c) acts).pc = .exited := by
      revert hl
      cases (runFrom c (init σ c) acts).pc <;> simp [late]
    have hpc := h.pc
    rw [hp] at hpc
    have hs := r.idle (by rw [hp]; simp) (by rw [hp]; simp [late])
    rcases List.mem_append.mp hx with hx | hx
    · have hx : x ∈ (runFrom c (init σ c) acts).pending := hx
      rw [hpc.2.2] at hx
      cases hx
    · have hx : x ∈ (runFrom c (init σ c) acts).serving := hx
      rw [hs] at hx
      cases hx
  · have hn := now_le c _ h hl
    rcases List.mem_append.mp hx with hx | hx
    · have := r.pend x hx
      omega
    · have := r.serve x hx
      omega

/-- **C117** `shutdown` has ended the worker within twice the time a full queue takes; as long as it has not, no more time has passed. -/
theorem C117_shutdown (c : Cfg) (hc : Sound c) (acts : List (Act σ)) (x : Nat) (hx : (run c acts).shut = some x) :
    match (run c acts).ended with
    | some t => x ≤ t ∧ t ≤ x + 2 * (rounds c * c.slow)
    | none => (run c acts).now ≤ x + 2 * (rounds c * c.slow) := by
  obtain ⟨h, r⟩ := both_runFrom c hc acts _ (inv_init (σ := σ) c) (req_init c)
  have hx : (runFrom c (init σ c) acts).shut = some x := hx
  change match (runFrom c (init σ c) acts).ended with
    | some t => x ≤ t ∧ t ≤ x + 2 * z c c.room
    | none => (runFrom c (init σ c) acts).now ≤ x + 2 * z c c.room
  cases he : (runFrom c (init σ c) acts).ended with
  | some t =>
    obtain ⟨_, y, hy, h1, h2⟩ := r.ended t he
    rw [hx] at hy
    cases hy
    exact ⟨h1, h2⟩
  | none =>
    obtain ⟨_, _, h3, h4⟩ := r.shut x hx
    by_cases hl : late (runFrom c (init σ c) acts).pc = 2
    · have hp : (runFrom c (init σ c) acts).pc = .exited := by
        revert hl
        cases (runFrom c (init σ c) acts).pc <;> simp [late]
      exact absurd he (r.over hp)
    · have hn := now_le c _ h hl
      have : late (runFrom c (init σ c) acts).pc = 0 ∨ late (runFrom c (init σ c) acts).pc = 1 := by
        revert hl
        cases (runFrom c (init σ c) acts).pc <;> simp [late]
      rcases this with e | e
      · have := h3 e
        show (runFrom c (init σ c) acts).now ≤ _
        omega
      · have := h4 e
        show (runFrom c (init σ c) acts).now ≤ _
        omega

/-! ## Time goes on -/

def Free (c : Cfg) (st : St σ) : Prop := ∃ own : List (Act σ), (∀ a ∈ own, Own a) ∧ allows c ((runFrom c st own).now + 1) (runFrom c st own).pc = true

theorem free_here (c : Cfg) (st : St σ) (h : allows c (st.now + 1) st.pc = true) : Free c st := ⟨[], by simp, h⟩

theorem free_work (c : Cfg) (st : St σ) (h : Free c (step c st .work)) : Free c st := by
  obtain ⟨own, h1, h2⟩ := h
  refine ⟨.work :: own, fun a ha => ?_, h2⟩
  rcases List.mem_cons.mp ha with rfl | ha
  · exact trivial
  · exact h1 a ha

theorem free_exported (c : Cfg) (st : St σ) (h : Free c (step c st .exported)) : Free c st := by
  obtain ⟨own, h1, h2⟩ := h
  refine ⟨.exported :: own, fun a ha => ?_, h2⟩
  rcases List.mem_cons.mp ha with rfl | ha
  · exact trivial
  · exact h1 a ha

theorem free (c : Cfg) (hc : Sound c) : ∀ (n : Nat) (st : St σ), st.queue.length ≤ n → Free c st := by
  have hb := hc.batch
  have hdl := hc.delay
  intro n
  induction n using Nat.strongRecOn with
  | _ n ih =>
    intro st hn
    have shorter : ∀ (st' : St σ), st.queue ≠ [] → st'.queue = st.queue.drop c.batch → Free c st' := by
      intro st' hq e
      have hlen : 1 ≤ st.queue.length := List.length_pos_iff.mpr hq
      exact ih st'.queue.length (by rw [e, List.length_drop]; omega) st' (Nat.le_refl _)
    have onDrain : ∀ st' : St σ, st'.pc = .drain → st'.queue = st.queue → Free c st' := by
      intro st' hp e
      apply free_work
      simp only [step, hp]
      by_cases hq : st'.queue = []
      · rw [if_pos hq]
        exact free_here c _ rfl
      · rw [if_neg hq]
        exact shorter _ (by rw [← e]; exact hq) (by rw [← e]; rfl)
    have onEmpty : ∀ (st' : St σ) (t : Nat), st'.pc = .top t → 1 ≤ t → st'.queue = [] → st.queue = [] → st'.pending = [] → Free c st' := by
      intro st' t hp ht hq hq' hpe
      apply free_work
      simp only [step, hp]
      by_cases hd : st'.done = true
      · rw [if_pos hd]
        exact onDrain _ rfl (by rw [hq']; exact hq)
      · rw [if_neg hd, if_pos ⟨by rw [hq]; exact hb, hpe⟩]
        apply free_here
        show decide (st'.now + 1 ≤ st'.now + t) = true
        simpa using ht
    have onWoken : ∀ st' : St σ, st'.pc = .woken → st'.queue = st.queue → Free c st' := by
      intro st' hp e
      apply free_work
      simp only [step, hp]
      by_cases hq : st'.queue = []
      · rw [if_pos hq]
        exact onEmpty _ c.delay rfl hdl hq (by rw [← e]; exact hq) rfl
      rw [if_neg hq]
      by_cases hd : st'.done = true
      · rw [if_pos hd]
        exact onDrain _ rfl e
      rw [if_neg hd]
      by_cases hpe : st'.pending = []
      · rw [if_pos hpe]
        exact shorter _ (by rw [← e]; exact hq) (by rw [← e]; rfl)
      · rw [if_neg hpe]
        exact shorter _ (by rw [← e]; exact hq) (by rw [← e]; rfl)
    have onWaiting : ∀ (st' : St σ) (u : Nat), st'.pc = .waiting u → st'.queue = st.queue → Free c st' := by
      intro st' u hp e
      by_cases hu : u ≤ st'.now
      · apply free_work
        simp only [step, hp]
        rw [if_pos hu]
        exact onWoken _ rfl e
      · apply free_here
        rw [hp]
        show decide (st'.now + 1 ≤ u) = true
        simp
        omega
    have onTop : ∀ (st' : St σ) (t : Nat), st'.pc = .top t → st'.queue = st.queue → Free c st' := by
      intro st' t hp e
      apply free_work
      simp only [step, hp]
      by_cases hd : st'.done = true
      · rw [if_pos hd]
        exact onDrain _ rfl e
      rw [if_neg hd]
      by_cases hw : st'.queue.length < c.batch ∧ st'.pending = []
      · rw [if_pos hw]
        exact onWaiting _ _ rfl e
      rw [if_neg hw]
      by_cases hpe : st'.pending = []
      · rw [if_pos hpe]
        refine shorter _ (fun hq => hw ⟨?_, hpe⟩) (by rw [← e]; rfl)
        rw [e, hq]
        exact hb
      rw [if_neg hpe]
      by_cases hq : st'.queue = []
      · rw [if_pos hq]
        exact onEmpty _ c.delay rfl hdl hq (by rw [← e]; exact hq) rfl
      · rw [if_neg hq]
        exact shorter _ (by rw [← e]; exact hq) (by rw [← e]; rfl)
    cases hp : st.pc with
    | top t => exact onTop st t hp rfl
    | waiting u => exact onWaiting st u hp rfl
    | woken => exact onWoken st hp rfl
    | drain => exact onDrain st hp rfl
    | exited => exact free_here c st (by rw [hp]; rfl)
    | draining b =>
      apply free_exported
      simp only [step, hp]
      exact onDrain _ rfl rfl
    | exporting a b l =>
      apply free_exported
      simp only [step, hp]
      by_cases hl : l.getD 0 = 0 ∨ st.queue = []
      · rw [if_pos hl]
        exact onTop _ _ rfl rfl
      · rw [if_neg hl]
        exact shorter _ (fun hq => hl (.inr hq)) rfl

theorem own_now (c : Cfg) (own : List (Act σ)) (ho : ∀ a ∈ own, Own a) : ∀ st : St σ, (runFrom c st own).now = st.now := by
  induction own with
  | nil => exact fun st => rfl
  | cons a l ih =>
    intro st
    have h1 := ih (fun b hb => ho b (by simp [hb])) (step c st a)
    have h2 : (step c st a).now = st.now := by
      have := ho a (by simp)
      cases a with
      | work =>
        cases hp : st.pc <;> simp only [step, hp] <;> split_ifs <;> rfl
      | exported =>
        cases hp : st.pc <;> simp only [step, hp]
        split_ifs <;> rfl
      | tick d => cases this
      | finish s => cases this
      | flush => cases this
      | shutdown => cases this
    exact h1.trans h2

/-- **C117** (*so the deadlines are kept because the spans are passed on, not because time stands still*) Whatever has happened, after finitely many steps of the worker and returns of the
exporter, all at this moment, time can pass. -/
theorem C117_time (c : Cfg) (hc : Sound c) (acts : List (Act σ)) : ∃ own : List (Act σ), (∀ a ∈ own, Own a) ∧
    (run c (acts ++ own)).now = (run c acts).now ∧ (run c (acts ++ own ++ [.tick 1])).now = (run c acts).now + 1 := by
  obtain ⟨own, h1, h2⟩ := free c hc _ (run c acts) (Nat.le_refl _)
  have e : run c (acts ++ own) = runFrom c (run c acts) own := by simp [run, runFrom]
  refine ⟨own, h1, by rw [e]; exact own_now c own h1 _, ?_⟩
  have e2 : run c (acts ++ own ++ [.tick 1]) = step c (runFrom c (run c acts) own) (.tick 1) := by simp [run, runFrom]
  rw [e2]
  simp only [step]
  rw [if_pos h2]
  show (runFrom c (run c acts) own).now + 1 = _
  rw [own_now c own h1]

/-! ## The deadlines are met exactly -/

/-- **C117** The latency is attained: for all settings a span may have to wait for the delay, or for the export in progress, in full. -/
theorem C117_latency_attained (c : Cfg) (hc : Sound c) (h2 : 2 ≤ c.batch) (s : σ) :
    ∃ x ∈ (run c (latecomer c s)).handed, x.1.ahead = 0 ∧ x.2 = due c x.1 ∧ x.2 = x.1.time + max c.delay c.slow := by
  have hd := hc.delay
  have hr := hc.room
  have e1 : ¬ (0 = c.room) := by omega
  have e2 : ¬ (c.batch ≤ 1) := by omega
  have e3 : (1 : Nat) < c.batch := by omega
  have e4 : (0 : Nat) < c.batch := by omega
  have hz : c.batch - 1 + 1 = c.batch := by omega
  have hdiv : (0 : Nat) / c.batch = 0 := Nat.zero_div _
  have hmax : c.delay + c.slow + (c.delay - c.slow) = c.delay + max c.delay c.slow := by omega
  have hdr : ∀ i : Item σ, [i].drop c.batch = [] := fun i => List.drop_eq_nil_of_le (by simp; omega)
  have htk : ∀ i : Item σ, [i].take c.batch = [i] := fun i => List.take_of_length_le (by simp; omega)
  refine ⟨(⟨s, c.delay, 0⟩, c.delay + c.slow + (c.delay - c.slow)), ?_, rfl, ?_, ?_⟩
  · have hsub : c.delay - (c.delay + c.slow - c.delay) = c.delay - c.slow := by omega
    simp [run, runFrom, latecomer, step, St.push, St.take, St.answer, wake, allows, init, e1, e2, e3, hdr, htk, hsub]
  · simp only [due, hdiv]
    omega
  · simp only
    omega

theorem finishes (c : Cfg) (s : σ) (m : Nat) (hm : m ≤ c.room) : ∃ q : List (Item σ), q.length = m ∧ runFrom c (init σ c) (List.replicate m (.finish s)) = { init σ c with queue := q } := by
  induction m with
  | zero => exact ⟨[], rfl, rfl⟩
  | succ m ih =>
    obtain ⟨q, hq, e⟩ := ih (by omega)
    refine ⟨q ++ [⟨s, 0, q.length⟩], by simp [hq], ?_⟩
    rw [List.replicate_succ', runFrom, List.foldl_append]
    change step c (runFrom c (init σ c) (List.replicate m (.finish s))) (.finish s) = _
    rw [e]
    have hne : ¬ (q.length = c.room) := by omega
    simp [step, init, St.push, wake, hne]

theorem drains (c : Cfg) (hb : 1 ≤ c.batch) (n : Nat) : ∀ st : St σ, st.pc = .drain → st.queue.length = n * c.batch →
    (runFrom c st (List.replicate n [Act.work, .tick c.slow, .exported]).flatten).pc = .drain ∧ (runFrom c st (List.replicate n [Act.work, .tick c.slow, .exported]).flatten).queue = [] ∧
    (runFrom c st (List.replicate n [Act.work, .tick c.slow, .exported]).flatten).now = st.now + n * c.slow ∧
    (runFrom c st (List.replicate n [Act.work, .tick c.slow, .exported]).flatten).shut = st.shut := by
  induction n with
  | zero =>
    intro st hp hq
    have : st.queue = [] := List.eq_nil_of_length_eq_zero (by simpa using hq)
    simp [runFrom, hp, this]
  | succ n ih =>
    intro st hp hq
    have hne : st.queue ≠ [] := by
      intro e
      rw [e] at hq
      simp at hq
      have : (n + 1) * c.batch = n * c.batch + c.batch := Nat.succ_mul n c.batch
      omega
    rw [List.replicate_succ, List.flatten_cons, runFrom, List.foldl_append]
    have e : List.foldl (step c) st [Act.work, .tick c.slow, .exported] = { st.take c with pc := .drain, now := st.now + c.slow } := by
      simp only [List.foldl_cons, List.foldl_nil, step, hp]
      rw [if_neg hne]
      simp [allows, St.take]
    rw [e]
    obtain ⟨h1, h2, h3, h4⟩ := ih { st.take c with pc := .drain, now := st.now + c.slow } rfl (by
      show (st.queue.drop c.batch).length = _
      rw [List.length_drop, hq, Nat.succ_mul]
      omega)
    refine ⟨h1, h2, ?_, h4⟩
    refine h3.trans ?_
    show st.now + c.slow + n * c.slow = _
    rw [Nat.succ_mul]
    omega

/-- **C117** (*why `partial`: shutting down takes no longer than the export timeout*) The export timeout does not limit `shutdown`: with `n` batches in the queue it takes as long as `n` exports. -/
theorem C117_shutdown_violated (c : Cfg) (hc : Sound c) (s : σ) (n : Nat) (hn : n * c.batch ≤ c.room) :
    (run c (sluggish c s n)).shut = some 0 ∧ (run c (sluggish c s n)).ended = some (n * c.slow) := by
  obtain ⟨q, hq, e⟩ := finishes c s (n * c.batch) hn
  have e2 : run c (sluggish c s n) = step c (runFrom c (step c (step c (runFrom c (init σ c) (List.replicate (n * c.batch) (.finish s))) .shutdown) .work)
      (List.replicate n [Act.work, .tick c.slow, .exported]).flatten) .work := by
    simp only [run, sluggish, runFrom, List.foldl_append, List.foldl_cons, List.foldl_nil]
  rw [e2, e]
  obtain ⟨st, hst⟩ : ∃ st, st = step c (step c ({ init σ c with queue := q }) .shutdown) .work := ⟨_, rfl⟩
  have hs : st.pc = .drain ∧ st.queue = q ∧ st.now = 0 ∧ st.shut = some 0 := by
    rw [hst]
    simp [step, init, wake]
  rw [← hst]
  obtain ⟨h1, h2, h3, h4⟩ := drains c hc.batch n st hs.1 (by rw [hs.2.1, hq])
  generalize runFrom c st (List.replicate n [Act.work, .tick c.slow, .exported]).flatten = fin at *
  simp only [step, h1]
  rw [if_pos h2]
  refine ⟨?_, ?_⟩
  · show fin.shut = _
    rw [h4, hs.2.2.2]
  · show some fin.now = _
    rw [h3, hs.2.2.1, Nat.zero_add]

/-! ## OTLP exporters -/

theorem took_split (request : Nat → Nat) (l : List Export.Act) : took request l = ((Export.attempts l).map fun i => (request i : Int)).sum + (Export.sleeps l).sum := by
  induction l with
  | nil => rfl
  | cons a l ih =>
    unfold took at ih ⊢
    cases a with
    | attempt i => simp [Export.attempts, Export.sleeps] at ih ⊢; omega
    | sleep d => simp [Export.attempts, Export.sleeps] at ih ⊢; omega

theorem sum_le (request : Nat → Nat) (T : Nat) (h : ∀ i, request i ≤ T) (n : Nat) : ((List.range n).map fun i => (request i : Int)).sum ≤ n * T := by
  induction n with
  | zero => simp
  | succ n ih =>
    rw [List.range_succ, List.map_append, List.sum_append]
    have := h n
    simp only [List.map_cons, List.map_nil, List.sum_cons, List.sum_nil]
    have e : ((n + 1 : Nat) : Int) * T = n * T + T := by
      rw [Int.natCast_add, Int.add_mul]
      simp
    rw [e]
    omega

/-- **C117** A call of `export` of an OTLP exporter whose requests take at most `T` takes at most six times `T` and 63 seconds, if the server does not ask for particular delays (it cannot over
HTTP): this may be put for `slow` above. -/
theorem C117_otlp (shut : Nat → Bool) (verdict : Nat → Export.Verdict) (hv : ∀ i d, verdict i ≠ .retry (some d)) (request : Nat → Nat) (T : Nat) (h : ∀ i, request i ≤ T) :
    took request (Export.loop shut verdict 0).2 ≤ 6 * T + 63 * 1000000000 := by
  rw [took_split]
  obtain ⟨n, hn, e, _⟩ := Export.C46_attempts shut verdict
  obtain ⟨_, _, _, hs⟩ := Export.C46_wait shut verdict hv
  rw [e]
  have h1 := sum_le request T h n
  have h2 : (n : Int) * T ≤ 6 * T := Int.mul_le_mul_of_nonneg_right (by omega) (by omega)
  omega

/-- **C117** That time is attained: by a server that answers 503 after `T`, every time. -/
theorem C117_otlp_attained (T : Nat) : took (fun _ => T) (Export.httpExport false fun _ => .status 503).2 = 6 * T + 63 * 1000000000 := by
  rw [took_split]
  have e : Export.attempts (Export.httpExport false fun _ => .status 503).2 = [0, 1, 2, 3, 4, 5] ∧ (Export.sleeps (Export.httpExport false fun _ => .status 503).2).sum = 63 * 1000000000 := by
    decide +kernel
  rw [e.1, e.2]
  simp
  omega

/-- **C117** Over gRPC there is no bound at all: the server may ask for any delay, and the exporter waits for it. -/
theorem C117_grpc_violated (B : Nat) : ∃ answers : Nat → Export.GrpcAnswer, (B : Int) ≤ took (fun _ => 0) (Export.grpcExport false (fun _ => false) answers).2 := by
  obtain ⟨answers, h, _⟩ := Export.C46_unbounded_wait B (by omega)
  refine ⟨answers, ?_⟩
  rw [took_split]
  have : ∀ l : List Nat, (l.map fun _ => ((0 : Nat) : Int)).sum = 0 := by
    intro l
    induction l with
    | nil => rfl
    | cons a l ih => simp
  rw [this]
  omega

/-- The default settings are sound. With the default timeout of ten seconds per request an export takes at most 123 seconds, and `shutdown` at most 984, if each request is answered in time. -/
example : let c : Cfg := ⟨512, 2048, 5000000000, 123000000000⟩
    Sound c ∧ 2 * (rounds c * c.slow) = 984000000000 ∧ (6 * 10000000000 + 63 * 1000000000 : Nat) = c.slow := ⟨⟨by decide, by decide, by decide⟩, rfl, rfl⟩

/-- A run with three batches, a flush and a shutdown: the deadlines are those of the theorems. -/
example : let st := run (σ := Nat) ⟨2, 4, 10, 7⟩ [.work, .tick 4, .finish 1, .finish 2, .finish 3, .work, .tick 3, .flush, .tick 4, .exported, .work, .tick 7, .exported, .finish 4, .shutdown, .work, .work, .tick 7, .exported, .work]
    st.handed.map (fun x => (x.1.span, x.1.time, x.1.ahead, x.2)) = [(1, 4, 0, 4), (2, 4, 1, 4), (3, 4, 2, 11), (4, 18, 0, 18)] ∧ st.answered = [(7, 18)] ∧ st.shut = some 18 ∧ st.ended = some 25 := by
  decide +kernel

end Timely
end Otel
