import Verif.Spec.Feedback
import Mathlib.Data.Prod.Lex
import Mathlib.Order.WellFounded
import Mathlib.Tactic.Linarith
import Mathlib.Tactic.SplitIfs
import Mathlib.Tactic.Ring
/-!
# C100: log records about exporting log records
-/
namespace Otel
namespace Feedback
open Spec

/-! ## The simple processor -/

/-- **C100** A call through the handler returns if the exporter works again before the stack is full: it is called once more than it failed, and the context is as before. -/
theorem C100_simple_returns (fails : Nat → Bool) (warn error : Bool) (room k : Nat) (w : World) (hroom : k < room) (hk : fails (w.exports + k) = false)
    (hf : ∀ i < k, fails (w.exports + i) = true) :
    emitSimple fails warn error false room w = (.returned, ⟨w.exports + (if error then k + 1 else 1), w.suppressed⟩) := by
  induction k generalizing room w with
  | zero =>
    obtain ⟨r, rfl⟩ : ∃ r, room = r + 1 := ⟨room - 1, by omega⟩
    have hk' : fails w.exports = false := hk
    cases error <;> simp [emitSimple, hk']
  | succ k ih =>
    obtain ⟨r, rfl⟩ : ∃ r, room = r + 1 := ⟨room - 1, by omega⟩
    have h0 : fails w.exports = true := hf 0 (by omega)
    cases error with
    | false => simp [emitSimple]
    | true =>
      have := ih r ⟨w.exports + 1, true⟩ (by omega) (by show fails (w.exports + 1 + k) = false; rw [← hk]; congr 1; omega)
        (by intro i hi; show fails (w.exports + 1 + i) = true; rw [← hf (i + 1) (by omega)]; congr 1; omega)
      simp only [emitSimple, Bool.false_eq_true, if_false, h0, Bool.and_self, if_true, this]
      simp only [Prod.mk.injEq, World.mk.injEq, true_and, and_true]
      omega

/-- **C100** If what the SDK logs does not reach the handler, every call returns after at most one call of `export`, and the context is as before. -/
theorem C100_simple_quiet (fails : Nat → Bool) (down : Bool) (room : Nat) (w : World) :
    emitSimple fails false false down (room + 1) w = (.returned, ⟨w.exports + (if down then 0 else 1), w.suppressed⟩) := by
  cases down <;> simp [emitSimple]

/-- **C100** (refutation) If every export fails, a call of the application's logger fills the stack, however large, and raises `RecursionError`; `export` is called at each level, and
the thread's context suppresses instrumentation from then on. -/
theorem C100_simple_recursion_violated (warn : Bool) (room : Nat) (w : World) :
    emitSimple (fun _ => true) warn true false (room + 1) w = (.overflow, ⟨w.exports + (room + 1), true⟩) := by
  induction room generalizing w with
  | zero => simp [emitSimple]
  | succ r ih =>
    rw [emitSimple]
    simp only [Bool.false_eq_true, if_false, Bool.and_self, if_true, ih]
    simp only [Prod.mk.injEq, World.mk.injEq, true_and, and_true]
    omega

/-- **C100** (refutation) After the processor was shut down, every call of the application's logger raises `RecursionError`, if warnings of the SDK reach the handler. -/
theorem C100_simple_shutdown_violated (fails : Nat → Bool) (error : Bool) (room : Nat) (w : World) : emitSimple fails true error true room w = (.overflow, w) := by
  induction room with
  | zero => rfl
  | succ r ih => simp [emitSimple, ih]

/-- `C100_simple_returns`: two failures, room for three calls. -/
example : (2 : Nat) < 3 ∧ (fun i => decide (i < 2)) (0 + 2) = false ∧ ∀ i < 2, (fun i => decide (i < 2)) (0 + i) = true := by decide

/-! ## The batch processor -/

theorem batches_eq (size n c : Nat) (hs : 0 < size) (h1 : n ≤ c * size) (h2 : (c - 1) * size < n) (hc : 0 < c) : batches size n = c := by
  unfold batches
  obtain ⟨k, rfl⟩ : ∃ k, c = k + 1 := ⟨c - 1, by omega⟩
  rw [Nat.add_sub_cancel] at h2
  rw [Nat.div_eq_iff hs, Nat.add_mul, Nat.one_mul] 
  rw [Nat.add_mul, Nat.one_mul] at h1
  omega

theorem batches_zero (size : Nat) (hs : 0 < size) : batches size 0 = 0 := by
  unfold batches
  exact Nat.div_eq_of_lt (by omega)

theorem batches_succ (size n : Nat) (hs : 0 < size) : batches size (n + 1) ≤ batches size n + 1 := by
  unfold batches
  have : (n + size - 1) / size + 1 = (n + size - 1 + size) / size := by rw [Nat.add_div_right _ hs]
  rw [this]
  exact Nat.div_le_div_right (by omega)

theorem batches_mono (size : Nat) {m n : Nat} (h : m ≤ n) : batches size m ≤ batches size n := Nat.div_le_div_right (by omega)

theorem batches_add (size n : Nat) (hs : 0 < size) : batches size (size + n) = batches size n + 1 := by
  unfold batches
  rw [show size + n + size - 1 = n + size - 1 + size by omega, Nat.add_div_right _ hs]

theorem batches_pos (size n : Nat) (hs : 0 < size) (hn : 0 < n) : 0 < batches size n := Nat.div_pos (by omega) hs

theorem batches_le (size n c : Nat) (hs : 0 < size) (h : n ≤ c * size) : batches size n ≤ c := by
  unfold batches
  rw [Nat.div_le_iff_le_mul_add_pred hs, Nat.mul_comm size c]
  omega

theorem length_push (max : Nat) (q : List Rec) (r : Rec) : q.length ≤ (push max q r).length ∧ (push max q r).length ≤ q.length + 1 := by
  unfold push
  split_ifs with h
  · simp
  · rw [List.length_append, List.length_tail, List.length_singleton]
    omega

/-- What is known before a batch is taken: `c` calls of `export` so far. -/
def Progress (size : Nat) (st : State) (m : Mode) (c s : Nat) : Prop :=
  match m with
  | .cycle => True
  | .flush _ n left begun => begun + c = st.sent.length ∧ left = n - c * size ∧ (0 < n → c * size < n) ∧ (n = 0 → c = 0) ∧ left ≤ s + st.queue.length
  | .drain _ n begun arrived => begun + c = st.sent.length ∧ arrived ≤ st.arrived ∧ st.down = true ∧ n ≤ c * size + s + st.queue.length ∧
      c + batches size (s + st.queue.length) ≤ batches size n + (st.arrived - arrived)

/-- What is known while a batch of `s` records is exported, which is one of the calls of `export`. -/
def Sending (size : Nat) (st : State) (m : Mode) (c s : Nat) : Prop :=
  match m with
  | .cycle => True
  | .flush _ n left begun => begun + c + 1 = st.sent.length ∧ left = n - c * size ∧ (0 < n → c * size < n) ∧ (n = 0 → c = 0) ∧ s ≤ size ∧ (s < size → left ≤ s) ∧ left - s ≤ st.queue.length
  | .drain _ n begun arrived => begun + c + 1 = st.sent.length ∧ arrived ≤ st.arrived ∧ st.down = true ∧ n ≤ (c + 1) * size + st.queue.length ∧
      c + 1 + batches size st.queue.length ≤ batches size n + (st.arrived - arrived)

/-- The worker. -/
def WOk (size : Nat) (st : State) : Prop :=
  match st.worker with
  | .start m => ∃ c, Progress size st m c 0
  | .pop m batch => (m ≠ .cycle → 0 < batch.length + st.queue.length) ∧ batch.length ≤ size ∧ ∃ c, Progress size st m c batch.length
  | .exporting m s => ∃ c, Sending size st m c s
  | .logging m s _ => ∃ c, Sending size st m c s
  | .stop _ => st.down = true
  | _ => True

structure Inv (size : Nat) (st : State) : Prop where
  worker : WOk size st
  flushed : ∀ p ∈ st.flushed, (0 < p.1 → p.2 = batches size p.1) ∧ (p.1 = 0 → p.2 ≤ 1)
  drained : ∀ n c a, st.drained = some (n, c, a) → batches size n ≤ c ∧ c ≤ batches size n + a

theorem progress_more (size : Nat) (hs : 0 < size) (st st' : State) (m : Mode) (c s : Nat) (h : Progress size st m c s) (hsent : st'.sent = st.sent) (hdown : st.down = true → st'.down = true)
    (hq : st.queue.length ≤ st'.queue.length) (hd : st.down = true → st'.queue.length ≤ st.queue.length + (st'.arrived - st.arrived)) (ha : st.arrived ≤ st'.arrived)
    (ha' : st'.arrived ≤ st.arrived + 1) : Progress size st' m c s := by
  cases m with
  | cycle => trivial
  | flush id n left begun =>
    obtain ⟨h1, h2, h3, h4, h5⟩ := h
    exact ⟨by rw [hsent]; exact h1, h2, h3, h4, by omega⟩
  | drain ids n begun arrived =>
    obtain ⟨h1, h2, h3, h4, h5⟩ := h
    refine ⟨by rw [hsent]; exact h1, by omega, hdown h3, by omega, ?_⟩
    have hd := hd h3
    rcases Nat.lt_or_ge st.arrived st'.arrived with hlt | hge
    · have hb : batches size (s + st'.queue.length) ≤ batches size (s + st.queue.length + 1) := batches_mono size (by omega)
      have := batches_succ size (s + st.queue.length) hs
      omega
    · have hb : batches size (s + st'.queue.length) ≤ batches size (s + st.queue.length) := batches_mono size (by omega)
      omega

theorem sending_more (size : Nat) (hs : 0 < size) (st st' : State) (m : Mode) (c s : Nat) (h : Sending size st m c s) (hsent : st'.sent = st.sent) (hdown : st.down = true → st'.down = true)
    (hq : st.queue.length ≤ st'.queue.length) (hd : st.down = true → st'.queue.length ≤ st.queue.length + (st'.arrived - st.arrived)) (ha : st.arrived ≤ st'.arrived)
    (ha' : st'.arrived ≤ st.arrived + 1) : Sending size st' m c s := by
  cases m with
  | cycle => trivial
  | flush id n left begun =>
    obtain ⟨h1, h2, h3, h4, h5, h6, h7⟩ := h
    exact ⟨by rw [hsent]; exact h1, h2, h3, h4, h5, h6, by omega⟩
  | drain ids n begun arrived =>
    obtain ⟨h1, h2, h3, h4, h5⟩ := h
    refine ⟨by rw [hsent]; exact h1, by omega, hdown h3, by omega, ?_⟩
    have hd := hd h3
    rcases Nat.lt_or_ge st.arrived st'.arrived with hlt | hge
    · have hb : batches size st'.queue.length ≤ batches size (st.queue.length + 1) := batches_mono size (by omega)
      have := batches_succ size st.queue.length hs
      omega
    · have hb : batches size st'.queue.length ≤ batches size st.queue.length := batches_mono size (by omega)
      omega

/-- A step that leaves the worker where it is. -/
theorem inv_other (size : Nat) (hs : 0 < size) (st st' : State) (h : Inv size st) (hw : st'.worker = st.worker) (hsent : st'.sent = st.sent) (hdown : st.down = true → st'.down = true)
    (hq : st.queue.length ≤ st'.queue.length) (hd : st.down = true → st'.queue.length ≤ st.queue.length + (st'.arrived - st.arrived)) (ha : st.arrived ≤ st'.arrived)
    (ha' : st'.arrived ≤ st.arrived + 1) (hf : st'.flushed = st.flushed) (hdr : st'.drained = st.drained) : Inv size st' := by
  refine ⟨?_, by rw [hf]; exact h.flushed, by rw [hdr]; exact h.drained⟩
  have hwk := h.worker
  unfold WOk at hwk ⊢
  rw [hw]
  generalize st.worker = w at hwk
  split
  · obtain ⟨c, hc⟩ := hwk
    exact ⟨c, progress_more size hs st st' _ c 0 hc hsent hdown hq hd ha ha'⟩
  · obtain ⟨h1, h2, c, hc⟩ := hwk
    exact ⟨fun hm => by have := h1 hm; omega, h2, c, progress_more size hs st st' _ c _ hc hsent hdown hq hd ha ha'⟩
  · obtain ⟨c, hc⟩ := hwk
    exact ⟨c, sending_more size hs st st' _ c _ hc hsent hdown hq hd ha ha'⟩
  · obtain ⟨c, hc⟩ := hwk
    exact ⟨c, sending_more size hs st st' _ c _ hc hsent hdown hq hd ha ha'⟩
  · exact hdown hwk
  · trivial

theorem progress_mode (size : Nat) (st st' : State) (h1 : st'.sent = st.sent) (h2 : st'.queue = st.queue) : Progress size st' st.mode 0 0 := by
  unfold State.mode
  cases st.req with
  | none => trivial
  | some id => exact ⟨by rw [h1]; rfl, by simp, by omega, fun _ => rfl, by rw [h2]; omega⟩

theorem inv_worker (max size d : Nat) (hs : 0 < size) (st : State) (h : Inv size st) : Inv size (stepWorker max size d st) := by
  have hwk := h.worker
  unfold WOk at hwk
  unfold stepWorker
  cases hw : st.worker with
  | idle =>
    simp only
    split_ifs with h1 h2
    · exact ⟨h1, h.flushed, h.drained⟩
    · exact ⟨trivial, h.flushed, h.drained⟩
    · exact ⟨⟨0, progress_mode size st _ rfl rfl⟩, h.flushed, h.drained⟩
  | waiting =>
    simp only
    split_ifs with h1 h2
    · exact ⟨trivial, h.flushed, h.drained⟩
    · exact ⟨h2, h.flushed, h.drained⟩
    · exact ⟨⟨0, progress_mode size st _ rfl rfl⟩, h.flushed, h.drained⟩
  | start m =>
    rw [hw] at hwk
    obtain ⟨c, hc⟩ := hwk
    cases m with
    | cycle => exact ⟨⟨fun h => absurd rfl h, by simp, 0, trivial⟩, h.flushed, h.drained⟩
    | flush id n left begun =>
      simp only
      obtain ⟨h1, h2, h3, h4, h5⟩ := hc
      split_ifs with hq
      · refine ⟨trivial, ?_, h.drained⟩
        intro p hp
        rcases List.mem_append.1 hp with hp | hp
        · exact h.flushed p hp
        · rw [List.mem_singleton] at hp
          subst hp
          rw [hq] at h5
          simp only [List.length_nil] at h5
          constructor
          · intro hn
            have hn : 0 < n := hn
            have := h3 hn
            have : (c * size : Int) < n := by exact_mod_cast this
            push_cast at h2
            omega
          · intro hn
            have := h4 hn
            show st.sent.length - begun ≤ 1
            omega
      · refine ⟨⟨fun _ => ?_, by simp, c, h1, h2, h3, h4, by simpa using h5⟩, h.flushed, h.drained⟩
        have := List.length_pos_iff.2 hq
        show 0 < 0 + st.queue.length
        omega
    | drain ids n begun arrived =>
      simp only
      obtain ⟨h1, h2, h3, h4, h5⟩ := hc
      split_ifs with hq
      · refine ⟨trivial, h.flushed, ?_⟩
        intro n' c' a' he
        simp only [Option.some.injEq, Prod.mk.injEq] at he
        obtain ⟨rfl, rfl, rfl⟩ := he
        rw [hq] at h4 h5
        simp only [List.length_nil, Nat.add_zero] at h4 h5
        rw [batches_zero size hs] at h5
        have := batches_le size n c hs h4
        constructor <;> omega
      · refine ⟨⟨fun _ => ?_, by simp, c, h1, h2, h3, by simpa using h4, by simpa using h5⟩, h.flushed, h.drained⟩
        have := List.length_pos_iff.2 hq
        show 0 < 0 + st.queue.length
        omega
  | pop m batch =>
    rw [hw] at hwk
    obtain ⟨hpos, hle, c, hc⟩ := hwk
    have fin : (st.queue = [] ∨ ¬ batch.length < size) → Inv size { st with worker := .exporting m batch.length, sent := st.sent ++ [batch] } := by
      intro hend
      refine ⟨⟨c, ?_⟩, h.flushed, h.drained⟩
      cases m with
      | cycle => trivial
      | flush id n left begun =>
        obtain ⟨h1, h2, h3, h4, h5⟩ := hc
        refine ⟨by simp; omega, h2, h3, h4, hle, fun hlt => ?_, by show left - batch.length ≤ st.queue.length; omega⟩
        rcases hend with hq | hn
        · rw [hq] at h5; simpa using h5
        · omega
      | drain ids n begun arrived =>
        obtain ⟨h1, h2, h3, h4, h5⟩ := hc
        have hpos := hpos (by simp)
        refine ⟨by simp; omega, h2, h3, ?_, ?_⟩
        · show n ≤ (c + 1) * size + st.queue.length
          rw [Nat.add_mul, Nat.one_mul]; omega
        · show c + 1 + batches size st.queue.length ≤ batches size n + (st.arrived - arrived)
          rcases Nat.lt_or_ge batch.length size with hlt | hge
          · rcases hend with hq | hn
            · rw [hq] at h5 hpos ⊢
              simp only [List.length_nil, Nat.add_zero] at h5 hpos ⊢
              rw [batches_zero size hs]
              have := batches_pos size batch.length hs hpos
              omega
            · omega
          · have he : batch.length = size := by omega
            rw [he, batches_add size _ hs] at h5
            omega
    cases hq : st.queue with
    | nil => simp only; rw [← hq]; exact fin (.inl hq)
    | cons r q =>
      simp only
      split_ifs with hlt
      · refine ⟨⟨fun _ => by simp, by simp; omega, c, ?_⟩, h.flushed, h.drained⟩
        have hlen : (batch ++ [r]).length + q.length = batch.length + st.queue.length := by rw [hq]; simp; omega
        cases m with
        | cycle => trivial
        | flush id n left begun =>
          obtain ⟨h1, h2, h3, h4, h5⟩ := hc
          refine ⟨h1, h2, h3, h4, ?_⟩
          show left ≤ ((batch ++ [r]).length : Int) + (q.length : Int)
          omega
        | drain ids n begun arrived =>
          obtain ⟨h1, h2, h3, h4, h5⟩ := hc
          refine ⟨h1, h2, h3, ?_, ?_⟩
          · show n ≤ c * size + (batch ++ [r]).length + q.length
            omega
          · show c + batches size ((batch ++ [r]).length + q.length) ≤ _
            rw [hlen]; exact h5
      · have := fin (.inr hlt)
        rw [hq] at this
        exact this
  | exporting m n =>
    rw [hw] at hwk
    obtain ⟨c, hc⟩ := hwk
    refine ⟨⟨c, ?_⟩, h.flushed, h.drained⟩
    cases m <;> exact hc
  | logging m n k =>
    rw [hw] at hwk
    obtain ⟨c, hc⟩ := hwk
    cases k with
    | zero =>
      simp only
      unfold after
      cases m with
      | cycle => exact ⟨trivial, h.flushed, h.drained⟩
      | flush id n' left begun =>
        simp only
        obtain ⟨h1, h2, h3, h4, h5, h6, h7⟩ := hc
        split_ifs with hl
        · refine ⟨trivial, ?_, h.drained⟩
          intro p hp
          rcases List.mem_append.1 hp with hp | hp
          · exact h.flushed p hp
          · rw [List.mem_singleton] at hp
            subst hp
            have hcount : st.sent.length - begun = c + 1 := by omega
            constructor
            · intro hn
              have hn : 0 < n' := hn
              show st.sent.length - begun = batches size n'
              rw [hcount]
              symm
              apply batches_eq size n' (c + 1) hs _ _ (by omega)
              · have : (n' : Int) ≤ (c : Int) * size + size := by omega
                rw [Nat.add_mul, Nat.one_mul]
                exact_mod_cast this
              · rw [Nat.add_sub_cancel]; exact h3 hn
            · intro hn
              have := h4 hn
              show st.sent.length - begun ≤ 1
              omega
        · have hn : n = size := by
            rcases Nat.lt_or_ge n size with hlt | hge
            · have := h6 hlt; omega
            · omega
          refine ⟨⟨c + 1, by show begun + (c + 1) = st.sent.length; omega, ?_, ?_, ?_, by show left - (n : Int) ≤ ((0 : Nat) : Int) + (st.queue.length : Int); omega⟩, h.flushed, h.drained⟩
          · push_cast
            rw [h2, hn]
            ring
          · intro _
            have : ((c : Int) * size + size) < n' := by rw [hn] at hl; omega
            rw [Nat.add_mul, Nat.one_mul]
            exact_mod_cast this
          · intro h0
            have := h4 h0
            subst this
            simp only [h0] at h2
            omega
      | drain ids n' begun arrived =>
        obtain ⟨h1, h2, h3, h4, h5⟩ := hc
        exact ⟨⟨c + 1, by show begun + (c + 1) = st.sent.length; omega, h2, h3, by simpa using h4, by simpa using h5⟩, h.flushed, h.drained⟩
    | succ k =>
      simp only
      split_ifs with ho hd
      · refine ⟨⟨c, ?_⟩, h.flushed, h.drained⟩
        cases m <;> exact hc
      · have hl := length_push max st.queue .own
        refine ⟨⟨c, ?_⟩, h.flushed, h.drained⟩
        exact sending_more size hs st _ m c n hc rfl (fun h => h) hl.1 (fun h => absurd h hd) (le_refl _) (by show st.arrived ≤ st.arrived + 1; omega)
      · exact h
  | stop r =>
    rw [hw] at hwk
    refine ⟨⟨0, rfl, le_refl _, hwk, by simp, ?_⟩, h.flushed, h.drained⟩
    show 0 + batches size (0 + st.queue.length) ≤ batches size st.queue.length + _
    simp
  | gone => exact h

theorem inv_step (max size : Nat) (hs : 0 < size) (st : State) (e : Ev) (h : Inv size st) : Inv size (step max size st e) := by
  have leave : ∀ t r, Inv size (st.leave t r) := fun t r => inv_other size hs st _ h rfl rfl (fun h => h) (le_refl _) (fun _ => by simp [State.leave, State.goto]) (le_refl _) (by simp [State.leave, State.goto]) rfl rfl
  cases e with
  | arrive n =>
    have hl := length_push max st.queue (.app n)
    exact inv_other size hs st _ h rfl rfl (fun h => h) hl.1 (fun _ => by show (push max st.queue (.app n)).length ≤ st.queue.length + (st.arrived + 1 - st.arrived); omega)
      (by show st.arrived ≤ st.arrived + 1; omega) (le_refl _) rfl rfl
  | worker d => exact inv_worker max size d hs st h
  | flush t =>
    show Inv size (stepFlush t st)
    unfold stepFlush
    split
    · exact h
    · split
      · split_ifs
        · exact inv_other size hs st _ h rfl rfl (fun h => h) (le_refl _) (fun _ => by simp [State.goto]) (le_refl _) (by simp [State.goto]) rfl rfl
        · exact h
      · split_ifs
        · exact leave t true
        · split
          · exact inv_other size hs st _ h rfl rfl (fun h => h) (le_refl _) (fun _ => by simp [State.goto]) (le_refl _) (by simp [State.goto]) rfl rfl
          · exact inv_other size hs st _ h rfl rfl (fun h => h) (le_refl _) (fun _ => by simp [State.goto]) (le_refl _) (by simp [State.goto]) rfl rfl
      · split_ifs
        · exact leave t true
        · exact h
      · exact h
  | timeout t =>
    simp only [step]
    split
    · exact leave t false
    · exact h
  | shutdown => exact inv_other size hs st _ h rfl rfl (fun _ => rfl) (le_refl _) (fun _ => Nat.le_add_right _ _) (le_refl _) (Nat.le_add_right _ _) rfl rfl

theorem inv_run (max size : Nat) (hs : 0 < size) (sched : List Ev) : ∀ st, Inv size st → Inv size (run max size st sched) := by
  induction sched with
  | nil => intro st h; exact h
  | cons e l ih => intro st h; exact ih _ (inv_step max size hs st e h)

theorem inv_init (size : Nat) (held : List Bool) : Inv size (State.init held) := ⟨trivial, (fun p hp => by cases hp), fun n c a h => by cases h⟩

/-- **C100** A flush of `n` records makes exactly as many calls of `export` as they make batches, however many records the exporter and the processor log about these calls, and whatever
other threads log meanwhile: what is logged about a flush does not prolong it. -/
theorem C100_flush_exports (max size : Nat) (hs : 0 < size) (held : List Bool) (sched : List Ev) :
    ∀ p ∈ (run max size (State.init held) sched).flushed, (0 < p.1 → p.2 = batches size p.1) ∧ (p.1 = 0 → p.2 ≤ 1) :=
  (inv_run max size hs sched _ (inv_init size held)).flushed

/-- **C100** When the processor is shut down, the worker makes as many calls of `export` as the records in the queue make batches, and at most one more for every record of a thread that
was in `emit` already: what is logged about these calls is not exported. -/
theorem C100_drain_exports (max size : Nat) (hs : 0 < size) (held : List Bool) (sched : List Ev) (n c a : Nat) (h : (run max size (State.init held) sched).drained = some (n, c, a)) :
    batches size n ≤ c ∧ c ≤ batches size n + a := (inv_run max size hs sched _ (inv_init size held)).drained n c a h

/-! ## The queue -/

theorem push_bound {max : Nat} (hm : 0 < max) {q : List Rec} (r : Rec) (h : q.length ≤ max) : (push max q r).length ≤ max := by
  unfold push
  split_ifs <;> simp <;> omega

theorem bound_step {max : Nat} (hm : 0 < max) (size : Nat) (st : State) (e : Ev) (h : st.queue.length ≤ max) : (step max size st e).queue.length ≤ max := by
  cases e with
  | arrive n => exact push_bound hm _ h
  | worker d =>
    show (stepWorker max size d st).queue.length ≤ max
    unfold stepWorker
    split
    · split_ifs <;> exact h
    · split_ifs <;> exact h
    · exact h
    · split_ifs <;> exact h
    · split_ifs <;> exact h
    · split
      · exact h
      · rename_i hq
        rw [hq] at h
        split_ifs
        · simp at h ⊢; omega
        · show st.queue.length ≤ max; rw [hq]; exact h
    · exact h
    · unfold after; split <;> first | exact h | (split_ifs <;> exact h)
    · split_ifs
      · exact h
      · exact push_bound hm _ h
      · exact h
    · exact h
    · exact h
  | flush t =>
    show (stepFlush t st).queue.length ≤ max
    have hq : (stepFlush t st).queue = st.queue := by
      unfold stepFlush
      split
      · rfl
      · split
        · by_cases ho : st.owner = none
          · rw [if_pos ho]; rfl
          · rw [if_neg ho]
        · by_cases hd : st.down = true
          · rw [if_pos hd]; rfl
          · rw [if_neg hd]; split <;> rfl
        · rename_i n _
          by_cases hd : n ∈ st.set
          · rw [if_pos hd]; rfl
          · rw [if_neg hd]
        · rfl
    rw [hq]; exact h
  | timeout t =>
    show (match st.flushes[t]? with | some ⟨_, .waiting _⟩ => st.leave t false | _ => st).queue.length ≤ max
    split <;> exact h
  | shutdown => exact h

/-- **C100** Whatever is logged about exports, the queue never holds more than `max_queue_size` records; a record that arrives when there is room displaces none. -/
theorem C100_bounded (max size : Nat) (hm : 0 < max) (held : List Bool) (sched : List Ev) :
    (run max size (State.init held) sched).queue.length ≤ max ∧
    ∀ n, (run max size (State.init held) sched).queue.length < max →
      (run max size (State.init held) (sched ++ [.arrive n])).queue = (run max size (State.init held) sched).queue ++ [.app n] := by
  constructor
  · have : ∀ (l : List Ev) st, st.queue.length ≤ max → (run max size st l).queue.length ≤ max := by
      intro l
      induction l with
      | nil => exact fun _ h => h
      | cons e l ih => exact fun st h => ih _ (bound_step hm size st e h)
    exact this sched _ (by simp [State.init])
  · intro n hn
    unfold run at hn ⊢
    rw [List.foldl_append]
    show push max _ _ = _
    unfold push
    rw [if_pos hn]

/-! ## Requests -/

structure Open (st : State) : Prop where
  known : (∀ id ∈ st.set, id < st.reqs) ∧ (∀ id ∈ st.worker.answering, id < st.reqs) ∧ ∀ id, st.req = some id → id < st.reqs
  fresh : ∀ id, st.req = some id → id ∉ st.set ∧ id ∉ st.worker.answering

theorem answering_mode (st : State) : WPc.answering (.start st.mode) = st.req.toList := by
  unfold State.mode
  cases st.req <;> rfl

theorem open_worker (max size d : Nat) (st : State) (h : Open st) : Open (stepWorker max size d st) := by
  obtain ⟨⟨k1, k2, k3⟩, hf⟩ := h
  cases hw : st.worker with
  | idle =>
    rw [hw] at k2 hf
    simp only [stepWorker, hw]
    split_ifs
    · exact ⟨⟨k1, by simp [WPc.answering], k3⟩, fun id hid => ⟨(hf id hid).1, by simp [WPc.answering]⟩⟩
    · exact ⟨⟨k1, by simp [WPc.answering], k3⟩, fun id hid => ⟨(hf id hid).1, by simp [WPc.answering]⟩⟩
    · refine ⟨⟨k1, ?_, by simp⟩, by simp⟩
      rw [answering_mode]
      intro id hid
      exact k3 id (by simpa using hid)
  | waiting =>
    rw [hw] at k2 hf
    simp only [stepWorker, hw]
    split_ifs
    · refine ⟨⟨?_, by simp [WPc.answering], by simp⟩, by simp⟩
      intro id hid
      rcases List.mem_append.mp hid with hid | hid
      · exact k3 id (by simpa using hid)
      · exact k1 id hid
    · refine ⟨⟨k1, ?_, by simp⟩, by simp⟩
      intro id hid
      exact k3 id (by simpa [WPc.answering] using hid)
    · refine ⟨⟨k1, ?_, by simp⟩, by simp⟩
      rw [answering_mode]
      intro id hid
      exact k3 id (by simpa using hid)
  | start m =>
    rw [hw] at k2 hf
    cases m with
    | cycle =>
      simp only [stepWorker, hw]
      exact ⟨⟨k1, by simp [WPc.answering], k3⟩, fun id hid => ⟨(hf id hid).1, by simp [WPc.answering]⟩⟩
    | flush id n left begun =>
      simp only [stepWorker, hw]
      split_ifs
      · refine ⟨⟨?_, by simp [WPc.answering], k3⟩, fun i hi => ⟨?_, by simp [WPc.answering]⟩⟩
        · intro i hi
          rcases List.mem_cons.mp hi with rfl | hi
          · exact k2 _ (by simp [WPc.answering])
          · exact k1 i hi
        · intro hm
          rcases List.mem_cons.mp hm with rfl | hm
          · exact (hf _ hi).2 (by simp [WPc.answering])
          · exact (hf _ hi).1 hm
      · exact ⟨⟨k1, k2, k3⟩, hf⟩
    | drain ids n begun arrived =>
      simp only [stepWorker, hw]
      split_ifs
      · refine ⟨⟨?_, by simp [WPc.answering], k3⟩, fun i hi => ⟨?_, by simp [WPc.answering]⟩⟩
        · intro i hi
          rcases List.mem_append.mp hi with hi | hi
          · exact k2 _ hi
          · exact k1 i hi
        · intro hm
          rcases List.mem_append.mp hm with hm | hm
          · exact (hf _ hi).2 hm
          · exact (hf _ hi).1 hm
      · exact ⟨⟨k1, k2, k3⟩, hf⟩
  | pop m batch =>
    rw [hw] at k2 hf
    simp only [stepWorker, hw]
    split
    · exact ⟨⟨k1, k2, k3⟩, hf⟩
    · split_ifs
      · exact ⟨⟨k1, k2, k3⟩, hf⟩
      · exact ⟨⟨k1, k2, k3⟩, hf⟩
  | exporting m n =>
    rw [hw] at k2 hf
    simp only [stepWorker, hw]
    exact ⟨⟨k1, k2, k3⟩, hf⟩
  | logging m n k =>
    rw [hw] at k2 hf
    cases k with
    | zero =>
      simp only [stepWorker, hw]
      cases m with
      | cycle => exact ⟨⟨k1, by simp [after, WPc.answering], k3⟩, fun id hid => ⟨(hf id hid).1, by simp [after, WPc.answering]⟩⟩
      | flush id n' left begun =>
        simp only [after]
        split_ifs
        · refine ⟨⟨?_, by simp [WPc.answering], k3⟩, fun i hi => ⟨?_, by simp [WPc.answering]⟩⟩
          · intro i hi
            rcases List.mem_cons.mp hi with rfl | hi
            · exact k2 _ (by simp [WPc.answering])
            · exact k1 i hi
          · intro hm
            rcases List.mem_cons.mp hm with rfl | hm
            · exact (hf _ hi).2 (by simp [WPc.answering])
            · exact (hf _ hi).1 hm
        · exact ⟨⟨k1, k2, k3⟩, hf⟩
      | drain ids n' begun arrived => exact ⟨⟨k1, k2, k3⟩, hf⟩
    | succ k =>
      simp only [stepWorker, hw]
      by_cases ho : st.owner = none
      · rw [if_pos ho]
        exact ⟨⟨k1, k2, k3⟩, hf⟩
      · rw [if_neg ho]
        exact ⟨⟨k1, by rw [hw]; exact k2, k3⟩, by rw [hw]; exact hf⟩
  | stop r =>
    rw [hw] at k2 hf
    simp only [stepWorker, hw]
    refine ⟨⟨k1, ?_, by simp⟩, by simp⟩
    intro id hid
    rcases List.mem_append.mp (show id ∈ r.toList ++ st.req.toList from hid) with hid | hid
    · exact k2 id hid
    · exact k3 id (by simpa using hid)
  | gone =>
    simp only [stepWorker, hw]
    exact ⟨⟨k1, k2, k3⟩, hf⟩

theorem open_step (max size : Nat) (st : State) (e : Ev) (h : Open st) : Open (step max size st e) := by
  cases e with
  | arrive n => exact ⟨h.known, h.fresh⟩
  | worker d => exact open_worker max size d st h
  | shutdown => exact ⟨h.known, h.fresh⟩
  | timeout t =>
    simp only [step]
    split
    · exact ⟨h.known, h.fresh⟩
    · exact h
  | flush t =>
    simp only [step, stepFlush]
    split
    · exact h
    · split
      · split_ifs
        · exact ⟨h.known, h.fresh⟩
        · exact h
      · split_ifs
        · exact ⟨h.known, h.fresh⟩
        · split
          · exact ⟨h.known, h.fresh⟩
          · obtain ⟨⟨k1, k2, k3⟩, hf⟩ := h
            refine ⟨⟨fun id hid => Nat.lt_succ_of_lt (k1 id hid), fun id hid => Nat.lt_succ_of_lt (k2 id hid), ?_⟩, ?_⟩
            · rintro id hid
              cases hid
              exact Nat.lt_succ_self _
            · rintro id hid
              cases hid
              exact ⟨fun hm => Nat.lt_irrefl _ (k1 _ hm), fun hm => Nat.lt_irrefl _ (k2 _ hm)⟩
      · split_ifs
        · exact ⟨h.known, h.fresh⟩
        · exact h
      · exact h

/-- **C100** A call of `force_flush` never joins a request that is finished, or one for which the worker has already looked at the queue: it returns
because of work that begins after the call (or because of the time-out). -/
theorem C100_flush_joins (max size : Nat) (held : List Bool) (sched : List Ev) (t : Nat) (hd : (run max size (State.init held) sched).down = false)
    (ht : ((run max size (State.init held) sched).flushes[t]?).map (·.pc) = some .called) :
    ∃ id, ((step max size (run max size (State.init held) sched) (.flush t)).flushes[t]?).map (·.pc) = some (.waiting id) ∧
      id ∉ (run max size (State.init held) sched).set ∧ id ∉ (run max size (State.init held) sched).worker.answering := by
  have ho : Open (run max size (State.init held) sched) := by
    unfold run
    have : ∀ st, Open st → Open (sched.foldl (step max size) st) := by
      clear ht hd
      induction sched with
      | nil => exact fun st h => h
      | cons e l ih => exact fun st h => ih _ (open_step max size st e h)
    exact this _ ⟨⟨by simp [State.init], by simp [State.init, WPc.answering], by simp [State.init]⟩, by simp [State.init]⟩
  generalize run max size (State.init held) sched = st at *
  cases hf : st.flushes[t]? with
  | none => rw [hf] at ht; cases ht
  | some f =>
    rw [hf] at ht
    have hpc : f.pc = .called := by simpa using ht
    cases hr : st.req with
    | some id =>
      refine ⟨id, ?_, ho.fresh id hr⟩
      simp [step, stepFlush, hf, hpc, hd, hr, State.goto]
    | none =>
      refine ⟨st.reqs, ?_, fun hm => Nat.lt_irrefl _ (ho.known.1 _ hm), fun hm => Nat.lt_irrefl _ (ho.known.2.1 _ hm)⟩
      simp [step, stepFlush, hf, hpc, hd, hr, State.goto]

/-! ## No request is lost -/

/-- The end of the thread has begun: what the worker still does, it does for the last time. -/
def WPc.last : WPc → Bool
  | .start m | .pop m _ | .exporting m _ | .logging m _ _ => match m with
    | .drain .. => true
    | _ => false
  | .gone => true
  | _ => false

structure Kept (st : State) : Prop where
  waits : ∀ (t : Nat) f id, st.flushes[t]? = some f → f.pc = .waiting id → id ∈ st.set ∨ st.req = some id ∨ id ∈ st.worker.answering
  last : st.worker.last = true → st.req = none ∧ st.down = true
  stop : ∀ r, st.worker = .stop r → st.down = true

theorem kept_worker (max size d : Nat) (st : State) (h : Kept st) : Kept (stepWorker max size d st) := by
  obtain ⟨h1, h2, h3⟩ := h
  obtain ⟨queue, down, req, reqs, set, worker, flushes, owner, sent, arrived, flushed, drained⟩ := st
  simp only at h1 h2 h3
  cases worker with
  | idle =>
    simp only [stepWorker]
    split_ifs with a b
    · exact ⟨fun t f id hf hp => by simpa [WPc.answering] using h1 t f id hf hp, fun hl => by simp [WPc.last] at hl, fun _ _ => a⟩
    · exact ⟨h1, fun hl => by simp [WPc.last] at hl, fun r hr => by simp at hr⟩
    · refine ⟨fun t f id hf hp => ?_, fun hl => ?_, fun r hr => by simp at hr⟩
      · have := h1 t f id hf hp
        simp only [answering_mode]
        simpa [WPc.answering] using this
      · simp only [State.mode] at hl
        cases req <;> simp [WPc.last] at hl
  | waiting =>
    simp only [stepWorker]
    split_ifs with a b
    · refine ⟨fun t f id hf hp => ?_, fun hl => by simp [WPc.last] at hl, fun r hr => by simp at hr⟩
      have := h1 t f id hf hp
      simp [WPc.answering] at this ⊢
      tauto
    · refine ⟨fun t f id hf hp => ?_, fun hl => by simp [WPc.last] at hl, fun _ _ => b⟩
      have := h1 t f id hf hp
      simp [WPc.answering] at this ⊢
      tauto
    · refine ⟨fun t f id hf hp => ?_, fun hl => ?_, fun r hr => by simp at hr⟩
      · have := h1 t f id hf hp
        simp only [answering_mode]
        simpa [WPc.answering] using this
      · simp only [State.mode] at hl
        cases req <;> simp [WPc.last] at hl
  | start m =>
    cases m with
    | cycle => exact ⟨h1, fun hl => by simp [stepWorker, WPc.last] at hl, fun r hr => by simp [stepWorker] at hr⟩
    | flush id n left begun =>
      simp only [stepWorker]
      split_ifs with a
      · refine ⟨fun t f i hf hp => ?_, fun hl => by simp [WPc.last] at hl, fun r hr => by simp at hr⟩
        have := h1 t f i hf hp
        simp [WPc.answering] at this ⊢
        tauto
      · exact ⟨h1, fun hl => by simp [WPc.last] at hl, fun r hr => by simp at hr⟩
    | drain ids n begun arr =>
      simp only [stepWorker]
      split_ifs with a
      · refine ⟨fun t f i hf hp => ?_, fun _ => h2 rfl, fun r hr => by simp at hr⟩
        have := h1 t f i hf hp
        simp [WPc.answering] at this ⊢
        tauto
      · exact ⟨h1, fun _ => h2 rfl, fun r hr => by simp at hr⟩
  | pop m batch =>
    simp only [stepWorker]
    cases queue with
    | nil => exact ⟨h1, h2, fun r hr => by simp at hr⟩
    | cons x q =>
      simp only
      split_ifs
      · exact ⟨h1, h2, fun r hr => by simp at hr⟩
      · exact ⟨h1, h2, fun r hr => by simp at hr⟩
  | exporting m n => exact ⟨h1, h2, fun r hr => by simp [stepWorker] at hr⟩
  | logging m n k =>
    cases k with
    | zero =>
      simp only [stepWorker]
      cases m with
      | cycle => exact ⟨h1, fun hl => by simp [after, WPc.last] at hl, fun r hr => by simp [after] at hr⟩
      | flush id n' left begun =>
        simp only [after]
        split_ifs with a
        · refine ⟨fun t f i hf hp => ?_, fun hl => by simp [WPc.last] at hl, fun r hr => by simp at hr⟩
          have := h1 t f i hf hp
          simp [WPc.answering] at this ⊢
          tauto
        · exact ⟨h1, fun hl => by simp [WPc.last] at hl, fun r hr => by simp at hr⟩
      | drain ids n' begun arr => exact ⟨h1, h2, fun r hr => by simp [after] at hr⟩
    | succ k =>
      simp only [stepWorker]
      by_cases ho : owner = none
      · rw [if_pos ho]
        exact ⟨h1, h2, fun r hr => by simp at hr⟩
      · rw [if_neg ho]
        exact ⟨h1, h2, h3⟩
  | stop r =>
    refine ⟨fun t f i hf hp => ?_, fun _ => ⟨rfl, h3 r rfl⟩, fun r hr => by simp [stepWorker] at hr⟩
    have := h1 t f i hf hp
    simp [stepWorker, WPc.answering] at this ⊢
    tauto
  | gone => exact ⟨h1, h2, h3⟩

theorem goto_cases (st : State) (t u : Nat) (pc : FPc) (f : Flush) (h : (st.goto t pc).flushes[u]? = some f) : f.pc = pc ∨ st.flushes[u]? = some f := by
  simp only [State.goto, List.getElem?_modify] at h
  split_ifs at h with a
  · cases hu : st.flushes[u]? with
    | none => simp [hu] at h
    | some g => rw [hu] at h; cases h; exact .inl rfl
  · right
    simpa using h

theorem kept_step (max size : Nat) (st : State) (e : Ev) (h : Kept st) : Kept (step max size st e) := by
  cases e with
  | arrive n => exact ⟨h.waits, h.last, h.stop⟩
  | worker d => exact kept_worker max size d st h
  | shutdown => exact ⟨h.waits, fun hl => ⟨(h.last hl).1, rfl⟩, fun _ _ => rfl⟩
  | timeout t =>
    simp only [step]
    split
    · exact ⟨fun u f id hf hp => (goto_cases st t u _ f hf).elim (fun he => by rw [he] at hp; cases hp) fun hf => h.waits u f id hf hp, h.last, h.stop⟩
    · exact h
  | flush t =>
    simp only [step, stepFlush]
    split
    · exact h
    · split
      · split_ifs
        · exact ⟨fun u f id hf hp => (goto_cases st t u _ f hf).elim (fun he => by rw [he] at hp; cases hp) fun hf => h.waits u f id hf hp, h.last, h.stop⟩
        · exact h
      · split_ifs with hd
        · exact ⟨fun u f id hf hp => (goto_cases st t u _ f hf).elim (fun he => by rw [he] at hp; cases hp) fun hf => h.waits u f id hf hp, h.last, h.stop⟩
        · have nl : ¬ st.worker.last = true := fun hl => hd (h.last hl).2
          split
          · rename_i i hr
            exact ⟨fun u f id hf hp => (goto_cases st t u _ f hf).elim (fun he => by rw [he] at hp; cases hp; exact .inr (.inl hr)) fun hf => h.waits u f id hf hp,
              fun hl => absurd hl nl, h.stop⟩
          · rename_i hr
            refine ⟨fun u f id hf hp => (goto_cases st t u _ f hf).elim (fun he => by rw [he] at hp; cases hp; exact .inr (.inl rfl)) fun hf => ?_,
              fun hl => absurd hl nl, h.stop⟩
            rcases h.waits u f id hf hp with a | a | a
            · exact .inl a
            · rw [hr] at a; cases a
            · exact .inr (.inr a)
      · split_ifs
        · exact ⟨fun u f id hf hp => (goto_cases st t u _ f hf).elim (fun he => by rw [he] at hp; cases hp) fun hf => h.waits u f id hf hp, h.last, h.stop⟩
        · exact h
      · exact h

theorem kept_run (max size : Nat) (held : List Bool) (sched : List Ev) : Kept (run max size (State.init held) sched) := by
  unfold run
  have : ∀ st, Kept st → Kept (sched.foldl (step max size) st) := by
    induction sched with
    | nil => exact fun st h => h
    | cons e l ih => exact fun st h => ih _ (kept_step max size st e h)
  refine this _ ⟨fun t f id hf hp => ?_, fun hl => by simp [State.init, WPc.last] at hl, fun r hr => by simp [State.init] at hr⟩
  simp only [State.init, List.getElem?_map] at hf
  cases hh : held[t]? with
  | none => simp [hh] at hf
  | some b =>
    rw [hh] at hf
    cases hf
    cases b <;> simp at hp

/-- **C100** A request of `force_flush` is never lost: while a call waits, its request is set, or is pending, or the worker is working on it, before and after `shutdown`;
and when the thread has ended each call that still waits returns `True` with its next step (unless the time is over before). -/
theorem C100_flush_answered (max size : Nat) (held : List Bool) (sched : List Ev) (t id : Nat)
    (ht : ((run max size (State.init held) sched).flushes[t]?).map (·.pc) = some (.waiting id)) :
    (id ∈ (run max size (State.init held) sched).set ∨ (run max size (State.init held) sched).req = some id ∨ id ∈ (run max size (State.init held) sched).worker.answering) ∧
    ((run max size (State.init held) sched).worker = .gone →
      ((step max size (run max size (State.init held) sched) (.flush t)).flushes[t]?).map (·.pc) = some (.done true)) := by
  have hk := kept_run max size held sched
  generalize run max size (State.init held) sched = st at *
  cases hf : st.flushes[t]? with
  | none => rw [hf] at ht; cases ht
  | some f =>
    rw [hf] at ht
    have hpc : f.pc = .waiting id := by simpa using ht
    have hw := hk.waits t f id hf hpc
    refine ⟨hw, fun hg => ?_⟩
    have hs : id ∈ st.set := by
      rcases hw with a | a | a
      · exact a
      · rw [(hk.last (by rw [hg]; rfl)).1] at a; cases a
      · rw [hg] at a; simp [WPc.answering] at a
    simp [step, stepFlush, hf, hpc, hs, State.leave, State.goto]

/-- Two calls wait when the processor is shut down: one whose request the worker has taken, and one that is pending; both return when the thread is gone. -/
example : ∃ sched, let st := run 8 2 (State.init [false, false]) sched
    st.worker = .gone ∧ st.flushes.map (·.pc) = [.waiting 0, .waiting 1] ∧ st.down = true :=
  ⟨[.flush 0, .arrive 1, .worker 0, .flush 1, .shutdown] ++ List.replicate 20 (.worker 0), by decide +kernel⟩

/-! ## A flush that nobody holds up -/

/-- The mode of a busy worker. -/
def WPc.busy : WPc → Option Mode
  | .start m => some m
  | .pop m _ => some m
  | .exporting m _ => some m
  | .logging m _ _ => some m
  | _ => none

/-- Does the worker serve this request? -/
def Serves (w : WPc) (id : Nat) : Prop := ∃ n left begun, w.busy = some (.flush id n left begun)

instance (w : WPc) (id : Nat) : Decidable (Serves w id) :=
  match h : w.busy with
  | some (.flush id' n left begun) => if he : id' = id then isTrue ⟨n, left, begun, by rw [h, he]⟩ else isFalse fun ⟨_, _, _, h'⟩ => he (by rw [h] at h'; injection h' with h'; injection h')
  | some .cycle => isFalse fun ⟨_, _, _, h'⟩ => by rw [h] at h'; cases h'
  | some (.drain ..) => isFalse fun ⟨_, _, _, h'⟩ => by rw [h] at h'; cases h'
  | none => isFalse fun ⟨_, _, _, h'⟩ => by rw [h] at h'; cases h'

/-- Nobody shuts the processor down, and nobody calls `flush` with the handler's lock. -/
structure Free (st : State) : Prop where
  down : st.down = false
  owner : st.owner = none
  held : ∀ f ∈ st.flushes, f.pc ≠ .locking
  alive : (∃ r, st.worker = .stop r) ∨ st.worker = .gone ∨ (∃ ids n b a, st.worker.busy = some (.drain ids n b a)) → False

/-- What the records to be exported for a request are. -/
def Mode.todo : Mode → Nat
  | .flush _ _ left _ => left.toNat
  | _ => 0

/-- Whether the request is being served, the worker is at rest, or busy with something else. -/
def phase (w : WPc) (id : Nat) : Nat := if Serves w id then 0 else if w.busy = none then 1 else 2

theorem phase_serves {w : WPc} {id : Nat} (h : Serves w id) : phase w id = 0 := if_pos h

theorem phase_rest {w : WPc} {id : Nat} (h : w.busy = none) : phase w id = 1 := by
  unfold phase
  rw [if_neg (by rintro ⟨_, _, _, h'⟩; rw [h] at h'; cases h'), if_pos h]

theorem phase_else {w : WPc} {id : Nat} (hn : ¬ Serves w id) (h : w.busy ≠ none) : phase w id = 2 := by
  unfold phase
  rw [if_neg hn, if_neg h]

/-- How far the worker is. -/
def rank (size id : Nat) (w : WPc) : ℕ ×ₗ ℕ ×ₗ ℕ ×ₗ ℕ :=
  match w with
  | .start m => toLex (phase w id, toLex (m.todo, toLex (3, 0)))
  | .pop m batch => toLex (phase w id, toLex (m.todo, toLex (2, size - batch.length)))
  | .exporting m _ => toLex (phase w id, toLex (m.todo, toLex (1, 0)))
  | .logging m _ k => toLex (phase w id, toLex (m.todo, toLex (0, k)))
  | _ => toLex (phase w id, toLex (0, toLex (0, 0)))

theorem rank_phase (size id : Nat) (w w' : WPc) (h : phase w' id < phase w id) :
    rank size id w' < rank size id w := by
  have key : ∀ w : WPc, ∃ b, rank size id w = toLex (phase w id, b) := by
    intro w
    cases w <;> exact ⟨_, rfl⟩
  obtain ⟨b, hb⟩ := key w
  obtain ⟨b', hb'⟩ := key w'
  rw [hb, hb']
  exact Prod.Lex.toLex_lt_toLex.2 (.inl h)

theorem serves_congr {w w' : WPc} (h : w'.busy = w.busy) (id : Nat) : Serves w' id ↔ Serves w id := by unfold Serves; rw [h]

/-- A step of the worker serves the request or brings it nearer. -/
theorem nearer (max size d id : Nat) (hs : 0 < size) (st : State) (hi : Inv size st) (hf : Free st) (hp : st.req = some id ∨ Serves st.worker id) :
    id ∈ (stepWorker max size d st).set ∨
      (((stepWorker max size d st).req = some id ∨ Serves (stepWorker max size d st).worker id) ∧ rank size id (stepWorker max size d st).worker < rank size id st.worker) := by
  have hwk := hi.worker
  unfold WOk at hwk
  have same : ∀ (w w' : WPc) (m : Mode), w.busy = some m → w'.busy = some m →
      phase w' id = phase w id := by
    intro w w' m h1 h2
    unfold phase
    have := serves_congr (h2.trans h1.symm) id
    simp only [this, h1, h2]
  unfold stepWorker
  cases hw : st.worker with
  | idle =>
    have hr : st.req = some id := hp.resolve_right (by rw [hw]; rintro ⟨_, _, _, h⟩; cases h)
    simp only
    rw [if_neg (by rw [hf.down]; simp), if_neg (by rw [hr]; simp)]
    right
    have hm : st.mode = .flush id st.queue.length st.queue.length st.sent.length := by unfold State.mode; rw [hr]
    have hsv : Serves (.start st.mode) id := by rw [hm]; exact ⟨_, _, _, rfl⟩
    refine ⟨.inr hsv, rank_phase _ _ _ _ ?_⟩
    rw [phase_serves hsv, phase_rest rfl]
    omega
  | waiting =>
    have hr : st.req = some id := hp.resolve_right (by rw [hw]; rintro ⟨_, _, _, h⟩; cases h)
    simp only
    split_ifs with hq hd
    · left; rw [hr]; simp
    · rw [hf.down] at hd; cases hd
    · right
      have hm : st.mode = .flush id st.queue.length st.queue.length st.sent.length := by unfold State.mode; rw [hr]
      have hsv : Serves (.start st.mode) id := by rw [hm]; exact ⟨_, _, _, rfl⟩
      refine ⟨.inr hsv, rank_phase _ _ _ _ ?_⟩
      rw [phase_serves hsv, phase_rest rfl]
      omega
  | start m =>
    rw [hw] at hp
    cases m with
    | cycle =>
      right
      refine ⟨hp.imp_right (fun ⟨_, _, _, h⟩ => by cases h), ?_⟩
      unfold rank
      simp only
      rw [same (.start .cycle) (.pop .cycle []) .cycle rfl rfl]
      simp [Prod.Lex.toLex_lt_toLex]
    | flush id' n left begun =>
      simp only
      split_ifs with hq
      · by_cases he : id' = id
        · left; subst he; simp
        · right
          have hns : ¬ Serves (.start (.flush id' n left begun)) id := by rintro ⟨_, _, _, h⟩; injection h with h; injection h with h; exact he h
          refine ⟨.inl (hp.resolve_right hns), rank_phase _ _ _ _ ?_⟩
          rw [phase_rest rfl, phase_else hns (by simp [WPc.busy])]
          omega
      · right
        refine ⟨hp.imp_right fun h => (serves_congr rfl id).2 h, ?_⟩
        unfold rank
        simp only
        rw [same (.start (.flush id' n left begun)) (.pop (.flush id' n left begun) []) _ rfl rfl]
        simp [Prod.Lex.toLex_lt_toLex]
    | drain ids n b a => exact absurd (.inr (.inr ⟨ids, n, b, a, by rw [hw]; rfl⟩)) hf.alive
  | pop m batch =>
    rw [hw] at hp
    have fin : ∀ s : List (List Rec), ({ st with worker := .exporting m batch.length, sent := s } : State).req = some id ∨ Serves (.exporting m batch.length) id :=
      fun s => hp.imp_right fun h => (serves_congr rfl id).2 h
    have hrk : rank size id (.exporting m batch.length) < rank size id (.pop m batch) := by
      unfold rank
      simp only
      rw [same (.pop m batch) (.exporting m batch.length) m rfl rfl]
      simp [Prod.Lex.toLex_lt_toLex]
    cases hq : st.queue with
    | nil => exact .inr ⟨fin [], hrk⟩
    | cons r q =>
      simp only
      split_ifs with hlt
      · right
        refine ⟨hp.imp_right fun h => (serves_congr rfl id).2 h, ?_⟩
        unfold rank
        simp only
        rw [same (.pop m batch) (.pop m (batch ++ [r])) m rfl rfl]
        simp only [Prod.Lex.toLex_lt_toLex, lt_self_iff_false, false_or, true_and, List.length_append, List.length_singleton]
        omega
      · exact .inr ⟨fin [], hrk⟩
  | exporting m n =>
    rw [hw] at hp
    right
    refine ⟨hp.imp_right fun h => (serves_congr rfl id).2 h, ?_⟩
    unfold rank
    simp only
    rw [same (.exporting m n) (.logging m n d) m rfl rfl]
    simp [Prod.Lex.toLex_lt_toLex]
  | logging m n k =>
    rw [hw] at hp hwk
    obtain ⟨c, hc⟩ := hwk
    cases k with
    | succ k =>
      simp only
      rw [if_pos hf.owner]
      right
      refine ⟨hp.imp_right fun h => (serves_congr rfl id).2 h, ?_⟩
      unfold rank
      simp only
      rw [same (.logging m n (k + 1)) (.logging m n k) m rfl rfl]
      simp [Prod.Lex.toLex_lt_toLex]
    | zero =>
      simp only
      unfold after
      cases m with
      | cycle =>
        right
        refine ⟨.inl (hp.resolve_right (by rintro ⟨_, _, _, h⟩; cases h)), rank_phase _ _ _ _ ?_⟩
        rw [phase_rest rfl, phase_else (by rintro ⟨_, _, _, h⟩; cases h) (by simp [WPc.busy])]
        omega
      | flush id' n' left begun =>
        simp only
        obtain ⟨h1, h2, h3, h4, h5, h6, h7⟩ := hc
        split_ifs with hl
        · by_cases he : id' = id
          · left; subst he; simp
          · right
            have hns : ¬ Serves (.logging (.flush id' n' left begun) n 0) id := by rintro ⟨_, _, _, h⟩; injection h with h; injection h with h; exact he h
            refine ⟨.inl (hp.resolve_right hns), rank_phase _ _ _ _ ?_⟩
            rw [phase_rest rfl, phase_else hns (by simp [WPc.busy])]
            omega
        · have hn : n = size := by
            rcases Nat.lt_or_ge n size with hlt | hge
            · have := h6 hlt; omega
            · omega
          right
          have hsv : Serves (.start (.flush id' n' (left - n) begun)) id ↔ Serves (.logging (.flush id' n' left begun) n 0) id := by
            constructor
            · rintro ⟨_, _, _, h⟩; injection h with h; injection h with h; subst h; exact ⟨_, _, _, rfl⟩
            · rintro ⟨_, _, _, h⟩; injection h with h; injection h with h; subst h; exact ⟨_, _, _, rfl⟩
          refine ⟨hp.imp_right hsv.2, ?_⟩
          unfold rank
          refine Prod.Lex.toLex_lt_toLex.2 (.inr ⟨by unfold phase; simp only [hsv]; simp [WPc.busy], Prod.Lex.toLex_lt_toLex.2 (.inl ?_)⟩)
          show (left - n).toNat < left.toNat
          omega
      | drain ids n' b a => exact absurd (.inr (.inr ⟨ids, n', b, a, by rw [hw]; rfl⟩)) hf.alive
  | stop r => exact absurd (.inl ⟨r, hw⟩) hf.alive
  | gone => exact absurd (.inr (.inl hw)) hf.alive

theorem free_worker (max size d : Nat) (st : State) (h : Free st) : Free (stepWorker max size d st) := by
  have alive' : ∀ w : WPc, (∀ r, w ≠ .stop r) → w ≠ .gone → (∀ m, w.busy = some m → m = .cycle ∨ (∃ a b c e, m = .flush a b c e)) →
      ((∃ r, w = .stop r) ∨ w = .gone ∨ (∃ ids n b a, w.busy = some (.drain ids n b a)) → False) := by
    intro w h1 h2 h3 hc
    rcases hc with ⟨r, hr⟩ | hg | ⟨ids, n, b, a, hb⟩
    · exact h1 r hr
    · exact h2 hg
    · rcases h3 _ hb with h | ⟨_, _, _, _, h⟩ <;> cases h
  have hmode : st.mode = .cycle ∨ ∃ a b c e, st.mode = .flush a b c e := by
    unfold State.mode
    cases st.req with
    | none => exact .inl rfl
    | some id => exact .inr ⟨_, _, _, _, rfl⟩
  have hbusy : ∀ m, st.worker.busy = some m → m = .cycle ∨ (∃ a b c e, m = .flush a b c e) := by
    intro m hm
    cases m with
    | cycle => exact .inl rfl
    | flush a b c e => exact .inr ⟨_, _, _, _, rfl⟩
    | drain ids n b a => exact absurd (.inr (.inr ⟨ids, n, b, a, hm⟩)) h.alive
  unfold stepWorker
  cases hw : st.worker with
  | idle =>
    simp only
    rw [if_neg (by rw [h.down]; simp)]
    split_ifs
    · exact ⟨h.down, h.owner, h.held, alive' _ (by simp) (by simp) (by simp [WPc.busy])⟩
    · exact ⟨h.down, h.owner, h.held, alive' _ (by simp) (by simp) (by intro m hm; injection hm with hm; rw [← hm]; exact hmode)⟩
  | waiting =>
    simp only
    split_ifs with h1 h2
    · exact ⟨h.down, h.owner, h.held, alive' _ (by simp) (by simp) (by simp [WPc.busy])⟩
    · rw [h.down] at h2; cases h2
    · exact ⟨h.down, h.owner, h.held, alive' _ (by simp) (by simp) (by intro m hm; injection hm with hm; rw [← hm]; exact hmode)⟩
  | start m =>
    rw [hw] at hbusy
    have hm := hbusy m rfl
    cases m with
    | cycle => exact ⟨h.down, h.owner, h.held, alive' _ (by simp) (by simp) (by intro m' hm'; injection hm' with hm'; rw [← hm']; exact hm)⟩
    | flush a b c e =>
      simp only
      split_ifs
      · exact ⟨h.down, h.owner, h.held, alive' _ (by simp) (by simp) (by simp [WPc.busy])⟩
      · exact ⟨h.down, h.owner, h.held, alive' _ (by simp) (by simp) (by intro m' hm'; injection hm' with hm'; rw [← hm']; exact hm)⟩
    | drain ids n b a => rcases hm with h | ⟨_, _, _, _, h⟩ <;> cases h
  | pop m batch =>
    rw [hw] at hbusy
    have hm := hbusy m rfl
    cases hq : st.queue with
    | nil => exact ⟨h.down, h.owner, h.held, alive' _ (by simp) (by simp) (by intro m' hm'; injection hm' with hm'; rw [← hm']; exact hm)⟩
    | cons r q =>
      simp only
      split_ifs
      · exact ⟨h.down, h.owner, h.held, alive' _ (by simp) (by simp) (by intro m' hm'; injection hm' with hm'; rw [← hm']; exact hm)⟩
      · exact ⟨h.down, h.owner, h.held, alive' _ (by simp) (by simp) (by intro m' hm'; injection hm' with hm'; rw [← hm']; exact hm)⟩
  | exporting m n =>
    rw [hw] at hbusy
    have hm := hbusy m rfl
    exact ⟨h.down, h.owner, h.held, alive' _ (by simp) (by simp) (by intro m' hm'; injection hm' with hm'; rw [← hm']; exact hm)⟩
  | logging m n k =>
    rw [hw] at hbusy
    have hm := hbusy m rfl
    cases k with
    | zero =>
      simp only
      unfold after
      cases m with
      | cycle => exact ⟨h.down, h.owner, h.held, alive' _ (by simp) (by simp) (by simp [WPc.busy])⟩
      | flush a b c e =>
        simp only
        split_ifs
        · exact ⟨h.down, h.owner, h.held, alive' _ (by simp) (by simp) (by simp [WPc.busy])⟩
        · exact ⟨h.down, h.owner, h.held, alive' _ (by simp) (by simp) (by intro m' hm'; injection hm' with hm'; rw [← hm']; exact .inr ⟨_, _, _, _, rfl⟩)⟩
      | drain ids n b a => rcases hm with h | ⟨_, _, _, _, h⟩ <;> cases h
    | succ k =>
      simp only
      rw [if_pos h.owner]
      exact ⟨h.down, h.owner, h.held, alive' _ (by simp) (by simp) (by intro m' hm'; injection hm' with hm'; rw [← hm']; exact hm)⟩
  | stop r => exact absurd (.inl ⟨r, hw⟩) h.alive
  | gone => exact absurd (.inr (.inl hw)) h.alive

/-- Every flush that waits does so for a request that has been served, is to be taken or is being served. -/
def Waits (st : State) : Prop := ∀ (t : Nat) f id, st.flushes[t]? = some f → f.pc = .waiting id → id ∈ st.set ∨ st.req = some id ∨ Serves st.worker id

theorem set_mono (max size : Nat) (st : State) (e : Ev) (id : Nat) (h : id ∈ st.set) : id ∈ (step max size st e).set := by
  cases e with
  | arrive n => exact h
  | worker d =>
    show id ∈ (stepWorker max size d st).set
    unfold stepWorker
    cases st.worker with
    | idle => simp only; split_ifs <;> exact h
    | waiting => simp only; split_ifs <;> simp [h]
    | start m => cases m <;> simp only <;> (try split_ifs) <;> simp [h]
    | pop m b => cases st.queue <;> simp only <;> (try split_ifs) <;> exact h
    | exporting m n => exact h
    | logging m n k =>
      cases k with
      | zero => cases m <;> simp only [after] <;> (try split_ifs) <;> simp [h]
      | succ k => simp only; split_ifs <;> exact h
    | stop r => exact h
    | gone => exact h
  | flush t =>
    show id ∈ (stepFlush t st).set
    unfold stepFlush
    split
    · exact h
    · split
      · split_ifs <;> exact h
      · split_ifs
        · exact h
        · split <;> exact h
      · split_ifs <;> exact h
      · exact h
  | timeout t => simp only [step]; split <;> exact h
  | shutdown => exact h

theorem goto_get (st : State) (t u : Nat) (pc : FPc) (f : Flush) (h : (st.goto t pc).flushes[u]? = some f) : (u = t ∧ f.pc = pc) ∨ (u ≠ t ∧ st.flushes[u]? = some f) := by
  simp only [State.goto, List.getElem?_modify] at h
  by_cases hu : t = u
  · left
    refine ⟨hu.symm, ?_⟩
    cases hg : st.flushes[u]? with
    | none => rw [hg] at h; cases h
    | some g => rw [hg] at h; simp [hu] at h; rw [← h]
  · right
    refine ⟨fun e => hu e.symm, ?_⟩
    cases hg : st.flushes[u]? with
    | none => rw [hg] at h; cases h
    | some g => rw [hg] at h; simp [hu] at h; rw [h]

theorem free_goto (st : State) (h : Free st) (t : Nat) (pc : FPc) (hp : pc ≠ .locking) : ∀ f ∈ (st.goto t pc).flushes, f.pc ≠ .locking := by
  intro f hf
  obtain ⟨u, hu⟩ := List.mem_iff_getElem?.1 hf
  rcases goto_get st t u pc f hu with ⟨_, h'⟩ | ⟨_, h'⟩
  · rw [h']; exact hp
  · exact h.held f (List.mem_of_getElem? h')

/-- Steps of the others. -/
theorem others (max size : Nat) (st : State) (e : Ev) (hf : Free st) (hw : Waits st) (he : e ≠ .shutdown) (hnw : ∀ d, e ≠ .worker d) :
    Free (step max size st e) ∧ Waits (step max size st e) ∧ (step max size st e).worker = st.worker ∧ (∀ id, st.req = some id → (step max size st e).req = some id) := by
  have leave : ∀ t r, Free (st.leave t r) ∧ Waits (st.leave t r) := by
    intro t r
    refine ⟨⟨hf.down, ?_, free_goto st hf t _ (by simp), hf.alive⟩, ?_⟩
    · show (if st.owner = some t then none else st.owner) = none
      rw [hf.owner]; rfl
    · intro u f id hu hpc
      rcases goto_get st t u _ f hu with ⟨_, h'⟩ | ⟨_, h'⟩
      · rw [h'] at hpc; cases hpc
      · exact hw u f id h' hpc
  cases e with
  | arrive n => exact ⟨⟨hf.down, hf.owner, hf.held, hf.alive⟩, hw, rfl, fun _ h => h⟩
  | worker d => exact absurd rfl (hnw d)
  | flush t =>
    show Free (stepFlush t st) ∧ Waits (stepFlush t st) ∧ (stepFlush t st).worker = st.worker ∧ (∀ id, st.req = some id → (stepFlush t st).req = some id)
    unfold stepFlush
    split
    · exact ⟨hf, hw, rfl, fun _ h => h⟩
    · rename_i f hg
      split
      · rename_i hl
        exact absurd hl (hf.held f (List.mem_of_getElem? hg))
      · rw [if_neg (by rw [hf.down]; simp)]
        split
        · rename_i id hr
          refine ⟨⟨hf.down, hf.owner, free_goto st hf t _ (by simp), hf.alive⟩, ?_, rfl, fun _ h => h⟩
          intro u g id' hu hpc
          rcases goto_get st t u _ g hu with ⟨_, h'⟩ | ⟨_, h'⟩
          · rw [h'] at hpc; injection hpc with hpc; subst hpc; exact .inr (.inl hr)
          · exact hw u g id' h' hpc
        · rename_i hr
          refine ⟨⟨hf.down, hf.owner, free_goto st hf t _ (by simp), hf.alive⟩, ?_, rfl, fun id h => by rw [hr] at h; cases h⟩
          intro u g id' hu hpc
          rcases goto_get st t u _ g hu with ⟨_, h'⟩ | ⟨_, h'⟩
          · rw [h'] at hpc; injection hpc with hpc; subst hpc; exact .inr (.inl rfl)
          · rcases hw u g id' h' hpc with h | h | h
            · exact .inl h
            · rw [hr] at h; cases h
            · exact .inr (.inr h)
      · split_ifs
        · exact ⟨(leave t true).1, (leave t true).2, rfl, fun _ h => h⟩
        · exact ⟨hf, hw, rfl, fun _ h => h⟩
      · exact ⟨hf, hw, rfl, fun _ h => h⟩
  | timeout t =>
    simp only [step]
    split
    · exact ⟨(leave t false).1, (leave t false).2, rfl, fun _ h => h⟩
    · exact ⟨hf, hw, rfl, fun _ h => h⟩
  | shutdown => exact absurd rfl he

theorem worker_flushes (max size d : Nat) (st : State) : (stepWorker max size d st).flushes = st.flushes := by
  unfold stepWorker
  cases st.worker with
  | idle => simp only; split_ifs <;> rfl
  | waiting => simp only; split_ifs <;> rfl
  | start m => cases m <;> simp only <;> (try split_ifs) <;> rfl
  | pop m b => cases st.queue <;> simp only <;> (try split_ifs) <;> rfl
  | exporting m n => rfl
  | logging m n k =>
    cases k with
    | zero => cases m <;> simp only [after] <;> (try split_ifs) <;> rfl
    | succ k => simp only; split_ifs <;> rfl
  | stop r => rfl
  | gone => rfl

structure Good (size : Nat) (st : State) : Prop where
  inv : Inv size st
  free : Free st
  waits : Waits st

theorem good_step (max size : Nat) (hs : 0 < size) (st : State) (e : Ev) (h : Good size st) (he : e ≠ .shutdown) : Good size (step max size st e) := by
  refine ⟨inv_step max size hs st e h.inv, ?_, ?_⟩
  · by_cases hw : ∃ d, e = .worker d
    · obtain ⟨d, rfl⟩ := hw
      exact free_worker max size d st h.free
    · exact (others max size st e h.free h.waits he (fun d hd => hw ⟨d, hd⟩)).1
  · by_cases hw : ∃ d, e = .worker d
    · obtain ⟨d, rfl⟩ := hw
      intro t f id hf hpc
      have hf : (stepWorker max size d st).flushes[t]? = some f := hf
      rw [worker_flushes] at hf
      rcases h.waits t f id hf hpc with h' | h'
      · exact .inl (set_mono max size st (.worker d) id h')
      · rcases nearer max size d id hs st h.inv h.free h' with h'' | ⟨h'', _⟩
        · exact .inl h''
        · exact .inr h''
    · exact (others max size st e h.free h.waits he (fun d hd => hw ⟨d, hd⟩)).2.1

theorem at_succ (max size : Nat) (st : State) (σ : Nat → Ev) (k : Nat) : Feedback.at max size st σ (k + 1) = step max size (Feedback.at max size st σ k) (σ k) := by
  simp [Feedback.at, run, List.range_succ]

theorem good_init (size : Nat) (held : List Bool) (hh : ∀ h ∈ held, h = false) : Good size (State.init held) := by
  refine ⟨inv_init size held, ⟨rfl, rfl, ?_, ?_⟩, ?_⟩
  · intro f hf
    simp only [State.init, List.mem_map] at hf
    obtain ⟨b, hb, rfl⟩ := hf
    rw [hh b hb]; simp
  · rintro (⟨r, h⟩ | h | ⟨_, _, _, _, h⟩) <;> cases h
  · intro t f id hf hpc
    simp only [State.init, List.getElem?_map] at hf
    cases hg : held[t]? with
    | none => rw [hg] at hf; cases hf
    | some b => rw [hg] at hf; simp at hf; rw [← hf] at hpc; cases b <;> cases hpc

/-- The request is served in the end. -/
theorem served (max size : Nat) (hs : 0 < size) (st : State) (σ : Nat → Ev) (hσ : ∀ k, σ k ≠ .shutdown) (hw : ∀ k, ∃ j ≥ k, ∃ d, σ j = .worker d) (id : Nat)
    (hg : ∀ k, Good size (Feedback.at max size st σ k)) :
    ∀ (r : ℕ ×ₗ ℕ ×ₗ ℕ ×ₗ ℕ) (k : Nat), rank size id (Feedback.at max size st σ k).worker = r →
      (Feedback.at max size st σ k).req = some id ∨ Serves (Feedback.at max size st σ k).worker id → ∃ j ≥ k, id ∈ (Feedback.at max size st σ j).set := by
  intro r
  induction r using WellFoundedLT.induction with
  | ind r ih =>
    intro k hr hp
    obtain ⟨j, hj, d, hd⟩ := hw k
    -- the steps up to the first one of the worker
    have skip : ∀ n k, k + n = j → rank size id (Feedback.at max size st σ k).worker = r →
        ((Feedback.at max size st σ k).req = some id ∨ Serves (Feedback.at max size st σ k).worker id) → ∃ j' ≥ k, id ∈ (Feedback.at max size st σ j').set := by
      intro n
      induction n with
      | zero =>
        intro k hkj hr hp
        have hkj : k = j := hkj
        subst hkj
        have hn := nearer max size d id hs _ (hg k).inv (hg k).free hp
        have he : Feedback.at max size st σ (k + 1) = stepWorker max size d (Feedback.at max size st σ k) := by rw [at_succ, hd]; rfl
        rw [← he] at hn
        rcases hn with hn | ⟨hn, hlt⟩
        · exact ⟨k + 1, by omega, hn⟩
        · rw [hr] at hlt
          obtain ⟨j', hj', h⟩ := ih _ hlt (k + 1) rfl hn
          exact ⟨j', by omega, h⟩
      | succ n ihn =>
        intro k hkj hr hp
        by_cases hwk : ∃ d, σ k = .worker d
        · obtain ⟨d, hd⟩ := hwk
          have hn := nearer max size d id hs _ (hg k).inv (hg k).free hp
          have he : Feedback.at max size st σ (k + 1) = stepWorker max size d (Feedback.at max size st σ k) := by rw [at_succ, hd]; rfl
          rw [← he] at hn
          rcases hn with hn | ⟨hn, hlt⟩
          · exact ⟨k + 1, by omega, hn⟩
          · rw [hr] at hlt
            obtain ⟨j', hj', h⟩ := ih _ hlt (k + 1) rfl hn
            exact ⟨j', by omega, h⟩
        · obtain ⟨_, _, h3, h4⟩ := others max size _ (σ k) (hg k).free (hg k).waits (hσ k) (fun d hd => hwk ⟨d, hd⟩)
          rw [← at_succ] at h3 h4
          obtain ⟨j', hj', h⟩ := ihn (k + 1) (by omega) (by rw [h3]; exact hr) (by rw [h3]; exact hp.imp_left (h4 id))
          exact ⟨j', by omega, h⟩
    exact skip (j - k) k (by omega) hr hp

/-- **C100** A flush that is not made by `logging.shutdown` returns `True`, however often the exporter fails and however much is logged about it, if it is not cut short by its timeout and
the processor is not shut down meanwhile: in every endless schedule in which the worker and the flush get their turns. -/
theorem C100_flush_returns (max size : Nat) (hs : 0 < size) (held : List Bool) (hh : ∀ h ∈ held, h = false) (σ : Nat → Ev) (hσ : ∀ k, σ k ≠ .shutdown) (t : Nat) (ht : t < held.length)
    (hto : ∀ k, σ k ≠ .timeout t) (hw : ∀ k, ∃ j ≥ k, ∃ d, σ j = .worker d) (hft : ∀ k, ∃ j ≥ k, σ j = .flush t) :
    ∃ j, (Feedback.at max size (State.init held) σ j).flushes[t]? = some ⟨false, .done true⟩ := by
  have hg : ∀ k, Good size (Feedback.at max size (State.init held) σ k) := by
    intro k
    induction k with
    | zero => exact good_init size held hh
    | succ k ih => rw [at_succ]; exact good_step max size hs _ _ ih (hσ k)
  generalize hst : State.init held = st at hg ⊢
  -- what may become of the flush
  have stay : ∀ k f, (Feedback.at max size st σ k).flushes[t]? = some f → f.held = false → σ k ≠ .flush t → (Feedback.at max size st σ (k + 1)).flushes[t]? = some f := by
    intro k f hf _ hne
    rw [at_succ]
    generalize Feedback.at max size st σ k = s at hf
    have away : ∀ u pc, u ≠ t → (s.goto u pc).flushes[t]? = some f := by
      intro u pc hu
      simp only [State.goto, List.getElem?_modify, hf]
      simp [hu]
    cases he : σ k with
    | arrive n => exact hf
    | worker d => show (stepWorker max size d s).flushes[t]? = _; rw [worker_flushes]; exact hf
    | flush u =>
      have hu : u ≠ t := by rintro rfl; exact hne he
      show (stepFlush u s).flushes[t]? = some f
      unfold stepFlush
      split
      · exact hf
      · split
        · split_ifs
          · exact away u _ hu
          · exact hf
        · split_ifs
          · exact away u _ hu
          · split
            · exact away u _ hu
            · exact away u _ hu
        · split_ifs
          · exact away u _ hu
          · exact hf
        · exact hf
    | timeout u =>
      have hu : u ≠ t := by rintro rfl; exact hto k he
      simp only [step]
      split
      · exact away u _ hu
      · exact hf
    | shutdown => exact absurd he (hσ k)
  have wait : ∀ n k f, (Feedback.at max size st σ k).flushes[t]? = some f → f.held = false → (∀ i, k ≤ i → i < k + n → σ i ≠ .flush t) → (Feedback.at max size st σ (k + n)).flushes[t]? = some f := by
    intro n
    induction n with
    | zero => intro k f hf _ _; exact hf
    | succ n ih =>
      intro k f hf hheld hne
      have := stay k f hf hheld (hne k (le_refl _) (by omega))
      have h2 := ih (k + 1) f this hheld (fun i h1 h2 => hne i (by omega) (by omega))
      rw [show k + (n + 1) = k + 1 + n by omega]
      exact h2
  -- the next step of the flush
  have turn : ∀ k f, (Feedback.at max size st σ k).flushes[t]? = some f → f.held = false → ∃ j ≥ k, σ j = .flush t ∧ (Feedback.at max size st σ j).flushes[t]? = some f := by
    intro k f hf hheld
    have hex : ∃ n, σ (k + n) = .flush t := by
      obtain ⟨j, hj, h⟩ := hft k
      exact ⟨j - k, by rw [show k + (j - k) = j by omega]; exact h⟩
    classical
    refine ⟨k + Nat.find hex, by omega, Nat.find_spec hex, ?_⟩
    apply wait _ _ _ hf hheld
    intro i h1 h2 hc
    have := Nat.find_min' hex (m := i - k) (by rw [show k + (i - k) = i by omega]; exact hc)
    omega
  have mono : ∀ id n k, id ∈ (Feedback.at max size st σ k).set → id ∈ (Feedback.at max size st σ (k + n)).set := by
    intro id n
    induction n with
    | zero => intro k h; exact h
    | succ n ih => intro k h; rw [← Nat.add_assoc, at_succ]; exact set_mono _ _ _ _ _ (ih k h)
  have fin : ∀ k id, (Feedback.at max size st σ k).flushes[t]? = some ⟨false, .waiting id⟩ → ∃ j, (Feedback.at max size st σ j).flushes[t]? = some ⟨false, .done true⟩ := by
    intro k id hf
    have hserved : ∃ j ≥ k, id ∈ (Feedback.at max size st σ j).set := by
      rcases (hg k).waits t _ id hf rfl with h | h
      · exact ⟨k, le_refl _, h⟩
      · exact served max size hs st σ hσ hw id hg _ k rfl h
    obtain ⟨j, hj, hset⟩ := hserved
    -- at `j` the flush waits or has returned
    have hat : ∀ n, (Feedback.at max size st σ (k + n)).flushes[t]? = some ⟨false, .waiting id⟩ ∨ ∃ i, (Feedback.at max size st σ i).flushes[t]? = some ⟨false, .done true⟩ := by
      intro n
      induction n with
      | zero => exact .inl hf
      | succ n ih =>
        rcases ih with h | h
        · by_cases he : σ (k + n) = .flush t
          · rw [← Nat.add_assoc, at_succ, he]
            show (stepFlush t _).flushes[t]? = _ ∨ _
            unfold stepFlush
            rw [h]
            simp only
            split_ifs with hin
            · right
              refine ⟨k + n + 1, ?_⟩
              rw [at_succ, he]
              show (stepFlush t _).flushes[t]? = _
              unfold stepFlush
              rw [h]
              simp only [if_pos hin, State.leave, State.goto, List.getElem?_modify, h]
              simp
            · exact .inl h
          · left
            rw [← Nat.add_assoc]
            exact stay _ _ h rfl he
        · exact .inr h
    rcases hat (j - k) with h | h
    · rw [show k + (j - k) = j by omega] at h
      obtain ⟨j', hj', he, hf'⟩ := turn j _ h rfl
      refine ⟨j' + 1, ?_⟩
      have hset' : id ∈ (Feedback.at max size st σ j').set := by have := mono id (j' - j) j hset; rw [show j + (j' - j) = j' by omega] at this; exact this
      rw [at_succ, he]
      show (stepFlush t _).flushes[t]? = _
      unfold stepFlush
      rw [hf']
      simp only [if_pos hset', State.leave, State.goto, List.getElem?_modify, hf']
      simp
    · exact h
  have h0 : (Feedback.at max size st σ 0).flushes[t]? = some ⟨false, .called⟩ := by
    rw [← hst]
    show (State.init held).flushes[t]? = _
    simp only [State.init, List.getElem?_map]
    rw [List.getElem?_eq_getElem ht]
    have := hh held[t] (List.getElem_mem ht)
    simp [this]
  obtain ⟨j, _, he, hf⟩ := turn 0 _ h0 rfl
  have hstep : ∃ id, (Feedback.at max size st σ (j + 1)).flushes[t]? = some ⟨false, .waiting id⟩ := by
    rw [at_succ, he]
    show ∃ id, (stepFlush t _).flushes[t]? = _
    unfold stepFlush
    rw [hf]
    simp only [(hg j).free.down, Bool.false_eq_true, if_false]
    split
    · rename_i id _
      refine ⟨id, ?_⟩
      simp only [State.goto, List.getElem?_modify, hf]
      simp
    · refine ⟨(Feedback.at max size st σ j).reqs, ?_⟩
      simp only [State.goto, List.getElem?_modify, hf]
      simp
  obtain ⟨id, hid⟩ := hstep
  exact fin (j + 1) id hid

/-- The hypotheses of `C100_flush_returns` hold if the worker, whose exports fail, and the flush take turns. -/
example : (∀ h ∈ [false], h = false) ∧ (0 : Nat) < [false].length ∧ let σ : Nat → Ev := fun k => if k % 2 = 0 then .worker 1 else .flush 0
    (∀ k, σ k ≠ .shutdown) ∧ (∀ k, σ k ≠ .timeout 0) ∧ (∀ k, ∃ j ≥ k, ∃ d, σ j = .worker d) ∧ ∀ k, ∃ j ≥ k, σ j = .flush 0 := by
  refine ⟨by simp, by simp, ?_, ?_, ?_, ?_⟩
  · intro k; dsimp only; split_ifs <;> simp
  · intro k; dsimp only; split_ifs <;> simp
  · intro k; exact ⟨2 * k, by omega, 1, by simp⟩
  · intro k; exact ⟨2 * k + 1, by omega, by simp⟩

/-- Three records, batches of two, every call of `export` fails and is reported: two calls of `export`, as for three records, although the second batch has the report of the first; the report of the second stays in the queue. -/
example : let st := run 10 2 (State.init [false]) ([.arrive 0, .arrive 1, .flush 0, .arrive 2] ++ List.replicate 15 (.worker 1) ++ [.flush 0])
    st.flushed = [(3, 2)] ∧ st.flushes = [⟨false, .done true⟩] ∧ st.queue = [.own] := by decide +kernel

/-- The same at shutdown: the reports are not kept. -/
example : let st := run 10 2 (State.init []) ([.arrive 0, .arrive 1, .arrive 2, .shutdown] ++ List.replicate 20 (.worker 1))
    st.drained = some (3, 2, 0) ∧ st.queue = [] ∧ st.sent = [[.app 0, .app 1], [.app 2]] := by decide +kernel

/-! ## What goes wrong -/

/-- One turn of the worker. -/
theorem turn_of_worker (max size : Nat) (hm : 0 < max) (hs : 0 < size) (st : State) (r : Rec) (h1 : st.worker = .idle) (h2 : st.queue = [r]) (h3 : st.req = none) (h4 : st.down = false)
    (h5 : st.owner = none) : run max size st (List.replicate (if size = 1 then 7 else 8) (.worker 1)) = { st with queue := [.own], sent := st.sent ++ [[r]] } := by
  obtain ⟨q, dn, rq, n, set, w, fl, ow, se, ar, fd, dr⟩ := st
  simp only at h1 h2 h3 h4 h5
  subst h1 h2 h3 h4 h5
  by_cases he : size = 1
  · subst he
    simp [run, List.replicate, step, stepWorker, State.mode, after, push, hm]
  · have hlt : 1 < size := by omega
    simp [run, List.replicate, step, stepWorker, State.mode, after, push, hm, he, hlt, hs]

/-- **C100** (refutation) A single record is enough to keep a processor busy for ever, if every export fails: there is no end to the calls of `export`. -/
theorem C100_never_quiet_violated (max size : Nat) (hm : 0 < max) (hs : 0 < size) (n : Nat) :
    let st := run max size (State.init []) (.arrive 0 :: List.replicate (n * (if size = 1 then 7 else 8)) (.worker 1))
    st.sent.length = n ∧ st.queue.length = 1 := by
  have key : ∀ n (st : State) r, st.worker = .idle → st.queue = [r] → st.req = none → st.down = false → st.owner = none →
      (run max size st (List.replicate (n * (if size = 1 then 7 else 8)) (.worker 1))).sent.length = st.sent.length + n ∧
      (run max size st (List.replicate (n * (if size = 1 then 7 else 8)) (.worker 1))).queue.length = 1 := by
    intro n
    induction n with
    | zero => intro st r _ h2 _ _ _; simp [run, h2]
    | succ n ih =>
      intro st r h1 h2 h3 h4 h5
      have ht := turn_of_worker max size hm hs st r h1 h2 h3 h4 h5
      have hrep : List.replicate ((n + 1) * (if size = 1 then 7 else 8)) (Ev.worker 1) =
          List.replicate (if size = 1 then 7 else 8) (.worker 1) ++ List.replicate (n * (if size = 1 then 7 else 8)) (.worker 1) := by
        rw [List.replicate_append_replicate, Nat.add_mul, Nat.one_mul, Nat.add_comm]
      have hrun : run max size st (List.replicate ((n + 1) * (if size = 1 then 7 else 8)) (.worker 1)) =
          run max size { st with queue := [.own], sent := st.sent ++ [[r]] } (List.replicate (n * (if size = 1 then 7 else 8)) (.worker 1)) := by
        rw [hrep]
        unfold run
        rw [List.foldl_append]
        have : List.foldl (step max size) st (List.replicate (if size = 1 then 7 else 8) (.worker 1)) = { st with queue := [.own], sent := st.sent ++ [[r]] } := ht
        rw [this]
      rw [hrun]
      obtain ⟨ha, hb⟩ := ih { st with queue := [.own], sent := st.sent ++ [[r]] } .own h1 rfl h3 h4 h5
      refine ⟨?_, hb⟩
      rw [ha]
      simp
      omega
  intro st
  have := key n (step max size (State.init []) (.arrive 0)) (.app 0) rfl (by simp [step, State.init, push]) rfl rfl rfl
  obtain ⟨ha, hb⟩ := this
  refine ⟨?_, hb⟩
  have h0 : (step max size (State.init []) (.arrive 0)).sent.length = 0 := rfl
  rw [h0, Nat.zero_add] at ha
  exact ha

/-- A flush that holds the handler's lock while the worker wants to log. -/
def Stuck (t id : Nat) (st : State) : Prop :=
  st.owner = some t ∧ st.flushes[t]? = some ⟨true, .waiting id⟩ ∧ id ∉ st.set ∧ ∃ m s k, st.worker = .logging m s (k + 1)

theorem stuck_step (max size t id : Nat) (st : State) (e : Ev) (h : Stuck t id st) (he : e ≠ .timeout t) : Stuck t id (step max size st e) := by
  obtain ⟨h1, h2, h3, m, s, k, h4⟩ := h
  have away : ∀ u pc, u ≠ t → (st.goto u pc).flushes[t]? = some ⟨true, .waiting id⟩ := by
    intro u pc hu
    simp only [State.goto, List.getElem?_modify, h2]
    simp [hu]
  have leave : ∀ u r, u ≠ t → Stuck t id (st.leave u r) := by
    intro u r hu
    refine ⟨?_, away u _ hu, h3, m, s, k, h4⟩
    show (if st.owner = some u then none else st.owner) = some t
    rw [h1, if_neg]
    intro he; injection he with he; exact hu he.symm
  cases e with
  | arrive n => exact ⟨h1, h2, h3, m, s, k, h4⟩
  | worker d =>
    show Stuck t id (stepWorker max size d st)
    unfold stepWorker
    rw [h4]
    simp only
    rw [if_neg (by rw [h1]; simp)]
    exact ⟨h1, h2, h3, m, s, k, h4⟩
  | flush u =>
    show Stuck t id (stepFlush u st)
    unfold stepFlush
    by_cases hu : u = t
    · subst hu
      rw [h2]
      simp only
      rw [if_neg h3]
      exact ⟨h1, h2, h3, m, s, k, h4⟩
    · split
      · exact ⟨h1, h2, h3, m, s, k, h4⟩
      · split
        · rw [if_neg (by rw [h1]; simp)]
          exact ⟨h1, h2, h3, m, s, k, h4⟩
        · split_ifs
          · exact leave u true hu
          · split
            · exact ⟨h1, away u _ hu, h3, m, s, k, h4⟩
            · exact ⟨h1, away u _ hu, h3, m, s, k, h4⟩
        · split_ifs
          · exact leave u true hu
          · exact ⟨h1, h2, h3, m, s, k, h4⟩
        · exact ⟨h1, h2, h3, m, s, k, h4⟩
  | timeout u =>
    have hu : u ≠ t := by rintro rfl; exact he rfl
    simp only [step]
    split
    · exact leave u false hu
    · exact ⟨h1, h2, h3, m, s, k, h4⟩
  | shutdown => exact ⟨h1, h2, h3, m, s, k, h4⟩

/-- **C100** (refutation) `logging.shutdown()`, and so `logging.config.dictConfig()`, flushes the handler while it holds its lock. If an export fails then, the worker waits for the lock in
order to log that, and the flush for the worker: nothing but its timeout ends it, whatever else happens. -/
theorem C100_flush_deadlock_violated (max size : Nat) (hm : 0 < max) (hs : 0 < size) : ∃ before : List Ev, ∀ sched : List Ev, Ev.timeout 0 ∉ sched →
    (run max size (State.init [true]) (before ++ sched)).flushes[0]? = some ⟨true, .waiting 0⟩ ∧ (run max size (State.init [true]) (before ++ sched)).sent = [[.app 0]] := by
  refine ⟨[.arrive 0, .flush 0, .flush 0, .worker 1, .worker 1, .worker 1, .worker 1, .worker 1], fun sched hto => ?_⟩
  have hbase : run max size (State.init [true]) [.arrive 0, .flush 0, .flush 0, .worker 1, .worker 1, .worker 1, .worker 1, .worker 1] =
      ⟨[], false, none, 1, [], .logging (.flush 0 1 1 0) 1 1, [⟨true, .waiting 0⟩], some 0, [[.app 0]], 1, [], none⟩ := by
    simp [run, step, stepWorker, stepFlush, State.init, State.goto, State.mode, push, hm, hs, List.modify]
  have key : ∀ (l : List Ev) (st : State), Stuck 0 0 st → Ev.timeout 0 ∉ l → Stuck 0 0 (run max size st l) ∧ (run max size st l).sent = st.sent := by
    intro l
    induction l with
    | nil => intro st h _; exact ⟨h, rfl⟩
    | cons e l ih =>
      intro st h hn
      simp only [List.mem_cons, not_or] at hn
      have hstep := stuck_step max size 0 0 st e h (fun he => hn.1 he.symm)
      obtain ⟨ha, hb⟩ := ih _ hstep hn.2
      refine ⟨ha, hb.trans ?_⟩
      obtain ⟨h1, h2, h3, m, s, k, h4⟩ := h
      cases e with
      | arrive n => rfl
      | worker d =>
        show (stepWorker max size d st).sent = st.sent
        unfold stepWorker
        rw [h4]
        simp only
        rw [if_neg (by rw [h1]; simp)]
      | flush u =>
        show (stepFlush u st).sent = st.sent
        unfold stepFlush
        split
        · rfl
        · split
          · split_ifs <;> rfl
          · split_ifs
            · rfl
            · split <;> rfl
          · split_ifs <;> rfl
          · rfl
      | timeout u => simp only [step]; split <;> rfl
      | shutdown => rfl
  have hrun : run max size (State.init [true]) ([.arrive 0, .flush 0, .flush 0, .worker 1, .worker 1, .worker 1, .worker 1, .worker 1] ++ sched) =
      run max size (run max size (State.init [true]) [.arrive 0, .flush 0, .flush 0, .worker 1, .worker 1, .worker 1, .worker 1, .worker 1]) sched := by
    unfold run; rw [List.foldl_append]
  rw [hrun, hbase]
  obtain ⟨hst, hsent⟩ := key sched ⟨[], false, none, 1, [], .logging (.flush 0 1 1 0) 1 1, [⟨true, .waiting 0⟩], some 0, [[.app 0]], 1, [], none⟩ ⟨rfl, rfl, by simp, _, _, _, rfl⟩ hto
  exact ⟨hst.2.1, hsent⟩

end Feedback
end Otel
