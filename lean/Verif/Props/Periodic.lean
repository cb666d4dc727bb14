import Verif.Model.Periodic
import Mathlib.Data.List.Basic
/-!
# C52: the periodic reader
-/
namespace Otel
namespace Periodic
open scoped List

/-! ## Helpers -/

theorem getElem?_set_some {α : Type} {l : List α} {i j : Nat} {a b : α} (h : (l.set i a)[j]? = some b) :
    (j = i ∧ b = a) ∨ (j ≠ i ∧ l[j]? = some b) := by
  rw [List.getElem?_set] at h
  split at h
  · split at h
    · left; refine ⟨by omega, by simpa using h.symm⟩
    · simp at h
  · right; exact ⟨by omega, h⟩

theorem getElem?_append_some {α : Type} {l : List α} {j : Nat} {a b : α} (h : (l ++ [a])[j]? = some b) :
    (j = l.length ∧ b = a) ∨ l[j]? = some b := by
  rw [List.getElem?_append] at h
  split at h
  · right; exact h
  · left
    rw [List.getElem?_singleton] at h
    split at h
    · exact ⟨by omega, by simpa using h.symm⟩
    · simp at h

/-! ## Exports do not overlap -/

/-- Reading the log: who is exporting; `none` (outside) if two exports overlapped. -/
def scanStep : Option (Option Tid) → Ev → Option (Option Tid)
  | some none, .exportBegin t _ => some (some t)
  | some (some _), .exportBegin _ _ => none
  | some (some t), .exportEnd t' => if t = t' then some none else none
  | some none, .exportEnd _ => none
  | x, _ => x

/-- Reading the whole log. -/
def scan (l : List Ev) : Option (Option Tid) := l.foldl scanStep (some none)

/-- Locking invariant. -/
structure LockInv (s : St) : Prop where
  ticker : (∃ f v, s.ticker = some (.exporting f v)) ↔ s.lock = some .ticker
  user : ∀ (i : Nat) (u : User), s.users[i]? = some u → ((∃ v, u.pc = .fExporting v) ↔ s.lock = some (.user i))
  range : ∀ i, s.lock = some (.user i) → i < s.users.length
  log : scan s.log = some s.lock

theorem scan_append (l : List Ev) (e : Ev) : scan (l ++ [e]) = scanStep (scan l) e := by simp [scan]

theorem lockInv_init (b : Bool) : LockInv (init b) := by
  refine ⟨?_, ?_, ?_, rfl⟩
  · cases b <;> simp [init]
  · intro i u h; simp [init] at h
  · intro i h; simp [init] at h

theorem lockInv_tstep (s : St) (p : TPC) (c : CRes) (hp : s.ticker = some p) (h : LockInv s) : LockInv (tstep s p c) := by
  obtain ⟨h1, h2, h3, h4⟩ := h
  cases p with
  | wait =>
    have hl : s.lock ≠ some .ticker := by intro hl; obtain ⟨f, v, h⟩ := h1.2 hl; simp [hp] at h
    exact ⟨by simp [tstep, hl], h2, h3, h4⟩
  | collect f =>
    have hl : s.lock ≠ some .ticker := by intro hl; obtain ⟨f, v, h⟩ := h1.2 hl; simp [hp] at h
    have hs : scan (s.log ++ [.collected .ticker f s.recorded c]) = some s.lock := by rw [scan_append, h4]; cases s.lock <;> rfl
    cases c <;> refine ⟨?_, h2, h3, hs⟩ <;> cases f <;> simp [tstep, hl, after]
  | want f v =>
    have hl : s.lock ≠ some .ticker := by intro hl; obtain ⟨f, v, h⟩ := h1.2 hl; simp [hp] at h
    simp only [tstep]
    split
    · rename_i hn
      refine ⟨by simp, ?_, by simp, ?_⟩
      · intro i u hu
        have := h2 i u hu
        rw [hn] at this
        constructor
        · intro hx; exact absurd (this.1 hx) (by simp)
        · intro hx; simp at hx
      · show scan (s.log ++ [_]) = _
        rw [scan_append, h4, hn]; rfl
    · exact ⟨h1, h2, h3, h4⟩
  | exporting f v =>
    have hl : s.lock = some .ticker := h1.1 ⟨f, v, hp⟩
    refine ⟨?_, ?_, by simp [tstep], ?_⟩
    · cases f <;> simp [tstep, after]
    · intro i u hu
      have := h2 i u hu
      rw [hl] at this
      constructor
      · intro hx; exact absurd (this.1 hx) (by simp)
      · intro hx; simp [tstep] at hx
    · show scan (s.log ++ [_]) = _
      rw [scan_append, h4, hl]; rfl
  | finished => exact ⟨h1, h2, h3, h4⟩
  | dead => exact ⟨h1, h2, h3, h4⟩

/-- A user's step that neither takes nor frees the lock. -/
theorem lockInv_goto (s s' : St) (i : Nat) (u : User) (pc : UPC) (hu : s.users[i]? = some u) (h : LockInv s)
    (h1 : ∀ v, u.pc ≠ .fExporting v) (h2 : ∀ v, pc ≠ .fExporting v) (hus : s'.users = s.users.set i ⟨u.before, pc⟩)
    (ht : s'.ticker = s.ticker) (hl : s'.lock = s.lock) (hlog : scan s'.log = scan s.log) : LockInv s' := by
  obtain ⟨a1, a2, a3, a4⟩ := h
  refine ⟨by rw [ht, hl]; exact a1, ?_, ?_, by rw [hlog, hl]; exact a4⟩
  · intro j w hw
    rw [hus] at hw
    rw [hl]
    rcases getElem?_set_some hw with ⟨rfl, rfl⟩ | ⟨_, hw⟩
    · constructor
      · rintro ⟨v, hv⟩; exact absurd hv (h2 v)
      · intro hx; obtain ⟨v, hv⟩ := (a2 j u hu).2 hx; exact absurd hv (h1 v)
    · exact a2 j w hw
  · intro j hj
    rw [hl] at hj
    rw [hus, List.length_set]
    exact a3 j hj

theorem lockInv_ustep (s : St) (i : Nat) (u : User) (c : CRes) (late : Bool) (hu : s.users[i]? = some u) (h : LockInv s) :
    LockInv (ustep s i u c late) := by
  have hcoll : ∀ e : Ev, (∀ o, scanStep (some o) e = some o) → scan (s.log ++ [e]) = scan s.log := by
    intro e he; rw [scan_append, h.log, he]
  unfold ustep
  split
  · rename_i hpc
    cases c <;> exact lockInv_goto s _ i u _ hu h (by simp [hpc]) (by simp) rfl rfl rfl (hcoll _ (by intro o; cases o <;> rfl))
  · rename_i v hpc
    split
    · rename_i hn
      obtain ⟨a1, a2, a3, a4⟩ := h
      have hi : i < s.users.length := by
        by_contra hc
        rw [List.getElem?_eq_none (by omega)] at hu
        cases hu
      refine ⟨?_, ?_, ?_, ?_⟩
      · show (∃ f v, s.ticker = some (.exporting f v)) ↔ _
        rw [a1, hn]; simp
      · intro j w hw
        rcases getElem?_set_some (show (s.users.set i _)[j]? = some w from hw) with ⟨rfl, rfl⟩ | ⟨hne, hw⟩
        · simp
        · have := a2 j w hw
          rw [hn] at this
          constructor
          · intro hx; exact absurd (this.1 hx) (by simp)
          · intro hx
            simp only [goto, Option.some.injEq, Tid.user.injEq] at hx
            exact absurd hx.symm hne
      · intro j hj
        simp only [goto, Option.some.injEq, Tid.user.injEq, List.length_set] at hj ⊢
        omega
      · show scan (s.log ++ [_]) = _
        rw [scan_append, a4, hn]; rfl
    · exact h
  · rename_i v hpc
    have hl : s.lock = some (.user i) := (h.user i u hu).1 ⟨v, hpc⟩
    obtain ⟨a1, a2, a3, a4⟩ := h
    refine ⟨?_, ?_, by simp, ?_⟩
    · show (∃ f v, s.ticker = some (.exporting f v)) ↔ _
      rw [a1, hl]; simp
    · intro j w hw
      rcases getElem?_set_some (show (s.users.set i _)[j]? = some w from hw) with ⟨rfl, rfl⟩ | ⟨hne, hw⟩
      · simp
      · have := a2 j w hw
        rw [hl] at this
        constructor
        · intro hx
          have := this.1 hx
          simp only [Option.some.injEq, Tid.user.injEq] at this
          exact absurd this.symm hne
        · intro hx; simp at hx
    · show scan (s.log ++ [_]) = _
      rw [scan_append, a4, hl]; simp [scanStep]
  · rename_i hpc
    exact lockInv_goto s _ i u _ hu h (by simp [hpc]) (by simp) rfl rfl rfl (hcoll _ (by intro o; cases o <;> rfl))
  · rename_i hpc
    split
    · exact lockInv_goto s _ i u _ hu h (by simp [hpc]) (by simp) rfl rfl rfl rfl
    · exact lockInv_goto s _ i u _ hu h (by simp [hpc]) (by simp) rfl rfl rfl rfl
  · rename_i hpc
    exact lockInv_goto s _ i u _ hu h (by simp [hpc]) (by simp) rfl rfl rfl rfl
  · rename_i hpc
    split
    · exact lockInv_goto s _ i u _ hu h (by simp [hpc]) (by simp) rfl rfl rfl rfl
    · split
      · exact lockInv_goto s _ i u _ hu h (by simp [hpc]) (by simp) rfl rfl rfl rfl
      · exact h
  · rename_i l hpc
    exact lockInv_goto s _ i u _ hu h (by simp [hpc]) (by simp) rfl rfl rfl (hcoll _ (by intro o; cases o <;> rfl))
  all_goals exact h

theorem lockInv_call (s : St) (pc : UPC) (h : LockInv s) (hpc : ∀ v, pc ≠ .fExporting v) :
    LockInv { s with users := s.users ++ [⟨s.recorded, pc⟩] } := by
  obtain ⟨a1, a2, a3, a4⟩ := h
  refine ⟨a1, ?_, ?_, a4⟩
  · intro j w hw
    rcases getElem?_append_some (show (s.users ++ [_])[j]? = some w from hw) with ⟨rfl, rfl⟩ | hw
    · constructor
      · rintro ⟨v, hv⟩; exact absurd hv (hpc v)
      · intro hx; have := a3 _ hx; omega
    · exact a2 j w hw
  · intro j hj
    have := a3 j hj
    show j < (s.users ++ [_]).length
    rw [List.length_append]; omega

theorem lockInv_step (s : St) (a : Act) (h : LockInv s) : LockInv (step s a) := by
  cases a with
  | record => exact ⟨h.ticker, h.user, h.range, h.log⟩
  | callFlush => exact lockInv_call s .fCollect h (by simp)
  | callShutdown => exact lockInv_call s .sStart h (by simp)
  | ticker c =>
    simp only [step]
    split
    · exact h
    · rename_i p hp; exact lockInv_tstep s p c hp h
  | user i c late =>
    simp only [step]
    split
    · exact h
    · rename_i u hu; exact lockInv_ustep s i u c late hu h

theorem foldl_inv (P : St → Prop) (hstep : ∀ s a, P s → P (step s a)) (acts : List Act) (s : St) (h : P s) : P (acts.foldl step s) := by
  induction acts generalizing s with
  | nil => exact h
  | cons a l ih => exact ih _ (hstep s a h)

theorem lockInv_run (b : Bool) (acts : List Act) : LockInv (run b acts) :=
  foldl_inv LockInv lockInv_step acts _ (lockInv_init b)

theorem scan_none (l : List Ev) : l.foldl scanStep none = none := by
  induction l with
  | nil => rfl
  | cons e l ih => cases e <;> exact ih

theorem scan_open (t : Tid) (l : List Ev) (o : Option Tid) (hl : .exportEnd t ∉ l) (h : l.foldl scanStep (some (some t)) = some o) :
    o = some t ∧ ∀ t' v, .exportBegin t' v ∉ l := by
  induction l with
  | nil => simp at h; exact ⟨h.symm, by simp⟩
  | cons e l ih =>
    have hl' : .exportEnd t ∉ l := fun h => hl (List.mem_cons_of_mem _ h)
    rw [List.foldl_cons] at h
    cases e with
    | exportBegin t' v => simp [scanStep, scan_none] at h
    | exportEnd t' =>
      have : t ≠ t' := by rintro rfl; exact hl (by simp)
      simp [scanStep, this, scan_none] at h
    | collected => have := ih hl' h; exact ⟨this.1, by intro t' v hm; simp at hm; exact this.2 t' v hm⟩
    | exporterFlush => have := ih hl' h; exact ⟨this.1, by intro t' v hm; simp at hm; exact this.2 t' v hm⟩
    | exporterShutdown => have := ih hl' h; exact ⟨this.1, by intro t' v hm; simp at hm; exact this.2 t' v hm⟩

/-- **C52** The exporter is never called concurrently: however ticker, `force_flush` and `shutdown` interleave, between the beginnings of two
exports the first one has ended. -/
theorem C52_exclusive (thread : Bool) (acts : List Act) (pre mid post : List Ev) (t t' : Tid) (v v' : Nat)
    (h : (run thread acts).log = pre ++ .exportBegin t v :: (mid ++ .exportBegin t' v' :: post)) : .exportEnd t ∈ mid := by
  by_contra hmid
  have hs := (lockInv_run thread acts).log
  rw [h] at hs
  unfold scan at hs
  rw [List.foldl_append, List.foldl_cons, List.foldl_append, List.foldl_cons] at hs
  cases hp : pre.foldl scanStep (some none) with
  | none => rw [hp] at hs; simp [scanStep, scan_none] at hs
  | some o =>
    rw [hp] at hs
    cases o with
    | some x => simp [scanStep, scan_none] at hs
    | none =>
      simp only [scanStep] at hs
      cases hm : mid.foldl scanStep (some (some t)) with
      | none => rw [hm] at hs; simp [scanStep, scan_none] at hs
      | some o =>
        have := (scan_open t mid o hmid hm).1
        rw [hm, this] at hs
        simp [scanStep, scan_none] at hs

/-! ## The ticker and shutdown -/

/-- A shutdown call that passed `Once`. -/
def UPC.active : UPC → Bool
  | .sSet => true
  | .sJoin => true
  | .sExp _ => true
  | .sRet _ => true
  | _ => false

/-- The ticker has noticed the event. -/
def TPC.final : TPC → Bool
  | .collect f => f
  | .want f _ => f
  | .exporting f _ => f
  | .finished => true
  | _ => false

/-- What the final collection leaves in the log: the collection and, if it got data, its export. -/
def finalEvents (v : Nat) (c : CRes) : List Ev :=
  match c with
  | .data => [.collected .ticker true v .data, .exportBegin .ticker v, .exportEnd .ticker]
  | c => [.collected .ticker true v c]

structure Inv (s : St) : Prop where
  once : s.event = true → s.once = true
  before : ∀ u ∈ s.users, u.before ≤ s.recorded
  early : s.event = false → (∀ v c, Ev.collected .ticker true v c ∉ s.log) ∧ ∀ p, s.ticker = some p → p.final = false
  activeOnce : ∀ (i : Nat) (u : User), s.users[i]? = some u → u.pc.active = true → s.once = true ∧ (s.event = false ↔ u.pc = .sSet)
  unique : ∀ (i j : Nat) (u w : User), s.users[i]? = some u → s.users[j]? = some w → u.pc.active = true → w.pc.active = true → i = j
  covered : ∀ (i : Nat) (u : User), s.users[i]? = some u → u.pc.active = true → ∀ v c, Ev.collected .ticker true v c ∈ s.log → u.before ≤ v
  want : ∀ v, s.ticker = some (.want true v) → [Ev.collected .ticker true v .data] <+ s.log
  exporting : ∀ v, s.ticker = some (.exporting true v) → [Ev.collected .ticker true v .data, .exportBegin .ticker v] <+ s.log
  finished : s.ticker = some .finished → ∃ v c, c ≠ .other ∧ finalEvents v c <+ s.log
  deadBy : s.ticker = some .dead → ∃ f v, Ev.collected .ticker f v .other ∈ s.log
  over : ∀ (i : Nat) (u : User), s.users[i]? = some u → u.pc = .sExp false ∨ u.pc = .sRet false → s.tickerOver = true
  returned : ∀ (i : Nat) (u : User), s.users[i]? = some u → u.pc = .sRet false → s.ticker = some .finished →
    ∃ v c, c ≠ .other ∧ finalEvents v c ++ [.exporterShutdown i false] <+ s.log

theorem inv_init (b : Bool) : Inv (init b) := by
  cases b <;> constructor <;> simp [init, TPC.final]

theorem inv_record (s : St) (h : Inv s) : Inv { s with recorded := s.recorded + 1 } := by
  obtain ⟨a1, a2, a3, a4, a5, a6, a7, a8, a9, a10, a11, a12⟩ := h
  exact ⟨a1, fun u hu => Nat.le_succ_of_le (a2 u hu), a3, a4, a5, a6, a7, a8, a9, a10, a11, a12⟩

theorem inv_call (s : St) (pc : UPC) (h : Inv s) (hpc : pc.active = false) : Inv { s with users := s.users ++ [⟨s.recorded, pc⟩] } := by
  have hx : pc ≠ .sExp false ∧ pc ≠ .sRet false := by constructor <;> rintro rfl <;> simp [UPC.active] at hpc
  obtain ⟨a1, a2, a3, a4, a5, a6, a7, a8, a9, a10, a11, a12⟩ := h
  refine ⟨a1, ?_, a3, ?_, ?_, ?_, a7, a8, a9, a10, ?_, ?_⟩
  · intro u hu
    rcases List.mem_append.1 hu with hu | hu
    · exact a2 u hu
    · simp only [List.mem_singleton] at hu; subst hu; exact Nat.le_refl _
  · intro i u hu hact
    rcases getElem?_append_some (show (s.users ++ [_])[i]? = some u from hu) with ⟨rfl, rfl⟩ | hu
    · rw [hpc] at hact; cases hact
    · exact a4 i u hu hact
  · intro i j u w hu hw hau haw
    rcases getElem?_append_some (show (s.users ++ [_])[i]? = some u from hu) with ⟨rfl, rfl⟩ | hu
    · rw [hpc] at hau; cases hau
    · rcases getElem?_append_some (show (s.users ++ [_])[j]? = some w from hw) with ⟨rfl, rfl⟩ | hw
      · rw [hpc] at haw; cases haw
      · exact a5 i j u w hu hw hau haw
  · intro i u hu hact
    rcases getElem?_append_some (show (s.users ++ [_])[i]? = some u from hu) with ⟨rfl, rfl⟩ | hu
    · rw [hpc] at hact; cases hact
    · exact a6 i u hu hact
  · intro i u hu hact
    rcases getElem?_append_some (show (s.users ++ [_])[i]? = some u from hu) with ⟨rfl, rfl⟩ | hu
    · rcases hact with h | h; exact absurd h hx.1; exact absurd h hx.2
    · exact a11 i u hu hact
  · intro i u hu hact
    rcases getElem?_append_some (show (s.users ++ [_])[i]? = some u from hu) with ⟨rfl, rfl⟩ | hu
    · exact absurd hact hx.2
    · exact a12 i u hu hact

theorem sub_app {l m : List Ev} (e : Ev) (h : l <+ m) : l <+ m ++ [e] := h.trans (List.sublist_append_left m [e])

/-- The ticker is not over: no shutdown has got past `join` in time. -/
theorem inv_tstep (s : St) (p : TPC) (c : CRes) (hp : s.ticker = some p) (h : Inv s) : Inv (tstep s p c) := by
  have hnotover : p ≠ .finished → p ≠ .dead → ∀ (i : Nat) (u : User), s.users[i]? = some u → ¬ (u.pc = .sExp false ∨ u.pc = .sRet false) := by
    intro h1 h2 i u hu hx
    have := h.over i u hu hx
    unfold St.tickerOver at this
    rw [hp] at this
    cases p <;> simp_all
  obtain ⟨a1, a2, a3, a4, a5, a6, a7, a8, a9, a10, a11, a12⟩ := h
  cases p with
  | wait =>
    have hno := hnotover (by simp) (by simp)
    refine ⟨a1, a2, ?_, a4, a5, a6, by simp [tstep], by simp [tstep], by simp [tstep], by simp [tstep], ?_, ?_⟩
    · intro he
      refine ⟨(a3 he).1, ?_⟩
      intro p hp'
      simp only [tstep, Option.some.injEq] at hp'
      subst hp'
      exact he
    · intro i u hu hx; exact absurd hx (hno i u hu)
    · intro i u hu hx; exact absurd (Or.inr hx) (hno i u hu)
  | collect f =>
    have hno := hnotover (by simp) (by simp)
    have key : ∀ s' : St, s'.event = s.event → s'.once = s.once → s'.users = s.users → s'.recorded = s.recorded →
        s'.log = s.log ++ [.collected .ticker f s.recorded c] →
        (∀ q, s'.ticker = some q → (q.final = true → f = true)) →
        (∀ v, s'.ticker = some (.want true v) → f = true ∧ c = .data ∧ v = s.recorded) →
        (∀ v, s'.ticker ≠ some (.exporting true v)) →
        (s'.ticker = some .finished → f = true ∧ c ≠ .data ∧ c ≠ .other) →
        (s'.ticker = some .dead → c = .other) → Inv s' := by
      intro s' e1 e2 e3 e4 e5 h1 h2 h3 h4 h5
      constructor
      · rw [e1, e2]; exact a1
      · rw [e3, e4]; exact a2
      · rw [e1]
        intro he
        have hf : f = false := by have := (a3 he).2 _ hp; simpa [TPC.final] using this
        refine ⟨?_, ?_⟩
        · intro v c' hm
          rw [e5, List.mem_append, List.mem_singleton] at hm
          rcases hm with hm | hm
          · exact (a3 he).1 v c' hm
          · rw [hf] at hm; cases hm
        · intro q hq
          cases hqf : q.final with
          | false => rfl
          | true => have := h1 q hq hqf; rw [hf] at this; cases this
      · rw [e1, e2, e3]; exact a4
      · rw [e3]; exact a5
      · rw [e3]
        intro i u hu hact v c' hm
        rw [e5, List.mem_append, List.mem_singleton] at hm
        rcases hm with hm | hm
        · exact a6 i u hu hact v c' hm
        · injection hm with _ _ hv _
          rw [hv]
          exact a2 u (List.mem_of_getElem? hu)
      · intro v hv
        obtain ⟨rfl, rfl, rfl⟩ := h2 v hv
        rw [e5]
        exact List.sublist_append_right _ _
      · intro v hv; exact absurd hv (h3 v)
      · intro hfin
        obtain ⟨rfl, hc, hc'⟩ := h4 hfin
        refine ⟨s.recorded, c, hc', ?_⟩
        rw [e5]
        have : finalEvents s.recorded c = [.collected .ticker true s.recorded c] := by cases c <;> simp_all [finalEvents]
        rw [this]
        exact List.sublist_append_right _ _
      · intro hd
        have := h5 hd
        subst this
        exact ⟨f, s.recorded, by rw [e5]; simp⟩
      · rw [e3]; intro i u hu hx; exact absurd hx (hno i u hu)
      · rw [e3]; intro i u hu hx; exact absurd (Or.inr hx) (hno i u hu)
    have first : ∀ q : TPC, (tstep s (.collect f) c).ticker = some q → q.final = true → f = true := by
      intro q hq hqf
      cases f with
      | true => rfl
      | false => cases c <;> simp only [tstep, after, Option.some.injEq] at hq <;> subst hq <;> simp [TPC.final] at hqf
    refine key _ ?_ ?_ ?_ ?_ ?_ first ?_ ?_ ?_ ?_
    · cases c <;> rfl
    · cases c <;> rfl
    · cases c <;> rfl
    · cases c <;> rfl
    · cases c <;> rfl
    · clear * -
      intro v hv
      cases c <;> cases f <;> simp [tstep, after] at hv ⊢
      exact hv.symm
    · clear * -
      intro v hv
      cases c <;> cases f <;> simp [tstep, after] at hv
    · clear * -
      intro hv
      cases c <;> cases f <;> simp [tstep, after] at hv ⊢
    · clear * -
      intro hv
      cases c <;> cases f <;> simp [tstep, after] at hv ⊢
  | want f v =>
    have hno := hnotover (by simp) (by simp)
    simp only [tstep]
    split
    · refine ⟨a1, a2, ?_, a4, a5, ?_, by simp, ?_, by simp, by simp, ?_, ?_⟩
      · intro he
        refine ⟨?_, ?_⟩
        · intro v c' hm
          rw [List.mem_append, List.mem_singleton] at hm
          rcases hm with hm | hm
          · exact (a3 he).1 v c' hm
          · cases hm
        · intro q hq
          simp only [Option.some.injEq] at hq
          subst hq
          have := (a3 he).2 _ hp
          simpa [TPC.final] using this
      · intro i u hu hact v' c' hm
        rw [List.mem_append, List.mem_singleton] at hm
        rcases hm with hm | hm
        · exact a6 i u hu hact v' c' hm
        · cases hm
      · intro v' hv'
        simp only [Option.some.injEq, TPC.exporting.injEq] at hv'
        obtain ⟨rfl, rfl⟩ := hv'
        exact (List.Sublist.append (a7 _ hp) (List.Sublist.refl [Ev.exportBegin .ticker v]))
      · intro i u hu hx; exact absurd hx (hno i u hu)
      · intro i u hu hx; exact absurd (Or.inr hx) (hno i u hu)
    · exact ⟨a1, a2, a3, a4, a5, a6, a7, a8, a9, a10, a11, a12⟩
  | exporting f v =>
    have hno := hnotover (by simp) (by simp)
    refine ⟨a1, a2, ?_, a4, a5, ?_, ?_, ?_, ?_, ?_, ?_, ?_⟩
    · intro he
      have hf : f = false := by have := (a3 he).2 _ hp; simpa [TPC.final] using this
      refine ⟨?_, ?_⟩
      · intro v c' hm
        simp only [tstep, List.mem_append, List.mem_singleton] at hm
        rcases hm with hm | hm
        · exact (a3 he).1 v c' hm
        · cases hm
      · intro q hq
        simp only [tstep, Option.some.injEq, hf, after] at hq
        subst hq
        rfl
    · intro i u hu hact v' c' hm
      simp only [tstep, List.mem_append, List.mem_singleton] at hm
      rcases hm with hm | hm
      · exact a6 i u hu hact v' c' hm
      · cases hm
    · intro v' h; cases f <;> simp [tstep, after] at h
    · intro v' h; cases f <;> simp [tstep, after] at h
    · intro hfin
      cases f with
      | false => simp [tstep, after] at hfin
      | true =>
        refine ⟨v, .data, by simp, ?_⟩
        exact (List.Sublist.append (a8 _ hp) (List.Sublist.refl [Ev.exportEnd .ticker]))
    · intro h; cases f <;> simp [tstep, after] at h
    · intro i u hu hx; exact absurd hx (hno i u hu)
    · intro i u hu hx; exact absurd (Or.inr hx) (hno i u hu)
  | finished => exact ⟨a1, a2, a3, a4, a5, a6, a7, a8, a9, a10, a11, a12⟩
  | dead => exact ⟨a1, a2, a3, a4, a5, a6, a7, a8, a9, a10, a11, a12⟩

/-- A user's step that stays inactive. -/
theorem inv_goto (s s' : St) (i : Nat) (u : User) (pc : UPC) (hu : s.users[i]? = some u) (h : Inv s)
    (h2 : pc.active = true → u.pc.active = true ∧ (s.event = false ↔ pc = .sSet))
    (h3 : pc = .sExp false → s.tickerOver = true) (h4 : pc ≠ .sRet false)
    (hus : s'.users = s.users.set i ⟨u.before, pc⟩) (ht : s'.ticker = s.ticker) (he : s'.event = s.event) (ho : s'.once = s.once)
    (hr : s'.recorded = s.recorded) (hlog : s'.log = s.log ∨ ∃ e, s'.log = s.log ++ [e] ∧ ∀ v c, e ≠ .collected .ticker true v c) :
    Inv s' := by
  obtain ⟨a1, a2, a3, a4, a5, a6, a7, a8, a9, a10, a11, a12⟩ := h
  have hsub : ∀ l, l <+ s.log → l <+ s'.log := by
    intro l hl
    rcases hlog with e | ⟨e, e', _⟩
    · rw [e]; exact hl
    · rw [e']; exact sub_app e hl
  have hcol : ∀ v c, Ev.collected .ticker true v c ∈ s'.log → Ev.collected .ticker true v c ∈ s.log := by
    intro v c hm
    rcases hlog with e | ⟨e, e', hne⟩
    · rw [e] at hm; exact hm
    · rw [e', List.mem_append, List.mem_singleton] at hm
      rcases hm with hm | hm
      · exact hm
      · exact absurd hm.symm (hne v c)
  have hact' : ∀ (j : Nat) (w : User), s'.users[j]? = some w → w.pc.active = true →
      ∃ w0, s.users[j]? = some w0 ∧ w0.pc.active = true ∧ w0.before = w.before := by
    intro j w hw hwa
    rw [hus] at hw
    rcases getElem?_set_some hw with ⟨rfl, rfl⟩ | ⟨_, hw⟩
    · exact ⟨u, hu, (h2 hwa).1, rfl⟩
    · exact ⟨w, hw, hwa, rfl⟩
  have hover : s'.tickerOver = s.tickerOver := by simp [St.tickerOver, ht]
  refine ⟨by rw [he, ho]; exact a1, ?_, ?_, ?_, ?_, ?_, ?_, ?_, ?_, ?_, ?_, ?_⟩
  · intro w hw
    rw [hus] at hw
    rw [hr]
    rcases List.mem_or_eq_of_mem_set hw with hw | rfl
    · exact a2 w hw
    · exact a2 u (List.mem_of_getElem? hu)
  · intro hev
    rw [he] at hev
    refine ⟨fun v c hm => (a3 hev).1 v c (hcol v c hm), ?_⟩
    rw [ht]; exact (a3 hev).2
  · intro j w hw hwa
    rw [ho, he]
    rw [hus] at hw
    rcases getElem?_set_some hw with ⟨rfl, rfl⟩ | ⟨_, hw⟩
    · exact ⟨(a4 j u hu (h2 hwa).1).1, (h2 hwa).2⟩
    · exact a4 j w hw hwa
  · intro j k w x hw hx hwa hxa
    obtain ⟨w0, h01, h02, _⟩ := hact' j w hw hwa
    obtain ⟨x0, h11, h12, _⟩ := hact' k x hx hxa
    exact a5 j k w0 x0 h01 h11 h02 h12
  · intro j w hw hwa v c hm
    obtain ⟨w0, h01, h02, h03⟩ := hact' j w hw hwa
    rw [← h03]
    exact a6 j w0 h01 h02 v c (hcol v c hm)
  · intro v hv; rw [ht] at hv; exact hsub _ (a7 v hv)
  · intro v hv; rw [ht] at hv; exact hsub _ (a8 v hv)
  · intro hf; rw [ht] at hf; obtain ⟨v, c, hc, hl⟩ := a9 hf; exact ⟨v, c, hc, hsub _ hl⟩
  · intro hd; rw [ht] at hd; obtain ⟨f, v, hm⟩ := a10 hd
    refine ⟨f, v, ?_⟩
    have := hsub [_] (List.singleton_sublist.2 hm)
    exact List.singleton_sublist.1 this
  · intro j w hw hx
    rw [hover]
    rw [hus] at hw
    rcases getElem?_set_some hw with ⟨rfl, rfl⟩ | ⟨_, hw⟩
    · rcases hx with hx | hx
      · exact h3 hx
      · exact absurd hx h4
    · exact a11 j w hw hx
  · intro j w hw hx hf
    rw [ht] at hf
    rw [hus] at hw
    rcases getElem?_set_some hw with ⟨rfl, rfl⟩ | ⟨_, hw⟩
    · exact absurd hx h4
    · obtain ⟨v, c, hc, hl⟩ := a12 j w hw hx hf; exact ⟨v, c, hc, hsub _ hl⟩

theorem inv_ustep (s : St) (i : Nat) (u : User) (c : CRes) (late : Bool) (hu : s.users[i]? = some u) (h : Inv s) :
    Inv (ustep s i u c late) := by
  unfold ustep
  split
  · cases c <;>
    exact inv_goto s _ i u _ hu h (by simp [UPC.active]) (by simp) (by simp) rfl rfl rfl rfl rfl (.inr ⟨_, rfl, by simp⟩)
  · split
    · exact inv_goto s _ i u _ hu h (by simp [UPC.active]) (by simp) (by simp) rfl rfl rfl rfl rfl (.inr ⟨_, rfl, by simp⟩)
    · exact h
  · exact inv_goto s _ i u _ hu h (by simp [UPC.active]) (by simp) (by simp) rfl rfl rfl rfl rfl (.inr ⟨_, rfl, by simp⟩)
  · exact inv_goto s _ i u _ hu h (by simp [UPC.active]) (by simp) (by simp) rfl rfl rfl rfl rfl (.inr ⟨_, rfl, by simp⟩)
  · -- sStart
    rename_i hpc
    split
    · exact inv_goto s _ i u _ hu h (by simp [UPC.active]) (by simp) (by simp) rfl rfl rfl rfl rfl (.inl rfl)
    · rename_i hon
      have hon' : s.once = false := by simpa using hon
      obtain ⟨a1, a2, a3, a4, a5, a6, a7, a8, a9, a10, a11, a12⟩ := h
      have hev : s.event = false := by
        cases he : s.event with
        | false => rfl
        | true => have := a1 he; rw [hon'] at this; cases this
      have hnone : ∀ (j : Nat) (w : User), s.users[j]? = some w → w.pc.active = false := by
        intro j w hw
        cases hwa : w.pc.active with
        | false => rfl
        | true => have := (a4 j w hw hwa).1; rw [hon'] at this; cases this
      refine ⟨fun _ => rfl, ?_, a3, ?_, ?_, ?_, a7, a8, a9, a10, ?_, ?_⟩
      · intro w hw
        rcases List.mem_or_eq_of_mem_set (show w ∈ s.users.set i _ from hw) with hw | rfl
        · exact a2 w hw
        · exact a2 u (List.mem_of_getElem? hu)
      · intro j w hw hwa
        rcases getElem?_set_some (show (s.users.set i _)[j]? = some w from hw) with ⟨rfl, rfl⟩ | ⟨_, hw⟩
        · exact ⟨rfl, by simp [goto, hev]⟩
        · rw [hnone j w hw] at hwa; cases hwa
      · intro j k w x hw hx hwa hxa
        rcases getElem?_set_some (show (s.users.set i _)[j]? = some w from hw) with ⟨rfl, rfl⟩ | ⟨_, hw⟩
        · rcases getElem?_set_some (show (s.users.set j _)[k]? = some x from hx) with ⟨rfl, rfl⟩ | ⟨_, hx⟩
          · rfl
          · rw [hnone k x hx] at hxa; cases hxa
        · rw [hnone j w hw] at hwa; cases hwa
      · intro j w hw hwa v c' hm
        exact absurd hm ((a3 hev).1 v c')
      · intro j w hw hx
        rcases getElem?_set_some (show (s.users.set i _)[j]? = some w from hw) with ⟨rfl, rfl⟩ | ⟨_, hw⟩
        · simp at hx
        · exact a11 j w hw hx
      · intro j w hw hx
        rcases getElem?_set_some (show (s.users.set i _)[j]? = some w from hw) with ⟨rfl, rfl⟩ | ⟨_, hw⟩
        · simp at hx
        · exact a12 j w hw hx
  · -- sSet
    rename_i hpc
    obtain ⟨a1, a2, a3, a4, a5, a6, a7, a8, a9, a10, a11, a12⟩ := h
    have hua : u.pc.active = true := by rw [hpc]; rfl
    refine ⟨fun _ => (a4 i u hu hua).1, ?_, by simp, ?_, ?_, ?_, a7, a8, a9, a10, ?_, ?_⟩
    · intro w hw
      rcases List.mem_or_eq_of_mem_set (show w ∈ s.users.set i _ from hw) with hw | rfl
      · exact a2 w hw
      · exact a2 u (List.mem_of_getElem? hu)
    · intro j w hw hwa
      rcases getElem?_set_some (show (s.users.set i _)[j]? = some w from hw) with ⟨rfl, rfl⟩ | ⟨hne, hw⟩
      · exact ⟨(a4 j u hu hua).1, by simp⟩
      · exact absurd (a5 j i w u hw hu hwa hua) hne
    · intro j k w x hw hx hwa hxa
      rcases getElem?_set_some (show (s.users.set i _)[j]? = some w from hw) with ⟨rfl, rfl⟩ | ⟨hne, hw⟩
      · rcases getElem?_set_some (show (s.users.set j _)[k]? = some x from hx) with ⟨rfl, rfl⟩ | ⟨hne, hx⟩
        · rfl
        · exact a5 j k u x hu hx hua hxa
      · exact absurd (a5 j i w u hw hu hwa hua) hne
    · intro j w hw hwa v c' hm
      have hev := (a4 i u hu hua).2.2 hpc
      exact absurd hm ((a3 hev).1 v c')
    · intro j w hw hx
      rcases getElem?_set_some (show (s.users.set i _)[j]? = some w from hw) with ⟨rfl, rfl⟩ | ⟨_, hw⟩
      · simp at hx
      · exact a11 j w hw hx
    · intro j w hw hx
      rcases getElem?_set_some (show (s.users.set i _)[j]? = some w from hw) with ⟨rfl, rfl⟩ | ⟨_, hw⟩
      · simp at hx
      · exact a12 j w hw hx
  · -- sJoin
    rename_i hpc
    have hua : u.pc.active = true := by rw [hpc]; rfl
    have hev : ¬ s.event = false := by
      intro he; have := (h.activeOnce i u hu hua).2.1 he; rw [hpc] at this; cases this
    split
    · rename_i hov
      exact inv_goto s _ i u _ hu h (by simp [hua, hev]) (fun _ => hov) (by simp) rfl rfl rfl rfl rfl (.inl rfl)
    · split
      · exact inv_goto s _ i u _ hu h (by simp [hua, hev]) (by simp) (by simp) rfl rfl rfl rfl rfl (.inl rfl)
      · exact h
  · -- sExp
    rename_i l hpc
    have hua : u.pc.active = true := by rw [hpc]; rfl
    have hev : ¬ s.event = false := by
      intro he; have := (h.activeOnce i u hu hua).2.1 he; rw [hpc] at this; cases this
    cases l with
    | true => exact inv_goto s _ i u _ hu h (by simp [hua, hev]) (by simp) (by simp) rfl rfl rfl rfl rfl (.inr ⟨_, rfl, by simp⟩)
    | false =>
      have hov := h.over i u hu (.inl hpc)
      have hgen := h
      obtain ⟨a1, a2, a3, a4, a5, a6, a7, a8, a9, a10, a11, a12⟩ := h
      have hcol : ∀ v c, Ev.collected .ticker true v c ∈ s.log ++ [Ev.exporterShutdown i false] →
          Ev.collected .ticker true v c ∈ s.log := by
        intro v c hm
        rw [List.mem_append, List.mem_singleton] at hm
        rcases hm with hm | hm
        · exact hm
        · cases hm
      refine ⟨a1, ?_, ?_, ?_, ?_, ?_, ?_, ?_, ?_, ?_, ?_, ?_⟩
      · intro w hw
        rcases List.mem_or_eq_of_mem_set (show w ∈ s.users.set i _ from hw) with hw | rfl
        · exact a2 w hw
        · exact a2 u (List.mem_of_getElem? hu)
      · intro he; exact absurd he hev
      · intro j w hw hwa
        rcases getElem?_set_some (show (s.users.set i _)[j]? = some w from hw) with ⟨rfl, rfl⟩ | ⟨hne, hw⟩
        · exact ⟨(a4 j u hu hua).1, by simp [goto, hev]⟩
        · exact a4 j w hw hwa
      · intro j k w x hw hx hwa hxa
        rcases getElem?_set_some (show (s.users.set i _)[j]? = some w from hw) with ⟨rfl, rfl⟩ | ⟨hne, hw⟩
        · rcases getElem?_set_some (show (s.users.set j _)[k]? = some x from hx) with ⟨rfl, rfl⟩ | ⟨hne, hx⟩
          · rfl
          · exact a5 j k u x hu hx hua hxa
        · exact absurd (a5 j i w u hw hu hwa hua) hne
      · intro j w hw hwa v c' hm
        rcases getElem?_set_some (show (s.users.set i _)[j]? = some w from hw) with ⟨rfl, rfl⟩ | ⟨hne, hw⟩
        · exact a6 j u hu hua v c' (hcol v c' hm)
        · exact a6 j w hw hwa v c' (hcol v c' hm)
      · intro v hv; exact sub_app _ (a7 v hv)
      · intro v hv; exact sub_app _ (a8 v hv)
      · intro hf; obtain ⟨v, c, hc, hl⟩ := a9 hf; exact ⟨v, c, hc, sub_app _ hl⟩
      · intro hd; obtain ⟨f, v, hm⟩ := a10 hd; exact ⟨f, v, List.mem_append_left _ hm⟩
      · intro j w hw hx; exact hov
      · intro j w hw hx hf
        rcases getElem?_set_some (show (s.users.set i _)[j]? = some w from hw) with ⟨rfl, rfl⟩ | ⟨_, hw⟩
        · obtain ⟨v, c, hc, hl⟩ := a9 hf
          exact ⟨v, c, hc, List.Sublist.append hl (List.Sublist.refl _)⟩
        · obtain ⟨v, c, hc, hl⟩ := a12 j w hw hx hf; exact ⟨v, c, hc, sub_app _ hl⟩
  all_goals exact h

theorem inv_step (s : St) (a : Act) (h : Inv s) : Inv (step s a) := by
  cases a with
  | record => exact inv_record s h
  | callFlush => exact inv_call s .fCollect h rfl
  | callShutdown => exact inv_call s .sStart h rfl
  | ticker c =>
    simp only [step]
    split
    · exact h
    · rename_i p hp; exact inv_tstep s p c hp h
  | user i c late =>
    simp only [step]
    split
    · exact h
    · rename_i u hu; exact inv_ustep s i u c late hu h

theorem inv_run (b : Bool) (acts : List Act) : Inv (run b acts) := foldl_inv Inv inv_step acts _ (inv_init b)

theorem ticker_some (acts : List Act) : ∃ p, (run true acts).ticker = some p := by
  refine foldl_inv (fun s => ∃ p, s.ticker = some p) ?_ acts _ ⟨_, rfl⟩
  rintro s a ⟨p, hp⟩
  cases a with
  | record => exact ⟨p, hp⟩
  | callFlush => exact ⟨p, hp⟩
  | callShutdown => exact ⟨p, hp⟩
  | ticker c =>
    simp only [step, hp]
    cases p <;> cases c <;> simp [tstep] <;> (try split) <;> simp [hp]
  | user i c late =>
    refine ⟨p, ?_⟩
    rw [← hp]
    simp only [step]
    split
    · rfl
    · rename_i u hu
      unfold ustep
      split <;> (try cases c) <;> (try rfl) <;> (try split) <;> (try rfl) <;> (try split) <;> rfl

/-- **C52** When `shutdown` returns (its first call, with the thread joined in time, and the thread not killed by an exception), a last
collection that covers every measurement recorded before the `shutdown` call has been made; if it got data, the data were exported, and all
that happened before the exporter was shut down. -/
theorem C52_shutdown_flushes (acts : List Act) (i : Nat) (u : User) (hu : (run true acts).users[i]? = some u) (hr : u.pc = .sRet false)
    (hd : (run true acts).ticker ≠ some .dead) :
    ∃ v c, u.before ≤ v ∧ c ≠ .other ∧ finalEvents v c ++ [.exporterShutdown i false] <+ (run true acts).log := by
  have h := inv_run true acts
  have hov := h.over i u hu (.inr hr)
  obtain ⟨p, hp⟩ := ticker_some acts
  have hf : (run true acts).ticker = some .finished := by
    unfold St.tickerOver at hov
    rw [hp] at hov hd ⊢
    cases p <;> simp_all
  obtain ⟨v, c, hc, hl⟩ := h.returned i u hu hr hf
  refine ⟨v, c, ?_, hc, hl⟩
  refine h.covered i u hu (by rw [hr]; rfl) v c (hl.subset ?_)
  cases c <;> simp [finalEvents]

/-- **C52** The ticker thread ends early only if one of its collections raises something other than `MetricsTimeoutError`; … -/
theorem C52_dead_only_by_error (acts : List Act) (h : (run true acts).ticker = some .dead) :
    ∃ f v, Ev.collected .ticker f v .other ∈ (run true acts).log := (inv_run true acts).deadBy h

/-- **C52** … otherwise it goes on until `shutdown` is called. -/
theorem C52_keeps_going (acts : List Act) (hs : (run true acts).event = false)
    (he : ∀ f v, Ev.collected .ticker f v .other ∉ (run true acts).log) :
    ∃ p, (run true acts).ticker = some p ∧ p ≠ .dead ∧ p ≠ .finished := by
  obtain ⟨p, hp⟩ := ticker_some acts
  refine ⟨p, hp, ?_, ?_⟩
  · rintro rfl
    obtain ⟨f, v, hm⟩ := C52_dead_only_by_error acts hp
    exact he f v hm
  · rintro rfl
    have := ((inv_run true acts).early hs).2 _ hp
    simp [TPC.final] at this

/-- **C52** From wherever it is in its loop, unless another thread is exporting, the ticker's next steps lead to another collection,
whatever the previous exports and collections returned (short of other exceptions). -/
theorem C52_progress (acts : List Act) (p : TPC) (hp : (run true acts).ticker = some p) (h1 : p ≠ .dead) (h2 : p ≠ .finished)
    (hev : (run true acts).event = false) (hl : (run true acts).lock = none ∨ (run true acts).lock = some .ticker) (c : CRes) :
    ∃ n ≤ 4, ∃ v, (run true (acts ++ List.replicate n (.ticker c))).log.getLast? = some (.collected .ticker false v c) := by
  have hi := inv_run true acts
  have hlk := lockInv_run true acts
  have hf := (hi.early hev).2 p hp
  simp only [run, List.foldl_append] at *
  generalize acts.foldl step (init true) = s at *
  cases p with
  | dead => exact absurd rfl h1
  | finished => exact absurd rfl h2
  | wait =>
    refine ⟨2, by omega, s.recorded, ?_⟩
    cases c <;> simp [List.replicate, step, hp, tstep, hev]
  | collect f =>
    simp only [TPC.final] at hf
    subst hf
    refine ⟨1, by omega, s.recorded, ?_⟩
    cases c <;> simp [List.replicate, step, hp, tstep]
  | want f v =>
    simp only [TPC.final] at hf
    subst hf
    have hln : s.lock = none := by
      rcases hl with hl | hl
      · exact hl
      · obtain ⟨f, v, h⟩ := hlk.ticker.2 hl; rw [hp] at h; cases h
    refine ⟨4, by omega, s.recorded, ?_⟩
    cases c <;> simp [List.replicate, step, hp, tstep, hev, hln, after]
  | exporting f v =>
    simp only [TPC.final] at hf
    subst hf
    refine ⟨3, by omega, s.recorded, ?_⟩
    cases c <;> simp [List.replicate, step, hp, tstep, hev, after]

/-- **C52** Once `shutdown` has set the event, seven steps of the ticker, unless another thread is exporting, bring it to its end: the join of
`shutdown` returns. -/
theorem C52_ends (acts : List Act) (p : TPC) (hp : (run true acts).ticker = some p) (hev : (run true acts).event = true)
    (hl : (run true acts).lock = none ∨ (run true acts).lock = some .ticker) (c : CRes) :
    (run true (acts ++ List.replicate 7 (.ticker c))).tickerOver = true := by
  have hlk := lockInv_run true acts
  simp only [run, List.foldl_append] at *
  generalize acts.foldl step (init true) = s at *
  have hln : (∀ f v, p ≠ .exporting f v) → s.lock = none := by
    intro hne
    rcases hl with hl | hl
    · exact hl
    · obtain ⟨f, v, h⟩ := hlk.ticker.2 hl
      rw [hp] at h
      cases h
      exact absurd rfl (hne f v)
  cases p with
  | dead => simp [List.replicate, step, hp, tstep, St.tickerOver]
  | finished => simp [List.replicate, step, hp, tstep, St.tickerOver]
  | wait =>
    have hln := hln (by simp)
    cases c <;> simp [List.replicate, step, hp, tstep, hev, hln, after, St.tickerOver]
  | collect f =>
    have hln := hln (by simp)
    cases f <;> cases c <;> simp [List.replicate, step, hp, tstep, hev, hln, after, St.tickerOver]
  | want f v =>
    have hln := hln (by simp)
    cases f <;> cases c <;> simp [List.replicate, step, hp, tstep, hev, hln, after, St.tickerOver]
  | exporting f v =>
    cases f <;> cases c <;> simp [List.replicate, step, hp, tstep, hev, after, St.tickerOver]

/-- Something of the ticker in the log. -/
def isTicker : Ev → Bool
  | .collected .ticker _ _ _ => true
  | .exportBegin .ticker _ => true
  | .exportEnd .ticker => true
  | _ => false

/-- The exporter has been shut down after a join in time, and what followed. -/
def afterShut : List Ev → List Ev
  | [] => []
  | .exporterShutdown _ false :: l => l
  | _ :: l => afterShut l

theorem afterShut_append (l : List Ev) (e x : Ev) (h : x ∈ afterShut (l ++ [e])) :
    x ∈ afterShut l ∨ (x = e ∧ ∃ i, .exporterShutdown i false ∈ l) := by
  induction l with
  | nil =>
    cases e with
    | exporterShutdown i b => cases b <;> simp [afterShut] at h
    | _ => simp [afterShut] at h
  | cons y l ih =>
    have hrec : x ∈ afterShut (l ++ [e]) → x ∈ afterShut l ∨ (x = e ∧ ∃ i, .exporterShutdown i false ∈ y :: l) := by
      intro hx
      rcases ih hx with h | ⟨h, i, hi⟩
      · exact .inl h
      · exact .inr ⟨h, i, List.mem_cons_of_mem _ hi⟩
    cases y with
    | exporterShutdown i b =>
      cases b with
      | false =>
        simp only [List.cons_append, afterShut, List.mem_append, List.mem_singleton] at h ⊢
        rcases h with h | h
        · exact .inl h
        · exact .inr ⟨h, i, by simp⟩
      | true => exact hrec h
    | _ => exact hrec h

/-- **C52** After the exporter has been shut down (with the thread joined in time) the ticker thread neither collects nor exports. -/
theorem C52_quiet_after (thread : Bool) (acts : List Act) : ∀ e ∈ afterShut (run thread acts).log, isTicker e = false := by
  suffices h : (∀ e ∈ afterShut (run thread acts).log, isTicker e = false) ∧
      ((∃ i, .exporterShutdown i false ∈ (run thread acts).log) → (run thread acts).tickerOver = true) ∧ Inv (run thread acts) from h.1
  refine foldl_inv (fun s => (∀ e ∈ afterShut s.log, isTicker e = false) ∧
      ((∃ i, .exporterShutdown i false ∈ s.log) → s.tickerOver = true) ∧ Inv s) ?_ acts _ ⟨by simp [init, afterShut], by simp [init], inv_init _⟩
  rintro s a ⟨h1, h2, h3⟩
  refine ⟨?_, ?_, inv_step s a h3⟩
  · have app : ∀ e : Ev, (isTicker e = true → s.tickerOver = false) → ∀ x ∈ afterShut (s.log ++ [e]), isTicker x = false := by
      intro e he x hx
      rcases afterShut_append _ _ _ hx with hx | ⟨rfl, hex⟩
      · exact h1 x hx
      · cases hxt : isTicker x with
        | false => rfl
        | true => have := he hxt; rw [h2 hex] at this; cases this
    cases a with
    | record => exact h1
    | callFlush => exact h1
    | callShutdown => exact h1
    | ticker c =>
      simp only [step]
      split
      · exact h1
      · rename_i p hp
        cases p with
        | wait => exact h1
        | collect f => cases c <;> exact app _ (fun _ => by simp [St.tickerOver, hp])
        | want f v =>
          simp only [tstep]
          split
          · exact app _ (fun _ => by simp [St.tickerOver, hp])
          · exact h1
        | exporting f v => exact app _ (fun _ => by simp [St.tickerOver, hp])
        | finished => exact h1
        | dead => exact h1
    | user i c late =>
      simp only [step]
      split
      · exact h1
      · rename_i u hu
        unfold ustep
        split
        · cases c <;> exact app _ (by simp [isTicker])
        · split
          · exact app _ (by simp [isTicker])
          · exact h1
        · exact app _ (by simp [isTicker])
        · exact app _ (by simp [isTicker])
        · split <;> exact h1
        · exact h1
        · split
          · exact h1
          · split <;> exact h1
        · exact app _ (by simp [isTicker])
        all_goals exact h1
  · have stable : s.tickerOver = true → (step s a).tickerOver = true := by
      intro ho
      cases a with
      | record => exact ho
      | callFlush => exact ho
      | callShutdown => exact ho
      | ticker c =>
        simp only [step]
        split
        · exact ho
        · rename_i p hp
          unfold St.tickerOver at ho
          rw [hp] at ho
          cases p <;> simp at ho <;> simp [tstep, St.tickerOver, hp]
      | user i c late =>
        have : (step s (.user i c late)).ticker = s.ticker := by
          simp only [step]
          split
          · rfl
          · rename_i u hu
            unfold ustep
            split <;> (try cases c) <;> (try rfl) <;> (try split) <;> (try rfl) <;> (try split) <;> rfl
        unfold St.tickerOver at *
        rw [this]; exact ho
    have app : ∀ e : Ev, (∀ i, e ≠ .exporterShutdown i false) → (step s a).log = s.log ++ [e] →
        (∃ i, .exporterShutdown i false ∈ (step s a).log) → (step s a).tickerOver = true := by
      rintro e he hlog ⟨i, hi⟩
      rw [hlog, List.mem_append, List.mem_singleton] at hi
      rcases hi with hi | hi
      · exact stable (h2 ⟨i, hi⟩)
      · exact absurd hi.symm (he i)
    have same : (step s a).log = s.log → (∃ i, .exporterShutdown i false ∈ (step s a).log) → (step s a).tickerOver = true := by
      intro hlog hx; rw [hlog] at hx; exact stable (h2 hx)
    cases a with
    | record => exact same rfl
    | callFlush => exact same rfl
    | callShutdown => exact same rfl
    | ticker c =>
      cases hp : s.ticker with
      | none => exact same (by simp [step, hp])
      | some p =>
        cases p with
        | wait => exact same (by simp [step, hp, tstep])
        | collect f =>
          exact app (.collected .ticker f s.recorded c) (by simp) (by cases c <;> simp [step, hp, tstep])
        | want f v =>
          cases hl : s.lock with
          | none => exact app (.exportBegin .ticker v) (by simp) (by simp [step, hp, tstep, hl])
          | some t => exact same (by simp [step, hp, tstep, hl])
        | exporting f v => exact app (.exportEnd .ticker) (by simp) (by simp [step, hp, tstep])
        | finished => exact same (by simp [step, hp, tstep])
        | dead => exact same (by simp [step, hp, tstep])
    | user i c late =>
      cases hu : s.users[i]? with
      | none => exact same (by simp [step, hu])
      | some u =>
        cases hpc : u.pc with
        | fCollect => exact app (.collected (.user i) false s.recorded c) (by simp) (by cases c <;> simp [step, hu, ustep, hpc, goto])
        | fWant v =>
          cases hl : s.lock with
          | none => exact app (.exportBegin (.user i) v) (by simp) (by simp [step, hu, ustep, hpc, goto, hl])
          | some t => exact same (by simp [step, hu, ustep, hpc, hl])
        | fExporting v => exact app (.exportEnd (.user i)) (by simp) (by simp [step, hu, ustep, hpc, goto])
        | fFlush => exact app .exporterFlush (by simp) (by simp [step, hu, ustep, hpc, goto])
        | fRet => exact same (by simp [step, hu, ustep, hpc])
        | fRaised => exact same (by simp [step, hu, ustep, hpc])
        | sStart => exact same (by cases ho : s.once <;> simp [step, hu, ustep, hpc, goto, ho])
        | sSet => exact same (by simp [step, hu, ustep, hpc, goto])
        | sJoin => exact same (by cases ho : s.tickerOver <;> cases late <;> simp [step, hu, ustep, hpc, goto, ho])
        | sExp l =>
          intro _
          cases l with
          | true => exact app (.exporterShutdown i true) (by simp) (by simp [step, hu, ustep, hpc, goto]) ‹_›
          | false => exact stable (h3.over i u hu (.inl hpc))
        | sRet l => exact same (by simp [step, hu, ustep, hpc])
        | sRefused => exact same (by simp [step, hu, ustep, hpc])

/-- A shutdown of the exporter. -/
def isShut : Ev → Bool
  | .exporterShutdown _ _ => true
  | _ => false

/-- Not shut down, or shut down once, by a call that has returned. -/
def ShutOnce (s : St) : Prop :=
  s.log.filter isShut = [] ∨ ((s.log.filter isShut).length = 1 ∧ ∃ (j : Nat) (w : User) (l : Bool), s.users[j]? = some w ∧ w.pc = .sRet l)

theorem shutOnce_keep (s s' : St) (h : ShutOnce s) (hl : s'.log.filter isShut = s.log.filter isShut)
    (hu : ∀ (j : Nat) (w : User) (l : Bool), s.users[j]? = some w → w.pc = .sRet l → s'.users[j]? = some w) : ShutOnce s' := by
  rcases h with h | ⟨h, j, w, l, hw, hp⟩
  · exact .inl (by rw [hl, h])
  · exact .inr ⟨by rw [hl, h], j, w, l, hu j w l hw hp, hp⟩

theorem shutOnce_ustep (s : St) (i : Nat) (u : User) (c : CRes) (late : Bool) (hu : s.users[i]? = some u) (hi : Inv s) (h : ShutOnce s) :
    ShutOnce (ustep s i u c late) := by
  have hset : (∀ l, u.pc ≠ .sRet l) → ∀ pc (j : Nat) (w : User) (l : Bool), s.users[j]? = some w → w.pc = .sRet l →
      (s.users.set i ⟨u.before, pc⟩)[j]? = some w := by
    intro hne pc j w l hw hp
    rw [List.getElem?_set]
    split
    · rename_i hij
      subst hij
      rw [hu] at hw
      injection hw with hw
      subst hw
      exact absurd hp (hne l)
    · exact hw
  have hlog : ∀ e, isShut e = false → (s.log ++ [e]).filter isShut = s.log.filter isShut := by
    intro e he; simp [List.filter_append, he]
  unfold ustep
  split
  · rename_i hpc
    cases c <;> exact shutOnce_keep s _ h (hlog _ rfl) (hset (by simp [hpc]) _)
  · rename_i hpc
    split
    · exact shutOnce_keep s _ h (hlog _ rfl) (hset (by simp [hpc]) _)
    · exact h
  · rename_i hpc; exact shutOnce_keep s _ h (hlog _ rfl) (hset (by simp [hpc]) _)
  · rename_i hpc; exact shutOnce_keep s _ h (hlog _ rfl) (hset (by simp [hpc]) _)
  · rename_i hpc
    split
    · exact shutOnce_keep s _ h rfl (hset (by simp [hpc]) _)
    · exact shutOnce_keep s _ h rfl (hset (by simp [hpc]) _)
  · rename_i hpc; exact shutOnce_keep s _ h rfl (hset (by simp [hpc]) _)
  · rename_i hpc
    split
    · exact shutOnce_keep s _ h rfl (hset (by simp [hpc]) _)
    · split
      · exact shutOnce_keep s _ h rfl (hset (by simp [hpc]) _)
      · exact h
  · rename_i l hpc
    rcases h with h | ⟨_, j, w, l', hw, hp⟩
    · refine .inr ⟨?_, i, ⟨u.before, .sRet l⟩, l, ?_, rfl⟩
      · show ((s.log ++ [Ev.exporterShutdown i l]).filter isShut).length = 1
        rw [List.filter_append, h]; rfl
      · show (s.users.set i _)[i]? = _
        rw [List.getElem?_set]
        have : i < s.users.length := by
          by_contra hc
          rw [List.getElem?_eq_none (by omega)] at hu
          cases hu
        simp [this]
    · have hij := hi.unique i j u w hu hw (by rw [hpc]; rfl) (by rw [hp]; rfl)
      subst hij
      rw [hu] at hw
      injection hw with hw
      subst hw
      rw [hpc] at hp
      cases hp
  all_goals exact h

/-- **C52** The exporter is shut down at most once, however many calls of `shutdown` interleave. -/
theorem C52_exporter_shutdown_once (thread : Bool) (acts : List Act) : ((run thread acts).log.filter isShut).length ≤ 1 := by
  suffices h : ShutOnce (run thread acts) ∧ Inv (run thread acts) by
    rcases h.1 with h | ⟨h, _⟩
    · rw [h]; exact Nat.zero_le _
    · exact Nat.le_of_eq h
  refine foldl_inv (fun s => ShutOnce s ∧ Inv s) ?_ acts _ ⟨.inl rfl, inv_init _⟩
  rintro s a ⟨h, hi⟩
  refine ⟨?_, inv_step s a hi⟩
  have happ : ∀ (x : User) (j : Nat) (w : User) (l : Bool), s.users[j]? = some w → w.pc = .sRet l → (s.users ++ [x])[j]? = some w := by
    intro x j w l hw _
    rw [List.getElem?_append_left]
    · exact hw
    · by_contra hc
      rw [List.getElem?_eq_none (by omega)] at hw
      cases hw
  have hlog : ∀ e, isShut e = false → (s.log ++ [e]).filter isShut = s.log.filter isShut := by
    intro e he; simp [List.filter_append, he]
  cases a with
  | record => exact h
  | callFlush => exact shutOnce_keep s _ h rfl (happ _)
  | callShutdown => exact shutOnce_keep s _ h rfl (happ _)
  | ticker c =>
    simp only [step]
    split
    · exact h
    · rename_i p hp
      cases p with
      | wait => exact h
      | collect f => cases c <;> exact shutOnce_keep s _ h (hlog _ rfl) (fun _ _ _ hw _ => hw)
      | want f v =>
        simp only [tstep]
        split
        · exact shutOnce_keep s _ h (hlog _ rfl) (fun _ _ _ hw _ => hw)
        · exact h
      | exporting f v => exact shutOnce_keep s _ h (hlog _ rfl) (fun _ _ _ hw _ => hw)
      | finished => exact h
      | dead => exact h
  | user i c late =>
    simp only [step]
    split
    · exact h
    · rename_i u hu; exact shutOnce_ustep s i u c late hu hi h

/-! ## What is not guaranteed -/

/-- **C52** (refutation) An exception other than a time-out in one collection (for instance an attribute value that cannot be hashed,
C34, or a failed merge, C37) kills the thread: later measurements are never exported, not even by `shutdown`, which returns normally. -/
theorem C52_killed :
    let s := run true [.record, .ticker .data, .ticker .other, .record, .callShutdown, .user 0 .data false, .user 0 .data false,
      .user 0 .data false, .user 0 .data false]
    s.users = [⟨2, .sRet false⟩] ∧ s.log = [.collected .ticker false 1 .other, .exporterShutdown 0 false] := by decide

/-- **C52** (refutation) If the join times out, the exporter is shut down while the ticker is still to export. -/
theorem C52_late_join :
    let s := run true [.record, .ticker .data, .ticker .data, .callShutdown, .user 0 .data true, .user 0 .data true,
      .user 0 .data true, .user 0 .data true, .ticker .data, .ticker .data]
    s.log = [.collected .ticker false 1 .data, .exporterShutdown 0 true, .exportBegin .ticker 1, .exportEnd .ticker] := by decide

/-- **C52** (refutation) With an infinite interval there is no thread, and `shutdown` exports nothing. -/
theorem C52_no_thread :
    let s := run false [.record, .callShutdown, .user 0 .data false, .user 0 .data false, .user 0 .data false, .user 0 .data false]
    s.users = [⟨1, .sRet false⟩] ∧ s.log = [.exporterShutdown 0 false] := by decide

/-- A run meeting the hypotheses of `C52_shutdown_flushes`: one tick, a measurement, shutdown. -/
example :
    let s := run true [.record, .ticker .data, .ticker .data, .ticker .data, .ticker .data, .record, .callShutdown, .user 0 .data false,
      .user 0 .data false, .ticker .data, .ticker .data, .ticker .data, .ticker .data, .user 0 .data false, .user 0 .data false]
    s.users = [⟨2, .sRet false⟩] ∧ s.ticker = some .finished ∧
    s.log = [.collected .ticker false 1 .data, .exportBegin .ticker 1, .exportEnd .ticker, .collected .ticker true 2 .data,
      .exportBegin .ticker 2, .exportEnd .ticker, .exporterShutdown 0 false] := by decide

/-! ## `force_flush` -/

/-- What a `force_flush` does before it flushes the exporter: it collects the `v` measurements recorded so far and, if there is something to
export, exports them. -/
def flushEvents (i v : Nat) : CRes → List Ev
  | .data => [.collected (.user i) false v .data, .exportBegin (.user i) v, .exportEnd (.user i)]
  | c => [.collected (.user i) false v c]

/-- Where a `force_flush` stands, read off the log. -/
def FlushAt (s : St) (i : Nat) (u : User) : Prop :=
  u.before ≤ s.recorded ∧
  match u.pc with
  | .fWant v => u.before ≤ v ∧ [.collected (.user i) false v .data] <+ s.log
  | .fExporting v => u.before ≤ v ∧ [.collected (.user i) false v .data, .exportBegin (.user i) v] <+ s.log
  | .fFlush => ∃ v c, u.before ≤ v ∧ (c = .data ∨ c = .nothing) ∧ flushEvents i v c <+ s.log
  | .fRet => ∃ v c, u.before ≤ v ∧ (c = .data ∨ c = .nothing) ∧ flushEvents i v c ++ [.exporterFlush] <+ s.log
  | _ => True

theorem FlushAt.mono {s s' : St} {i : Nat} {u : User} (h : FlushAt s i u) (hr : s.recorded ≤ s'.recorded) (hl : s.log <+ s'.log) : FlushAt s' i u := by
  refine ⟨by have := h.1; omega, ?_⟩
  have h2 := h.2
  split at h2
  · exact ⟨h2.1, h2.2.trans hl⟩
  · exact ⟨h2.1, h2.2.trans hl⟩
  · obtain ⟨v, c, h1, h2, h3⟩ := h2; exact ⟨v, c, h1, h2, h3.trans hl⟩
  · obtain ⟨v, c, h1, h2, h3⟩ := h2; exact ⟨v, c, h1, h2, h3.trans hl⟩
  · trivial

theorem flushAt_run (thread : Bool) (acts : List Act) (i : Nat) (u : User) (hu : (run thread acts).users[i]? = some u) :
    FlushAt (run thread acts) i u := by
  refine foldl_inv (fun s => ∀ i u, s.users[i]? = some u → FlushAt s i u) ?_ acts (init thread) (by simp [init]) i u hu
  clear hu u i acts thread
  intro s a ih
  have same : ∀ (s' : St), s'.users = s.users → s.recorded ≤ s'.recorded → s.log <+ s'.log → ∀ i u, s'.users[i]? = some u → FlushAt s' i u := by
    intro s' e hr hl i u hu
    rw [e] at hu
    exact (ih i u hu).mono hr hl
  have app : ∀ (s' : St) (x : User), s'.users = s.users ++ [x] → s'.recorded = s.recorded → s'.log = s.log →
      (∀ i, FlushAt s' i x) → ∀ i u, s'.users[i]? = some u → FlushAt s' i u := by
    intro s' x e hr hl hx i u hu
    rw [e] at hu
    rcases Nat.lt_or_ge i s.users.length with hi | hi
    · rw [List.getElem?_append_left hi] at hu
      exact (ih i u hu).mono (by omega) (by rw [hl])
    · rw [List.getElem?_append_right hi] at hu
      have := List.mem_of_getElem? hu
      simp at this
      subst this
      exact hx i
  have upd : ∀ (s' : St) (j : Nat) (x y : User), s.users[j]? = some x → s'.users = s.users.set j y → s'.recorded = s.recorded → s.log <+ s'.log →
      FlushAt s' j y → ∀ i u, s'.users[i]? = some u → FlushAt s' i u := by
    intro s' j x y hj e hr hl hx i u hu
    rw [e, List.getElem?_set] at hu
    split at hu
    · rename_i hij
      subst hij
      split at hu
      · injection hu with hu; subst hu; exact hx
      · simp at hu
    · exact (ih i u hu).mono (by omega) hl
  cases a with
  | record => exact same _ rfl (Nat.le_succ _) (List.Sublist.refl _)
  | callFlush => exact app _ _ rfl rfl rfl (fun i => ⟨Nat.le_refl _, trivial⟩)
  | callShutdown => exact app _ _ rfl rfl rfl (fun i => ⟨Nat.le_refl _, trivial⟩)
  | ticker c =>
    simp only [step]
    cases s.ticker with
    | none => exact ih
    | some p =>
      cases p with
      | wait => exact same _ rfl (Nat.le_refl _) (List.Sublist.refl _)
      | collect f => cases c <;> exact same _ rfl (Nat.le_refl _) (List.sublist_append_left _ _)
      | want f v =>
        simp only [tstep]
        split
        · exact same _ rfl (Nat.le_refl _) (List.sublist_append_left _ _)
        · exact ih
      | exporting f v => exact same _ rfl (Nat.le_refl _) (List.sublist_append_left _ _)
      | finished => exact ih
      | dead => exact ih
  | user j c late =>
    simp only [step]
    cases hj : s.users[j]? with
    | none => exact ih
    | some x =>
      obtain ⟨hb, hp⟩ := ih j x hj
      have one : ∀ {l m : List Ev} {e : Ev}, l <+ m → l ++ [e] <+ m ++ [e] := fun h => h.append (List.Sublist.refl _)
      simp only [ustep]
      cases hpc : x.pc with
      | fCollect =>
        cases c with
        | data => exact upd _ j x _ hj rfl rfl (List.sublist_append_left _ _) ⟨hb, hb, List.sublist_append_right _ _⟩
        | nothing => exact upd _ j x _ hj rfl rfl (List.sublist_append_left _ _) ⟨hb, s.recorded, .nothing, hb, .inr rfl, List.sublist_append_right _ _⟩
        | timeout => exact upd _ j x _ hj rfl rfl (List.sublist_append_left _ _) ⟨hb, trivial⟩
        | other => exact upd _ j x _ hj rfl rfl (List.sublist_append_left _ _) ⟨hb, trivial⟩
      | fWant v =>
        rw [hpc] at hp
        cases s.lock with
        | none => exact upd _ j x _ hj rfl rfl (List.sublist_append_left _ _) ⟨hb, hp.1, one hp.2⟩
        | some o => exact ih
      | fExporting v =>
        rw [hpc] at hp
        exact upd _ j x _ hj rfl rfl (List.sublist_append_left _ _) ⟨hb, v, .data, hp.1, .inl rfl, one hp.2⟩
      | fFlush =>
        rw [hpc] at hp
        obtain ⟨v, c', h1, h2, h3⟩ := hp
        exact upd _ j x _ hj rfl rfl (List.sublist_append_left _ _) ⟨hb, v, c', h1, h2, one h3⟩
      | sStart =>
        by_cases ho : s.once = true
        · simp only [ho, if_true]; exact upd _ j x _ hj rfl rfl (List.Sublist.refl _) ⟨hb, trivial⟩
        · simp only [ho, Bool.false_eq_true, if_false]; exact upd _ j x _ hj rfl rfl (List.Sublist.refl _) ⟨hb, trivial⟩
      | sSet => exact upd _ j x _ hj rfl rfl (List.Sublist.refl _) ⟨hb, trivial⟩
      | sJoin =>
        by_cases ho : s.tickerOver = true
        · simp only [ho, if_true]; exact upd _ j x _ hj rfl rfl (List.Sublist.refl _) ⟨hb, trivial⟩
        · simp only [ho, Bool.false_eq_true, if_false]
          cases late
          · exact ih
          · exact upd _ j x _ hj rfl rfl (List.Sublist.refl _) ⟨hb, trivial⟩
      | sExp l => exact upd _ j x _ hj rfl rfl (List.sublist_append_left _ _) ⟨hb, trivial⟩
      | fRet => exact ih
      | fRaised => exact ih
      | sRet l => exact ih
      | sRefused => exact ih

/-- **C52** A `force_flush` that returned has, in this order, collected everything recorded before it was called, exported it from beginning to
end (unless the collection had nothing to export), and flushed the exporter. -/
theorem C52_force_flush (thread : Bool) (acts : List Act) (i : Nat) (u : User) (hu : (run thread acts).users[i]? = some u) (hr : u.pc = .fRet) :
    ∃ v c, u.before ≤ v ∧ (c = .data ∨ c = .nothing) ∧ flushEvents i v c ++ [.exporterFlush] <+ (run thread acts).log := by
  have h := (flushAt_run thread acts i u hu).2
  rw [hr] at h
  exact h

/-- Non-vacuity: a flush waits for the ticker's export and then exports the two measurements. -/
example :
    let s := run true [.record, .ticker .data, .ticker .data, .record, .callFlush, .user 0 .data false, .ticker .data, .user 0 .data false,
      .ticker .data, .user 0 .data false, .user 0 .data false, .user 0 .data false]
    s.users = [⟨2, .fRet⟩] ∧
    s.log = [.collected .ticker false 1 .data, .collected (.user 0) false 2 .data, .exportBegin .ticker 1, .exportEnd .ticker,
      .exportBegin (.user 0) 2, .exportEnd (.user 0), .exporterFlush] := by decide

end Periodic
end Otel
