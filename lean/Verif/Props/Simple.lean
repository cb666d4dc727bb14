import Verif.Model.Simple
import Verif.Lemmas.Dict
import Mathlib.Tactic.Tauto
/-!
# C75: the simple processors
-/
namespace Otel
namespace Simple

/-- The state after some steps. -/
def after (w : Which) (l : List Step) : State := l.foldl (step w) State.init

/-- The item a thread is working on. -/
def PC.item : PC → Option Item
  | .idle => none
  | .called x | .admitted x | .attached x _ | .exporting x _ | .storing x _ | .leaving x _ => some x

/-- The token a thread holds. -/
def PC.token : PC → Option Token
  | .attached _ k | .exporting _ k | .storing _ k | .leaving _ k => some k
  | _ => none

/-- The exporter has been called by the thread's current call. -/
def PC.isHanded : PC → Bool
  | .exporting _ _ | .storing _ _ | .leaving _ _ => true
  | _ => false

/-- The thread is inside the exporter's `export`. -/
def PC.inExport : PC → Bool
  | .exporting _ _ | .storing _ _ => true
  | _ => false

/-- The test has been passed. -/
def PC.passed : PC → Bool
  | .idle | .called _ => false
  | _ => true

structure Inv (w : Which) (s : State) : Prop where
  lt : ∀ t x, (s.pc t).item = some x → x.call < s.calls
  uniq : ∀ t u x y, (s.pc t).item = some x → (s.pc u).item = some y → x.call = y.call → t = u
  done : ∀ x, x ∈ s.returned ++ s.killed → x.call < s.calls ∧ ∀ t y, (s.pc t).item = some y → y.call ≠ x.call
  nodup : ((s.returned ++ s.killed).map Item.call).Nodup
  handedNodup : (s.handed.map Item.call).Nodup
  handed : ∀ x, x ∈ s.handed → x ∈ s.returned ∨ x ∈ s.killed ∨ ∃ t, (s.pc t).item = some x ∧ (s.pc t).isHanded = true
  holds : ∀ t x, (s.pc t).item = some x → (s.pc t).isHanded = true → x ∈ s.handed
  killed : ∀ x, x ∈ s.killed → x ∈ s.handed
  span : w = .span → (∀ x, x ∈ s.handed → x.sampled = true) ∧ (∀ x, x ∈ s.returned → x.sampled = true → x ∈ s.handed) ∧
    ∀ t x, (s.pc t).item = some x → (s.pc t).passed = true → x.sampled = true
  log : w = .log → s.down = false → ∀ x, x ∈ s.returned → x ∈ s.handed

theorem inv_init (w : Which) : Inv w State.init := by
  constructor <;> simp [State.init, PC.item]

theorem handed_held {w : Which} {s : State} (h : Inv w s) {t : Nat} {x : Item} (hx : (s.pc t).item = some x) (hn : (s.pc t).isHanded = false) :
    ∀ y, y ∈ s.handed → y.call ≠ x.call := by
  intro y hy he
  rcases h.handed y hy with h1 | h1 | ⟨u, h1, h2⟩
  · exact (h.done y (by simp [h1])).2 t x hx he.symm
  · exact (h.done y (by simp [h1])).2 t x hx he.symm
  · have := h.uniq u t y x h1 hx he
    subst this
    rw [hn] at h2; exact absurd h2 (by decide)

/-- A step that only moves a thread on, keeping its item. -/
theorem inv_goto {w : Which} {s : State} (h : Inv w s) (t : Nat) (p : PC) (x : Item) (hx : (s.pc t).item = some x) (hp : p.item = some x)
    (hh : p.isHanded = (s.pc t).isHanded) (hs : w = .span → p.passed = true → x.sampled = true) : Inv w (s.goto t p) := by
  have hi : ∀ u, ((s.goto t p).pc u).item = (s.pc u).item := by
    intro u; simp only [State.goto]; split
    · rename_i e; rw [e, hp, hx]
    · rfl
  have hh' : ∀ u, ((s.goto t p).pc u).isHanded = (s.pc u).isHanded := by
    intro u; simp only [State.goto]; split
    · rename_i e; rw [e, hh]
    · rfl
  constructor
  · intro u y; rw [hi]; exact h.lt u y
  · intro u v y z; rw [hi, hi]; exact h.uniq u v y z
  · intro y hy; refine ⟨(h.done y hy).1, fun u z => ?_⟩; rw [hi]; exact (h.done y hy).2 u z
  · exact h.nodup
  · exact h.handedNodup
  · intro y hy
    rcases h.handed y hy with h1 | h1 | ⟨u, h1, h2⟩
    · exact .inl h1
    · exact .inr (.inl h1)
    · exact .inr (.inr ⟨u, by rw [hi]; exact h1, by rw [hh']; exact h2⟩)
  · intro u y; rw [hi, hh']; exact h.holds u y
  · exact h.killed
  · intro hw
    refine ⟨(h.span hw).1, (h.span hw).2.1, fun u y hy hpass => ?_⟩
    rw [hi] at hy
    by_cases e : u = t
    · subst e
      rw [hx] at hy; cases hy
      simp only [State.goto, if_true] at hpass
      exact hs hw hpass
    · simp only [State.goto, if_neg e] at hpass
      exact (h.span hw).2.2 u y hy hpass
  · exact h.log

/-- Only the listed fields matter to the invariant. -/
theorem Inv.congr {w : Which} {s s' : State} (h : Inv w s) (h1 : s'.pc = s.pc) (h2 : s'.calls = s.calls) (h3 : s'.handed = s.handed)
    (h4 : s'.returned = s.returned) (h5 : s'.killed = s.killed) (h6 : s'.down = false → s.down = false) : Inv w s' := by
  constructor
  · rw [h1, h2]; exact h.lt
  · rw [h1]; exact h.uniq
  · rw [h1, h2, h4, h5]; exact h.done
  · rw [h4, h5]; exact h.nodup
  · rw [h3]; exact h.handedNodup
  · rw [h1, h3, h4, h5]; exact h.handed
  · rw [h1, h3]; exact h.holds
  · rw [h3, h5]; exact h.killed
  · rw [h1, h3, h4]; exact h.span
  · intro hw hd; rw [h3, h4]; exact h.log hw (h6 hd)

/-- A call ends: the item joins `returned` or `killed`. -/
theorem inv_finish {w : Which} {s s' : State} (h : Inv w s) (t : Nat) (x : Item) (hx : (s.pc t).item = some x)
    (hpc : s'.pc = (s.goto t .idle).pc) (hc : s'.calls = s.calls) (hh : s'.handed = s.handed) (hd : s'.down = s.down)
    (hr : (s'.returned = s.returned ++ [x] ∧ s'.killed = s.killed ∧
            (((s.pc t).isHanded = true) ∨ ((s.pc t).isHanded = false ∧ (w = .span → x.sampled = false) ∧ (w = .log → s.down = true)))) ∨
          (s'.returned = s.returned ∧ s'.killed = s.killed ++ [x] ∧ (s.pc t).isHanded = true)) : Inv w s' := by
  have hi : ∀ u y, (s'.pc u).item = some y → (s.pc u).item = some y ∧ u ≠ t := by
    intro u y hu; rw [hpc] at hu; simp only [State.goto] at hu
    split at hu
    · exact absurd hu (by simp [PC.item])
    · exact ⟨hu, by assumption⟩
  have hne : ∀ u, u ≠ t → s'.pc u = s.pc u := by
    intro u hu; rw [hpc]; simp [State.goto, hu]
  have hmem : ∀ y, y ∈ s'.returned ++ s'.killed ↔ y ∈ s.returned ++ s.killed ∨ y = x := by
    intro y
    rcases hr with ⟨h1, h2, _⟩ | ⟨h1, h2, _⟩ <;> rw [h1, h2] <;> simp only [List.mem_append, List.mem_singleton] <;> tauto
  have hfresh : x.call ∉ (s.returned ++ s.killed).map Item.call := by
    intro hm
    obtain ⟨y, hy, e⟩ := List.mem_map.1 hm
    exact (h.done y hy).2 t x hx e.symm
  constructor
  · intro u y hu; rw [hc]; exact h.lt u y (hi u y hu).1
  · intro u v y z hu hv; exact h.uniq u v y z (hi u y hu).1 (hi v z hv).1
  · intro y hy
    rw [hc]
    rcases (hmem y).1 hy with h1 | rfl
    · exact ⟨(h.done y h1).1, fun u z hu => (h.done y h1).2 u z (hi u z hu).1⟩
    · exact ⟨h.lt t y hx, fun u z hu e => (hi u z hu).2 (h.uniq u t z y (hi u z hu).1 hx e)⟩
  · have hp : ((s'.returned ++ s'.killed).map Item.call).Perm (x.call :: (s.returned ++ s.killed).map Item.call) := by
      rcases hr with ⟨h1, h2, _⟩ | ⟨h1, h2, _⟩ <;> rw [h1, h2]
      · have : (s.returned ++ [x] ++ s.killed).Perm (x :: (s.returned ++ s.killed)) := by
          rw [List.append_assoc]; exact List.perm_middle
        exact this.map _
      · have : (s.returned ++ (s.killed ++ [x])).Perm (x :: (s.returned ++ s.killed)) := by
          rw [← List.append_assoc]; exact List.perm_append_singleton x _
        exact this.map _
    rw [hp.nodup_iff, List.nodup_cons]
    exact ⟨hfresh, h.nodup⟩
  · rw [hh]; exact h.handedNodup
  · intro y hy
    rw [hh] at hy
    have : y ∈ s'.returned ++ s'.killed ∨ ∃ u, (s'.pc u).item = some y ∧ (s'.pc u).isHanded = true := by
      rcases h.handed y hy with h1 | h1 | ⟨u, h1, h2⟩
      · exact .inl ((hmem y).2 (.inl (by simp [h1])))
      · exact .inl ((hmem y).2 (.inl (by simp [h1])))
      · by_cases e : u = t
        · subst e; rw [hx] at h1; cases h1; exact .inl ((hmem _).2 (.inr rfl))
        · exact .inr ⟨u, by rw [hne u e]; exact h1, by rw [hne u e]; exact h2⟩
    rcases this with h1 | h1
    · rcases List.mem_append.1 h1 with h1 | h1
      · exact .inl h1
      · exact .inr (.inl h1)
    · exact .inr (.inr h1)
  · intro u y hu hu'
    have := hi u y hu
    rw [hne u this.2] at hu'
    rw [hh]; exact h.holds u y this.1 hu'
  · intro y hy
    rw [hh]
    rcases hr with ⟨_, h2, _⟩ | ⟨_, h2, h3⟩
    · rw [h2] at hy; exact h.killed y hy
    · rw [h2] at hy
      rcases List.mem_append.1 hy with hy | hy
      · exact h.killed y hy
      · cases List.mem_singleton.1 hy; exact h.holds t _ hx h3
  · intro hw
    refine ⟨by rw [hh]; exact (h.span hw).1, ?_, ?_⟩
    · intro y hy hs
      rw [hh]
      rcases hr with ⟨h1, _, h3⟩ | ⟨h1, _, _⟩
      · rw [h1] at hy
        rcases List.mem_append.1 hy with hy | hy
        · exact (h.span hw).2.1 y hy hs
        · cases List.mem_singleton.1 hy
          rcases h3 with h3 | ⟨_, h3, _⟩
          · exact h.holds t _ hx h3
          · rw [h3 hw] at hs; exact absurd hs (by decide)
      · rw [h1] at hy; exact (h.span hw).2.1 y hy hs
    · intro u y hu hp
      have := hi u y hu
      rw [hne u this.2] at hp
      exact (h.span hw).2.2 u y this.1 hp
  · intro hw hdn y hy
    rw [hd] at hdn
    rw [hh]
    rcases hr with ⟨h1, _, h3⟩ | ⟨h1, _, _⟩
    · rw [h1] at hy
      rcases List.mem_append.1 hy with hy | hy
      · exact h.log hw hdn y hy
      · cases List.mem_singleton.1 hy
        rcases h3 with h3 | ⟨_, _, h3⟩
        · exact h.holds t _ hx h3
        · rw [h3 hw] at hdn; exact absurd hdn (by decide)
    · rw [h1] at hy; exact h.log hw hdn y hy

theorem inv_step (w : Which) (s : State) (h : Inv w s) (a : Step) : Inv w (step w s a) := by
  cases a with
  | setCtx t c =>
    simp only [step]; split
    · exact h.congr rfl rfl rfl rfl rfl id
    · exact h
  | call t b =>
    simp only [step]; split
    · rename_i hpc
      have hi : ∀ u y, ((if u = t then PC.called ⟨s.calls, b⟩ else s.pc u).item = some y) → (u = t ∧ y = ⟨s.calls, b⟩) ∨ (u ≠ t ∧ (s.pc u).item = some y) := by
        intro u y hu; split at hu
        · rename_i e; left; simp [PC.item] at hu; exact ⟨e, hu.symm⟩
        · exact .inr ⟨by assumption, hu⟩
      constructor
      · intro u y hu
        rcases hi u y hu with ⟨_, rfl⟩ | ⟨_, h1⟩
        · exact Nat.lt_succ_self _
        · exact Nat.lt_succ_of_lt (h.lt u y h1)
      · intro u v y z hu hv e
        rcases hi u y hu with ⟨rfl, rfl⟩ | ⟨_, h1⟩ <;> rcases hi v z hv with ⟨rfl, rfl⟩ | ⟨_, h2⟩
        · rfl
        · exact absurd (h.lt v z h2) (by rw [← e]; exact Nat.lt_irrefl _)
        · exact absurd (h.lt u y h1) (by rw [e]; exact Nat.lt_irrefl _)
        · exact h.uniq u v y z h1 h2 e
      · intro y hy
        have := h.done y hy
        refine ⟨Nat.lt_succ_of_lt this.1, fun u z hu => ?_⟩
        rcases hi u z hu with ⟨_, rfl⟩ | ⟨_, h1⟩
        · exact fun e => absurd this.1 (by rw [← e]; exact Nat.lt_irrefl _)
        · exact this.2 u z h1
      · exact h.nodup
      · exact h.handedNodup
      · intro y hy
        rcases h.handed y hy with h1 | h1 | ⟨u, h1, h2⟩
        · exact .inl h1
        · exact .inr (.inl h1)
        · have e : u ≠ t := by rintro rfl; rw [hpc] at h1; exact absurd h1 (by simp [PC.item])
          exact .inr (.inr ⟨u, by simp only [State.goto, if_neg e]; exact ⟨h1, h2⟩⟩)
      · intro u y hu hh
        rcases hi u y hu with ⟨rfl, rfl⟩ | ⟨e, h1⟩
        · simp [State.goto, PC.isHanded] at hh
        · simp only [State.goto, if_neg e] at hh; exact h.holds u y h1 hh
      · exact h.killed
      · intro hw
        refine ⟨(h.span hw).1, (h.span hw).2.1, fun u y hu hp => ?_⟩
        rcases hi u y hu with ⟨rfl, rfl⟩ | ⟨e, h1⟩
        · simp [State.goto, PC.passed] at hp
        · simp only [State.goto, if_neg e] at hp; exact (h.span hw).2.2 u y h1 hp
      · exact h.log
    · exact h
  | test t =>
    simp only [step]; split
    · rename_i x hpc
      split
      · rename_i ha
        refine inv_goto h t _ x (by rw [hpc]; rfl) rfl (by rw [hpc]; rfl) ?_
        intro hw _
        subst hw
        exact ha
      · rename_i ha
        refine inv_finish h t x (by rw [hpc]; rfl) rfl rfl rfl rfl (.inl ⟨rfl, rfl, .inr ⟨by rw [hpc]; rfl, ?_, ?_⟩⟩)
        · rintro rfl; simpa [admit] using ha
        · rintro rfl; simpa [admit] using ha
    · exact h
  | attach t =>
    simp only [step]; split
    · rename_i x hpc
      have := inv_goto h t (.attached x (s.rt.attach t (suppressed (s.rt.getCurrent t))).2) x (by rw [hpc]; rfl) rfl (by rw [hpc]; rfl)
        (fun hw _ => (h.span hw).2.2 t x (by rw [hpc]; rfl) (by rw [hpc]; rfl))
      exact this.congr rfl rfl rfl rfl rfl id
    · exact h
  | «export» t =>
    simp only [step]; split
    · rename_i x k hpc
      have hx : (s.pc t).item = some x := by rw [hpc]; rfl
      have hfresh := handed_held h hx (by rw [hpc]; rfl)
      have hi : ∀ u, (if u = t then PC.exporting x k else s.pc u).item = (s.pc u).item := by
        intro u; split
        · rename_i e; rw [e, hx]; rfl
        · rfl
      constructor
      · intro u y hu; exact h.lt u y (by rw [← hi u]; exact hu)
      · intro u v y z hu hv; exact h.uniq u v y z (by rw [← hi u]; exact hu) (by rw [← hi v]; exact hv)
      · intro y hy; refine ⟨(h.done y hy).1, fun u z hu => (h.done y hy).2 u z (by rw [← hi u]; exact hu)⟩
      · exact h.nodup
      · show ((s.handed ++ [x]).map Item.call).Nodup
        rw [List.map_append, List.nodup_append]
        refine ⟨h.handedNodup, by simp, ?_⟩
        intro a ha b hb
        obtain ⟨y, hy, rfl⟩ := List.mem_map.1 ha
        simp at hb; subst hb
        exact hfresh y hy
      · intro y hy
        rcases List.mem_append.1 hy with hy | hy
        · rcases h.handed y hy with h1 | h1 | ⟨u, h1, h2⟩
          · exact .inl h1
          · exact .inr (.inl h1)
          · refine .inr (.inr ⟨u, ?_, ?_⟩)
            · exact (hi u).trans h1
            · show (if u = t then PC.exporting x k else s.pc u).isHanded = true
              split
              · rfl
              · exact h2
        · cases List.mem_singleton.1 hy
          exact .inr (.inr ⟨t, (hi t).trans hx, by simp [State.goto, PC.isHanded]⟩)
      · intro u y hu hh
        have hu' : (s.pc u).item = some y := by rw [← hi u]; exact hu
        by_cases e : u = t
        · subst e; rw [hx] at hu'; cases hu'; simp
        · simp only [State.goto, if_neg e] at hh
          exact List.mem_append_left _ (h.holds u y hu' hh)
      · intro y hy; exact List.mem_append_left _ (h.killed y hy)
      · intro hw
        refine ⟨?_, fun y hy hs => List.mem_append_left _ ((h.span hw).2.1 y hy hs), ?_⟩
        · intro y hy
          rcases List.mem_append.1 hy with hy | hy
          · exact (h.span hw).1 y hy
          · cases List.mem_singleton.1 hy; exact (h.span hw).2.2 t x hx (by rw [hpc]; rfl)
        · intro u y hu hp
          have hu' : (s.pc u).item = some y := by rw [← hi u]; exact hu
          by_cases e : u = t
          · subst e; exact (h.span hw).2.2 u y hu' (by rw [hpc]; rfl)
          · simp only [State.goto, if_neg e] at hp; exact (h.span hw).2.2 u y hu' hp
      · intro hw hd y hy; exact List.mem_append_left _ (h.log hw hd y hy)
    · exact h
  | look t =>
    simp only [step]; split
    · rename_i x k hpc
      split
      · exact inv_goto h t _ x (by rw [hpc]; rfl) rfl (by rw [hpc]; rfl) (fun hw _ => (h.span hw).2.2 t x (by rw [hpc]; rfl) (by rw [hpc]; rfl))
      · exact inv_goto h t _ x (by rw [hpc]; rfl) rfl (by rw [hpc]; rfl) (fun hw _ => (h.span hw).2.2 t x (by rw [hpc]; rfl) (by rw [hpc]; rfl))
    · exact h
  | store t =>
    simp only [step]; split
    · rename_i x k hpc
      have := inv_goto h t (.leaving x k) x (by rw [hpc]; rfl) rfl (by rw [hpc]; rfl) (fun hw _ => (h.span hw).2.2 t x (by rw [hpc]; rfl) (by rw [hpc]; rfl))
      exact this.congr rfl rfl rfl rfl rfl id
    · exact h
  | fail t =>
    simp only [step]; split
    · rename_i x k hpc
      exact inv_goto h t (.leaving x k) x (by rw [hpc]; rfl) rfl (by rw [hpc]; rfl) (fun hw _ => (h.span hw).2.2 t x (by rw [hpc]; rfl) (by rw [hpc]; rfl))
    · exact h
  | kill t =>
    simp only [step]; split
    · rename_i x k hpc
      exact inv_finish h t x (by rw [hpc]; rfl) rfl rfl rfl rfl (.inr ⟨rfl, rfl, by rw [hpc]; rfl⟩)
    · exact h
  | detach t =>
    simp only [step]; split
    · rename_i x k hpc
      exact inv_finish h t x (by rw [hpc]; rfl) rfl rfl rfl rfl (.inl ⟨rfl, rfl, .inl (by rw [hpc]; rfl)⟩)
    · exact h
  | shutFlag => exact h.congr rfl rfl rfl rfl rfl (fun e => absurd e (by simp [step]))
  | shutExporter => exact h.congr rfl rfl rfl rfl rfl id
  | clear => exact h.congr rfl rfl rfl rfl rfl id

theorem inv_from (w : Which) (l : List Step) (s : State) (h : Inv w s) : Inv w (l.foldl (step w) s) := by
  induction l generalizing s with
  | nil => exact h
  | cons a l ih => exact ih _ (inv_step w s h a)

theorem inv_after (w : Which) (l : List Step) : Inv w (after w l) := inv_from w l _ (inv_init w)

/-- **C75** Each call hands its item to the exporter at most once, alone; only items of calls that are in progress or over have been handed;
and no call ends twice. -/
theorem C75_at_most_once (w : Which) (l : List Step) :
    ((after w l).handed.map Item.call).Nodup ∧ (((after w l).returned ++ (after w l).killed).map Item.call).Nodup ∧
    ∀ x, x ∈ (after w l).handed → x ∈ (after w l).returned ∨ x ∈ (after w l).killed ∨ ∃ t, ((after w l).pc t).item = some x :=
  ⟨(inv_after w l).handedNodup, (inv_after w l).nodup, fun x hx => by
    rcases (inv_after w l).handed x hx with h | h | ⟨t, h, _⟩
    · exact .inl h
    · exact .inr (.inl h)
    · exact .inr (.inr ⟨t, h⟩)⟩

/-- **C75** The span processor: when `on_end` has returned, the exporter has been called with the span exactly if the span is sampled. -/
theorem C75_span (l : List Step) (x : Item) (hx : x ∈ (after .span l).returned) : x ∈ (after .span l).handed ↔ x.sampled = true :=
  ⟨((inv_after .span l).span rfl).1 x, ((inv_after .span l).span rfl).2.1 x hx⟩

/-- **C75** The span processor never hands over a span that is not sampled. -/
theorem C75_only_sampled (l : List Step) (x : Item) (hx : x ∈ (after .span l).handed) : x.sampled = true := ((inv_after .span l).span rfl).1 x hx

/-- Steps without `shutdown` leave the flags down. -/
theorem flags (w : Which) (l : List Step) (h1 : Step.shutFlag ∉ l) (s : State) (hs : s.down = false) : (l.foldl (step w) s).down = false := by
  induction l generalizing s with
  | nil => exact hs
  | cons a l ih =>
    refine ih (fun hm => h1 (List.mem_cons_of_mem _ hm)) _ ?_
    cases a <;> simp only [step] <;> (try split) <;> (try split) <;> first | exact hs | exact absurd List.mem_cons_self h1

/-- **C75** The log processor: until `shutdown` has set its flag, every record whose `emit` has returned has been handed over. -/
theorem C75_log (l : List Step) (h : Step.shutFlag ∉ l) (x : Item) (hx : x ∈ (after .log l).returned) : x ∈ (after .log l).handed :=
  (inv_after .log l).log rfl (flags .log l h _ rfl) x hx

structure Late (n : Nat) (s : State) : Prop where
  down : s.down = true
  calls : n ≤ s.calls
  handed : ∀ x, x ∈ s.handed → x.call < n
  passed : ∀ t x, (s.pc t).item = some x → (s.pc t).passed = true → x.call < n

theorem late_goto {n : Nat} {s : State} (h : Late n s) (t : Nat) (p : PC)
    (hp : ∀ x, p.item = some x → p.passed = true → x.call < n) : Late n (s.goto t p) := by
  refine ⟨h.down, h.calls, h.handed, fun u y hu hpu => ?_⟩
  simp only [State.goto] at hu hpu
  by_cases e : u = t
  · rw [if_pos e] at hu hpu; exact hp y hu hpu
  · rw [if_neg e] at hu hpu; exact h.passed u y hu hpu

theorem Late.congr {n : Nat} {s s' : State} (h : Late n s) (h1 : s'.pc = s.pc) (h2 : s.calls ≤ s'.calls) (h3 : s'.handed = s.handed)
    (h4 : s'.down = true) : Late n s' :=
  ⟨h4, Nat.le_trans h.calls h2, by rw [h3]; exact h.handed, by rw [h1]; exact h.passed⟩

theorem late_step (n : Nat) (s : State) (h : Late n s) (a : Step) : Late n (step .log s a) := by
  have keep : ∀ t x (p : PC), (s.pc t).item = some x → (s.pc t).passed = true → p.item = some x → ∀ y, p.item = some y → p.passed = true → y.call < n := by
    intro t x p h1 h2 h3 y h4 _
    rw [h3] at h4; cases h4; exact h.passed t x h1 h2
  cases a with
  | setCtx t c => simp only [step]; split
                  · exact h.congr rfl (Nat.le_refl _) rfl h.down
                  · exact h
  | call t b =>
    simp only [step]; split
    · exact (late_goto h t (.called ⟨s.calls, b⟩) (fun _ _ hp => absurd hp (by simp [PC.passed]))).congr rfl (Nat.le_succ _) rfl h.down
    · exact h
  | test t =>
    simp only [step]; split
    · split
      · rename_i ha; simp [admit, h.down] at ha
      · exact (late_goto h t .idle (fun _ hi => absurd hi (by simp [PC.item]))).congr rfl (Nat.le_refl _) rfl h.down
    · exact h
  | attach t =>
    simp only [step]; split
    · rename_i x hpc
      exact (late_goto h t _ (keep t x _ (by rw [hpc]; rfl) (by rw [hpc]; rfl) rfl)).congr rfl (Nat.le_refl _) rfl h.down
    · exact h
  | «export» t =>
    simp only [step]; split
    · rename_i x k hpc
      have hx := h.passed t x (by rw [hpc]; rfl) (by rw [hpc]; rfl)
      have := late_goto h t (.exporting x k) (keep t x _ (by rw [hpc]; rfl) (by rw [hpc]; rfl) rfl)
      refine ⟨h.down, h.calls, fun y hy => ?_, this.passed⟩
      rcases List.mem_append.1 hy with hy | hy
      · exact h.handed y hy
      · cases List.mem_singleton.1 hy; exact hx
    · exact h
  | look t =>
    simp only [step]; split
    · rename_i x k hpc
      split <;> exact late_goto h t _ (keep t x _ (by rw [hpc]; rfl) (by rw [hpc]; rfl) rfl)
    · exact h
  | store t =>
    simp only [step]; split
    · rename_i x k hpc
      exact (late_goto h t _ (keep t x _ (by rw [hpc]; rfl) (by rw [hpc]; rfl) rfl)).congr rfl (Nat.le_refl _) rfl h.down
    · exact h
  | fail t =>
    simp only [step]; split
    · rename_i x k hpc
      exact late_goto h t _ (keep t x _ (by rw [hpc]; rfl) (by rw [hpc]; rfl) rfl)
    · exact h
  | kill t =>
    simp only [step]; split
    · exact (late_goto h t .idle (fun _ hi => absurd hi (by simp [PC.item]))).congr rfl (Nat.le_refl _) rfl h.down
    · exact h
  | detach t =>
    simp only [step]; split
    · exact (late_goto h t .idle (fun _ hi => absurd hi (by simp [PC.item]))).congr rfl (Nat.le_refl _) rfl h.down
    · exact h
  | shutFlag => exact h.congr rfl (Nat.le_refl _) rfl rfl
  | shutExporter => exact h.congr rfl (Nat.le_refl _) rfl h.down
  | clear => exact h.congr rfl (Nat.le_refl _) rfl h.down

theorem down_mono (w : Which) (l : List Step) (s : State) (h : s.down = true ∨ Step.shutFlag ∈ l) : (l.foldl (step w) s).down = true := by
  induction l generalizing s with
  | nil => exact h.resolve_right (by simp)
  | cons a l ih =>
    refine ih _ ?_
    rcases h with h | h
    · left; cases a <;> simp only [step] <;> (try split) <;> (try split) <;> first | exact h | rfl
    · rcases List.mem_cons.1 h with rfl | h
      · exact .inl rfl
      · exact .inr h

/-- **C75** The log processor: a record whose `emit` was called after `shutdown` had set the flag is never handed over. -/
theorem C75_log_after_shutdown (l l' : List Step) (h : Step.shutFlag ∈ l) (x : Item) (hx : x ∈ (after .log (l ++ l')).handed) :
    x.call < (after .log l).calls := by
  have h0 : Late (after .log l).calls (after .log l) := by
    have hi := inv_after .log l
    refine ⟨down_mono .log l _ (.inr h), Nat.le_refl _, fun y hy => ?_, fun t y hy _ => hi.lt t y hy⟩
    rcases hi.handed y hy with h1 | h1 | ⟨t, h1, _⟩
    · exact (hi.done y (by simp [h1])).1
    · exact (hi.done y (by simp [h1])).1
    · exact hi.lt t y h1
  have : Late (after .log l).calls (after .log (l ++ l')) := by
    unfold after at h0 ⊢
    rw [List.foldl_append]
    generalize List.foldl (step .log) State.init l = s at h0
    generalize s.calls = n at h0
    clear hx
    induction l' generalizing s with
    | nil => exact h0
    | cons a l' ih => exact ih _ (late_step n s h0 a)
  exact this.handed x hx

/-! ## The context -/

/-- The context a thread will have when its call is over. -/
def base (s : State) (t : Nat) : Option Ctx :=
  match (s.pc t).token with
  | none => s.rt.value t
  | some k => k.old

structure CtxInv (s : State) : Prop where
  used : ∀ u, u ∈ s.rt.used → u < s.rt.nextUid
  tok : ∀ t k, (s.pc t).token = some k → k.thread = t ∧ k.uid < s.rt.nextUid ∧ k.uid ∉ s.rt.used
  uniq : ∀ t u k k', (s.pc t).token = some k → (s.pc u).token = some k' → k.uid = k'.uid → t = u
  base : ∀ t, s.broken t = false → base s t = s.own t
  inside : ∀ t k, (s.pc t).token = some k → s.rt.value t = some (suppressed (k.old.getD []))

theorem ctxInv_init : CtxInv State.init := by
  constructor <;> simp [State.init, PC.token, Runtime.init, Simple.base]

/-- A step that moves a thread on, keeping its token, and touches no context. -/
theorem CtxInv.goto {s s' : State} (h : CtxInv s) (t : Nat) (p : PC) (hp : p.token = (s.pc t).token) (hpc : s'.pc = (s.goto t p).pc)
    (hrt : s'.rt = s.rt) (ho : s'.own = s.own) (hb : s'.broken = s.broken) : CtxInv s' := by
  have hi : ∀ u, (s'.pc u).token = (s.pc u).token := by
    intro u; rw [hpc]; simp only [State.goto]; split
    · rename_i e; rw [e, hp]
    · rfl
  constructor
  · rw [hrt]; exact h.used
  · intro u k; rw [hi, hrt]; exact h.tok u k
  · intro u v k k'; rw [hi, hi]; exact h.uniq u v k k'
  · intro u; rw [hb, ho]; simp only [Simple.base, hi, hrt]; exact h.base u
  · intro u k; rw [hi, hrt]; exact h.inside u k

theorem ctxInv_step (w : Which) (s : State) (h : CtxInv s) (a : Step) : CtxInv (step w s a) := by
  cases a with
  | setCtx t c =>
    simp only [step]; split
    · rename_i hpc
      have ht : ∀ u k, (s.pc u).token = some k → u ≠ t := by rintro u k hk rfl; rw [hpc] at hk; exact absurd hk (by simp [PC.token])
      refine ⟨h.used, h.tok, h.uniq, fun u hb => ?_, fun u k hk => ?_⟩
      · by_cases e : u = t
        · subst e; simp [Simple.base, hpc, PC.token]
        · have := h.base u (by simpa [e] using hb)
          simpa [Simple.base, e] using this
      · simp only [if_neg (ht u k hk)]; exact h.inside u k hk
    · exact h
  | call t b =>
    simp only [step]; split
    · rename_i hpc; exact h.goto t _ (by rw [hpc]; rfl) rfl rfl rfl rfl
    · exact h
  | test t =>
    simp only [step]; split
    · rename_i x hpc; split
      · exact h.goto t _ (by rw [hpc]; rfl) rfl rfl rfl rfl
      · exact h.goto t _ (by rw [hpc]; rfl) rfl rfl rfl rfl
    · exact h
  | attach t =>
    simp only [step]; split
    · rename_i x hpc
      have htok : ∀ u, u ≠ t → ((s.goto t (.attached x ⟨t, s.rt.nextUid, s.rt.value t⟩)).pc u).token = (s.pc u).token := by
        intro u e; simp [State.goto, e]
      have htt : ((s.goto t (.attached x ⟨t, s.rt.nextUid, s.rt.value t⟩)).pc t).token = some ⟨t, s.rt.nextUid, s.rt.value t⟩ := by
        simp [State.goto, PC.token]
      constructor
      · intro u hu; exact Nat.lt_succ_of_lt (h.used u hu)
      · intro u k hk
        by_cases e : u = t
        · subst e
          have : k = ⟨u, s.rt.nextUid, s.rt.value u⟩ := Option.some.inj (hk.symm.trans htt)
          subst this
          exact ⟨rfl, Nat.lt_succ_self _, fun hu => Nat.lt_irrefl _ (h.used _ hu)⟩
        · have := h.tok u k ((htok u e).symm.trans hk)
          exact ⟨this.1, Nat.lt_succ_of_lt this.2.1, this.2.2⟩
      · intro u v k k' hk hk' he
        by_cases e : u = t <;> by_cases e' : v = t
        · rw [e, e']
        · subst e
          have hk1 : k = ⟨u, s.rt.nextUid, s.rt.value u⟩ := Option.some.inj (hk.symm.trans htt)
          have := (h.tok v k' ((htok v e').symm.trans hk')).2.1
          rw [← he, hk1] at this; exact absurd this (Nat.lt_irrefl _)
        · subst e'
          have hk1 : k' = ⟨v, s.rt.nextUid, s.rt.value v⟩ := Option.some.inj (hk'.symm.trans htt)
          have := (h.tok u k ((htok u e).symm.trans hk)).2.1
          rw [he, hk1] at this; exact absurd this (Nat.lt_irrefl _)
        · exact h.uniq u v k k' ((htok u e).symm.trans hk) ((htok v e').symm.trans hk') he
      · intro u hb
        by_cases e : u = t
        · subst e
          have := h.base u hb
          simp only [Simple.base, hpc, PC.token] at this
          simpa [Simple.base, State.goto, PC.token, Runtime.attach] using this
        · have := h.base u hb
          simpa [Simple.base, State.goto, Runtime.attach, e] using this
      · intro u k hk
        by_cases e : u = t
        · subst e
          have : k = ⟨u, s.rt.nextUid, s.rt.value u⟩ := Option.some.inj (hk.symm.trans htt)
          subst this
          simp [Runtime.attach, Runtime.getCurrent]
        · have := h.inside u k ((htok u e).symm.trans hk)
          simpa [Runtime.attach, e] using this
    · exact h
  | «export» t =>
    simp only [step]; split
    · rename_i x k hpc; exact h.goto t _ (by rw [hpc]; rfl) rfl rfl rfl rfl
    · exact h
  | look t =>
    simp only [step]; split
    · rename_i x k hpc; split <;> exact h.goto t _ (by rw [hpc]; rfl) rfl rfl rfl rfl
    · exact h
  | store t =>
    simp only [step]; split
    · rename_i x k hpc; exact h.goto t _ (by rw [hpc]; rfl) rfl rfl rfl rfl
    · exact h
  | fail t =>
    simp only [step]; split
    · rename_i x k hpc; exact h.goto t _ (by rw [hpc]; rfl) rfl rfl rfl rfl
    · exact h
  | kill t =>
    simp only [step]; split
    · rename_i x k hpc
      have htok : ∀ u k, ((s.goto t .idle).pc u).token = some k → u ≠ t ∧ (s.pc u).token = some k := by
        intro u k hk; simp only [State.goto] at hk
        split at hk
        · exact absurd hk (by simp [PC.token])
        · exact ⟨by assumption, hk⟩
      refine ⟨h.used, fun u k hk => h.tok u k (htok u k hk).2, fun u v k k' hk hk' => h.uniq u v k k' (htok u k hk).2 (htok v k' hk').2,
        fun u hb => ?_, fun u k hk => h.inside u k (htok u k hk).2⟩
      by_cases e : u = t
      · simp [e] at hb
      · have := h.base u (by simpa [e] using hb)
        simpa [Simple.base, State.goto, e] using this
    · exact h
  | detach t =>
    simp only [step]; split
    · rename_i x k hpc
      have hk0 : (s.pc t).token = some k := by rw [hpc]; rfl
      obtain ⟨h1, h2, h3⟩ := h.tok t k hk0
      have hrt : s.rt.detach t k = { s.rt with value := fun u => if u = t then k.old else s.rt.value u, used := k.uid :: s.rt.used } := by
        unfold Runtime.detach; rw [if_pos ⟨h1, h3⟩]
      have htok : ∀ u k, ((s.goto t .idle).pc u).token = some k → u ≠ t ∧ (s.pc u).token = some k := by
        intro u k hk; simp only [State.goto] at hk
        split at hk
        · exact absurd hk (by simp [PC.token])
        · exact ⟨by assumption, hk⟩
      rw [hrt]
      constructor
      · intro u hu
        rcases List.mem_cons.1 hu with rfl | hu
        · exact h2
        · exact h.used u hu
      · intro u k' hk
        obtain ⟨e, hk⟩ := htok u k' hk
        have := h.tok u k' hk
        refine ⟨this.1, this.2.1, fun hu => ?_⟩
        rcases List.mem_cons.1 hu with hu | hu
        · exact e (h.uniq u t k' k hk hk0 hu)
        · exact this.2.2 hu
      · exact fun u v k k' hk hk' => h.uniq u v k k' (htok u k hk).2 (htok v k' hk').2
      · intro u hb
        have := h.base u hb
        by_cases e : u = t
        · subst e
          simp only [Simple.base, hk0] at this
          simpa [Simple.base, State.goto, PC.token] using this
        · simpa [Simple.base, State.goto, e] using this
      · intro u k' hk
        obtain ⟨e, hk⟩ := htok u k' hk
        have := h.inside u k' hk
        simpa [e] using this
    · exact h
  | shutFlag => exact ⟨h.used, h.tok, h.uniq, h.base, h.inside⟩
  | shutExporter => exact ⟨h.used, h.tok, h.uniq, h.base, h.inside⟩
  | clear => exact ⟨h.used, h.tok, h.uniq, h.base, h.inside⟩

theorem ctxInv_after (w : Which) (l : List Step) : CtxInv (after w l) := by
  have : ∀ s, CtxInv s → CtxInv (l.foldl (step w) s) := by
    induction l with
    | nil => exact fun _ h => h
    | cons a l ih => exact fun s h => ih _ (ctxInv_step w s h a)
  exact this _ ctxInv_init

/-- No exporter call of the thread was ended by a `BaseException`. -/
theorem not_broken (w : Which) (l : List Step) (t : Nat) (h : Step.kill t ∉ l) : (after w l).broken t = false := by
  have : ∀ s : State, s.broken t = false → (l.foldl (step w) s).broken t = false := by
    induction l with
    | nil => exact fun _ h => h
    | cons a l ih =>
      intro s hs
      refine ih (fun hm => h (List.mem_cons_of_mem _ hm)) _ ?_
      cases a <;> simp only [step] <;> (try split) <;> (try split) <;> (try exact hs)
      · simp only [ite_eq_left_iff]; exact fun _ => hs
      · rename_i u _ x k hpc
        have : t ≠ u := by rintro rfl; exact h List.mem_cons_self
        simp [this, hs]
  exact this _ rfl

/-- **C75** The processor leaves the caller's context alone: a thread that is not inside a call, and none of whose exporter calls raised a
`BaseException`, has exactly the context it chose itself. -/
theorem C75_context_restored (w : Which) (l : List Step) (t : Nat) (hk : Step.kill t ∉ l) (hi : (after w l).pc t = .idle) :
    (after w l).rt.value t = (after w l).own t := by
  have := (ctxInv_after w l).base t (not_broken w l t hk)
  simpa [Simple.base, hi, PC.token] using this

/-- **C75** While the exporter runs, its thread's context is the caller's with instrumentation suppressed: the suppression key is set and every
other value is the caller's. -/
theorem C75_suppressed (w : Which) (l : List Step) (t : Nat) (hk : Step.kill t ∉ l) (hi : ((after w l).pc t).inExport = true) :
    Ctx.getValue ((after w l).rt.getCurrent t) suppressKey = some (.other 1) ∧
    ∀ k, k ≠ suppressKey → Ctx.getValue ((after w l).rt.getCurrent t) k = Ctx.getValue (((after w l).own t).getD []) k := by
  have hinv := ctxInv_after w l
  have hb := hinv.base t (not_broken w l t hk)
  obtain ⟨k, hk⟩ : ∃ k, ((after w l).pc t).token = some k := by
    revert hi; cases (after w l).pc t <;> simp [PC.inExport, PC.token]
  have hv := hinv.inside t k hk
  simp only [Simple.base, hk] at hb
  rw [hb] at hv
  simp only [Runtime.getCurrent, hv, Option.getD_some, suppressed, Ctx.getValue, Ctx.setValue]
  exact ⟨Dict.get?_set_self _ _ _, fun k' hne => Dict.get?_set_ne _ _ (Ne.symm hne)⟩

/-! ## The in-memory exporter -/

structure MemInv (s : State) : Prop where
  stored : ∀ x, x ∈ s.stored → x ∈ s.handed ∧ ∀ t y, (s.pc t).item = some y → (s.pc t).inExport = true → y.call ≠ x.call
  nodup : (s.stored.map Item.call).Nodup
  stopped : s.shut = false → s.stopped = false
  all : s.shut = false → s.cleared = false → ∀ x, x ∈ s.handed → x ∈ s.stored ∨ ∃ t, (s.pc t).item = some x ∧ (s.pc t).inExport = true

theorem MemInv.goto {s s' : State} (h : MemInv s) (t : Nat) (p : PC) (hpc : s'.pc = (s.goto t p).pc) (hh : s'.handed = s.handed)
    (hst : s'.stored = s.stored) (hstop : s'.stopped = s.stopped) (hshut : s'.shut = s.shut) (hcl : s'.cleared = s.cleared)
    (hp : p.inExport = false ∧ (s.pc t).inExport = false ∨ p.inExport = (s.pc t).inExport ∧ p.item = (s.pc t).item ∨
      p.inExport = false ∧ s.shut = true) : MemInv s' := by
  have hi : ∀ u y, (s'.pc u).item = some y → (s'.pc u).inExport = true → (s.pc u).item = some y ∧ (s.pc u).inExport = true := by
    intro u y h1 h2
    rw [hpc] at h1 h2; simp only [State.goto] at h1 h2
    by_cases e : u = t
    · subst e; simp only [if_true] at h1 h2
      rcases hp with ⟨h3, _⟩ | ⟨h3, h4⟩ | ⟨h3, _⟩
      · rw [h3] at h2; exact absurd h2 (by decide)
      · rw [h3] at h2; rw [h4] at h1; exact ⟨h1, h2⟩
      · rw [h3] at h2; exact absurd h2 (by decide)
    · simp only [if_neg e] at h1 h2; exact ⟨h1, h2⟩
  refine ⟨?_, by rw [hst]; exact h.nodup, by rw [hshut, hstop]; exact h.stopped, ?_⟩
  · intro x hx
    rw [hst] at hx; rw [hh]
    exact ⟨(h.stored x hx).1, fun u y h1 h2 => (h.stored x hx).2 u y (hi u y h1 h2).1 (hi u y h1 h2).2⟩
  · intro h1 h2 x hx
    rw [hshut] at h1; rw [hcl] at h2; rw [hh] at hx; rw [hst]
    rcases h.all h1 h2 x hx with h3 | ⟨u, h3, h4⟩
    · exact .inl h3
    · refine .inr ⟨u, ?_⟩
      rw [hpc]; simp only [State.goto]
      by_cases e : u = t
      · subst e; simp only [if_true]
        rcases hp with ⟨_, h5⟩ | ⟨h5, h6⟩ | ⟨_, h5⟩
        · rw [h5] at h4; exact absurd h4 (by decide)
        · rw [h5, h6]; exact ⟨h3, h4⟩
        · rw [h5] at h1; exact absurd h1 (by decide)
      · simp only [if_neg e]; exact ⟨h3, h4⟩

theorem memInv_step (w : Which) (s : State) (hinv : Inv w s) (h : MemInv s) (a : Step) (ha : inMemory a = true) : MemInv (step w s a) := by
  cases a with
  | setCtx t c => simp only [step]; split
                  · exact ⟨h.stored, h.nodup, h.stopped, h.all⟩
                  · exact h
  | call t b =>
    simp only [step]; split
    · rename_i hpc; exact h.goto t _ rfl rfl rfl rfl rfl rfl (.inl ⟨rfl, by rw [hpc]; rfl⟩)
    · exact h
  | test t =>
    simp only [step]; split
    · rename_i x hpc; split <;> exact h.goto t _ rfl rfl rfl rfl rfl rfl (.inl ⟨rfl, by rw [hpc]; rfl⟩)
    · exact h
  | attach t =>
    simp only [step]; split
    · rename_i x hpc; exact h.goto t _ rfl rfl rfl rfl rfl rfl (.inl ⟨rfl, by rw [hpc]; rfl⟩)
    · exact h
  | «export» t =>
    simp only [step]; split
    · rename_i x k hpc
      have hx : (s.pc t).item = some x := by rw [hpc]; rfl
      have hfresh := handed_held hinv hx (by rw [hpc]; rfl)
      refine ⟨fun y hy => ⟨List.mem_append_left _ (h.stored y hy).1, fun u z h1 h2 => ?_⟩, h.nodup, h.stopped, fun h1 h2 y hy => ?_⟩
      · simp only [State.goto] at h1 h2
        by_cases e : u = t
        · simp only [if_pos e, PC.item, Option.some.injEq] at h1
          subst h1
          exact fun e' => hfresh y (h.stored y hy).1 e'.symm
        · simp only [if_neg e] at h1 h2; exact (h.stored y hy).2 u z h1 h2
      · rcases List.mem_append.1 hy with hy | hy
        · rcases h.all h1 h2 y hy with h3 | ⟨u, h3, h4⟩
          · exact .inl h3
          · have e : u ≠ t := by rintro rfl; rw [hpc] at h4; exact absurd h4 (by simp [PC.inExport])
            exact .inr ⟨u, by simp only [State.goto, if_neg e]; exact ⟨h3, h4⟩⟩
        · cases List.mem_singleton.1 hy
          exact .inr ⟨t, by simp [State.goto, PC.item, PC.inExport]⟩
    · exact h
  | look t =>
    simp only [step]; split
    · rename_i x k hpc
      split
      · rename_i hst
        refine h.goto t _ rfl rfl rfl rfl rfl rfl (.inr (.inr ⟨rfl, ?_⟩))
        cases hs : s.shut
        · rw [h.stopped hs] at hst; exact absurd hst (by decide)
        · rfl
      · exact h.goto t _ rfl rfl rfl rfl rfl rfl (.inr (.inl ⟨by rw [hpc]; rfl, by rw [hpc]; rfl⟩))
    · exact h
  | store t =>
    simp only [step]; split
    · rename_i x k hpc
      have hx : (s.pc t).item = some x := by rw [hpc]; rfl
      have hex : (s.pc t).inExport = true := by rw [hpc]; rfl
      have hi : ∀ u y, ((s.goto t (.leaving x k)).pc u).item = some y → ((s.goto t (.leaving x k)).pc u).inExport = true →
          u ≠ t ∧ (s.pc u).item = some y ∧ (s.pc u).inExport = true := by
        intro u y h1 h2
        simp only [State.goto] at h1 h2
        by_cases e : u = t
        · simp only [if_pos e] at h2; exact absurd h2 (by simp [PC.inExport])
        · simp only [if_neg e] at h1 h2; exact ⟨e, h1, h2⟩
      refine ⟨fun y hy => ?_, ?_, h.stopped, fun h1 h2 y hy => ?_⟩
      · rcases List.mem_append.1 hy with hy | hy
        · exact ⟨(h.stored y hy).1, fun u z h1 h2 => (h.stored y hy).2 u z (hi u z h1 h2).2.1 (hi u z h1 h2).2.2⟩
        · cases List.mem_singleton.1 hy
          refine ⟨hinv.holds t _ hx (by rw [hpc]; rfl), fun u z h1 h2 e => ?_⟩
          obtain ⟨e1, e2, _⟩ := hi u z h1 h2
          exact e1 (hinv.uniq u t z _ e2 hx e)
      · show ((s.stored ++ [x]).map Item.call).Nodup
        rw [List.map_append, List.nodup_append]
        refine ⟨h.nodup, by simp, ?_⟩
        intro a ha b hb
        obtain ⟨y, hy, rfl⟩ := List.mem_map.1 ha
        simp at hb; subst hb
        exact fun e => (h.stored y hy).2 t x hx hex e.symm
      · rcases h.all h1 h2 y hy with h3 | ⟨u, h3, h4⟩
        · exact .inl (List.mem_append_left _ h3)
        · by_cases e : u = t
          · subst e; rw [hx] at h3; cases h3; exact .inl (by simp)
          · exact .inr ⟨u, by simp only [State.goto, if_neg e]; exact ⟨h3, h4⟩⟩
    · exact h
  | fail t => exact absurd ha (by simp [inMemory])
  | kill t => exact absurd ha (by simp [inMemory])
  | detach t =>
    simp only [step]; split
    · rename_i x k hpc; exact h.goto t _ rfl rfl rfl rfl rfl rfl (.inl ⟨rfl, by rw [hpc]; rfl⟩)
    · exact h
  | shutFlag => exact ⟨h.stored, h.nodup, fun e => absurd e (by simp [step]), fun e => absurd e (by simp [step])⟩
  | shutExporter => exact ⟨h.stored, h.nodup, fun e => absurd e (by simp [step]), fun e => absurd e (by simp [step])⟩
  | clear => exact ⟨by simp [step], by simp [step], h.stopped, fun _ e => absurd e (by simp [step])⟩

theorem memInv_after (w : Which) (l : List Step) (hl : ∀ a, a ∈ l → inMemory a = true) : MemInv (after w l) := by
  have : ∀ s, Inv w s → MemInv s → MemInv (l.foldl (step w) s) := by
    induction l with
    | nil => exact fun _ _ h => h
    | cons a l ih =>
      exact fun s hi h => ih (fun b hb => hl b (List.mem_cons_of_mem _ hb)) _ (inv_step w s hi a) (memInv_step w s hi h a (hl a List.mem_cons_self))
  exact this _ (inv_init w) (by constructor <;> simp [State.init])

/-- Neither `shutdown` nor `clear` has been called. -/
def Undisturbed (l : List Step) : Prop := Step.shutFlag ∉ l ∧ Step.shutExporter ∉ l ∧ Step.clear ∉ l

theorem undisturbed (w : Which) (l : List Step) (h : Undisturbed l) : (after w l).shut = false ∧ (after w l).cleared = false := by
  have : ∀ s : State, s.shut = false ∧ s.cleared = false → (l.foldl (step w) s).shut = false ∧ (l.foldl (step w) s).cleared = false := by
    induction l with
    | nil => exact fun _ h => h
    | cons a l ih =>
      intro s hs
      refine ih ⟨fun hm => h.1 (List.mem_cons_of_mem _ hm), fun hm => h.2.1 (List.mem_cons_of_mem _ hm), fun hm => h.2.2 (List.mem_cons_of_mem _ hm)⟩ _ ?_
      cases a <;> simp only [step] <;> (try split) <;> (try split) <;>
        first | exact hs | exact absurd List.mem_cons_self h.1 | exact absurd List.mem_cons_self h.2.1 | exact absurd List.mem_cons_self h.2.2
  exact this _ ⟨rfl, rfl⟩

/-- **C75** With the in-memory exporter, what it holds was handed to it, once each, whatever else is going on. -/
theorem C75_memory_sound (w : Which) (l : List Step) (hl : ∀ a, a ∈ l → inMemory a = true) :
    ((after w l).stored.map Item.call).Nodup ∧ ∀ x, x ∈ (after w l).stored → x ∈ (after w l).handed :=
  ⟨(memInv_after w l hl).nodup, fun x hx => ((memInv_after w l hl).stored x hx).1⟩

/-- **C75** With the in-memory exporter, until `shutdown` or `clear` is called: once `on_end` of a sampled span, or `emit` of a record, has
returned, the exporter holds it. -/
theorem C75_memory_complete (w : Which) (l : List Step) (hl : ∀ a, a ∈ l → inMemory a = true) (hu : Undisturbed l) (x : Item)
    (hx : x ∈ (after w l).returned) (hs : w = .span → x.sampled = true) : x ∈ (after w l).stored := by
  have hinv := inv_after w l
  have hh : x ∈ (after w l).handed := by
    cases w with
    | span => exact (hinv.span rfl).2.1 x hx (hs rfl)
    | log => exact C75_log l hu.1 x hx
  have hud := undisturbed w l hu
  rcases (memInv_after w l hl).all hud.1 hud.2 x hh with h | ⟨t, h1, _⟩
  · exact h
  · exact absurd rfl ((hinv.done x (by simp [hx])).2 t x h1)

theorem stored_grows (w : Which) (l : List Step) (s : State) (h : Step.clear ∉ l) : s.stored <+: (l.foldl (step w) s).stored := by
  induction l generalizing s with
  | nil => exact List.prefix_refl _
  | cons a l ih =>
    refine List.IsPrefix.trans ?_ (ih _ (fun hm => h (List.mem_cons_of_mem _ hm)))
    cases a <;> simp only [step] <;> (try split) <;> (try split) <;>
      first | exact List.prefix_refl _ | exact List.prefix_append _ _ | exact absurd List.mem_cons_self h

/-- **C75** With the in-memory exporter, until `shutdown` or `clear` is called: items are held in the order of their calls, as far as one call
returned before the other began. -/
theorem C75_memory_order (w : Which) (l l' : List Step) (hl : ∀ a, a ∈ l → inMemory a = true) (hu : Undisturbed l)
    (hc : Step.clear ∉ l') (x y : Item) (hx : x ∈ (after w l).returned) (hs : w = .span → x.sampled = true)
    (hy : (after w l).calls ≤ y.call) (hy' : y ∈ (after w (l ++ l')).stored) :
    ∃ a b c, (after w (l ++ l')).stored = a ++ x :: b ++ y :: c := by
  have h1 := C75_memory_complete w l hl hu x hx hs
  have hinv := inv_after w l
  have h2 : y ∉ (after w l).stored := by
    intro hm
    have := ((memInv_after w l hl).stored y hm).1
    rcases hinv.handed y this with h3 | h3 | ⟨t, h3, _⟩
    · exact absurd (hinv.done y (by simp [h3])).1 (by omega)
    · exact absurd (hinv.done y (by simp [h3])).1 (by omega)
    · exact absurd (hinv.lt t y h3) (by omega)
  have h3 : (after w l).stored <+: (after w (l ++ l')).stored := by
    unfold after; rw [List.foldl_append]; exact stored_grows w l' _ hc
  obtain ⟨r, hr⟩ := h3
  rw [← hr] at hy' ⊢
  have hyr : y ∈ r := (List.mem_append.1 hy').resolve_left h2
  obtain ⟨a, b, hab⟩ := List.append_of_mem h1
  obtain ⟨c, d, hcd⟩ := List.append_of_mem hyr
  exact ⟨a, b ++ c, d, by rw [hab, hcd]; simp⟩

/-! ## What does not hold -/

/-- **C75** (refutation) A `BaseException` in the exporter (`KeyboardInterrupt`, `SystemExit`) leaves instrumentation suppressed in the
thread: the token is not detached. -/
theorem C75_base_exception_leaks : ∃ l : List Step, (after .span l).pc 0 = .idle ∧ (after .span l).own 0 = none ∧
    Ctx.getValue ((after .span l).rt.getCurrent 0) suppressKey = some (.other 1) :=
  ⟨[.call 0 true, .test 0, .attach 0, .export 0, .kill 0], by decide⟩

/-- **C75** (refutation) Nothing serialises the calls: two threads can be inside the exporter at the same time. -/
theorem C75_concurrent_exports (w : Which) : ∃ l : List Step, ((after w l).pc 0).inExport = true ∧ ((after w l).pc 1).inExport = true :=
  ⟨[.call 0 true, .call 1 true, .test 0, .test 1, .attach 0, .attach 1, .export 0, .export 1], by cases w <;> decide⟩

/-- **C75** (refutation) The span processor calls its exporter also after `shutdown`, with a span that ends then. -/
theorem C75_span_after_shutdown : ∃ l l' : List Step, Step.shutExporter ∈ l ∧ (after .span l).calls = 0 ∧ (after .span (l ++ l')).handed ≠ [] :=
  ⟨[.shutFlag, .shutExporter], [.call 0 true, .test 0, .attach 0, .export 0], by decide⟩

/-- **C75** (refutation) The in-memory exporter can store an item after its `shutdown` has returned, if the call was already inside. -/
theorem C75_memory_after_shutdown : ∃ l l' : List Step, Step.shutExporter ∈ l ∧ (after .span l).stored = [] ∧ (after .span (l ++ l')).stored ≠ [] :=
  ⟨[.call 0 true, .test 0, .attach 0, .export 0, .look 0, .shutExporter], [.store 0], by decide⟩

/-- A run that meets the hypotheses above: two threads, one sampled span each, one unsampled. -/
example : let l : List Step := [.setCtx 1 [], .call 0 true, .call 1 true, .test 1, .test 0, .attach 1, .attach 0, .export 1, .look 1, .export 0, .look 0, .store 0,
      .store 1, .detach 1, .detach 0, .call 0 false, .test 0]
    (after .span l).returned.map Item.call = [1, 0, 2] ∧ (after .span l).stored.map Item.call = [0, 1] ∧ (∀ a, a ∈ l → inMemory a = true) ∧ Undisturbed l := by
  refine ⟨by decide, by decide, by decide, by decide, by decide, by decide⟩

end Simple
end Otel
