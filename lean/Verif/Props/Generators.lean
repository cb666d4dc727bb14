import Verif.Spec.Generators
import Mathlib.Tactic.SplitIfs
import Mathlib.Tactic.Tauto
import Mathlib.Data.List.Nodup
/-!
# Spans around parts of generators
-/
namespace Otel
namespace Generators

theorem put_same {α β : Type} [DecidableEq α] (f : α → β) (a : α) (b : β) : put f a b a = b := if_pos rfl
theorem put_other {α β : Type} [DecidableEq α] (f : α → β) {a x : α} (b : β) (h : x ≠ a) : put f a b x = f x := if_neg h
theorem put_id {α β : Type} [DecidableEq α] (f : α → β) (a : α) : put f a (f a) = f := by
  funext x
  by_cases h : x = a
  · rw [h, put_same]
  · rw [put_other _ _ h]

/-! ## What holds for all histories -/

structure Base (st : State) : Prop where
  lt : ∀ a b, b ∈ st.blocks a → b.span < st.parents.length
  sorted : ∀ a, (st.blocks a).Pairwise fun x y => y.span < x.span
  uniq : ∀ a b a' b', b ∈ st.blocks a → b' ∈ st.blocks a' → b.span = b'.span → a = a'
  old : ∀ a b, b ∈ st.blocks a → st.parents[b.span]? = some b.old
  elt : ∀ i ∈ st.ended, i < st.parents.length
  disj : ∀ i ∈ st.ended, ∀ a b, b ∈ st.blocks a → b.span ≠ i
  nodup : st.ended.Nodup
  all : ∀ i < st.parents.length, i ∈ st.ended ∨ ∃ a b, b ∈ st.blocks a ∧ b.span = i

theorem base_init (v : Nat → Cur) : Base (State.init v) :=
  ⟨fun _ _ h => by simp [State.init] at h, fun _ => by simp [State.init], fun _ _ _ _ h => by simp [State.init] at h, fun _ _ h => by simp [State.init] at h,
    fun _ h => by simp [State.init] at h, fun _ h => by simp [State.init] at h, by simp [State.init], fun _ h => by simp [State.init] at h⟩

theorem base_enter (st : State) (c : Nat) (h : Base st) : Base (step st (c, .enter)) := by
  have key : ∀ a b, b ∈ (step st (c, .enter)).blocks a → b ∈ st.blocks a ∨ (a = st.actor c ∧ b = ⟨st.parents.length, c, st.var c⟩) := by
    intro a b hb
    by_cases ha : a = st.actor c
    · subst ha
      simp only [step, put_same, List.mem_cons] at hb
      rcases hb with hb | hb
      · exact .inr ⟨rfl, hb⟩
      · exact .inl hb
    · simp only [step, put_other _ _ ha] at hb
      exact .inl hb
  have back : ∀ a b, b ∈ st.blocks a → b ∈ (step st (c, .enter)).blocks a := by
    intro a b hb
    by_cases ha : a = st.actor c
    · subst ha
      simp only [step, put_same, List.mem_cons]
      exact .inr hb
    · simpa only [step, put_other _ _ ha] using hb
  have hlen : (step st (c, .enter)).parents.length = st.parents.length + 1 := by simp [step]
  refine ⟨?_, ?_, ?_, ?_, ?_, ?_, h.nodup, ?_⟩
  · intro a b hb
    rw [hlen]
    rcases key a b hb with hb | ⟨_, rfl⟩
    · exact Nat.lt_succ_of_lt (h.lt a b hb)
    · exact Nat.lt_succ_self _
  · intro a
    by_cases ha : a = st.actor c
    · subst ha
      simp only [step, put_same]
      exact List.pairwise_cons.2 ⟨fun b hb => h.lt _ b hb, h.sorted _⟩
    · simpa only [step, put_other _ _ ha] using h.sorted a
  · intro a b a' b' hb hb' e
    rcases key a b hb with hb | ⟨ha, rfl⟩ <;> rcases key a' b' hb' with hb' | ⟨ha', rfl⟩
    · exact h.uniq a b a' b' hb hb' e
    · have := h.lt a b hb
      simp only at e
      omega
    · have := h.lt a' b' hb'
      simp only at e
      omega
    · rw [ha, ha']
  · intro a b hb
    rcases key a b hb with hb | ⟨_, rfl⟩
    · simp only [step]
      rw [List.getElem?_append_left (h.lt a b hb)]
      exact h.old a b hb
    · simp [step]
  · intro i hi
    rw [hlen]
    exact Nat.lt_succ_of_lt (h.elt i hi)
  · intro i hi a b hb
    have hi' : i ∈ st.ended := hi
    rcases key a b hb with hb | ⟨_, rfl⟩
    · exact h.disj i hi' a b hb
    · have := h.elt i hi'
      simp only
      omega
  · intro i hi
    rw [hlen] at hi
    rcases Nat.lt_succ_iff_lt_or_eq.1 hi with hi | rfl
    · rcases h.all i hi with hi | ⟨a, b, hb, e⟩
      · exact .inl hi
      · exact .inr ⟨a, b, back a b hb, e⟩
    · exact .inr ⟨st.actor c, ⟨st.parents.length, c, st.var c⟩, by simp [step, put_same], rfl⟩

/-- What remains open when a block is left. -/
theorem left_open (st : State) (c : Nat) (h : Base st) (b : Block) (rest : List Block) (hb : st.blocks (st.actor c) = b :: rest) (a : Actor) (x : Block) :
    x ∈ (step st (c, .leave)).blocks a ↔ x ∈ st.blocks a ∧ x.span ≠ b.span := by
  have hbm : b ∈ st.blocks (st.actor c) := by simp [hb]
  by_cases ha : a = st.actor c
  · subst ha
    simp only [step, hb, put_same]
    have hs := h.sorted (st.actor c)
    rw [hb, List.pairwise_cons] at hs
    constructor
    · intro hx
      exact ⟨List.mem_cons_of_mem _ hx, Nat.ne_of_lt (hs.1 x hx)⟩
    · rintro ⟨hx, hn⟩
      rcases List.mem_cons.1 hx with rfl | hx
      · exact absurd rfl hn
      · exact hx
  · simp only [step, hb, put_other _ _ ha]
    exact ⟨fun hx => ⟨hx, fun e => ha (h.uniq a x _ b hx hbm e)⟩, fun hx => hx.1⟩

theorem base_leave (st : State) (c : Nat) (h : Base st) : Base (step st (c, .leave)) := by
  cases hb : st.blocks (st.actor c) with
  | nil =>
    have : step st (c, .leave) = st := by simp [step, hb]
    rw [this]
    exact h
  | cons b rest =>
    have key := left_open st c h b rest hb
    have hbm : b ∈ st.blocks (st.actor c) := by simp [hb]
    have hp : (step st (c, .leave)).parents = st.parents := by simp [step, hb]
    have he : (step st (c, .leave)).ended = st.ended ++ [b.span] := by simp [step, hb]
    refine ⟨?_, ?_, ?_, ?_, ?_, ?_, ?_, ?_⟩
    · intro a x hx
      rw [hp]
      exact h.lt a x ((key a x).1 hx).1
    · intro a
      by_cases ha : a = st.actor c
      · subst ha
        simp only [step, hb, put_same]
        have hs := h.sorted (st.actor c)
        rw [hb, List.pairwise_cons] at hs
        exact hs.2
      · simpa only [step, hb, put_other _ _ ha] using h.sorted a
    · intro a x a' x' hx hx' e
      exact h.uniq a x a' x' ((key a x).1 hx).1 ((key a' x').1 hx').1 e
    · intro a x hx
      rw [hp]
      exact h.old a x ((key a x).1 hx).1
    · intro i hi
      rw [hp]
      rw [he, List.mem_append, List.mem_singleton] at hi
      rcases hi with hi | rfl
      · exact h.elt i hi
      · exact h.lt _ b hbm
    · intro i hi a x hx
      rw [he, List.mem_append, List.mem_singleton] at hi
      rcases hi with hi | rfl
      · exact h.disj i hi a x ((key a x).1 hx).1
      · exact ((key a x).1 hx).2
    · rw [he]
      rw [List.nodup_append]
      refine ⟨h.nodup, by simp, ?_⟩
      intro i hi j hj
      rw [List.mem_singleton] at hj
      subst hj
      exact fun e => h.disj i hi _ b hbm e.symm
    · intro i hi
      rw [hp] at hi
      rw [he]
      rcases h.all i hi with hi | ⟨a, x, hx, e⟩
      · exact .inl (List.mem_append_left _ hi)
      · by_cases hn : x.span = b.span
        · refine .inl (List.mem_append_right _ ?_)
          rw [List.mem_singleton]
          exact e.symm.trans hn
        · exact .inr ⟨a, x, (key a x).2 ⟨hx, hn⟩, e⟩

theorem base_step (st : State) (ev : Nat × Op) (h : Base st) : Base (step st ev) := by
  obtain ⟨c, op⟩ := ev
  cases op with
  | enter => exact base_enter st c h
  | leave => exact base_leave st c h
  | resume g => exact ⟨h.lt, h.sorted, h.uniq, h.old, h.elt, h.disj, h.nodup, h.all⟩
  | suspend => exact ⟨h.lt, h.sorted, h.uniq, h.old, h.elt, h.disj, h.nodup, h.all⟩

theorem base_run (evs : List (Nat × Op)) : ∀ st, Base st → Base (run st evs) := by
  induction evs with
  | nil => exact fun st h => h
  | cons e l ih => exact fun st h => ih _ (base_step st e h)

/-- **C114** Whatever generators do and wherever they are resumed, closed or collected: each span that was started belongs to exactly one open block of exactly one function, or has
been ended, once, when its block was left. -/
theorem C114_ends (v : Nat → Cur) (evs : List (Nat × Op)) (i : Nat) (hi : i < (run (State.init v) evs).parents.length) :
    ((run (State.init v) evs).ended.count i = 1 ∧ ∀ a, ∀ b ∈ (run (State.init v) evs).blocks a, b.span ≠ i) ∨
    ((run (State.init v) evs).ended.count i = 0 ∧ ∃ a, (((run (State.init v) evs).blocks a).filter fun b => b.span = i).length = 1 ∧
      ∀ a', a' ≠ a → ∀ b ∈ (run (State.init v) evs).blocks a', b.span ≠ i) := by
  have h := base_run evs _ (base_init v)
  generalize run (State.init v) evs = st at *
  by_cases he : i ∈ st.ended
  · exact .inl ⟨List.count_eq_one_of_mem h.nodup he, h.disj i he⟩
  · refine .inr ⟨List.count_eq_zero_of_not_mem he, ?_⟩
    rcases h.all i hi with hi | ⟨a, b, hb, e⟩
    · exact absurd hi he
    · refine ⟨a, ?_, fun a' ha' b' hb' e' => ha' (h.uniq a' b' a b hb' hb (e'.trans e.symm))⟩
      have : ∀ l : List Block, l.Pairwise (fun x y => y.span < x.span) → b ∈ l → (l.filter fun b => b.span = i).length = 1 := by
        intro l
        induction l with
        | nil => exact fun _ h => by cases h
        | cons x l ih =>
          intro hs hm
          rw [List.pairwise_cons] at hs
          rcases List.mem_cons.1 hm with rfl | hm
          · have : (l.filter fun b => b.span = i) = [] := by
              rw [List.filter_eq_nil_iff]
              intro y hy
              have := hs.1 y hy
              simp only [decide_eq_true_eq]
              omega
            simp [e, this]
          · have hx := hs.1 b hm
            have hne : x.span ≠ i := by omega
            simp [hne, ih hs.2 hm]
      exact this _ (h.sorted a) hb

/-- **C114** After every history: leaving a block in the strand where it was entered makes the parent of its span current (what was current when the block was entered), and
leaving it in another strand makes no difference to what is current anywhere; the span is ended in both cases, and in the second an error is logged. -/
theorem C114_leave (v : Nat → Cur) (evs : List (Nat × Op)) (c : Nat) (b : Block) (rest : List Block)
    (hb : (run (State.init v) evs).blocks ((run (State.init v) evs).actor c) = b :: rest) :
    (step (run (State.init v) evs) (c, .leave)).ended = (run (State.init v) evs).ended ++ [b.span] ∧
    (b.strand = c → (run (State.init v) evs).parents[b.span]? = some ((step (run (State.init v) evs) (c, .leave)).var c)) ∧
    (b.strand ≠ c → (step (run (State.init v) evs) (c, .leave)).var = (run (State.init v) evs).var ∧
      (step (run (State.init v) evs) (c, .leave)).failed = (run (State.init v) evs).failed + 1) := by
  have h := base_run evs _ (base_init v)
  generalize run (State.init v) evs = st at *
  refine ⟨by simp [step, hb], fun hc => ?_, fun hc => ?_⟩
  · rw [h.old _ b (by rw [hb]; simp)]
    simp [step, hb, hc, put_same]
  · simp [step, hb, hc]

/-- **C114** Entering a block: the parent of the new span is the current span, and the new span becomes current; other strands do not notice; nor do they with any other operation. -/
theorem C114_enter (st : State) (c : Nat) :
    (step st (c, .enter)).parents = st.parents ++ [st.var c] ∧ (step st (c, .enter)).var c = .block st.parents.length ∧
    ∀ op c', c' ≠ c → (step st (c, op)).var c' = st.var c' := by
  refine ⟨rfl, put_same .., ?_⟩
  intro op c' hc
  cases op with
  | enter => exact put_other _ _ hc
  | leave =>
    simp only [step]
    split
    · rfl
    · simp only
      split_ifs
      · exact put_other _ _ hc
      · rfl
  | resume g => rfl
  | suspend => rfl

/-! ## Histories in order -/

/-- What is current, if these are the open blocks. -/
def topOf (v : Cur) : List Block → Cur
  | [] => v
  | b :: _ => .block b.span

/-- Each block has the next one in its token. -/
def Linked (v : Cur) : List Block → Prop
  | [] => True
  | b :: l => b.old = topOf v l ∧ Linked v l

def Listed (v : Nat → Cur) (st : State) (c : Nat) (l : List Block) : Prop :=
  (∀ b, b ∈ l ↔ st.isOpen c b) ∧ l.Pairwise (fun x y => y.span < x.span) ∧ Linked (v c) l ∧ st.var c = topOf (v c) l

theorem listed_enter (v : Nat → Cur) (st : State) (h : Base st) (hl : ∀ c, ∃ l, Listed v st c l) (c : Nat) : ∀ d, ∃ l, Listed v (step st (c, .enter)) d l := by
  have ho : ∀ d b, (step st (c, .enter)).isOpen d b ↔ st.isOpen d b ∨ (d = c ∧ b = ⟨st.parents.length, c, st.var c⟩) := by
    intro d b
    constructor
    · rintro ⟨hd, a, hb⟩
      by_cases ha : a = st.actor c
      · subst ha
        simp only [step, put_same, List.mem_cons] at hb
        rcases hb with rfl | hb
        · exact .inr ⟨hd.symm, rfl⟩
        · exact .inl ⟨hd, _, hb⟩
      · simp only [step, put_other _ _ ha] at hb
        exact .inl ⟨hd, a, hb⟩
    · rintro (⟨hd, a, hb⟩ | ⟨rfl, rfl⟩)
      · refine ⟨hd, a, ?_⟩
        by_cases ha : a = st.actor c
        · subst ha
          simp only [step, put_same]
          exact List.mem_cons_of_mem _ hb
        · simpa only [step, put_other _ _ ha] using hb
      · exact ⟨rfl, st.actor d, by simp [step, put_same]⟩
  intro d
  obtain ⟨l, h1, h2, h3, h4⟩ := hl d
  by_cases hd : d = c
  · subst hd
    refine ⟨⟨st.parents.length, d, st.var d⟩ :: l, ?_, ?_, ⟨h4, h3⟩, put_same ..⟩
    · intro b
      rw [ho, List.mem_cons, h1]
      constructor
      · rintro (rfl | hb)
        · exact .inr ⟨rfl, rfl⟩
        · exact .inl hb
      · rintro (hb | ⟨_, rfl⟩)
        · exact .inr hb
        · exact .inl rfl
    · refine List.pairwise_cons.2 ⟨fun b hb => ?_, h2⟩
      obtain ⟨_, a, hb⟩ := (h1 b).1 hb
      exact h.lt a b hb
  · refine ⟨l, ?_, h2, h3, (put_other _ _ hd).trans h4⟩
    intro b
    rw [ho, h1]
    simp [hd]

theorem listed_leave (v : Nat → Cur) (st : State) (h : Base st) (hl : ∀ c, ∃ l, Listed v st c l) (c : Nat) (ho : InOrder st (c, .leave)) :
    ∀ d, ∃ l, Listed v (step st (c, .leave)) d l := by
  cases hb : st.blocks (st.actor c) with
  | nil =>
    have : step st (c, .leave) = st := by simp [step, hb]
    rw [this]
    exact hl
  | cons b rest =>
    have hbm : b ∈ st.blocks (st.actor c) := by simp [hb]
    obtain ⟨⟨b0, ⟨hs0, a0, hb0⟩, e0⟩, hmax⟩ := ho rfl b rest hb
    have ea : a0 = st.actor c := h.uniq a0 b0 _ b hb0 hbm e0
    subst ea
    have eb : b0 = b := by
      have hs := h.sorted (st.actor c)
      rw [hb, List.pairwise_cons] at hs
      rw [hb] at hb0
      rcases List.mem_cons.1 hb0 with hb0 | hb0
      · exact hb0
      · have := hs.1 b0 hb0
        omega
    subst eb
    have hopen : ∀ d x, (step st (c, .leave)).isOpen d x ↔ st.isOpen d x ∧ x.span ≠ b0.span := by
      intro d x
      constructor
      · rintro ⟨hd, a, hx⟩
        have := (left_open st c h b0 rest hb a x).1 hx
        exact ⟨⟨hd, a, this.1⟩, this.2⟩
      · rintro ⟨⟨hd, a, hx⟩, hn⟩
        exact ⟨hd, a, (left_open st c h b0 rest hb a x).2 ⟨hx, hn⟩⟩
    have hvar : (step st (c, .leave)).var = put st.var c b0.old := by
      have hs0' : b0.strand = c := hs0
      simp only [step, hb]
      rw [if_pos hs0']
    intro d
    obtain ⟨l, h1, h2, h3, h4⟩ := hl d
    by_cases hd : d = c
    · subst hd
      cases l with
      | nil => exact absurd ((h1 b0).2 ⟨hs0, _, hbm⟩) (by simp)
      | cons x l =>
        rw [List.pairwise_cons] at h2
        have hx : x = b0 := by
          rcases List.mem_cons.1 ((h1 b0).2 ⟨hs0, _, hbm⟩) with hx | hx
          · exact hx.symm
          · have g1 := h2.1 b0 hx
            have g2 := hmax x ((h1 x).1 (by simp))
            omega
        subst hx
        refine ⟨l, ?_, h2.2, h3.2, ?_⟩
        · intro y
          rw [hopen, ← h1, List.mem_cons]
          constructor
          · intro hy
            exact ⟨.inr hy, Nat.ne_of_lt (h2.1 y hy)⟩
          · rintro ⟨rfl | hy, hn⟩
            · exact absurd rfl hn
            · exact hy
        · rw [hvar, put_same]
          exact h3.1
    · refine ⟨l, ?_, h2, h3, ?_⟩
      · intro y
        rw [hopen, h1]
        refine ⟨fun hy => ⟨hy, fun e => hd ?_⟩, fun hy => hy.1⟩
        obtain ⟨hyd, a, hy⟩ := hy
        have ea := h.uniq a y _ b0 hy hbm e
        subst ea
        have : y = b0 := by
          have hs := h.sorted (st.actor c)
          rw [hb, List.pairwise_cons] at hs
          rw [hb] at hy
          rcases List.mem_cons.1 hy with hy | hy
          · exact hy
          · have := hs.1 y hy
            omega
        subst this
        exact hyd.symm.trans hs0
      · rw [hvar, put_other _ _ hd]
        exact h4

theorem listed_step (v : Nat → Cur) (st : State) (ev : Nat × Op) (h : Base st) (hl : ∀ c, ∃ l, Listed v st c l) (ho : InOrder st ev) : ∀ d, ∃ l, Listed v (step st ev) d l := by
  obtain ⟨c, op⟩ := ev
  cases op with
  | enter => exact listed_enter v st h hl c
  | leave => exact listed_leave v st h hl c ho
  | resume g => exact hl
  | suspend => exact hl

theorem listed_run (v : Nat → Cur) (evs : List (Nat × Op)) : ∀ st, Base st → (∀ c, ∃ l, Listed v st c l) → Along InOrder st evs → ∀ d, ∃ l, Listed v (run st evs) d l := by
  induction evs with
  | nil => exact fun st _ hl _ => hl
  | cons e evs ih => exact fun st h hl ho => ih _ (base_step st e h) (listed_step v st e h hl ho.1) ho.2

theorem listed_init (v : Nat → Cur) : ∀ c, ∃ l, Listed v (State.init v) c l :=
  fun c => ⟨[], (fun b => by simp [State.isOpen, State.init]), List.Pairwise.nil, trivial, rfl⟩

/-- **C114** If blocks are left in the opposite order in which they were entered, in each strand and whosever blocks they are, then at every moment the innermost open block is current
in each strand, and what was current at the beginning if there is none: so nothing is left behind. -/
theorem C114_in_order (v : Nat → Cur) (evs : List (Nat × Op)) (h : Along InOrder (State.init v) evs) (c : Nat) : (run (State.init v) evs).Right v c := by
  obtain ⟨l, h1, h2, -, h4⟩ := listed_run v evs _ (base_init v) (listed_init v) h c
  cases l with
  | nil => exact .inr ⟨fun b hb => by simpa using (h1 b).2 hb, h4⟩
  | cons b l =>
    refine .inl ⟨b.span, ⟨⟨b, (h1 b).1 (by simp), rfl⟩, fun x hx => ?_⟩, h4⟩
    rcases List.mem_cons.1 ((h1 x).2 hx) with rfl | hx
    · exact Nat.le_refl _
    · exact Nat.le_of_lt ((List.pairwise_cons.1 h2).1 x hx)

/-! ## Generators that are suspended outside blocks -/

/-- The open blocks of the functions that run in a strand, innermost first. -/
def chain (st : State) (c : Nat) : List Block := ((st.act c).flatMap fun g => st.blocks (.gen g)) ++ st.blocks (.main c)

structure Quiet (st : State) : Prop where
  sorted : ∀ c, (chain st c).Pairwise fun x y => y.span < x.span
  here : ∀ c b, st.isOpen c b → b ∈ chain st c
  strand : ∀ c b, b ∈ chain st c → b.strand = c
  nodup : ∀ c, (st.act c).Nodup
  apart : ∀ c c' g, g ∈ st.act c → g ∈ st.act c' → c = c'
  idle : ∀ g, (∀ c, g ∉ st.act c) → st.blocks (.gen g) = []

/-- The blocks of the running code come first. -/
theorem chain_split (st : State) (c : Nat) : ∃ r, chain st c = st.blocks (st.actor c) ++ r := by
  unfold chain State.actor
  cases st.act c with
  | nil => exact ⟨[], by simp⟩
  | cons g gs => exact ⟨(gs.flatMap fun g => st.blocks (.gen g)) ++ st.blocks (.main c), by simp only [List.flatMap_cons, List.append_assoc]⟩

/-- Changing the blocks of the running code changes only its part of the chain of its strand. -/
theorem chain_put (st st' : State) (h : Quiet st) (c : Nat) (l : List Block) (hact : st'.act = st.act) (hb : st'.blocks = put st.blocks (st.actor c) l) :
    (∀ r, chain st c = st.blocks (st.actor c) ++ r → chain st' c = l ++ r) ∧ ∀ d, d ≠ c → chain st' d = chain st d := by
  constructor
  · intro r hr
    unfold chain State.actor at *
    rw [hact, hb]
    cases hc : st.act c with
    | nil =>
      rw [hc] at hr
      simp only [List.flatMap_nil, List.nil_append, put_same] at hr ⊢
      have hr' : r = [] := by simpa using hr
      rw [hr', List.append_nil]
    | cons g gs =>
      rw [hc] at hr
      simp only [List.flatMap_cons, List.append_assoc, put_same] at hr ⊢
      have hr' := List.append_cancel_left hr
      have hg : ∀ x ∈ gs, put st.blocks (.gen g) l (.gen x) = st.blocks (.gen x) := by
        intro x hx
        refine put_other _ _ fun e => ?_
        cases e
        have := h.nodup c
        rw [hc, List.nodup_cons] at this
        exact this.1 hx
      have hm : put st.blocks (.gen g) l (.main c) = st.blocks (.main c) := put_other _ _ (by simp)
      rw [hm, List.flatMap_congr hg, hr']
  · intro d hd
    unfold chain
    rw [hact, hb]
    have hm : put st.blocks (st.actor c) l (.main d) = st.blocks (.main d) := by
      refine put_other _ _ fun e => ?_
      unfold State.actor at e
      cases hc : st.act c with
      | nil => rw [hc] at e; cases e; exact hd rfl
      | cons g gs => rw [hc] at e; cases e
    rw [hm]
    congr 1
    refine List.flatMap_congr fun x hx => ?_
    refine put_other _ _ fun e => ?_
    unfold State.actor at e
    cases hc : st.act c with
    | nil => rw [hc] at e; cases e
    | cons g gs =>
      rw [hc] at e
      cases e
      exact hd (h.apart d c x hx (by rw [hc]; simp))

theorem quiet_init (v : Nat → Cur) : Quiet (State.init v) :=
  ⟨fun _ => by simp [chain, State.init], fun _ _ hb => by obtain ⟨_, a, hb⟩ := hb; simp [State.init] at hb, fun _ _ hb => by simp [chain, State.init] at hb,
    fun _ => by simp [State.init], fun _ _ _ hg => by simp [State.init] at hg, fun _ _ => rfl⟩

theorem quiet_enter (st : State) (hB : Base st) (h : Quiet st) (c : Nat) : Quiet (step st (c, .enter)) := by
  obtain ⟨r, hr⟩ := chain_split st c
  obtain ⟨hc, hd⟩ := chain_put st (step st (c, .enter)) h c (⟨st.parents.length, c, st.var c⟩ :: st.blocks (st.actor c)) rfl rfl
  have hc' : chain (step st (c, .enter)) c = ⟨st.parents.length, c, st.var c⟩ :: chain st c := by rw [hc r hr, hr]; rfl
  have hmem : ∀ d b, b ∈ chain st d → ∃ a, b ∈ st.blocks a := by
    intro d b hb
    unfold chain at hb
    rcases List.mem_append.1 hb with hb | hb
    · obtain ⟨g, _, hb⟩ := List.mem_flatMap.1 hb
      exact ⟨_, hb⟩
    · exact ⟨_, hb⟩
  refine ⟨fun d => ?_, fun d b hb => ?_, fun d b hb => ?_, h.nodup, h.apart, fun g hg => ?_⟩
  · by_cases e : d = c
    · subst e
      rw [hc']
      refine List.pairwise_cons.2 ⟨fun b hb => ?_, h.sorted d⟩
      obtain ⟨a, hb⟩ := hmem d b hb
      exact hB.lt a b hb
    · rw [hd d e]
      exact h.sorted d
  · obtain ⟨hs, a, hb⟩ := hb
    have hor : b ∈ st.blocks a ∨ b = ⟨st.parents.length, c, st.var c⟩ := by
      by_cases ha : a = st.actor c
      · subst ha
        simp only [step, put_same, List.mem_cons] at hb
        exact hb.symm
      · simp only [step, put_other _ _ ha] at hb
        exact .inl hb
    rcases hor with hb | rfl
    · have := h.here d b ⟨hs, a, hb⟩
      by_cases e : d = c
      · subst e
        rw [hc']
        exact List.mem_cons_of_mem _ this
      · rw [hd d e]
        exact this
    · have e : c = d := hs
      subst e
      rw [hc']
      simp
  · by_cases e : d = c
    · subst e
      rw [hc'] at hb
      rcases List.mem_cons.1 hb with rfl | hb
      · rfl
      · exact h.strand d b hb
    · rw [hd d e] at hb
      exact h.strand d b hb
  · have hg' : ∀ d, g ∉ st.act d := hg
    have : Actor.gen g ≠ st.actor c := by
      unfold State.actor
      cases hc : st.act c with
      | nil => exact fun e => by cases e
      | cons x gs =>
        intro e
        cases e
        exact hg' c (by rw [hc]; simp)
    show put st.blocks (st.actor c) _ (.gen g) = []
    rw [put_other _ _ this]
    exact h.idle g hg'

theorem quiet_leave (st : State) (hB : Base st) (h : Quiet st) (c : Nat) : Quiet (step st (c, .leave)) := by
  cases hb : st.blocks (st.actor c) with
  | nil =>
    have : step st (c, .leave) = st := by simp [step, hb]
    rw [this]
    exact h
  | cons b rest =>
    obtain ⟨r, hr⟩ := chain_split st c
    have hact : (step st (c, .leave)).act = st.act := by simp [step, hb]
    have hbl : (step st (c, .leave)).blocks = put st.blocks (st.actor c) rest := by simp [step, hb]
    obtain ⟨hc, hd⟩ := chain_put st (step st (c, .leave)) h c rest hact hbl
    have hc' : chain st c = b :: chain (step st (c, .leave)) c := by rw [hc r hr, hr, hb]; rfl
    have hsort := h.sorted c
    rw [hc', List.pairwise_cons] at hsort
    refine ⟨fun d => ?_, fun d x hx => ?_, fun d x hx => ?_, fun d => by rw [hact]; exact h.nodup d, fun d d' g => by rw [hact]; exact h.apart d d' g, fun g hg => ?_⟩
    · by_cases e : d = c
      · subst e
        exact hsort.2
      · rw [hd d e]
        exact h.sorted d
    · obtain ⟨hs, a, hx⟩ := hx
      obtain ⟨hx, hn⟩ := (left_open st c hB b rest hb a x).1 hx
      have := h.here d x ⟨hs, a, hx⟩
      by_cases e : d = c
      · subst e
        rw [hc'] at this
        rcases List.mem_cons.1 this with rfl | this
        · exact absurd rfl hn
        · exact this
      · rw [hd d e]
        exact this
    · by_cases e : d = c
      · subst e
        exact h.strand d x (by rw [hc']; exact List.mem_cons_of_mem _ hx)
      · rw [hd d e] at hx
        exact h.strand d x hx
    · rw [hact] at hg
      rw [hbl]
      by_cases e : Actor.gen g = st.actor c
      · unfold State.actor at e
        cases hc : st.act c with
        | nil => rw [hc] at e; cases e
        | cons x gs =>
          rw [hc] at e
          cases e
          exact absurd (by rw [hc]; simp) (hg c)
      · rw [put_other _ _ e]
        exact h.idle g hg

theorem quiet_step (st : State) (ev : Nat × Op) (hB : Base st) (h : Quiet st) (ho : Outside st ev) : Quiet (step st ev) := by
  obtain ⟨c, op⟩ := ev
  cases op with
  | enter => exact quiet_enter st hB h c
  | leave => exact quiet_leave st hB h c
  | resume g =>
    have hg : ∀ d, g ∉ st.act d := ho.2 g rfl
    have hchain : ∀ d, chain (step st (c, .resume g)) d = chain st d := by
      intro d
      unfold chain
      by_cases e : d = c
      · subst e
        simp only [step, put_same, List.flatMap_cons, h.idle g hg, List.nil_append]
      · simp only [step, put_other _ _ e]
    refine ⟨fun d => by rw [hchain]; exact h.sorted d, fun d b hb => by rw [hchain]; exact h.here d b hb, fun d b hb => by rw [hchain] at hb; exact h.strand d b hb, fun d => ?_,
      fun d d' x hx hx' => ?_, fun x hx => ?_⟩
    · by_cases e : d = c
      · subst e
        simp only [step, put_same]
        exact List.nodup_cons.2 ⟨hg d, h.nodup d⟩
      · simp only [step, put_other _ _ e]
        exact h.nodup d
    · simp only [step, put] at hx hx'
      split_ifs at hx hx' with e1 e2 e2
      · rw [e1, e2]
      · rcases List.mem_cons.1 hx with rfl | hx
        · exact absurd hx' (hg d')
        · rw [e1]; exact h.apart c d' x hx hx'
      · rcases List.mem_cons.1 hx' with rfl | hx'
        · exact absurd hx (hg d)
        · rw [e2]; exact h.apart d c x hx hx'
      · exact h.apart d d' x hx hx'
    · refine h.idle x fun d hd => hx d ?_
      by_cases e : d = c
      · subst e
        simp only [step, put_same]
        exact List.mem_cons_of_mem _ hd
      · simpa only [step, put_other _ _ e] using hd
  | suspend =>
    obtain ⟨hne, hemp⟩ := ho.1 rfl
    cases hc : st.act c with
    | nil => exact absurd hc hne
    | cons g gs =>
      have hemp' : st.blocks (.gen g) = [] := by
        have : st.actor c = .gen g := by unfold State.actor; rw [hc]
        rw [← this]
        exact hemp
      have hchain : ∀ d, chain (step st (c, .suspend)) d = chain st d := by
        intro d
        unfold chain
        by_cases e : d = c
        · subst e
          simp only [step, put_same, hc, List.tail_cons, List.flatMap_cons, hemp', List.nil_append]
        · simp only [step, put_other _ _ e]
      have hsub : ∀ d x, x ∈ (step st (c, .suspend)).act d → x ∈ st.act d := by
        intro d x hx
        by_cases e : d = c
        · subst e
          simp only [step, put_same] at hx
          exact List.mem_of_mem_tail hx
        · simpa only [step, put_other _ _ e] using hx
      refine ⟨fun d => by rw [hchain]; exact h.sorted d, fun d b hb => by rw [hchain]; exact h.here d b hb, fun d b hb => by rw [hchain] at hb; exact h.strand d b hb, fun d => ?_,
        fun d d' x hx hx' => h.apart d d' x (hsub d x hx) (hsub d' x hx'), fun x hx => ?_⟩
      · by_cases e : d = c
        · subst e
          simp only [step, put_same]
          exact (h.nodup d).sublist (List.tail_sublist _)
        · simp only [step, put_other _ _ e]
          exact h.nodup d
      · by_cases ex : x = g
        · subst ex
          exact hemp'
        · refine h.idle x fun d hd => hx d ?_
          by_cases e : d = c
          · subst e
            simp only [step, put_same, hc, List.tail_cons]
            rw [hc] at hd
            rcases List.mem_cons.1 hd with hd | hd
            · exact absurd hd ex
            · exact hd
          · simpa only [step, put_other _ _ e] using hd

theorem quiet_in_order (st : State) (ev : Nat × Op) (h : Quiet st) : InOrder st ev := by
  obtain ⟨c, op⟩ := ev
  rintro rfl b rest hb
  obtain ⟨r, hr⟩ := chain_split st c
  have hb' : st.blocks (st.actor c) = b :: rest := hb
  have hsort := h.sorted c
  rw [hr, hb', List.cons_append, List.pairwise_cons] at hsort
  have hmem : b ∈ chain st c := by rw [hr, hb']; simp
  refine ⟨⟨b, ⟨h.strand c b hmem, st.actor c, by rw [hb']; simp⟩, rfl⟩, fun x hx => ?_⟩
  have := h.here c x hx
  rw [hr, hb', List.cons_append] at this
  rcases List.mem_cons.1 this with rfl | this
  · exact Nat.le_refl _
  · exact Nat.le_of_lt (hsort.1 x this)

theorem along_outside (evs : List (Nat × Op)) : ∀ st, Base st → Quiet st → Along Outside st evs → Along InOrder st evs ∧ Quiet (run st evs) := by
  induction evs with
  | nil => exact fun st _ h _ => ⟨trivial, h⟩
  | cons e evs ih =>
    intro st hB h ho
    obtain ⟨h1, h2⟩ := ih _ (base_step st e hB) (quiet_step st e hB h ho.1) ho.2
    exact ⟨⟨quiet_in_order st e h, h1⟩, h2⟩

/-- **C114** If no generator is suspended inside a block, everything is as if there were no generators: in each strand the innermost open block is current, and what was current at the
beginning if there is none; and code that has an open block of its own finds its own innermost block current, wherever it was called from. -/
theorem C114_outside (v : Nat → Cur) (evs : List (Nat × Op)) (h : Along Outside (State.init v) evs) (c : Nat) :
    (run (State.init v) evs).Right v c ∧
    ∀ b rest, (run (State.init v) evs).blocks ((run (State.init v) evs).actor c) = b :: rest → (run (State.init v) evs).var c = .block b.span := by
  obtain ⟨h1, h2⟩ := along_outside evs _ (base_init v) (quiet_init v) h
  have hR := C114_in_order v evs h1 c
  refine ⟨hR, fun b rest hb => ?_⟩
  have hin := quiet_in_order _ (c, .leave) h2 rfl b rest hb
  rcases hR with ⟨i, ⟨⟨x, hx, hxi⟩, hmax⟩, hvar⟩ | ⟨hno, _⟩
  · obtain ⟨⟨y, hy, hyi⟩, hmax'⟩ := hin
    have h3 := hmax' x hx
    have h4 := hmax y hy
    have : i = b.span := by
      have h3' : x.span ≤ b.span := h3
      have h5 : y.span = b.span := hyi
      omega
    rw [hvar, this]
  · obtain ⟨⟨y, hy, _⟩, _⟩ := hin
    exact absurd hy (hno y)

/-! ## Generators that are suspended inside blocks -/

/-- What is current when `k` generators have entered their blocks. -/
def curAfter (v : Cur) : Nat → Cur
  | 0 => v
  | k + 1 => .block k

structure Entered (v : Nat → Cur) (k : Nat) (st : State) : Prop where
  var : st.var 0 = curAfter (v 0) k
  act : st.act 0 = []
  len : st.parents.length = k
  ended : st.ended = []
  failed : st.failed = 0
  main : ∀ c, st.blocks (.main c) = []
  gen : ∀ g, st.blocks (.gen g) = if g < k then [⟨g, 0, curAfter (v 0) g⟩] else []

theorem entered (v : Nat → Cur) (k : Nat) : Entered v k (run (State.init v) ((List.range k).flatMap fun g => [(0, .resume g), (0, .enter), (0, .suspend)])) := by
  induction k with
  | zero => exact ⟨rfl, rfl, rfl, rfl, rfl, fun _ => rfl, fun g => by simp [run, State.init]⟩
  | succ k ih =>
    rw [List.range_succ, List.flatMap_append]
    unfold run at *
    rw [List.foldl_append]
    generalize List.foldl step (State.init v) _ = st at *
    obtain ⟨h1, h2, h3, h4, hf, h5, h6⟩ := ih
    refine ⟨?_, ?_, ?_, ?_, ?_, fun c => ?_, fun g => ?_⟩
    · simp [step, State.actor, put, h2, h3, curAfter]
    · simp [step, State.actor, put, h2]
    · simp [step, State.actor, put, h3]
    · simp [step, State.actor, put, h4]
    · simp [step, State.actor, put, hf]
    · simp [step, State.actor, put, h5]
    · by_cases e : g = k
      · subst e
        simp [step, State.actor, put, h1, h3, h6]
      · have : g < k + 1 ↔ g < k := by omega
        simp only [this, ← h6]
        simp [step, State.actor, put, e]

structure Leaving (v : Nat → Cur) (n j : Nat) (st : State) : Prop where
  var : st.var 0 = if j = 0 then curAfter (v 0) n else curAfter (v 0) (j - 1)
  act : st.act 0 = []
  ended : st.ended = List.range j
  len : st.parents.length = n
  failed : st.failed = 0
  main : ∀ c, st.blocks (.main c) = []
  gen : ∀ g, st.blocks (.gen g) = if j ≤ g ∧ g < n then [⟨g, 0, curAfter (v 0) g⟩] else []

theorem leaving (v : Nat → Cur) (n : Nat) (st : State) (h : Entered v n st) (j : Nat) (hj : j ≤ n) :
    Leaving v n j (run st ((List.range j).flatMap fun g => [(0, .resume g), (0, .leave), (0, .suspend)])) := by
  induction j with
  | zero =>
    refine ⟨by simpa [run] using h.var, h.act, by simpa [run] using h.ended, h.len, h.failed, h.main, fun g => ?_⟩
    simpa [run] using h.gen g
  | succ j ih =>
    have ih := ih (by omega)
    rw [List.range_succ, List.flatMap_append]
    unfold run at *
    rw [List.foldl_append]
    generalize List.foldl step st _ = st at *
    obtain ⟨h1, h2, h3, h4, hf, h5, h6⟩ := ih
    have hb : st.blocks (.gen j) = [⟨j, 0, curAfter (v 0) j⟩] := by rw [h6, if_pos ⟨Nat.le_refl _, by omega⟩]
    refine ⟨?_, ?_, ?_, ?_, ?_, fun c => ?_, fun g => ?_⟩
    · simp [step, State.actor, put, hb]
    · simp [step, State.actor, put, h2, hb]
    · simp [step, State.actor, put, h3, hb, List.range_succ]
    · simp [step, State.actor, put, h4, hb]
    · simp [step, State.actor, put, hf, hb]
    · simp [step, State.actor, put, h5, hb]
    · by_cases e : g = j
      · subst e
        rw [if_neg (by omega)]
        simp [step, State.actor, put, hb]
      · have : j + 1 ≤ g ∧ g < n ↔ j ≤ g ∧ g < n := by omega
        simp only [this, ← h6]
        simp [step, State.actor, put, e, hb]

/-- **C114**, refuted in part: of two or more generators that are consumed together and yield inside blocks, all blocks are left and all spans ended, without any error being logged,
but an ended span remains current: the last but one. A span started afterwards becomes its child, although no block is open. -/
theorem C114_zip_violated (v : Nat → Cur) (hv0 : ∃ k, v 0 = .outer k) (n : Nat) (hn : 2 ≤ n) :
    (run (State.init v) (zipped n)).ended = List.range n ∧ (∀ a, (run (State.init v) (zipped n)).blocks a = []) ∧ (run (State.init v) (zipped n)).failed = 0 ∧
    (run (State.init v) (zipped n)).var 0 = .block (n - 2) ∧
    (step (run (State.init v) (zipped n)) (0, .enter)).parents[n]? = some (.block (n - 2)) ∧ ¬ (run (State.init v) (zipped n)).Right v 0 := by
  have h : Leaving v n n (run (State.init v) (zipped n)) := by
    unfold zipped run
    rw [List.foldl_append]
    exact leaving v n _ (entered v n) n (Nat.le_refl _)
  generalize run (State.init v) (zipped n) = st at *
  have hv : st.var 0 = .block (n - 2) := by
    rw [h.var, if_neg (by omega)]
    obtain ⟨k, rfl⟩ := Nat.exists_eq_add_of_le hn
    rw [show 2 + k - 1 = (2 + k - 2) + 1 by omega]
    rfl
  have hb : ∀ a, st.blocks a = [] := by
    intro a
    cases a with
    | main c => exact h.main c
    | gen g => rw [h.gen, if_neg (by omega)]
  refine ⟨h.ended, hb, h.failed, hv, ?_, ?_⟩
  · simp [step, h.len, ← hv]
  · rintro (⟨i, ⟨⟨b, ⟨_, a, hb'⟩, _⟩, _⟩, _⟩ | ⟨_, hvar⟩)
    · rw [hb] at hb'
      cases hb'
    · obtain ⟨k, hk⟩ := hv0
      rw [hv, hk] at hvar
      cases hvar

/-- **C114**, refuted in part: the code that consumes a generator finds the generator's span current, not that of its own innermost block, and the span of the loop's body becomes a child
of the generator's. (All this is undone in the end: the blocks are left in order.) -/
theorem C114_consumer_violated (v : Nat → Cur) :
    (run (State.init v) (consumed.take 4)).actor 0 = .main 0 ∧
    ((run (State.init v) (consumed.take 4)).blocks (.main 0)).map (·.span) = [0] ∧ (run (State.init v) (consumed.take 4)).var 0 = .block 1 ∧
    (run (State.init v) consumed).parents = [v 0, .block 0, .block 1] ∧ (run (State.init v) consumed).var 0 = v 0 := by
  refine ⟨rfl, rfl, rfl, rfl, rfl⟩

/-- **C114**, refuted in part: when a generator is closed in another thread or task than the one where it entered its block, all spans are ended and no block is open, but the first strand
keeps the ended span as its current one. The strand that closed it is not disturbed; there an error is logged. -/
theorem C114_elsewhere_violated (v : Nat → Cur) :
    (run (State.init v) elsewhere).ended = [0, 1] ∧ (∀ a, (run (State.init v) elsewhere).blocks a = []) ∧ (run (State.init v) elsewhere).var 0 = .block 0 ∧
    (run (State.init v) elsewhere).var 1 = v 1 ∧ (run (State.init v) elsewhere).failed = 1 := by
  refine ⟨rfl, fun a => ?_, rfl, rfl, rfl⟩
  simp [elsewhere, run, step, State.actor, put, State.init]
  intro h1 h2
  rw [if_neg h1, if_neg h2]

/-- The hypothesis of `C114_outside` is met by it; the spans are siblings. -/
example (v : Nat → Cur) : Along Outside (State.init v) polite ∧ (run (State.init v) polite).parents = [v 0, .block 0, .block 0, .block 0] := by
  refine ⟨?_, rfl⟩
  simp only [polite, Along, Outside, State.actor]
  simp [step, State.actor, put, State.init]

/-- The hypothesis of `C114_in_order` is met by the consumer above, whose generator yields inside a block. -/
example (v : Nat → Cur) : Along InOrder (State.init v) consumed := by
  simp only [consumed, Along, InOrder, State.innermost, State.isOpen]
  simp [step, State.actor, put, State.init]
  refine ⟨⟨⟨_, ⟨?_, .main 0, List.mem_cons_self⟩, rfl⟩, ?_⟩, ⟨⟨_, ⟨?_, .gen 0, List.mem_cons_self⟩, rfl⟩, ?_⟩, ⟨_, ⟨?_, .main 0, by simp, List.mem_cons_self⟩, rfl⟩, ?_⟩
  · rfl
  · intro b _ x hb
    split_ifs at hb <;> simp at hb
    · rcases hb with rfl | rfl <;> simp
    · subst hb; simp
  · rfl
  · intro b _ x hb
    split_ifs at hb <;> simp at hb <;> subst hb <;> simp
  · rfl
  · intro b _ x hx hb
    split_ifs at hb <;> simp at hb <;> subst hb <;> rfl

end Generators
end Otel
