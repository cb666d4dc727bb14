import Verif.Spec.Delivery
import Verif.Props.OtlpExport
import Verif.Props.Batch
/-!
# C124: what the collector receives
-/
namespace Otel
namespace Delivery
open Export Batch Spec
variable {σ : Type}

/-! ## One call -/

/-- The retry loop behind a call. -/
def flags (c : Call σ) : Nat → Bool := match c.wire with | .grpc s _ => s | .http _ => fun _ => false
def verdicts (c : Call σ) : Nat → Verdict :=
  match c.wire with | .grpc _ a => fun i => grpcVerdict (a i) | .http a => fun i => httpVerdict (a i)

theorem send_eq (c : Call σ) : send c = if c.down then (.failure, []) else loop (flags c) (verdicts c) 0 := by
  unfold send flags verdicts
  cases c.wire <;> rfl

theorem requests_eq (l : List Export.Act) : requests l = attempts l := rfl

theorem acks_iff (c : Call σ) (hp : Plain c) (i : Nat) : verdicts c i = .ok ↔ Acks c i := by
  unfold verdicts Acks
  unfold Plain at hp
  cases hw : c.wire with
  | grpc s a =>
    simp only []
    cases ha : a i with
    | returned => simp [grpcVerdict]
    | other => simp [grpcVerdict]
    | error code info => cases code <;> simp [grpcVerdict, Code.retryable]
  | http a =>
    rw [hw] at hp
    simp only [] at hp ⊢
    cases ha : a i with
    | exception => simp [httpVerdict]
    | status s =>
      have := hp i s ha
      simp only [httpVerdict, HttpAnswer.status.injEq, exists_eq_left']
      by_cases h : 400 ≤ s ∧ s < 600
      · rw [if_neg (by simpa using h)]
        constructor
        · split_ifs <;> simp
        · omega
      · rw [if_pos h]; simp; omega

/-- An acknowledgement is always taken for one. -/
theorem ok_of_acks (c : Call σ) (i : Nat) (h : Acks c i) : verdicts c i = .ok := by
  unfold verdicts
  unfold Acks at h
  cases hw : c.wire with
  | grpc s a =>
    rw [hw] at h
    simp only [] at h ⊢
    rcases h with h | ⟨info, h⟩ <;> rw [h] <;> rfl
  | http a =>
    rw [hw] at h
    simp only [] at h ⊢
    obtain ⟨s, h, h1, h2⟩ := h
    rw [h]
    simp only [httpVerdict]
    rw [if_pos (by omega)]

theorem transient_of_goes (c : Call σ) (i : Nat) (h : Goes (verdicts c i)) : Transient c i := by
  obtain ⟨d, hd, _⟩ := h
  unfold verdicts at hd
  unfold Transient
  cases hw : c.wire with
  | grpc s a =>
    rw [hw] at hd
    simp only [] at hd ⊢
    cases ha : a i with
    | returned => rw [ha] at hd; simp [grpcVerdict] at hd
    | other => rw [ha] at hd; simp [grpcVerdict] at hd
    | error code info =>
      rw [ha] at hd
      refine ⟨code, info, rfl, ?_⟩
      cases code <;> simp [grpcVerdict, Code.retryable] at hd ⊢
  | http a =>
    rw [hw] at hd
    simp only [] at hd ⊢
    cases ha : a i with
    | exception => rw [ha] at hd; simp [httpVerdict] at hd
    | status s =>
      rw [ha] at hd
      refine ⟨s, rfl, ?_⟩
      simp only [httpVerdict] at hd
      split_ifs at hd <;> assumption

/-- **C124** One call of `export`: the requests are numbered from nought, there are at most six, and every one but the last was answered
with a transient error; each carries the whole batch. -/
theorem C124_call (c : Call σ) (k : Nat) (b : List σ) : ∃ n, n ≤ 6 ∧ (∀ j, j + 1 < n → Transient c j) ∧ (∀ j, j + 1 < n → ¬ Acks c j) ∧
    received c k b = (List.range n).filterMap (fun i => if c.arrived i then some (k, b.filter (c.kept i)) else none) := by
  unfold received
  rw [send_eq, requests_eq]
  cases c.down with
  | true => exact ⟨0, by omega, fun j h => by omega, fun j h => by omega, rfl⟩
  | false =>
    obtain ⟨n, h1, h2, h3⟩ := C46_attempts (flags c) (verdicts c)
    refine ⟨n, h1, fun j hj => transient_of_goes c j (h3 j hj), ?_, ?_⟩
    · intro j hj ha
      obtain ⟨d, hd, _⟩ := h3 j hj
      rw [ok_of_acks c j ha] at hd
      cases hd
    · simp only [Bool.false_eq_true, if_false]
      rw [h2]; rfl

theorem received_length (c : Call σ) (k : Nat) (b : List σ) : (received c k b).length ≤ 6 := by
  obtain ⟨n, h1, _, _, h⟩ := C124_call c k b
  rw [h]
  exact (List.length_filterMap_le _ _).trans (by simpa using h1)

theorem received_fst (c : Call σ) (k : Nat) (b : List σ) : ∀ e ∈ received c k b, e.1 = k ∧ ∃ i, e.2 = b.filter (c.kept i) := by
  obtain ⟨n, _, _, _, h⟩ := C124_call c k b
  rw [h]
  intro e he
  obtain ⟨i, _, hi⟩ := List.mem_filterMap.1 he
  split_ifs at hi
  cases hi
  exact ⟨rfl, i, rfl⟩

theorem received_ne_nil (c : Call σ) (k : Nat) (b : List σ) : received c k b ≠ [] ↔ Reached c := by
  unfold received Reached
  rw [ne_eq, List.filterMap_eq_nil_iff]
  simp only [stored, not_forall]
  constructor
  · rintro ⟨i, hi, h⟩
    refine ⟨i, hi, ?_⟩
    by_contra hc
    exact h (if_neg hc)
  · rintro ⟨i, hi, h⟩
    exact ⟨i, hi, by rw [if_pos h]; simp⟩

/-- **C124** SUCCESS: the request that was acknowledged arrived, the last of them (with an honest network and no redirects). -/
theorem C124_success (c : Call σ) (k : Nat) (b : List σ) (hh : Honest c) (hp : Plain c) (hs : (send c).1 = .success) :
    ∃ i pre, Acks c i ∧ received c k b = pre ++ [(k, b.filter (c.kept i))] := by
  unfold received
  rw [send_eq] at hs ⊢
  rw [requests_eq]
  cases hd : c.down with
  | true => rw [hd] at hs; cases hs
  | false =>
    rw [hd] at hs
    simp only [Bool.false_eq_true, if_false] at hs ⊢
    have h1 := (C46_success (flags c) (verdicts c)).2
    obtain ⟨n, _, hn, _⟩ := C46_attempts (flags c) (verdicts c)
    cases n with
    | zero =>
      exfalso
      obtain ⟨q, hq, _⟩ := loop_stop (flags c) (verdicts c) 0 (by decide)
      obtain ⟨j, _, hj1, hj2, hj3⟩ := (C46_success (flags c) (verdicts c)).1.1 hs
      rw [loop, dif_neg (by decide), if_neg (by rw [hj2 0 (Nat.zero_le _)]; simp)] at hn
      cases hv : verdicts c 0 with
      | ok => rw [hv] at hn; simp [attempts] at hn
      | fail => rw [hv] at hn; simp [attempts] at hn
      | raises => rw [hv] at hn; simp [attempts] at hn
      | retry d =>
        rw [hv] at hn
        simp only [] at hn
        split_ifs at hn <;> simp [attempts] at hn
    | succ n =>
      have hl : (attempts (loop (flags c) (verdicts c) 0).2).getLast? = some n := by
        rw [hn, List.range_succ]; simp
      obtain ⟨hv, _⟩ := h1 n hs hl
      have ha := (acks_iff c hp n).1 hv
      refine ⟨n, (List.range n).filterMap (stored c k b), ha, ?_⟩
      rw [hn, List.range_succ, List.filterMap_append]
      simp [stored, hh n ha]

/-- **C124** Exactly once: if no request that arrived is answered with a transient error, at most one arrives; and one if the result is
SUCCESS. -/
theorem C124_once (c : Call σ) (k : Nat) (b : List σ) (hn : ∀ i, c.arrived i = true → ¬ Transient c i) :
    (received c k b).length ≤ 1 ∧ (Honest c → Plain c → (send c).1 = .success → (received c k b).length = 1) := by
  have h1 : (received c k b).length ≤ 1 := by
    obtain ⟨n, _, h, _, he⟩ := C124_call c k b
    rw [he]
    cases n with
    | zero => exact Nat.zero_le _
    | succ n =>
      rw [List.range_succ, List.filterMap_append, List.filterMap_eq_nil_iff.2]
      · rw [List.nil_append]
        exact List.length_filterMap_le _ _
      · intro i hi
        have := List.mem_range.1 hi
        apply if_neg
        intro ha
        exact hn i ha (h i (by omega))
  refine ⟨h1, fun hh hp hs => ?_⟩
  obtain ⟨i, pre, _, h⟩ := C124_success c k b hh hp hs
  rw [h] at h1 ⊢
  simp at h1 ⊢
  exact h1

/-! ## The batches together -/

theorem deliver_ge (w : Nat → Call σ) (k : Nat) (bs : List (List σ)) : ∀ e ∈ deliver w k bs, k ≤ e.1 := by
  induction bs generalizing k with
  | nil => intro e he; cases he
  | cons b bs ih =>
    intro e he
    rcases List.mem_append.1 he with h | h
    · exact ((received_fst _ _ _ e h).1).ge
    · exact (Nat.le_succ k).trans (ih (k + 1) e h)

/-- **C124** Batches reach the collector in the order in which they were handed over, all copies of one before the first of the next. -/
theorem C124_order (w : Nat → Call σ) (k : Nat) (bs : List (List σ)) : (deliver w k bs).Pairwise (fun a b => a.1 ≤ b.1) := by
  induction bs generalizing k with
  | nil => exact List.Pairwise.nil
  | cons b bs ih =>
    refine List.pairwise_append.2 ⟨?_, ih (k + 1), ?_⟩
    · refine List.pairwise_of_forall_mem_list ?_
      intro x hx y hy
      rw [(received_fst _ _ _ x hx).1, (received_fst _ _ _ y hy).1]
    · intro x hx y hy
      rw [(received_fst _ _ _ x hx).1]
      exact (Nat.le_succ k).trans (deliver_ge w (k + 1) bs y hy)

/-- **C124** The fate of a batch depends on its own call alone: whatever happened to the others, the collector's entries for it are those
of that call. -/
theorem C124_independent (w : Nat → Call σ) (bs : List (List σ)) (j : Nat) :
    (deliver w 0 bs).filter (fun e => e.1 = j) = match bs[j]? with | some b => received (w j) j b | none => [] := by
  have key : ∀ (bs : List (List σ)) (k j : Nat), (deliver w k bs).filter (fun e => e.1 = k + j) =
      match bs[j]? with | some b => received (w (k + j)) (k + j) b | none => [] := by
    intro bs
    induction bs with
    | nil => intro k j; simp [deliver]
    | cons b bs ih =>
      intro k j
      unfold deliver
      rw [List.filter_append]
      cases j with
      | zero =>
        rw [List.filter_eq_self.2 (fun e he => by simpa using (received_fst _ _ _ e he).1),
          List.filter_eq_nil_iff.2 (fun e he => by have := deliver_ge w _ _ e he; simp; omega)]
        simp
      | succ j =>
        rw [List.filter_eq_nil_iff.2 (fun e he => by have := (received_fst _ _ _ e he).1; simp; omega), List.nil_append,
          show k + (j + 1) = (k + 1) + j from by omega, ih (k + 1) j]
        simp
  simpa using key bs 0 j

/-- **C124** At most six copies of any batch. -/
theorem C124_copies (w : Nat → Call σ) (bs : List (List σ)) (j : Nat) : ((deliver w 0 bs).filter (fun e => e.1 = j)).length ≤ 6 := by
  rw [C124_independent]
  split
  · exact received_length _ _ _
  · exact Nat.zero_le _

theorem mem_deliver (w : Nat → Call σ) (bs : List (List σ)) (e : Nat × List σ) (he : e ∈ deliver w 0 bs) :
    ∃ b, bs[e.1]? = some b ∧ e ∈ received (w e.1) e.1 b := by
  have : e ∈ (deliver w 0 bs).filter (fun e' => e'.1 = e.1) := List.mem_filter.2 ⟨he, by simp⟩
  rw [C124_independent] at this
  cases hb : bs[e.1]? with
  | none => rw [hb] at this; cases this
  | some b => rw [hb] at this; exact ⟨b, rfl, this⟩

theorem deliver_mem (w : Nat → Call σ) (bs : List (List σ)) (j : Nat) (b : List σ) (hb : bs[j]? = some b) (e : Nat × List σ)
    (he : e ∈ received (w j) j b) : e ∈ deliver w 0 bs := by
  have : e ∈ (deliver w 0 bs).filter (fun e' => e'.1 = j) := by rw [C124_independent, hb]; exact he
  exact (List.mem_filter.1 this).1

theorem firsts_skip (k : Nat) (l l' : List (Nat × List σ)) (h : ∀ e ∈ l, e.1 = k) : firsts (some k) (l ++ l') = firsts (some k) l' := by
  induction l with
  | nil => rfl
  | cons e l ih =>
    obtain ⟨n, b⟩ := e
    have hn : n = k := h (n, b) (by simp)
    subst hn
    simp only [List.cons_append, firsts, if_true]
    exact ih (fun e he => h e (by simp [he]))

/-- **C124** If the collector stores what arrives and recognises repeated batches, it has exactly the batches of which some request
arrived, each once, in the order in which they were handed over. -/
theorem C124_batches (w : Nat → Call σ) (bs : List (List σ)) (hk : ∀ j, Whole (w j)) :
    firsts none (deliver w 0 bs) = ((bs.zipIdx).filter (fun p => decide (Reached (w p.2)))).map Prod.fst := by
  have key : ∀ (bs : List (List σ)) (k : Nat) (last : Option Nat), (∀ j, last = some j → j < k) →
      firsts last (deliver w k bs) = ((bs.zipIdx k).filter (fun p => decide (Reached (w p.2)))).map Prod.fst := by
    intro bs
    induction bs with
    | nil => intro k last _; rfl
    | cons b bs ih =>
      intro k last hl
      rw [List.zipIdx_cons]
      unfold deliver
      by_cases hr : Reached (w k)
      · rw [List.filter_cons_of_pos (by simpa using hr), List.map_cons, ← ih (k + 1) (some k) (by simp)]
        have hne := (received_ne_nil (w k) k b).2 hr
        cases hrec : received (w k) k b with
        | nil => exact absurd hrec hne
        | cons e l =>
          have hf := received_fst (w k) k b
          rw [hrec] at hf
          obtain ⟨he1, i, he2⟩ := hf e (by simp)
          have : b.filter ((w k).kept i) = b := List.filter_eq_self.2 (fun x _ => hk k i x)
          obtain ⟨n, x⟩ := e
          simp only at he1 he2
          subst he1
          rw [this] at he2
          subst he2
          simp only [List.cons_append, firsts]
          rw [if_neg (fun h => by have := hl _ h; omega), firsts_skip _ _ _ (fun e he => (hf e (by simp [he])).1)]
      · rw [List.filter_cons_of_neg (by simpa using hr)]
        have : received (w k) k b = [] := by
          by_contra hc
          exact hr ((received_ne_nil (w k) k b).1 hc)
        rw [this, List.nil_append]
        exact ih (k + 1) last (fun j hj => by have := hl j hj; omega)
  exact key bs 0 none (by simp)

/-- Every acknowledged call has reached the collector. -/
theorem reached_of_success (c : Call σ) (hh : Honest c) (hp : Plain c) (hs : (send c).1 = .success) : Reached c := by
  obtain ⟨i, pre, _, h⟩ := C124_success c 0 ([] : List σ) hh hp hs
  exact (received_ne_nil c 0 []).1 (by rw [h]; simp)

/-- **C124** … hence exactly the batches handed over, if each call succeeded. -/
theorem C124_all (w : Nat → Call σ) (bs : List (List σ)) (hk : ∀ j, Whole (w j)) (hh : ∀ j, Honest (w j)) (hp : ∀ j, Plain (w j))
    (hs : ∀ j, j < bs.length → (send (w j)).1 = .success) : firsts none (deliver w 0 bs) = bs := by
  rw [C124_batches w bs hk, List.filter_eq_self.2, List.zipIdx_map_fst]
  intro p hp'
  obtain ⟨x, i⟩ := p
  have := List.mem_zipIdx hp'
  simp only [decide_eq_true_eq]
  exact reached_of_success _ (hh i) (hp i) (hs i (by omega))

/-! ## Behind the batch processor -/

/-- **C124** Nothing is invented: what is at the collector was appended to the processor's queue, and sampled. -/
theorem C124_nothing_invented (w : Nat → Call σ) (c : Cfg σ) (acts : List (Batch.Act σ)) (e : Nat × List σ)
    (he : e ∈ collector w (run c acts)) (x : σ) (hx : x ∈ e.2) : x ∈ (run c acts).accepted ∧ c.sampled x = true := by
  obtain ⟨b, hb, hr⟩ := mem_deliver w _ e he
  obtain ⟨_, i, hi⟩ := received_fst _ _ _ e hr
  rw [hi] at hx
  have hxb := (List.mem_filter.1 hx).1
  have : x ∈ exported (run c acts) := List.mem_flatten.2 ⟨b, List.mem_of_getElem? hb, hxb⟩
  have ha := (C24_order c acts).subset this
  exact ⟨ha, (C24_only_sampled_offered c acts).2.2 x ha⟩

/-- **C124** Where a span is after a `shutdown` with no `on_end` in flight: dropped on overflow, at the collector, or in a batch whose
`export` did not return SUCCESS. -/
theorem C124_accounted (w : Nat → Call σ) (c : Cfg σ) (acts acts' : List (Batch.Act σ)) (hk : ∀ j, Whole (w j))
    (hh : ∀ j, Honest (w j)) (hp : ∀ j, Plain (w j)) (h : (run c acts).done = false)
    (hq : (run c acts).inflight = []) (hs : Ev.shutdown ∈ (run c (acts ++ .shutCall :: acts')).log) (x : σ)
    (hx : x ∈ (run c (acts ++ .shutCall :: acts')).accepted) :
    x ∈ evicted (run c (acts ++ .shutCall :: acts')) ∨
    (∃ e ∈ collector w (run c (acts ++ .shutCall :: acts')), x ∈ e.2) ∨
    ∃ j b, (batches (run c (acts ++ .shutCall :: acts')).log)[j]? = some b ∧ x ∈ b ∧ (send (w j)).1 ≠ .success := by
  obtain ⟨_, hsh⟩ := C26_quiescent c acts acts' h hq hs
  rcases (shuffle_mem _ _ _ hsh x).1 hx with h | h
  · obtain ⟨b, hb, hxb⟩ := List.mem_flatten.1 h
    obtain ⟨j, hj⟩ := List.mem_iff_getElem?.1 hb
    right
    by_cases hsj : (send (w j)).1 = .success
    · left
      obtain ⟨i, pre, _, hr⟩ := C124_success (w j) j b (hh j) (hp j) hsj
      refine ⟨(j, b.filter ((w j).kept i)), deliver_mem w _ j b hj _ (by rw [hr]; simp), ?_⟩
      exact List.mem_filter.2 ⟨hxb, hk j i x⟩
    · exact .inr ⟨j, b, hj, hxb, hsj⟩
  · exact .inl h

/-- **C124** End to end: after a `shutdown` with no `on_end` in flight, if every `export` succeeded, a collector that recognises repeated
batches has, in the order of appending, exactly the appended spans that were not dropped on overflow. -/
theorem C124_end_to_end (w : Nat → Call σ) (c : Cfg σ) (acts acts' : List (Batch.Act σ)) (hk : ∀ j, Whole (w j))
    (hh : ∀ j, Honest (w j)) (hp : ∀ j, Plain (w j)) (h : (run c acts).done = false)
    (hq : (run c acts).inflight = []) (hs : Ev.shutdown ∈ (run c (acts ++ .shutCall :: acts')).log)
    (hok : ∀ j, j < (batches (run c (acts ++ .shutCall :: acts')).log).length → (send (w j)).1 = .success) :
    Otel.Spec.Shuffle (firsts none (collector w (run c (acts ++ .shutCall :: acts')))).flatten
      (evicted (run c (acts ++ .shutCall :: acts'))) (run c (acts ++ .shutCall :: acts')).accepted := by
  unfold collector
  rw [C124_all w _ hk hh hp hok]
  exact (C26_quiescent c acts acts' h hq hs).2

theorem nodup_flatten_idx (bs : List (List σ)) (h : bs.flatten.Nodup) (i j : Nat) (a b : List σ) (ha : bs[i]? = some a)
    (hb : bs[j]? = some b) (x : σ) (hxa : x ∈ a) (hxb : x ∈ b) : i = j := by
  induction bs generalizing i j with
  | nil => simp at ha
  | cons c bs ih =>
    rw [List.flatten_cons, List.nodup_append] at h
    obtain ⟨_, h2, h3⟩ := h
    cases i with
    | zero =>
      cases j with
      | zero => rfl
      | succ j =>
        simp only [List.getElem?_cons_zero, Option.some.injEq] at ha
        simp only [List.getElem?_cons_succ] at hb
        subst ha
        exact absurd rfl (h3 x hxa x (List.mem_flatten.2 ⟨b, List.mem_of_getElem? hb, hxb⟩))
    | succ i =>
      cases j with
      | zero =>
        simp only [List.getElem?_cons_zero, Option.some.injEq] at hb
        simp only [List.getElem?_cons_succ] at ha
        subst hb
        exact absurd rfl (h3 x hxb x (List.mem_flatten.2 ⟨a, List.mem_of_getElem? ha, hxa⟩))
      | succ j =>
        simp only [List.getElem?_cons_succ] at ha hb
        rw [ih h2 i j ha hb]

/-- **C124** No second chance: if each span is appended once, the spans of a batch of which no request arrived during its one call of
`export` are not at the collector, however long the run. -/
theorem C124_no_second_chance (w : Nat → Call σ) (c : Cfg σ) (acts : List (Batch.Act σ)) (hn : (run c acts).accepted.Nodup)
    (j : Nat) (b : List σ) (hb : (batches (run c acts).log)[j]? = some b) (hr : ¬ Reached (w j)) (x : σ) (hx : x ∈ b) :
    ∀ e ∈ collector w (run c acts), x ∉ e.2 := by
  intro e he hxe
  obtain ⟨b', hb', hr'⟩ := mem_deliver w _ e he
  obtain ⟨_, i, hi⟩ := received_fst _ _ _ e hr'
  rw [hi] at hxe
  have := nodup_flatten_idx _ (C24_no_duplicates c acts hn) e.1 j b' b hb' hb x (List.mem_filter.1 hxe).1 hx
  rw [this] at hr'
  exact hr ((received_ne_nil (w j) j b').1 (List.ne_nil_of_mem hr'))

/-- **C124** If each span is appended once, each is at the collector in at most six entries, and in at most one if no request that arrived
is answered with a transient error. -/
theorem C124_span_copies (w : Nat → Call σ) (c : Cfg σ) (acts : List (Batch.Act σ)) (hn : (run c acts).accepted.Nodup) [DecidableEq σ] (x : σ) :
    ((collector w (run c acts)).filter (fun e => decide (x ∈ e.2))).length ≤ 6 ∧
    ((∀ j i, (w j).arrived i = true → ¬ Transient (w j) i) →
      ((collector w (run c acts)).filter (fun e => decide (x ∈ e.2))).length ≤ 1) := by
  have key : ∀ B, (∀ j b, (received (w j) j b).length ≤ B) →
      ((collector w (run c acts)).filter (fun e => decide (x ∈ e.2))).length ≤ B := by
    intro B hB
    cases hl : (collector w (run c acts)).filter (fun e => decide (x ∈ e.2)) with
    | nil => exact Nat.zero_le _
    | cons e l =>
      rw [← hl]
      have hidx : ∀ e' ∈ collector w (run c acts), x ∈ e'.2 → e'.1 = e.1 := by
        have he : e ∈ (collector w (run c acts)).filter (fun e => decide (x ∈ e.2)) := by rw [hl]; simp
        obtain ⟨he1, he2⟩ := List.mem_filter.1 he
        intro e' h1 h2
        obtain ⟨b, hb, hr⟩ := mem_deliver w _ e he1
        obtain ⟨b', hb', hr'⟩ := mem_deliver w _ e' h1
        obtain ⟨_, i, hi⟩ := received_fst _ _ _ e hr
        obtain ⟨_, i', hi'⟩ := received_fst _ _ _ e' hr'
        rw [hi'] at h2
        have he2' := of_decide_eq_true he2
        rw [hi] at he2'
        exact nodup_flatten_idx _ (C24_no_duplicates c acts hn) e'.1 e.1 b' b hb' hb x (List.mem_filter.1 h2).1 (List.mem_filter.1 he2').1
      have : (collector w (run c acts)).filter (fun e => decide (x ∈ e.2)) =
          ((collector w (run c acts)).filter (fun e' => e'.1 = e.1)).filter (fun e => decide (x ∈ e.2)) := by
        rw [List.filter_filter]
        apply List.filter_congr
        intro e' he'
        by_cases hx : x ∈ e'.2
        · simp [hx, hidx e' he' hx]
        · simp [hx]
      rw [this]
      refine (List.length_filter_le _ _).trans ?_
      unfold collector
      rw [C124_independent]
      split
      · exact hB _ _
      · exact Nat.zero_le _
  exact ⟨key 6 (fun j b => received_length _ _ _), fun h => key 1 (fun j b => (C124_once (w j) j b (h j)).1)⟩

/-! ## Findings -/

/-- **C124** (refutation of exactly-once) The answer is lost and the attempt is repeated: SUCCESS, and the collector has the batch twice. -/
theorem C124_duplicate_violated (b : List σ) : ∃ c : Call σ, Honest c ∧ Plain c ∧ Whole c ∧ (send c).1 = .success ∧
    received c 0 b = [(0, b), (0, b)] := by
  refine ⟨⟨false, .grpc (fun _ => false) (fun i => if i = 0 then .error .deadlineExceeded none else .returned), fun _ => true, fun _ _ => true⟩,
    fun _ _ => rfl, trivial, fun _ _ => rfl, by simp only [send]; decide +kernel, ?_⟩
  have h : (send (σ := σ) ⟨false, .grpc (fun _ => false) (fun i => if i = 0 then .error .deadlineExceeded none else .returned), fun _ => true, fun _ _ => true⟩).2
      = [.attempt 0, .sleep 1000000000, .attempt 1] := by simp only [send]; decide +kernel
  simp [received, h, requests, stored]

/-- **C124** (finding) The collector has the batch although `export` reports FAILURE (six answers lost over gRPC), or raises (over HTTP, where
the time-out of the first answer ends the call). -/
theorem C124_failure_violated (b : List σ) : (∃ c : Call σ, Honest c ∧ Plain c ∧ Whole c ∧ (send c).1 = .failure ∧ received c 0 b = List.replicate 6 (0, b)) ∧
    ∃ c : Call σ, Honest c ∧ Plain c ∧ Whole c ∧ (send c).1 = .raised ∧ received c 0 b = [(0, b)] := by
  constructor
  · refine ⟨⟨false, .grpc (fun _ => false) (fun _ => .error .deadlineExceeded none), fun _ => true, fun _ _ => true⟩,
      fun _ _ => rfl, trivial, fun _ _ => rfl, by simp only [send]; decide +kernel, ?_⟩
    have h : requests (send (σ := σ) ⟨false, .grpc (fun _ => false) (fun _ => .error .deadlineExceeded none), fun _ => true, fun _ _ => true⟩).2
        = [0, 1, 2, 3, 4, 5] := by simp only [send]; decide +kernel
    simp [received, h, stored, List.replicate]
  · refine ⟨⟨false, .http (fun _ => .exception), fun _ => true, fun _ _ => true⟩,
      fun _ _ => rfl, fun _ _ h => by simp at h, fun _ _ => rfl, by simp only [send]; decide +kernel, ?_⟩
    have h : requests (send (σ := σ) ⟨false, .http (fun _ => .exception), fun _ => true, fun _ _ => true⟩).2
        = [0] := by simp only [send]; decide +kernel
    simp [received, h, stored]

/-- **C124** (finding) A partial success is not looked at: SUCCESS although the collector stored nothing. -/
theorem C124_rejected_violated (b : List σ) : ∃ c : Call σ, Honest c ∧ Plain c ∧ (send c).1 = .success ∧ received c 0 b = [(0, [])] := by
  refine ⟨⟨false, .http (fun _ => .status 200), fun _ => true, fun _ _ => false⟩, fun _ _ => rfl,
    fun _ s h => by simp at h; omega, by simp only [send]; decide +kernel, ?_⟩
  have h : requests (send (σ := σ) ⟨false, .http (fun _ => .status 200), fun _ => true, fun _ _ => false⟩).2 = [0] := by simp only [send]; decide +kernel
  simp [received, h, stored]

/-- **C124** (finding) A status below 400 counts as SUCCESS, whatever it is: the collector has nothing. -/
theorem C124_redirect_violated (s : Nat) (hs : s < 200 ∨ (300 ≤ s ∧ s < 400)) (b : List σ) :
    ∃ c : Call σ, Honest c ∧ Whole c ∧ c.wire = .http (fun _ => .status s) ∧ (send c).1 = .success ∧ received c 0 b = [] := by
  refine ⟨⟨false, .http (fun _ => .status s), fun _ => false, fun _ _ => true⟩, ?_, fun _ _ => rfl, rfl, ?_, ?_⟩
  · rintro i ⟨s', h, h1, h2⟩
    cases h
    omega
  · simp only [send, httpExport, Bool.false_eq_true, if_false]
    rw [loop, dif_neg (by decide), if_neg (by simp)]
    simp only [httpVerdict]
    rw [if_pos (by omega)]
  · unfold received
    rw [List.filterMap_eq_nil_iff]
    intro i _
    rfl

/-- **C124** (finding) Over HTTP a connection error is not retried: the batch is lost although the next request would have been accepted. -/
theorem C124_hiccup_violated (b : List σ) : ∃ c : Call σ, Honest c ∧ Plain c ∧ Whole c ∧ c.wire = .http (fun i => if i = 0 then .exception else .status 200) ∧
    (∀ i, 0 < i → c.arrived i = true) ∧ (send c).1 = .raised ∧ received c 0 b = [] := by
  refine ⟨⟨false, .http (fun i => if i = 0 then .exception else .status 200), fun i => decide (0 < i), fun _ _ => true⟩, ?_, ?_, fun _ _ => rfl, rfl,
    fun i hi => by simpa using hi, by simp only [send]; decide +kernel, ?_⟩
  · rintro i ⟨s, h, _⟩
    by_cases hi : i = 0
    · subst hi; simp at h
    · simp; omega
  · intro i s h
    by_cases hi : i = 0
    · subst hi; simp at h
    · simp only [if_neg hi, HttpAnswer.status.injEq] at h
      left; omega
  · have h : requests (send (σ := σ) ⟨false, .http (fun i => if i = 0 then .exception else .status 200), fun i => decide (0 < i), fun _ _ => true⟩).2
        = [0] := by simp only [send]; decide +kernel
    simp [received, h, stored]

/-! ## Examples -/

/-- A run that meets the hypotheses of `C124_end_to_end`: two spans, one batch, the first attempt refused and the second accepted. -/
example : ∃ (w : Nat → Call Nat) (c : Cfg Nat) (acts acts' : List (Batch.Act Nat)), (∀ j, Whole (w j)) ∧ (∀ j, Honest (w j)) ∧ (∀ j, Plain (w j)) ∧
    (run c acts).done = false ∧ (run c acts).inflight = [] ∧ Ev.shutdown ∈ (run c (acts ++ .shutCall :: acts')).log ∧
    (∀ j, (send (w j)).1 = .success) ∧ collector w (run c (acts ++ .shutCall :: acts')) = [(0, [1, 2])] := by
  refine ⟨fun _ => ⟨false, .http (fun i => if i = 0 then .status 503 else .status 200), fun i => decide (0 < i), fun _ _ => true⟩,
    demo, [.offer 1, .append 0, .offer 2, .append 0], List.replicate 32 .worker ++ [.shutJoin], fun _ _ _ => rfl, ?_, ?_, rfl, rfl, ?_, ?_, ?_⟩
  · rintro j i ⟨s, h, h1, h2⟩
    by_cases hi : i = 0
    · subst hi; simp at h; omega
    · simp; omega
  · intro j i s h
    by_cases hi : i = 0
    · subst hi; simp at h; omega
    · simp only [if_neg hi, HttpAnswer.status.injEq] at h
      left; omega
  · have : (run demo ([.offer 1, .append 0, .offer 2, .append 0] ++ .shutCall :: (List.replicate 32 .worker ++ [.shutJoin]))).log
        = [.export [1, 2], .shutdown] := rfl
    rw [this]; simp
  · intro j; simp only [send]; decide +kernel
  · decide +kernel

end Delivery
end Otel
