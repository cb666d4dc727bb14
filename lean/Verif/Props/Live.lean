import Verif.Spec.Live
import Verif.Props.Attributes
import Mathlib.Data.List.Induction
/-!
# C125: reading the attributes of a span while they are being set
-/
namespace Otel
namespace Live
open Spec BAttrs

theorem after_snoc (b : BAttrs) (l : List (AKey × Val)) (p : AKey × Val) : after b (l ++ [p]) = (after b l).setCore p.1 p.2 := by
  simp [after]

theorem after_sound (b : BAttrs) (h : Sound b) (l : List (AKey × Val)) : Sound (after b l) := by
  induction l using List.reverseRecOn with
  | nil => exact h
  | append_singleton l p ih => rw [after_snoc]; exact setCore_wf _ _ _ ih

theorem stage_succ (b : BAttrs) (E : List (AKey × Val)) (m : Nat) (p : AKey × Val) (rest : List (AKey × Val)) (h : E.drop m = p :: rest) :
    after b (E.take (m + 1)) = (after b (E.take m)).setCore p.1 p.2 ∧ E.drop (m + 1) = rest ∧ E[m]? = some p := by
  have hp : E[m]? = some p := by
    have : (E.drop m)[0]? = some p := by rw [h]; rfl
    simpa using this
  refine ⟨?_, ?_, hp⟩
  · rw [List.take_succ, hp]
    exact after_snoc _ _ _
  · rw [← List.tail_drop, h]; rfl

/-- What the state is, in terms of the assignments begun. -/
structure Data (b : BAttrs) (s : St) : Prop where
  le : s.completed ≤ (assignments s).length
  ph : match s.writer with
    | none => (assignments s).drop s.completed = [] ∧ s.b = stage b s s.completed
    | some (.ready, todo) => (assignments s).drop s.completed = todo ∧ s.b = stage b s s.completed
    | some (.count p k v, todo) => (assignments s).drop s.completed = p :: todo ∧ p.1 = .str k ∧
        (stage b s s.completed).setCore p.1 p.2 = { stage b s s.completed with
          d := (stage b s s.completed).d.tail ++ [(k, v)], dropped := (stage b s s.completed).dropped + 1 } ∧
        s.b = { stage b s s.completed with d := (stage b s s.completed).d.tail }
    | some (.store p k v, todo) => (assignments s).drop s.completed = p :: todo ∧ p.1 = .str k ∧
        (((stage b s s.completed).setCore p.1 p.2 = { stage b s s.completed with d := Dict.erase (stage b s s.completed).d k ++ [(k, v)] } ∧
            s.b = { stage b s s.completed with d := Dict.erase (stage b s s.completed).d k } ∧ Dict.has (stage b s s.completed).d k = true) ∨
          ((stage b s s.completed).setCore p.1 p.2 = { stage b s s.completed with
              d := (stage b s s.completed).d.tail ++ [(k, v)], dropped := (stage b s s.completed).dropped + 1 } ∧
            s.b = { stage b s s.completed with d := (stage b s s.completed).d.tail, dropped := (stage b s s.completed).dropped + 1 }))
  fin : s.ended = true → s.writer = none

theorem data_init (b : BAttrs) : Data b (init b) := ⟨Nat.zero_le _, ⟨rfl, rfl⟩, fun h => by cases h⟩

/-- Only the readers change. -/
theorem data_readers (b : BAttrs) (s : St) (rs : List Reader) (h : Data b s) : Data b { s with readers := rs } := ⟨h.le, h.ph, h.fin⟩

theorem setCore_zero (c : BAttrs) (p : AKey × Val) (h : c.maxlen = some 0) : c.setCore p.1 p.2 = { c with dropped := c.dropped + 1 } := by
  rw [setCore_eq, if_pos h]

theorem data_write (b : BAttrs) (s : St) (h : Data b s) : Data b (write s) := by
  obtain ⟨hle, hph, hfin⟩ := h
  unfold write
  have hne : ∀ w, s.writer = some w → s.ended = true → False := fun w hw he => by rw [hfin he] at hw; cases hw
  -- completing the assignment `p`
  have done : ∀ (p : AKey × Val) (todo : List (AKey × Val)) (w) (c : BAttrs), s.writer = some w → (assignments s).drop s.completed = p :: todo →
      c = (stage b s s.completed).setCore p.1 p.2 →
      Data b { s with b := c, writer := some (.ready, todo), completed := s.completed + 1 } := by
    intro p todo w c hw hd hc
    obtain ⟨h1, h2, h3⟩ := stage_succ b (assignments s) s.completed p todo hd
    refine ⟨?_, ⟨h2, ?_⟩, fun he => (hne w hw he).elim⟩
    · have : s.completed < (assignments s).length := by
        by_contra hc
        rw [List.drop_eq_nil_of_le (Nat.le_of_not_lt hc)] at hd
        cases hd
      exact this
    · rw [hc]; exact h1.symm
  cases hw : s.writer with
  | none => exact ⟨hle, by rw [hw] at hph ⊢; exact hph, hfin⟩
  | some w =>
    obtain ⟨ph, todo⟩ := w
    rw [hw] at hph
    cases ph with
    | ready =>
      cases todo with
      | nil => exact ⟨hle, hph, fun _ => rfl⟩
      | cons p todo =>
        obtain ⟨hd, hb⟩ := hph
        simp only []
        by_cases h0 : s.b.maxlen = some 0
        · rw [if_pos h0]
          refine done p todo _ _ hw hd ?_
          rw [hb] at h0 ⊢
          exact (setCore_zero _ p h0).symm
        · rw [if_neg h0]
          have hset : ∀ k v, p.1 = .str k → Attr.clean p.1 p.2 s.b.maxValueLen = some v → stored s.b.maxValueLen (p.1, p.2) = some (k, v) := by
            intro k v hk hv
            unfold stored
            simp only []
            rw [hk] at hv ⊢
            simp only [hv]
          split
          · rename_i k v hk hv
            have hst := hset k v hk hv
            split_ifs with h1 h2
            · refine ⟨hle, ⟨hd, hk, .inl ⟨?_, ?_, ?_⟩⟩, fun he => (hne _ hw he).elim⟩
              · show (stage b s s.completed).setCore p.1 p.2 = _
                rw [← hb, setCore_eq, if_neg h0, hst]
                simp only []
                rw [if_pos h1, hb]
                rfl
              · show ({ s.b with d := Dict.erase s.b.d k } : BAttrs) = _
                rw [hb]; rfl
              · show Dict.has (stage b s s.completed).d k = true
                rw [← hb]; exact h1
            · refine ⟨hle, ⟨hd, hk, ?_, ?_⟩, fun he => (hne _ hw he).elim⟩
              · show (stage b s s.completed).setCore p.1 p.2 = _
                rw [← hb, setCore_eq, if_neg h0, hst]
                simp only []
                rw [if_neg h1, if_pos h2]
                rw [hb]; rfl
              · show ({ s.b with d := s.b.d.tail } : BAttrs) = _
                rw [hb]; rfl
            · refine done p todo _ _ hw hd ?_
              rw [← hb, setCore_eq, if_neg h0, hst]
              simp only []
              rw [if_neg h1, if_neg h2]
          · rename_i hno
            refine done p todo _ _ hw hd ?_
            rw [← hb, setCore_eq, if_neg h0]
            have : stored s.b.maxValueLen (p.1, p.2) = none := by
              unfold stored
              simp only []
            rw [this]
    | count p k v =>
      obtain ⟨hd, hk, h1, h2⟩ := hph
      refine ⟨hle, ⟨hd, hk, .inr ⟨h1, ?_⟩⟩, fun he => (hne _ hw he).elim⟩
      show ({ s.b with dropped := s.b.dropped + 1 } : BAttrs) = _
      rw [h2]
      rfl
    | store p k v =>
      obtain ⟨hd, hk, h1⟩ := hph
      refine done p todo _ _ hw hd ?_
      rcases h1 with ⟨h1, h2, _⟩ | ⟨h1, h2⟩ <;> rw [h1, h2]

theorem data_step (b : BAttrs) (s : St) (a : Act) (h : Data b s) : Data b (step s a) := by
  cases a with
  | set l =>
    simp only [step]
    split_ifs with hc
    · simp only [Bool.and_eq_true, Option.isNone_iff_eq_none, Bool.not_eq_true'] at hc
      obtain ⟨hle, hph, hfin⟩ := h
      rw [hc.1] at hph
      obtain ⟨h1, h2⟩ := hph
      have hlen : s.completed = (assignments s).length := Nat.le_antisymm hle (by simpa using h1)
      have hE : (s.entered ++ [l]).flatten = assignments s ++ l := by simp [assignments]
      refine ⟨?_, ⟨?_, ?_⟩, fun he => by rw [hc.2] at he; cases he⟩
      · simp only [assignments]; rw [hE]; simp; omega
      · simp only [assignments]; rw [hE, List.drop_append, h1]; simp [hlen]
      · show s.b = after b (((s.entered ++ [l]).flatten).take s.completed)
        rw [hE, List.take_append, show s.completed - (assignments s).length = 0 from by omega]
        simpa [stage] using h2
    · exact h
  | write => exact data_write b s h
  | «end» =>
    simp only [step]
    split_ifs with hc
    · exact ⟨h.le, h.ph, fun _ => by simpa using hc⟩
    · exact h
  | items => exact data_readers b s _ h
  | next i =>
    simp only [step]
    split
    · split_ifs
      · exact data_readers b s _ h
      · exact h
    · exact data_readers b s _ h
    · split <;> exact data_readers b s _ h
    · exact h

theorem run_snoc (b : BAttrs) (acts : List Act) (a : Act) : run b (acts ++ [a]) = step (run b acts) a := by simp [run]

theorem data_run (b : BAttrs) (acts : List Act) : Data b (run b acts) := by
  induction acts using List.reverseRecOn with
  | nil => exact data_init b
  | append_singleton l a ih => rw [run_snoc]; exact data_step b _ a ih

/-! ## Single reads -/

theorem get?_tail (d : Dict Str Val) (hn : (Dict.keys d).Nodup) (k : Str) (v : Val) (h : Dict.get? d.tail k = some v) : Dict.get? d k = some v := by
  apply Dict.get?_of_mem d hn
  exact List.mem_of_mem_tail (Dict.mem_of_get? _ _ _ h)

/-- What a read of one key sees. -/
theorem look_data (b : BAttrs) (hb : Sound b) (s : St) (h : Data b s) (k : Str) :
    (∀ v, look s k = some v → Dict.get? (stage b s s.completed).d k = some v) ∧
    (look s k = none → Dict.get? (stage b s s.completed).d k = none ∨ Dict.get? (stage b s (s.completed + 1)).d k = none ∨
      ∃ v, (assignments s)[s.completed]? = some (.str k, v)) ∧
    (s.completed = (assignments s).length → Dict.get? (stage b s s.completed).d k = look s k) := by
  obtain ⟨hle, hph, hfin⟩ := h
  have hS : Sound (stage b s s.completed) := after_sound b hb _
  unfold look
  cases hw : s.writer with
  | none =>
    rw [hw] at hph
    rw [hph.2]
    exact ⟨fun v h => h, fun h => .inl h, fun _ => rfl⟩
  | some w =>
    obtain ⟨ph, todo⟩ := w
    rw [hw] at hph
    -- an entry is out
    have out : ∀ (p : AKey × Val) (k' : Str) (v' : Val) (dd : Dict Str Val) (nd : Nat) (c : BAttrs), (assignments s).drop s.completed = p :: todo → p.1 = .str k' →
        (stage b s s.completed).setCore p.1 p.2 = { c with d := dd ++ [(k', v')], dropped := nd } → s.b.d = dd → (∀ v, Dict.get? dd k = some v → Dict.get? (stage b s s.completed).d k = some v) →
        (∀ v, Dict.get? s.b.d k = some v → Dict.get? (stage b s s.completed).d k = some v) ∧
        (Dict.get? s.b.d k = none → Dict.get? (stage b s s.completed).d k = none ∨ Dict.get? (stage b s (s.completed + 1)).d k = none ∨
          ∃ v, (assignments s)[s.completed]? = some (.str k, v)) ∧
        (s.completed = (assignments s).length → Dict.get? (stage b s s.completed).d k = Dict.get? s.b.d k) := by
      intro p k' v' dd nd c hd hk hset hsb hsub
      obtain ⟨h1, h2, h3⟩ := stage_succ b (assignments s) s.completed p todo hd
      refine ⟨by rw [hsb]; exact hsub, ?_, ?_⟩
      · intro hnone
        by_cases hkk : k' = k
        · right; right
          refine ⟨p.2, ?_⟩
          rw [h3, ← hkk, ← hk]
        · right; left
          show Dict.get? (after b ((assignments s).take (s.completed + 1))).d k = none
          rw [h1]
          have : (after b ((assignments s).take s.completed)).setCore p.1 p.2 = _ := hset
          rw [this]
          simp only []
          rw [Dict.get?_eq_none_iff] at hnone ⊢
          rw [hsb] at hnone
          rw [Dict.keys_append, List.mem_append, not_or]
          exact ⟨hnone, by simpa using fun h => hkk h.symm⟩
      · intro hlen
        rw [hlen, List.drop_length] at hd
        cases hd
    cases ph with
    | ready =>
      rw [hph.2]
      exact ⟨fun v h => h, fun h => .inl h, fun _ => rfl⟩
    | count p k' v' =>
      obtain ⟨hd, hk, h1, h2⟩ := hph
      exact out p k' v' _ _ _ hd hk h1 (by rw [h2]) (fun v hv => get?_tail _ hS.1 _ _ hv)
    | store p k' v' =>
      obtain ⟨hd, hk, h1⟩ := hph
      rcases h1 with ⟨h1, h2, _⟩ | ⟨h1, h2⟩
      · refine out p k' v' _ (stage b s s.completed).dropped _ hd hk h1 (by rw [h2]) ?_
        intro v hv
        rw [Dict.get?_erase _ _ _ hS.1] at hv
        split_ifs at hv
        exact hv
      · exact out p k' v' _ _ _ hd hk h1 (by rw [h2]) (fun v hv => get?_tail _ hS.1 _ _ hv)

/-- **C125** Assignments are made one after the other, those of one call together: the calls that found the span recording, in order, are
completed up to some point; with no `__setitem__` under way the attributes are those after the completed assignments. -/
theorem C125_writes (b : BAttrs) (acts : List Act) :
    (run b acts).completed ≤ (assignments (run b acts)).length ∧
    ((unlocked (run b acts)) = true → (run b acts).b = stage b (run b acts) (run b acts).completed) ∧
    ((run b acts).writer = none → (run b acts).completed = (assignments (run b acts)).length) := by
  have h := data_run b acts
  generalize run b acts = s at h
  obtain ⟨hle, hph, _⟩ := h
  refine ⟨hle, ?_, ?_⟩
  · unfold unlocked
    cases hw : s.writer with
    | none => rw [hw] at hph; exact fun _ => hph.2
    | some w =>
      obtain ⟨ph, todo⟩ := w
      rw [hw] at hph
      cases ph with
      | ready => exact fun _ => hph.2
      | count => simp
      | store => simp
  · intro hw
    rw [hw] at hph
    exact Nat.le_antisymm hle (by simpa using hph.1)

/-- How many steps the thread that has the lock still needs at most. -/
def left (s : St) : Nat :=
  match s.writer with
  | none => 0
  | some (.ready, todo) => 3 * todo.length + 1
  | some (.store _ _ _, todo) => 3 * todo.length + 2
  | some (.count _ _ _, todo) => 3 * todo.length + 3

theorem left_write (s : St) : left (write s) ≤ left s - 1 := by
  unfold write
  cases hw : s.writer with
  | none => simp [left, hw]
  | some w =>
    obtain ⟨ph, todo⟩ := w
    cases ph with
    | ready =>
      cases todo with
      | nil => simp [left]
      | cons p todo =>
        simp only []
        split
        · simp [left, hw]; omega
        · split
          · split_ifs <;> simp [left, hw] <;> omega
          · simp [left, hw]; omega
    | count p k v => simp [left, hw]
    | store p k v => simp [left, hw]

/-- **C125** A call of `set_attributes` on a recording span, once it has the lock, makes all its assignments, in order, and gives the lock back
after at most three steps for each and one. -/
theorem C125_call (b : BAttrs) (acts : List Act) (l : List (AKey × Val)) (n : Nat) (hw : (run b acts).writer = none)
    (he : (run b acts).ended = false) (hn : 3 * l.length + 1 ≤ n) :
    (run b (acts ++ .set l :: List.replicate n .write)).writer = none ∧
    (run b (acts ++ .set l :: List.replicate n .write)).b = after b (assignments (run b acts) ++ l) := by
  have h1 : run b (acts ++ [.set l]) = { run b acts with writer := some (.ready, l), entered := (run b acts).entered ++ [l] } := by
    rw [run_snoc]; simp [step, hw, he]
  have key : ∀ n, left (run b (acts ++ [.set l] ++ List.replicate n .write)) ≤ 3 * l.length + 1 - n ∧
      assignments (run b (acts ++ [.set l] ++ List.replicate n .write)) = assignments (run b acts) ++ l := by
    intro n
    induction n with
    | zero =>
      rw [List.replicate_zero, List.append_nil, h1]
      exact ⟨by simp [left], by simp [assignments]⟩
    | succ n ih =>
      rw [List.replicate_succ', ← List.append_assoc, run_snoc]
      have hwr : (write (run b (acts ++ [.set l] ++ List.replicate n .write))).entered = (run b (acts ++ [.set l] ++ List.replicate n .write)).entered := by
        unfold write
        split
        · rfl
        · rfl
        · split
          · rfl
          · split
            · split_ifs <;> rfl
            · rfl
        · rfl
        · rfl
      refine ⟨?_, ?_⟩
      · refine (left_write _).trans ?_
        have := ih.1
        omega
      · show (write _).entered.flatten = _
        rw [hwr]
        exact ih.2
  obtain ⟨h2, h3⟩ := key n
  have hcat : acts ++ [.set l] ++ List.replicate n .write = acts ++ .set l :: List.replicate n .write := by simp
  rw [hcat] at h2 h3
  have hnone : (run b (acts ++ .set l :: List.replicate n .write)).writer = none := by
    have h0 : left (run b (acts ++ .set l :: List.replicate n .write)) = 0 := by omega
    cases hw' : (run b (acts ++ .set l :: List.replicate n .write)).writer with
    | none => rfl
    | some w =>
      obtain ⟨ph, todo⟩ := w
      cases ph <;> simp [left, hw'] at h0
  refine ⟨hnone, ?_⟩
  have hd := data_run b (acts ++ .set l :: List.replicate n .write)
  have hph := hd.ph
  rw [hnone] at hph
  rw [hph.2, ← h3]
  unfold stage
  rw [List.take_of_length_le]
  simpa using hph.1

/-- **C125** Reading one attribute at any moment: a value that is read is that after the assignments completed so far; `KeyError` means that the
key is not there before or after the assignment under way, or that this assigns to it. -/
theorem C125_get (b : BAttrs) (hb : Sound b) (acts : List Act) (k : Str) :
    (∀ v, look (run b acts) k = some v → Dict.get? (stage b (run b acts) (run b acts).completed).d k = some v) ∧
    (look (run b acts) k = none → Dict.get? (stage b (run b acts) (run b acts).completed).d k = none ∨
      Dict.get? (stage b (run b acts) ((run b acts).completed + 1)).d k = none ∨
      ∃ v, (assignments (run b acts))[(run b acts).completed]? = some (.str k, v)) :=
  ⟨(look_data b hb _ (data_run b acts) k).1, (look_data b hb _ (data_run b acts) k).2.1⟩

/-! ## Reading them all -/

theorem stage_stable (b : BAttrs) (s s' : St) (n : Nat) (hE : ∃ l, assignments s' = assignments s ++ l) (hn : n ≤ (assignments s).length) :
    stage b s' n = stage b s n := by
  obtain ⟨l, hl⟩ := hE
  unfold stage
  rw [hl, List.take_append_of_le_length hn]

/-- What is true of a call of `items()`. -/
def Good (b : BAttrs) (s : St) : Reader → Prop
  | .viewed => True
  | .reading st got todo => st ≤ s.completed ∧ got.map Prod.fst ++ todo = Dict.keys (stage b s st).d ∧
      ∀ p ∈ got, ∃ n, st ≤ n ∧ n ≤ s.completed ∧ Dict.get? (stage b s n).d p.1 = some p.2
  | .returned st l => st ≤ s.completed ∧
      (l.map Prod.fst = Dict.keys (stage b s st).d ∨ (l = [] ∧ (stage b s st).d.length = 1 ∧ st < (assignments s).length)) ∧
      ∀ p ∈ l, ∃ n, st ≤ n ∧ n ≤ s.completed ∧ Dict.get? (stage b s n).d p.1 = some p.2
  | .raised st k => k ∈ Dict.keys (stage b s st).d ∧ ∃ n, st ≤ n ∧ n ≤ s.completed ∧
      (Dict.get? (stage b s n).d k = none ∨ (n < (assignments s).length ∧ Dict.get? (stage b s (n + 1)).d k = none) ∨ ∃ v, (assignments s)[n]? = some (.str k, v))

theorem good_mono (b : BAttrs) (s s' : St) (hle : s.completed ≤ (assignments s).length) (hc : s.completed ≤ s'.completed)
    (hE : ∃ l, assignments s' = assignments s ++ l) (r : Reader) (h : Good b s r) : Good b s' r := by
  have hst : ∀ n, n ≤ (assignments s).length → stage b s' n = stage b s n := fun n hn => stage_stable b s s' n hE hn
  have hlen : (assignments s).length ≤ (assignments s').length := by obtain ⟨l, hl⟩ := hE; rw [hl]; simp
  have hget : ∀ (n : Nat) (x : AKey × Val), (assignments s)[n]? = some x → (assignments s')[n]? = some x := by
    intro n x hx
    obtain ⟨l, hl⟩ := hE
    have hlt : n < (assignments s).length := by
      by_contra hcon
      rw [List.getElem?_eq_none (Nat.le_of_not_lt hcon)] at hx
      cases hx
    rw [hl, List.getElem?_append_left hlt]
    exact hx
  cases r with
  | viewed => trivial
  | reading st got todo =>
    obtain ⟨h1, h2, h3⟩ := h
    refine ⟨by omega, by rw [hst st (by omega)]; exact h2, ?_⟩
    intro p hp
    obtain ⟨n, a1, a2, a3⟩ := h3 p hp
    exact ⟨n, a1, by omega, by rw [hst n (by omega)]; exact a3⟩
  | returned st l =>
    obtain ⟨h1, h2, h3⟩ := h
    refine ⟨by omega, by rw [hst st (by omega)]; exact h2.imp_right (fun h => ⟨h.1, h.2.1, by omega⟩), ?_⟩
    intro p hp
    obtain ⟨n, a1, a2, a3⟩ := h3 p hp
    exact ⟨n, a1, by omega, by rw [hst n (by omega)]; exact a3⟩
  | raised st k =>
    obtain ⟨h1, n, a1, a2, a3⟩ := h
    refine ⟨by rw [hst st (by omega)]; exact h1, n, a1, by omega, ?_⟩
    rcases a3 with h | ⟨h, h'⟩ | ⟨v, h⟩
    · left; rw [hst n (by omega)]; exact h
    · right; left; exact ⟨by omega, by rw [hst (n + 1) (by omega)]; exact h'⟩
    · right; right; exact ⟨v, hget _ _ h⟩

theorem step_mono (s : St) (a : Act) : s.completed ≤ (step s a).completed ∧ ∃ l, assignments (step s a) = assignments s ++ l := by
  cases a with
  | set l =>
    simp only [step]
    split_ifs
    · exact ⟨Nat.le_refl _, l, by simp [assignments]⟩
    · exact ⟨Nat.le_refl _, [], by simp⟩
  | write =>
    have : s.completed ≤ (write s).completed ∧ (write s).entered = s.entered := by
      unfold write
      split
      · exact ⟨Nat.le_refl _, rfl⟩
      · exact ⟨Nat.le_refl _, rfl⟩
      · split
        · exact ⟨Nat.le_succ _, rfl⟩
        · split
          · split_ifs
            · exact ⟨Nat.le_refl _, rfl⟩
            · exact ⟨Nat.le_refl _, rfl⟩
            · exact ⟨Nat.le_succ _, rfl⟩
          · exact ⟨Nat.le_succ _, rfl⟩
      · exact ⟨Nat.le_refl _, rfl⟩
      · exact ⟨Nat.le_succ _, rfl⟩
    refine ⟨this.1, [], ?_⟩
    simp only [step, assignments, this.2, List.append_nil]
  | «end» => simp only [step]; split_ifs <;> exact ⟨Nat.le_refl _, [], by simp [assignments]⟩
  | items => exact ⟨Nat.le_refl _, [], by simp [step, assignments]⟩
  | next i =>
    simp only [step]
    split
    · split_ifs <;> exact ⟨Nat.le_refl _, [], by simp [assignments]⟩
    · exact ⟨Nat.le_refl _, [], by simp [assignments]⟩
    · split <;> exact ⟨Nat.le_refl _, [], by simp [assignments]⟩
    · exact ⟨Nat.le_refl _, [], by simp [assignments]⟩

theorem readers_write (s : St) : (write s).readers = s.readers := by
  unfold write
  split
  · rfl
  · rfl
  · split
    · rfl
    · split
      · split_ifs <;> rfl
      · rfl
  · rfl
  · rfl

theorem good_step (b : BAttrs) (hb : Sound b) (s : St) (a : Act) (hd : Data b s) (h : ∀ r ∈ s.readers, Good b s r) :
    ∀ r ∈ (step s a).readers, Good b (step s a) r := by
  have hmono := step_mono s a
  have keep : ∀ r, Good b s r → Good b (step s a) r := fun r hr => good_mono b s _ hd.le hmono.1 hmono.2 r hr
  have same : (step s a).readers = s.readers → ∀ r ∈ (step s a).readers, Good b (step s a) r := by
    intro he r hr
    rw [he] at hr
    exact keep r (h r hr)
  cases a with
  | set l => apply same; simp only [step]; split_ifs <;> rfl
  | write => exact same (readers_write s)
  | «end» => apply same; simp only [step]; split_ifs <;> rfl
  | items =>
    intro r hr
    apply keep
    simp only [step, List.mem_append, List.mem_singleton] at hr
    rcases hr with hr | hr
    · exact h r hr
    · subst hr
      split_ifs with h0
      · refine ⟨Nat.le_refl _, ?_, by simp⟩
        have hnil : s.b.d = [] := List.length_eq_zero_iff.1 h0
        obtain ⟨hle, hph, _⟩ := hd
        have hlt : ∀ p todo, (assignments s).drop s.completed = p :: todo → s.completed < (assignments s).length := by
          intro p todo hd
          by_contra hc
          rw [List.drop_eq_nil_of_le (Nat.le_of_not_lt hc)] at hd
          cases hd
        have hone : ∀ d : Dict Str Val, d.tail = [] → Dict.keys d = [] ∨ d.length = 1 := by
          intro d hd
          cases d with
          | nil => exact .inl rfl
          | cons x d => right; simp at hd; simp [hd]
        cases hw : s.writer with
        | none => rw [hw] at hph; left; rw [← hph.2, hnil]; rfl
        | some w =>
          obtain ⟨ph, todo⟩ := w
          rw [hw] at hph
          cases ph with
          | ready => left; rw [← hph.2, hnil]; rfl
          | count p k v =>
            obtain ⟨h1, _, _, h2⟩ := hph
            rw [h2] at hnil
            rcases hone _ hnil with h | h
            · left; rw [h]; rfl
            · exact .inr ⟨rfl, h, hlt _ _ h1⟩
          | store p k v =>
            obtain ⟨h1, _, h2⟩ := hph
            rcases h2 with ⟨_, h2, h3⟩ | ⟨_, h2⟩
            · rw [h2] at hnil
              right
              refine ⟨rfl, ?_, hlt _ _ h1⟩
              have := Dict.length_erase_lt _ _ ((Dict.has_iff _ _).1 h3)
              have hnil' : Dict.erase (stage b s s.completed).d k = [] := hnil
              rw [hnil'] at this
              simpa using this.symm
            · rw [h2] at hnil
              rcases hone _ hnil with h | h
              · left; rw [h]; rfl
              · exact .inr ⟨rfl, h, hlt _ _ h1⟩
      · trivial
  | next i =>
    have hset : ∀ x, Good b s x → (∀ r ∈ s.readers.set i x, Good b s r) := by
      intro x hx r hr
      rcases List.mem_or_eq_of_mem_set hr with hr | hr
      · exact h r hr
      · rw [hr]; exact hx
    intro r hr
    apply keep
    clear keep same hmono
    revert hr
    simp only [step]
    split
    · split_ifs with hu
      · intro hr
        refine hset _ ?_ r hr
        have hbe : s.b = stage b s s.completed := by
          obtain ⟨_, hph, _⟩ := hd
          unfold unlocked at hu
          cases hw : s.writer with
          | none => rw [hw] at hph; exact hph.2
          | some w =>
            obtain ⟨ph, todo⟩ := w
            rw [hw] at hph hu
            cases ph with
            | ready => exact hph.2
            | count => simp at hu
            | store => simp at hu
        refine ⟨Nat.le_refl _, ?_, by simp⟩
        simp only [List.map_nil, List.nil_append, keys]
        rw [← hbe]
      · exact h r
    · rename_i st got hg
      intro hr
      refine hset _ ?_ r hr
      obtain ⟨h1, h2, h3⟩ := h _ (List.mem_of_getElem? hg)
      exact ⟨h1, .inl (by simpa using h2), h3⟩
    · rename_i st got k todo hg
      obtain ⟨h1, h2, h3⟩ := h _ (List.mem_of_getElem? hg)
      obtain ⟨l1, l2, l3⟩ := look_data b hb s hd k
      split
      · rename_i v hv
        intro hr
        refine hset _ ?_ r hr
        refine ⟨h1, by simpa using h2, ?_⟩
        intro p hp
        rcases List.mem_append.1 hp with hp | hp
        · exact h3 p hp
        · simp only [List.mem_singleton] at hp
          subst hp
          exact ⟨s.completed, h1, Nat.le_refl _, l1 v hv⟩
      · rename_i hv
        intro hr
        refine hset _ ?_ r hr
        refine ⟨by rw [← h2]; simp, s.completed, h1, Nat.le_refl _, ?_⟩
        by_cases hlen : s.completed = (assignments s).length
        · exact .inl (by rw [l3 hlen]; exact hv)
        · rcases l2 hv with h | h | h
          · exact .inl h
          · exact .inr (.inl ⟨by have := hd.le; omega, h⟩)
          · exact .inr (.inr h)
    · exact h r

theorem good_run (b : BAttrs) (hb : Sound b) (acts : List Act) : ∀ r ∈ (run b acts).readers, Good b (run b acts) r := by
  induction acts using List.reverseRecOn with
  | nil => intro r hr; cases hr
  | append_singleton l a ih => rw [run_snoc]; exact good_step b hb _ a (data_run b l) ih

/-- **C125** Reading all attributes: a result has the keys of one moment, in order, each with a value it had then or later, before the call
returned; the exception is an empty result while the only entry was being replaced. -/
theorem C125_items (b : BAttrs) (hb : Sound b) (acts : List Act) (st : Nat) (l : List (Str × Val))
    (h : Reader.returned st l ∈ (run b acts).readers) :
    (l.map Prod.fst = Dict.keys (stage b (run b acts) st).d ∨
      (l = [] ∧ (stage b (run b acts) st).d.length = 1 ∧ st < (assignments (run b acts)).length)) ∧
    ∀ p ∈ l, ∃ n, st ≤ n ∧ n ≤ (run b acts).completed ∧ Dict.get? (stage b (run b acts) n).d p.1 = some p.2 :=
  (good_run b hb acts _ h).2

/-- **C125** … and if it raises `KeyError`, the key was there when the keys were read, and since then was assigned to or dropped. -/
theorem C125_raised (b : BAttrs) (hb : Sound b) (acts : List Act) (st : Nat) (k : Str) (h : Reader.raised st k ∈ (run b acts).readers) :
    k ∈ Dict.keys (stage b (run b acts) st).d ∧
    ∃ n, st ≤ n ∧ n ≤ (assignments (run b acts)).length ∧
      (Dict.get? (stage b (run b acts) n).d k = none ∨ ∃ v, (assignments (run b acts))[n]? = some (.str k, v)) := by
  obtain ⟨h1, n, h2, h3, h4⟩ := good_run b hb acts _ h
  have hle := (data_run b acts).le
  refine ⟨h1, ?_⟩
  rcases h4 with h | ⟨h, h'⟩ | h
  · exact ⟨n, h2, by omega, .inl h⟩
  · exact ⟨n + 1, by omega, by omega, .inl h'⟩
  · exact ⟨n, h2, by omega, .inr h⟩

/-- After `end` nothing changes but the readers. -/
theorem ended_step (b : BAttrs) (s : St) (a : Act) (hd : Data b s) (h : s.ended = true) :
    (step s a).ended = true ∧ (step s a).b = s.b ∧ (step s a).writer = none ∧ assignments (step s a) = assignments s ∧ (step s a).completed = s.completed := by
  have hw := hd.fin h
  cases a with
  | set l => simp only [step, h]; simp [hw, h]
  | write => simp [step, write, hw, h]
  | «end» => simp only [step]; split_ifs <;> simp [h, hw, assignments]
  | items => exact ⟨h, rfl, hw, rfl, rfl⟩
  | next i =>
    simp only [step]
    split
    · split_ifs <;> exact ⟨h, rfl, hw, rfl, rfl⟩
    · exact ⟨h, rfl, hw, rfl, rfl⟩
    · split <;> exact ⟨h, rfl, hw, rfl, rfl⟩
    · exact ⟨h, rfl, hw, rfl, rfl⟩

theorem ended_run (b : BAttrs) (pre acts : List Act) (h : (run b pre).ended = true) :
    (run b (pre ++ acts)).ended = true ∧ (run b (pre ++ acts)).b = (run b pre).b ∧ (run b (pre ++ acts)).writer = none ∧
    assignments (run b (pre ++ acts)) = assignments (run b pre) := by
  induction acts using List.reverseRecOn with
  | nil => simpa using ⟨h, (data_run b pre).fin h⟩
  | append_singleton l a ih =>
    rw [← List.append_assoc, run_snoc]
    obtain ⟨h1, h2, h3, h4, _⟩ := ended_step b _ a (data_run b _) ih.1
    exact ⟨h1, h2.trans ih.2.1, h3, h4.trans ih.2.2.2⟩

/-- **C125** After `end` the attributes are those after all assignments of the calls that found the span recording, for ever; every read
sees that. -/
theorem C125_final (b : BAttrs) (pre acts : List Act) (h : (run b pre).ended = true) :
    (run b (pre ++ acts)).b = after b (assignments (run b pre)) ∧ assignments (run b (pre ++ acts)) = assignments (run b pre) := by
  obtain ⟨h1, h2, h3, h4⟩ := ended_run b pre acts h
  refine ⟨?_, h4⟩
  rw [h2]
  have hd := data_run b pre
  have hw := hd.fin h
  have hph := hd.ph
  rw [hw] at hph
  rw [hph.2]
  unfold stage
  rw [List.take_of_length_le]
  simpa using hph.1

/-- How far a call of `items()` that began after `end` is after `n` of its steps. -/
def Exact (d : Dict Str Val) (n : Nat) (r : Reader) : Prop :=
  match r with
  | .viewed => n = 0 ∧ d ≠ []
  | .reading _ got todo => got.length + 1 = n ∧ ∃ rest, d = got ++ rest ∧ todo = Dict.keys rest
  | .returned _ l => l = d
  | .raised _ _ => False

theorem exact_step (b : BAttrs) (s : St) (i n : Nat) (a : Act) (r : Reader) (hd : Data b s) (he : s.ended = true)
    (hr : s.readers[i]? = some r) (hx : Exact s.b.d n r) (hn : (Dict.keys s.b.d).Nodup) :
    ∃ r', (step s a).readers[i]? = some r' ∧ Exact s.b.d (n + turns i [a]) r' := by
  have hw := hd.fin he
  have hi : i < s.readers.length := by
    by_contra hc
    rw [List.getElem?_eq_none (Nat.le_of_not_lt hc)] at hr
    cases hr
  cases a with
  | set l => refine ⟨r, ?_, hx⟩; simp only [step]; split_ifs <;> exact hr
  | write => refine ⟨r, ?_, hx⟩; rw [show (step s .write).readers = s.readers from readers_write s]; exact hr
  | «end» => refine ⟨r, ?_, hx⟩; simp only [step]; split_ifs <;> exact hr
  | items => refine ⟨r, ?_, hx⟩; simp only [step]; rw [List.getElem?_append_left hi]; exact hr
  | next j =>
    by_cases hij : j = i
    · subst hij
      rw [show turns j [.next j] = 1 from by simp [turns]]
      simp only [step, hr]
      cases r with
      | viewed =>
        obtain ⟨h0, hne⟩ := hx
        simp only []
        rw [if_pos (by simp [unlocked, hw])]
        refine ⟨_, List.getElem?_set_self hi, ?_⟩
        exact ⟨by simp [h0], s.b.d, by simp, rfl⟩
      | reading st got todo =>
        obtain ⟨h1, rest, h2, h3⟩ := hx
        cases todo with
        | nil =>
          refine ⟨_, List.getElem?_set_self hi, ?_⟩
          have : rest = [] := by simpa [Dict.keys] using h3.symm
          rw [this, List.append_nil] at h2
          exact h2.symm
        | cons k todo =>
          cases rest with
          | nil => simp [Dict.keys] at h3
          | cons q rest =>
            simp only [Dict.keys_cons, List.cons.injEq] at h3
            have hl : look s k = some q.2 := by
              unfold look
              apply Dict.get?_of_mem _ hn
              rw [h2, h3.1]
              simp
            simp only [hl]
            refine ⟨_, List.getElem?_set_self hi, ?_⟩
            refine ⟨by simp; omega, rest, ?_, h3.2⟩
            rw [h2, h3.1]; simp
      | returned st l => exact ⟨_, hr, hx⟩
      | raised st k => exact hx.elim
    · rw [show turns i [.next j] = 0 from by simp [turns, hij]]
      refine ⟨r, ?_, hx⟩
      simp only [step]
      have hset : ∀ x, (s.readers.set j x)[i]? = some r := fun x => by rw [List.getElem?_set_ne hij]; exact hr
      split
      · split_ifs
        · exact hset _
        · exact hr
      · exact hset _
      · split <;> exact hset _
      · exact hr

/-- **C125** A call made after `end`, by an exporter say, returns exactly the attributes (after at most as many steps of its own as there are
attributes, and two), whatever the other threads do. -/
theorem C125_exporter (b : BAttrs) (hb : Sound b) (pre acts : List Act) (h : (run b pre).ended = true)
    (hn : (run b pre).b.d.length + 2 ≤ turns (run b pre).readers.length acts) :
    ∃ st, (run b (pre ++ .items :: acts)).readers[(run b pre).readers.length]? = some (.returned st (after b (assignments (run b pre))).d) := by
  have hfin := C125_final b pre [] h
  rw [List.append_nil] at hfin
  have key : ∀ acts : List Act, ∃ r, (run b (pre ++ [.items] ++ acts)).readers[(run b pre).readers.length]? = some r ∧
      Exact (run b pre).b.d (turns (run b pre).readers.length acts) r := by
    intro acts
    induction acts using List.reverseRecOn with
    | nil =>
      rw [List.append_nil, run_snoc]
      simp only [step]
      refine ⟨_, List.getElem?_concat_length, ?_⟩
      split_ifs with h0
      · exact (List.length_eq_zero_iff.1 h0).symm
      · exact ⟨rfl, fun hc => h0 (by rw [hc]; rfl)⟩
    | append_singleton l a ih =>
      obtain ⟨r, hr, hx⟩ := ih
      have he := ended_run b pre ([.items] ++ l) h
      rw [← List.append_assoc] at he
      rw [← List.append_assoc, run_snoc]
      have hS : (Dict.keys (run b (pre ++ [.items] ++ l)).b.d).Nodup := by
        rw [he.2.1, hfin.1]
        exact (after_sound b hb _).1
      rw [← he.2.1] at hx
      obtain ⟨r', h1, h2⟩ := exact_step b _ (run b pre).readers.length _ a r (data_run b _) he.1 hr hx hS
      refine ⟨r', h1, ?_⟩
      rw [he.2.1] at h2
      rw [show turns (run b pre).readers.length (l ++ [a]) = turns (run b pre).readers.length l + turns (run b pre).readers.length [a] from by simp [turns]]
      exact h2
  obtain ⟨r, hr, hx⟩ := key acts
  rw [List.append_assoc, List.singleton_append] at hr
  rw [hfin.1] at hx hn
  cases r with
  | viewed => obtain ⟨h0, _⟩ := hx; omega
  | reading st got todo =>
    obtain ⟨h1, rest, h2, _⟩ := hx
    have : got.length ≤ (after b (assignments (run b pre))).d.length := by rw [h2]; simp
    omega
  | returned st l => exact ⟨st, by rw [hr]; have hx' : l = _ := hx; rw [hx']⟩
  | raised st k => exact hx.elim

/-! ## Findings -/

/-- A value. -/
def num (n : Int) : Val := .atom (.int n true)
/-- An unlimited collection and one of two entries. -/
def some1 : BAttrs := BAttrs.new none [(.str ['a'], num 1)] false none
def some2 : BAttrs := BAttrs.new (some 2) [(.str ['a'], num 1), (.str ['b'], num 1)] false none

/-- **C125** (finding) An attribute that is always there is not found while it is assigned again: `KeyError`, and the span's attributes seem
empty. -/
theorem C125_missing_violated : ∃ acts : List Act,
    (∀ n, n ≤ (assignments (run some1 acts)).length → Dict.has (stage some1 (run some1 acts) n).d ['a'] = true) ∧
    look (run some1 acts) ['a'] = none ∧ (run some1 (acts ++ [.items])).readers.map (fun | .returned _ l => l | _ => [([], num 0)]) = [[]] := by
  refine ⟨[.set [(.str ['a'], num 2)], .write], ?_, by decide +kernel, by decide +kernel⟩
  intro n hn
  have : (assignments (run some1 [.set [(.str ['a'], num 2)], .write])).length = 1 := by decide +kernel
  have : n = 0 ∨ n = 1 := by omega
  rcases this with rfl | rfl <;> decide +kernel

/-- **C125** (finding) Reading all attributes raises `KeyError` if meanwhile one of them is dropped for a new one. -/
theorem C125_items_violated : ∃ acts : List Act, (run some2 acts).writer.isNone = true ∧
    (run some2 acts).readers.map (fun | .raised _ k => some k | _ => none) = [some ['a']] := by
  refine ⟨[.items, .next 0, .set [(.str ['c'], num 2)], .write, .write, .write, .write, .next 0], by decide +kernel, by decide +kernel⟩

/-- **C125** (finding) What is read need not have been the attributes at any moment: `{a: 1, b: 2}` although `a` was assigned 2 before `b` was. -/
theorem C125_torn_violated : ∃ acts : List Act, (run some2 acts).readers.map (fun | .returned _ l => l | _ => []) = [[(['a'], num 1), (['b'], num 2)]] ∧
    ∀ n, n ≤ (assignments (run some2 acts)).length →
      ¬ (Dict.get? (stage some2 (run some2 acts) n).d ['a'] = some (num 1) ∧ Dict.get? (stage some2 (run some2 acts) n).d ['b'] = some (num 2)) := by
  refine ⟨[.items, .next 0, .next 0, .set [(.str ['a'], num 2), (.str ['b'], num 2)], .write, .write, .write, .write, .write, .next 0, .next 0],
    by decide +kernel, ?_⟩
  intro n hn
  have : (assignments (run some2 [.items, .next 0, .next 0, .set [(.str ['a'], num 2), (.str ['b'], num 2)], .write, .write, .write, .write, .write, .next 0, .next 0])).length = 2 := by
    decide +kernel
  have : n = 0 ∨ n = 1 ∨ n = 2 := by omega
  rcases this with rfl | rfl | rfl <;> decide +kernel

/-- **C125** (finding) `set_attributes` is not atomic for readers: one sees the first of its two attributes and not the second. -/
theorem C125_half_violated : ∃ acts : List Act, look (run some1 acts) ['b'] = some (num 2) ∧ look (run some1 acts) ['c'] = none ∧
    (run some1 acts).entered = [[(.str ['b'], num 2), (.str ['c'], num 2)]] := by
  refine ⟨[.set [(.str ['b'], num 2), (.str ['c'], num 2)], .write], by decide +kernel, by decide +kernel, by decide +kernel⟩

/-! ## Examples -/

/-- Two calls of `set_attributes`, the end, and an exporter that reads. -/
example : let acts : List Act := [.set [(.str ['a'], num 2)], .write, .write, .write, .set [(.str ['c'], num 3), (.str [], num 4)], .write, .write, .write, .write, .write, .end]
    Sound some2 ∧ (run some2 acts).ended = true ∧ (run some2 acts).b.d = [(['a'], num 2), (['c'], num 3)] ∧ (run some2 acts).b.dropped = 1 ∧
    (run some2 (acts ++ .items :: [.next 0, .set [(.str ['z'], num 9)], .next 0, .write, .next 0, .next 0])).readers.map (fun | .returned _ l => l | _ => [])
      = [[(['a'], num 2), (['c'], num 3)]] := by
  refine ⟨⟨by decide +kernel, ?_⟩, by decide +kernel, by decide +kernel, by decide +kernel, by decide +kernel⟩
  intro n hn
  have h : some2.maxlen = some 2 := rfl
  rw [h] at hn
  cases hn
  decide +kernel

end Live
end Otel
