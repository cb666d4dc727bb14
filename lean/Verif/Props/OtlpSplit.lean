import Verif.Model.OtlpExport
import Mathlib.Data.List.Forall2
import Mathlib.Data.List.Nodup
import Mathlib.Data.List.Induction
/-!
# C47: splitting metrics data
-/
namespace Otel
namespace Export
variable {R S M P : Type}

/-- The data points of a metric with everything they are filed under. -/
def flatM (r : R) (s : S) (ms : List (M × List P)) : List (R × S × M × P) := ms.flatMap (fun m => m.2.map (fun p => (r, s, m.1, p)))
def flatS (r : R) (ss : List (S × List (M × List P))) : List (R × S × M × P) := ss.flatMap (fun s => flatM r s.1 s.2)
/-- All data points in order, each with its resource, scope and metric. -/
def flat (t : Tree R S M P) : List (R × S × M × P) := t.flatMap (fun r => flatS r.1 r.2)

def FullM (ms : List (M × List P)) : Prop := ∀ m ∈ ms, m.2 ≠ []
def FullS (ss : List (S × List (M × List P))) : Prop := ∀ s ∈ ss, s.2 ≠ [] ∧ FullM s.2
/-- No resource, scope or metric is empty. -/
def Full (t : Tree R S M P) : Prop := ∀ r ∈ t, r.2 ≠ [] ∧ FullS r.2

/-- Part of a list of metrics: some of the metrics, in order, each with some of its points, in order. -/
def SubM : List (M × List P) → List (M × List P) → Prop := List.SublistForall₂ (fun a b => a.1 = b.1 ∧ a.2.Sublist b.2)
def SubS : List (S × List (M × List P)) → List (S × List (M × List P)) → Prop := List.SublistForall₂ (fun a b => a.1 = b.1 ∧ SubM a.2 b.2)
/-- Part of metrics data: some of the resources, in order, each with part of its scopes. -/
def Sub : Tree R S M P → Tree R S M P → Prop := List.SublistForall₂ (fun a b => a.1 = b.1 ∧ SubS a.2 b.2)

theorem sf_append {α β : Type} {Q : α → β → Prop} {a b : List α} {c d : List β} (h : List.SublistForall₂ Q a c)
    (h' : List.SublistForall₂ Q b d) : List.SublistForall₂ Q (a ++ b) (c ++ d) := by
  induction h with
  | nil =>
    rename_i l
    induction l with
    | nil => exact h'
    | cons x l ih => exact .cons_right ih
  | cons hq _ ih => exact .cons hq ih
  | cons_right _ ih => exact .cons_right ih

theorem sf_right {α β : Type} {Q : α → β → Prop} {a : List α} {c d : List β} (h : List.SublistForall₂ Q a c) :
    List.SublistForall₂ Q a (c ++ d) := by
  have := sf_append (Q := Q) (b := []) (d := d) h .nil
  simpa using this

theorem sf_snoc {α β : Type} {Q : α → β → Prop} {a : List α} {c d : List β} {x : α} {y : β} (h : List.SublistForall₂ Q a c) (hq : Q x y) :
    List.SublistForall₂ Q (a ++ [x]) (c ++ y :: d) := sf_append h (.cons hq .nil)

/-- The effective batch size. -/
def size (limit : Int) : Nat := if 1 ≤ limit then limit.toNat else 1

theorem size_pos (limit : Int) : 1 ≤ size limit := by unfold size; split <;> omega

theorem size_spec (limit : Int) : (1 ≤ limit ∧ (size limit : Int) = limit) ∨ (limit < 1 ∧ size limit = 1) := by
  unfold size; split <;> omega

/-- What holds of the splits made so far, the points pending and those read. -/
structure Inv (limit : Int) (data : Tree R S M P) (out : List (Tree R S M P)) (n : Nat) (pending processed : List (R × S × M × P)) : Prop where
  conc : out.flatMap flat ++ pending = processed
  len : n = pending.length
  lt : n < size limit
  good : ∀ t ∈ out, (flat t).length = size limit ∧ Full t ∧ Sub t data

theorem points_loop (limit : Int) (data : Tree R S M P) (r : R) (s : S) (m : M) (dr : Tree R S M P) (ds : List (S × List (M × List P)))
    (dm : List (M × List P)) (all : List P)
    (H : ∀ rs ss ms (ps : List P), Sub rs dr → SubS ss ds → SubM ms dm → ps.Sublist all → Sub (rs ++ [(r, ss ++ [(s, ms ++ [(m, ps)])])]) data)
    (pts dp : List P) (hall : dp ++ pts = all) (st : St R S M P) (processed : List (R × S × M × P))
    (hi : Inv limit data st.out st.size (flat st.rs ++ flatS r st.ss ++ flatM r s st.ms ++ st.ps.map (fun p => (r, s, m, p))) processed)
    (h1 : Sub st.rs dr ∧ Full st.rs) (h2 : SubS st.ss ds ∧ FullS st.ss) (h3 : SubM st.ms dm ∧ FullM st.ms) (h4 : st.ps.Sublist dp) :
    let st' := pts.foldl (onPoint limit r s m) st
    Inv limit data st'.out st'.size (flat st'.rs ++ flatS r st'.ss ++ flatM r s st'.ms ++ st'.ps.map (fun p => (r, s, m, p)))
      (processed ++ pts.map (fun p => (r, s, m, p))) ∧
    (Sub st'.rs dr ∧ Full st'.rs) ∧ (SubS st'.ss ds ∧ FullS st'.ss) ∧ (SubM st'.ms dm ∧ FullM st'.ms) ∧ st'.ps.Sublist all := by
  induction pts generalizing dp st processed with
  | nil => simp only [List.append_nil] at hall; subst hall; simpa [-List.append_assoc] using ⟨hi, h1, h2, h3, h4⟩
  | cons p pts ih =>
    simp only [List.foldl_cons]
    have hall' : (dp ++ [p]) ++ pts = all := by simpa using hall
    have hsub : (st.ps ++ [p]).Sublist (dp ++ [p]) := h4.append_right [p]
    have hlt := hi.lt
    have := ih (dp ++ [p]) hall' (onPoint limit r s m st p) (processed ++ [(r, s, m, p)])
    simp only [List.append_assoc, List.singleton_append] at this ⊢
    rw [show (r, s, m, p) :: pts.map (fun p => (r, s, m, p)) = (p :: pts).map (fun p => (r, s, m, p)) from rfl] at this
    have hpend : (flat st.rs ++ (flatS r st.ss ++ (flatM r s st.ms ++ (st.ps ++ [p]).map (fun p => (r, s, m, p))))).length = st.size + 1 := by
      have := hi.len; simp only [List.length_append, List.length_map, List.length_cons, List.length_nil] at this ⊢; omega
    by_cases hc : limit ≤ (st.size : Int) + 1
    · have hst : onPoint limit r s m st p =
          ⟨st.out ++ [st.rs ++ [(r, st.ss ++ [(s, st.ms ++ [(m, st.ps ++ [p])])])]], 0, [], [], [], []⟩ := by
        unfold onPoint; rw [if_pos (by exact_mod_cast hc)]
      rw [hst] at this ⊢
      have hflat : flat (st.rs ++ [(r, st.ss ++ [(s, st.ms ++ [(m, st.ps ++ [p])])])]) =
          flat st.rs ++ (flatS r st.ss ++ (flatM r s st.ms ++ (st.ps ++ [p]).map (fun p => (r, s, m, p)))) := by
        simp [flat, flatS, flatM]
      apply this
      · refine ⟨?_, by simp [flat, flatS, flatM], size_pos limit, ?_⟩
        · rw [List.flatMap_append, List.flatMap_singleton, hflat, ← hi.conc]
          simp [flat, flatS, flatM]
        · intro t ht
          rcases List.mem_append.1 ht with ht | ht
          · exact hi.good t ht
          · rw [List.mem_singleton] at ht
            subst ht
            refine ⟨?_, ?_, H _ _ _ _ h1.1 h2.1 h3.1 ?_⟩
            · rw [hflat, hpend]
              have := size_spec limit
              omega
            · intro x hx
              rcases List.mem_append.1 hx with hx | hx
              · exact h1.2 x hx
              · rw [List.mem_singleton] at hx
                subst hx
                refine ⟨by simp, ?_⟩
                intro y hy
                rcases List.mem_append.1 hy with hy | hy
                · exact h2.2 y hy
                · rw [List.mem_singleton] at hy
                  subst hy
                  refine ⟨by simp, ?_⟩
                  intro z hz
                  rcases List.mem_append.1 hz with hz | hz
                  · exact h3.2 z hz
                  · rw [List.mem_singleton] at hz
                    subst hz
                    simp
            · rw [← hall']; exact hsub.trans (List.sublist_append_left _ _)
      · exact ⟨.nil, by simp [Full]⟩
      · exact ⟨.nil, by simp [FullS]⟩
      · exact ⟨.nil, by simp [FullM]⟩
      · exact List.nil_sublist _
    · have hst : onPoint limit r s m st p = { st with ps := st.ps ++ [p], size := st.size + 1 } := by
        unfold onPoint; rw [if_neg (by exact_mod_cast hc)]
      rw [hst] at this ⊢
      apply this
      · refine ⟨?_, hpend.symm, ?_, hi.good⟩
        · rw [← hi.conc]; simp
        · show st.size + 1 < size limit
          have := size_spec limit
          omega
      · exact h1
      · exact h2
      · exact h3
      · exact hsub

theorem metrics_loop (limit : Int) (data : Tree R S M P) (r : R) (s : S) (dr : Tree R S M P) (ds : List (S × List (M × List P)))
    (all : List (M × List P))
    (H : ∀ rs ss ms, Sub rs dr → SubS ss ds → SubM ms all → Sub (rs ++ [(r, ss ++ [(s, ms)])]) data)
    (ml dm : List (M × List P)) (hall : dm ++ ml = all) (st : St R S M P) (processed : List (R × S × M × P))
    (hi : Inv limit data st.out st.size (flat st.rs ++ flatS r st.ss ++ flatM r s st.ms) processed)
    (h1 : Sub st.rs dr ∧ Full st.rs) (h2 : SubS st.ss ds ∧ FullS st.ss) (h3 : SubM st.ms dm ∧ FullM st.ms) :
    let st' := ml.foldl (onMetric limit r s) st
    Inv limit data st'.out st'.size (flat st'.rs ++ flatS r st'.ss ++ flatM r s st'.ms) (processed ++ flatM r s ml) ∧
    (Sub st'.rs dr ∧ Full st'.rs) ∧ (SubS st'.ss ds ∧ FullS st'.ss) ∧ (SubM st'.ms all ∧ FullM st'.ms) := by
  induction ml generalizing dm st processed with
  | nil => simp only [List.append_nil] at hall; subst hall; simpa [flatM, -List.append_assoc] using ⟨hi, h1, h2, h3⟩
  | cons m ml ih =>
    simp only [List.foldl_cons]
    have hall' : (dm ++ [m]) ++ ml = all := by simpa using hall
    have hp := points_loop limit data r s m.1 dr ds dm m.2
      (fun rs ss ms ps a b c d => H rs ss (ms ++ [(m.1, ps)]) a b (by rw [← hall]; exact sf_snoc c ⟨rfl, d⟩))
      m.2 [] rfl { st with ps := [] } processed (by simpa using hi) h1 h2 h3 (List.nil_sublist _)
    obtain ⟨p1, p2, p3, p4, p5⟩ := hp
    have hom : onMetric limit r s st m = { m.2.foldl (onPoint limit r s m.1) { st with ps := [] } with
        ms := if (m.2.foldl (onPoint limit r s m.1) { st with ps := [] }).ps.isEmpty
          then (m.2.foldl (onPoint limit r s m.1) { st with ps := [] }).ms
          else (m.2.foldl (onPoint limit r s m.1) { st with ps := [] }).ms ++ [(m.1, (m.2.foldl (onPoint limit r s m.1) { st with ps := [] }).ps)] } := rfl
    generalize m.2.foldl (onPoint limit r s m.1) { st with ps := [] } = q at p1 p2 p3 p4 p5 hom
    have hfl : flatM r s (if q.ps.isEmpty then q.ms else q.ms ++ [(m.1, q.ps)]) = flatM r s q.ms ++ q.ps.map (fun p => (r, s, m.1, p)) := by
      cases hq : q.ps with
      | nil => simp
      | cons x l => simp [flatM]
    have := ih (dm ++ [m]) hall' (onMetric limit r s st m) (processed ++ m.2.map (fun p => (r, s, m.1, p))) (by
        rw [hom]
        simp only [hfl]
        simpa [List.append_assoc] using p1) (by rw [hom]; exact p2) (by rw [hom]; exact p3) (by
        rw [hom]
        dsimp only
        cases hq : q.ps with
        | nil => exact ⟨sf_right p4.1, p4.2⟩
        | cons x l =>
          simp only [List.isEmpty_cons, Bool.false_eq_true, if_false]
          refine ⟨sf_snoc p4.1 ⟨rfl, by rw [← hq]; exact p5⟩, ?_⟩
          intro z hz
          rcases List.mem_append.1 hz with hz | hz
          · exact p4.2 z hz
          · rw [List.mem_singleton] at hz; subst hz; simp)
    have e : processed ++ m.2.map (fun p => (r, s, m.1, p)) ++ flatM r s ml = processed ++ flatM r s (m :: ml) := by simp [flatM]
    rw [e] at this
    exact this

theorem scopes_loop (limit : Int) (data : Tree R S M P) (r : R) (dr : Tree R S M P) (all : List (S × List (M × List P)))
    (H : ∀ rs ss, Sub rs dr → SubS ss all → Sub (rs ++ [(r, ss)]) data)
    (sl ds : List (S × List (M × List P))) (hall : ds ++ sl = all) (st : St R S M P) (processed : List (R × S × M × P))
    (hi : Inv limit data st.out st.size (flat st.rs ++ flatS r st.ss) processed)
    (h1 : Sub st.rs dr ∧ Full st.rs) (h2 : SubS st.ss ds ∧ FullS st.ss) :
    let st' := sl.foldl (onScope limit r) st
    Inv limit data st'.out st'.size (flat st'.rs ++ flatS r st'.ss) (processed ++ flatS r sl) ∧
    (Sub st'.rs dr ∧ Full st'.rs) ∧ (SubS st'.ss all ∧ FullS st'.ss) := by
  induction sl generalizing ds st processed with
  | nil => simp only [List.append_nil] at hall; subst hall; simpa [flatS] using ⟨hi, h1, h2⟩
  | cons s sl ih =>
    simp only [List.foldl_cons]
    have hall' : (ds ++ [s]) ++ sl = all := by simpa using hall
    have hp := metrics_loop limit data r s.1 dr ds s.2
      (fun rs ss ms a b c => H rs (ss ++ [(s.1, ms)]) a (by rw [← hall]; exact sf_snoc b ⟨rfl, c⟩))
      s.2 [] rfl { st with ms := [] } processed (by simpa [flatM] using hi) h1 h2 ⟨.nil, by simp [FullM]⟩
    obtain ⟨p1, p2, p3, p4⟩ := hp
    have hom : onScope limit r st s = { s.2.foldl (onMetric limit r s.1) { st with ms := [] } with
        ss := if (s.2.foldl (onMetric limit r s.1) { st with ms := [] }).ms.isEmpty
          then (s.2.foldl (onMetric limit r s.1) { st with ms := [] }).ss
          else (s.2.foldl (onMetric limit r s.1) { st with ms := [] }).ss ++ [(s.1, (s.2.foldl (onMetric limit r s.1) { st with ms := [] }).ms)] } := rfl
    generalize s.2.foldl (onMetric limit r s.1) { st with ms := [] } = q at p1 p2 p3 p4 hom
    have hfl : flatS r (if q.ms.isEmpty then q.ss else q.ss ++ [(s.1, q.ms)]) = flatS r q.ss ++ flatM r s.1 q.ms := by
      cases hq : q.ms with
      | nil => simp [flatM]
      | cons x l => simp [flatS]
    have := ih (ds ++ [s]) hall' (onScope limit r st s) (processed ++ flatM r s.1 s.2) (by
        rw [hom]
        simp only [hfl]
        simpa [List.append_assoc] using p1) (by rw [hom]; exact p2) (by
        rw [hom]
        dsimp only
        cases hq : q.ms with
        | nil => exact ⟨sf_right p3.1, p3.2⟩
        | cons x l =>
          simp only [List.isEmpty_cons, Bool.false_eq_true, if_false]
          refine ⟨sf_snoc p3.1 ⟨rfl, by rw [← hq]; exact p4.1⟩, ?_⟩
          intro z hz
          rcases List.mem_append.1 hz with hz | hz
          · exact p3.2 z hz
          · rw [List.mem_singleton] at hz; subst hz; exact ⟨by simp, by rw [← hq]; exact p4.2⟩)
    have e : processed ++ flatM r s.1 s.2 ++ flatS r sl = processed ++ flatS r (s :: sl) := by simp [flatS]
    rw [e] at this
    exact this

theorem resources_loop (limit : Int) (data : Tree R S M P) (rl dr : Tree R S M P) (hall : dr ++ rl = data) (st : St R S M P)
    (processed : List (R × S × M × P)) (hi : Inv limit data st.out st.size (flat st.rs) processed) (h1 : Sub st.rs dr ∧ Full st.rs) :
    let st' := rl.foldl (onResource limit) st
    Inv limit data st'.out st'.size (flat st'.rs) (processed ++ flat rl) ∧ (Sub st'.rs data ∧ Full st'.rs) := by
  induction rl generalizing dr st processed with
  | nil => simp only [List.append_nil] at hall; subst hall; simpa [flat] using ⟨hi, h1⟩
  | cons r rl ih =>
    simp only [List.foldl_cons]
    have hall' : (dr ++ [r]) ++ rl = data := by simpa using hall
    have hp := scopes_loop limit data r.1 dr r.2
      (fun rs ss a b => by rw [← hall]; exact sf_snoc a ⟨rfl, b⟩)
      r.2 [] rfl { st with ss := [] } processed (by simpa [flatS] using hi) h1 ⟨.nil, by simp [FullS]⟩
    obtain ⟨p1, p2, p3⟩ := hp
    have hom : onResource limit st r = { r.2.foldl (onScope limit r.1) { st with ss := [] } with
        rs := if (r.2.foldl (onScope limit r.1) { st with ss := [] }).ss.isEmpty
          then (r.2.foldl (onScope limit r.1) { st with ss := [] }).rs
          else (r.2.foldl (onScope limit r.1) { st with ss := [] }).rs ++ [(r.1, (r.2.foldl (onScope limit r.1) { st with ss := [] }).ss)] } := rfl
    generalize r.2.foldl (onScope limit r.1) { st with ss := [] } = q at p1 p2 p3 hom
    have hfl : flat (if q.ss.isEmpty then q.rs else q.rs ++ [(r.1, q.ss)]) = flat q.rs ++ flatS r.1 q.ss := by
      cases hq : q.ss with
      | nil => simp [flatS]
      | cons x l => simp [flat]
    have := ih (dr ++ [r]) hall' (onResource limit st r) (processed ++ flatS r.1 r.2) (by
        rw [hom]
        simp only [hfl]
        simpa [List.append_assoc] using p1) (by
        rw [hom]
        dsimp only
        cases hq : q.ss with
        | nil => exact ⟨sf_right p2.1, p2.2⟩
        | cons x l =>
          simp only [List.isEmpty_cons, Bool.false_eq_true, if_false]
          refine ⟨sf_snoc p2.1 ⟨rfl, by rw [← hq]; exact p3.1⟩, ?_⟩
          intro z hz
          rcases List.mem_append.1 hz with hz | hz
          · exact p2.2 z hz
          · rw [List.mem_singleton] at hz; subst hz; exact ⟨by simp, by rw [← hq]; exact p3.2⟩)
    have e : processed ++ flatS r.1 r.2 ++ flat rl = processed ++ flat (r :: rl) := by simp [flat]
    rw [e] at this
    exact this

theorem split_inv (limit : Int) (data : Tree R S M P) :
    let st := data.foldl (onResource limit) { out := [], size := 0, rs := [], ss := [], ms := [], ps := [] }
    Inv limit data st.out st.size (flat st.rs) (flat data) ∧ Sub st.rs data ∧ Full st.rs := by
  have := resources_loop limit data data [] rfl { out := [], size := 0, rs := [], ss := [], ms := [], ps := [] } []
    ⟨by simp [flat], by simp [flat], size_pos limit, by simp⟩ ⟨.nil, by simp [Full]⟩
  simpa using this

/-- **C47** Concatenating the splits gives back every data point in order, each with its own resource, scope and metric. -/
theorem C47_concat (limit : Int) (data : Tree R S M P) : (split limit data).flatMap flat = flat data := by
  obtain ⟨hi, _, _⟩ := split_inv limit data
  unfold split
  dsimp only
  split
  · rw [List.flatMap_append, List.flatMap_singleton]; exact hi.conc
  · rename_i h
    have : (data.foldl (onResource limit) { out := [], size := 0, rs := [], ss := [], ms := [], ps := [] }).size = 0 := by omega
    have hl := hi.len
    rw [this] at hl
    have := List.length_eq_zero_iff.1 hl.symm
    have hc := hi.conc
    rwa [this, List.append_nil] at hc

/-- **C47** Every split but the last has exactly the maximum number of points, the last between one and that many (a maximum below one
counts as one). -/
theorem C47_sizes (limit : Int) (data : Tree R S M P) :
    (∀ t ∈ split limit data, 1 ≤ (flat t).length ∧ ((flat t).length : Int) ≤ max 1 limit) ∧
    ∀ t ∈ (split limit data).dropLast, ((flat t).length : Int) = max 1 limit := by
  have hsz : (size limit : Int) = max 1 limit := by
    unfold size
    split <;> omega
  obtain ⟨hi, _, _⟩ := split_inv limit data
  have hpos := size_pos limit
  unfold split
  dsimp only
  split
  · rename_i h
    constructor
    · intro t ht
      rcases List.mem_append.1 ht with ht | ht
      · have := (hi.good t ht).1; omega
      · rw [List.mem_singleton] at ht
        subst ht
        have := hi.len
        have := hi.lt
        omega
    · intro t ht
      rw [List.dropLast_concat] at ht
      have := (hi.good t ht).1
      omega
  · constructor
    · intro t ht
      have := (hi.good t ht).1; omega
    · intro t ht
      have := (hi.good t ((List.dropLast_sublist _).subset ht)).1
      omega

/-- **C47** A split has no empty resource, scope or metric, and is a part of the data: its resources, their scopes and their metrics are, in
order, some of the data's. -/
theorem C47_part (limit : Int) (data : Tree R S M P) : ∀ t ∈ split limit data, Full t ∧ Sub t data := by
  obtain ⟨hi, hs, hf⟩ := split_inv limit data
  unfold split
  dsimp only
  intro t ht
  split at ht
  · rcases List.mem_append.1 ht with ht | ht
    · exact (hi.good t ht).2
    · rw [List.mem_singleton] at ht
      subst ht
      exact ⟨hf, hs⟩
  · exact (hi.good t ht).2

theorem sf_keys {A B : Type} {Q : B → B → Prop} {a b : List (A × B)} (h : List.SublistForall₂ (fun x y => x.1 = y.1 ∧ Q x.2 y.2) a b) :
    (a.map Prod.fst).Sublist (b.map Prod.fst) := by
  induction h with
  | nil => exact List.nil_sublist _
  | cons hq _ ih => rw [List.map_cons, List.map_cons, hq.1]; exact ih.cons_cons _
  | cons_right _ ih => rw [List.map_cons]; exact ih.cons _

theorem sf_mem {α β : Type} {Q : α → β → Prop} {a : List α} {b : List β} (h : List.SublistForall₂ Q a b) : ∀ x ∈ a, ∃ y ∈ b, Q x y := by
  induction h with
  | nil => simp
  | cons hq _ ih =>
    intro x hx
    rcases List.mem_cons.1 hx with rfl | hx
    · exact ⟨_, List.mem_cons_self, hq⟩
    · obtain ⟨y, hy, hq⟩ := ih x hx
      exact ⟨y, List.mem_cons_of_mem _ hy, hq⟩
  | cons_right _ ih =>
    intro x hx
    obtain ⟨y, hy, hq⟩ := ih x hx
    exact ⟨y, List.mem_cons_of_mem _ hy, hq⟩

/-- **C47** If the resources of the data are distinct, and the scopes in each of them, so are those of every split (what the encoder relies
on, see C44). -/
theorem C47_distinct (limit : Int) (data : Tree R S M P) (hr : (data.map Prod.fst).Nodup) (hs : ∀ r ∈ data, (r.2.map Prod.fst).Nodup) :
    ∀ t ∈ split limit data, (t.map Prod.fst).Nodup ∧ ∀ r ∈ t, (r.2.map Prod.fst).Nodup := by
  intro t ht
  have h := (C47_part limit data t ht).2
  refine ⟨hr.sublist (sf_keys h), ?_⟩
  intro r hr'
  obtain ⟨y, hy, _, hq⟩ := sf_mem h r hr'
  exact (hs y hy).sublist (sf_keys hq)

theorem exportSplits_spec (send : Tree R S M P → Outcome) (res : Outcome) (l : List (Tree R S M P)) (hres : res ≠ .raised) :
    ((∀ t ∈ l, send t ≠ .raised) → (exportSplits send res l).1 = l ∧
      ((exportSplits send res l).2 = .success ↔ res = .success ∧ ∀ t ∈ l, send t = .success) ∧ (exportSplits send res l).2 ≠ .raised) ∧
    ((exportSplits send res l).1 <+: l) := by
  induction l generalizing res with
  | nil => exact ⟨fun _ => ⟨rfl, by simp [exportSplits], hres⟩, by simp [exportSplits]⟩
  | cons t l ih =>
    simp only [exportSplits, List.forall_mem_cons]
    cases ht : send t with
    | raised => exact ⟨fun h => absurd rfl h.1, by simp⟩
    | failure =>
      have := ih .failure (by simp)
      refine ⟨fun h => ?_, by simpa using this.2⟩
      obtain ⟨a, b, c⟩ := this.1 h.2
      exact ⟨by rw [a], by rw [b]; simp, c⟩
    | success =>
      have := ih res hres
      refine ⟨fun h => ?_, by simpa using this.2⟩
      obtain ⟨a, b, c⟩ := this.1 h.2
      exact ⟨by rw [a], by rw [b]; simp, c⟩

/-- **C47** Unless a request raises, every split is sent, whatever happened to the earlier ones, and the result is SUCCESS iff all succeeded;
without a maximum the data is sent as it is. -/
theorem C47_export (send : Tree R S M P → Outcome) (limit : Option Int) (data : Tree R S M P) (h : ∀ t, send t ≠ .raised) :
    (metricExport send limit data).1 = (match limit with | none => [data] | some n => split n data) ∧
    ((metricExport send limit data).2 = .success ↔ ∀ t ∈ (metricExport send limit data).1, send t = .success) := by
  cases limit with
  | none => simp [metricExport]
  | some n =>
    have := (exportSplits_spec send .success (split n data) (by simp)).1 (fun t _ => h t)
    refine ⟨this.1, ?_⟩
    simp only [metricExport, this.1]
    rw [this.2.1]
    simp

/-- Two resources, five points, splits of two. -/
example : split 2 [("r1", [("s", [("a", [1, 2, 3]), ("e", [])])]), ("r2", [("s", [("b", [4])]), ("t", [("c", [5])])])] =
    [[("r1", [("s", [("a", [1, 2])])])], [("r1", [("s", [("a", [3])])]), ("r2", [("s", [("b", [4])])])], [("r2", [("t", [("c", [5])])])]] := rfl

end Export
end Otel
