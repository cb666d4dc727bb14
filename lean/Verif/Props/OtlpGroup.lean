import Verif.Props.Otlp
import Mathlib.Data.List.Induction
/-!
# C44: grouping in an OTLP request; metrics; C68: log records
-/
namespace Otel
namespace Dict
variable {κ ν α : Type} [DecidableEq κ]

/-- Replacing an entry by one that shows `x` more adds `x` to what the dictionary shows. -/
theorem flatMap_set (f : κ → ν → List α) (d : Dict κ ν) (k : κ) (v : ν) (x : List α)
    (h : (f k v).Perm (((get? d k).map (f k)).getD [] ++ x)) :
    ((set d k v).flatMap (fun kv => f kv.1 kv.2)).Perm (d.flatMap (fun kv => f kv.1 kv.2) ++ x) := by
  induction d with
  | nil => simpa [set] using h
  | cons p d ih =>
    obtain ⟨a, b⟩ := p
    simp only [set]
    by_cases ha : a = k
    · subst ha
      simp only [get?, if_true, Option.map_some, Option.getD_some] at h
      simp only [if_true, List.flatMap_cons]
      refine (h.append_right _).trans ?_
      rw [List.append_assoc, List.append_assoc]
      exact List.perm_append_comm.append_left _
    · simp only [get?, if_neg ha] at h
      simp only [if_neg ha, List.flatMap_cons, List.append_assoc]
      exact (ih h).append_left _

end Dict

namespace Otlp
variable {ρ σ τ ε : Type} [DecidableEq ρ] [DecidableEq σ]

/-- Everything in a request, with the resource and scope it is filed under. -/
def items (d : Dict ρ (Dict σ (List ε))) : List (ρ × σ × ε) :=
  d.flatMap (fun ri => ri.2.flatMap (fun sl => sl.2.map (fun e => (ri.1, sl.1, e))))

/-- What is filed under a resource and scope. -/
def under (d : Dict ρ (Dict σ (List ε))) (r : ρ) (s : σ) : List ε := (Dict.get? ((Dict.get? d r).getD []) s).getD []

/-- Each key the first time it occurs. -/
def firsts {κ : Type} [DecidableEq κ] : List κ → List κ
  | [] => []
  | k :: l => k :: (firsts l).filter (fun x => decide (x ≠ k))

theorem firsts_snoc {κ : Type} [DecidableEq κ] (l : List κ) (k : κ) : firsts (l ++ [k]) = if k ∈ l then firsts l else firsts l ++ [k] := by
  induction l with
  | nil => simp [firsts]
  | cons a l ih =>
    simp only [List.cons_append, firsts, ih]
    by_cases hk : k ∈ l
    · simp [hk]
    · by_cases hak : k = a
      · subst hak; simp [hk]
      · simp [hk, hak]

theorem mem_firsts {κ : Type} [DecidableEq κ] (l : List κ) (k : κ) : k ∈ firsts l ↔ k ∈ l := by
  induction l with
  | nil => simp [firsts]
  | cons a l ih =>
    simp only [firsts, List.mem_cons, List.mem_filter, ih, decide_eq_true_eq]
    by_cases hk : k = a <;> simp [hk]

theorem items_insert (d : Dict ρ (Dict σ (List ε))) (r : ρ) (s : σ) (e : ε) :
    (items (groupInsert d r s e)).Perm (items d ++ [(r, s, e)]) := by
  unfold items groupInsert
  apply Dict.flatMap_set (fun r' (i : Dict σ (List ε)) => i.flatMap (fun sl => sl.2.map (fun e => (r', sl.1, e))))
  refine (Dict.flatMap_set (fun s' (l : List ε) => l.map (fun e => (r, s', e))) ((Dict.get? d r).getD []) s _ [(r, s, e)] ?_).trans ?_
  · cases Dict.get? ((Dict.get? d r).getD []) s <;> simp
  · cases Dict.get? d r <;> simp

theorem under_insert (d : Dict ρ (Dict σ (List ε))) (r : ρ) (s : σ) (e : ε) (r' : ρ) (s' : σ) :
    under (groupInsert d r s e) r' s' = if r = r' ∧ s = s' then under d r' s' ++ [e] else under d r' s' := by
  unfold under groupInsert
  by_cases hr : r = r'
  · subst hr
    simp only [Dict.get?_set_self, Option.getD_some, true_and]
    by_cases hs : s = s'
    · subst hs; simp
    · rw [Dict.get?_set_ne _ _ hs]; simp [hs]
  · simp only [hr, false_and, if_false]
    rw [Dict.get?_set_ne _ _ hr]

/-- No resource and no scope appears twice, and none is empty. -/
def Tidy (d : Dict ρ (Dict σ (List ε))) : Prop :=
  (d.map Prod.fst).Nodup ∧ ∀ ri ∈ d, ri.2 ≠ [] ∧ (ri.2.map Prod.fst).Nodup ∧ ∀ sl ∈ ri.2, sl.2 ≠ []

theorem set_mem {κ ν : Type} [DecidableEq κ] (d : Dict κ ν) (k : κ) (v : ν) (q : κ × ν) (h : q ∈ Dict.set d k v) : q = (k, v) ∨ q ∈ d := by
  induction d with
  | nil => simp only [Dict.set, List.mem_singleton] at h; exact .inl h
  | cons p d ih =>
    obtain ⟨a, b⟩ := p
    simp only [Dict.set] at h
    split at h
    · rcases List.mem_cons.1 h with h | h
      · exact .inl h
      · exact .inr (List.mem_cons_of_mem _ h)
    · rcases List.mem_cons.1 h with h | h
      · exact .inr (h ▸ List.mem_cons_self)
      · rcases ih h with h | h
        · exact .inl h
        · exact .inr (List.mem_cons_of_mem _ h)

theorem set_ne_nil {κ ν : Type} [DecidableEq κ] (d : Dict κ ν) (k : κ) (v : ν) : Dict.set d k v ≠ [] := by
  cases d with
  | nil => simp [Dict.set]
  | cons p d => obtain ⟨a, b⟩ := p; simp only [Dict.set]; split <;> simp

theorem tidy_insert (d : Dict ρ (Dict σ (List ε))) (r : ρ) (s : σ) (e : ε) (h : Tidy d) : Tidy (groupInsert d r s e) := by
  obtain ⟨h1, h2⟩ := h
  refine ⟨Dict.nodup_set _ _ _ h1, ?_⟩
  intro ri hri
  rcases set_mem _ _ _ _ hri with rfl | hri
  · have hin : (((Dict.get? d r).getD []).map Prod.fst).Nodup ∧ ∀ sl ∈ (Dict.get? d r).getD [], sl.2 ≠ [] := by
      cases hg : Dict.get? d r with
      | none => simp
      | some i => exact (h2 _ (Dict.mem_of_get? _ _ _ hg)).2
    refine ⟨set_ne_nil _ _ _, Dict.nodup_set _ _ _ hin.1, ?_⟩
    intro sl hsl
    rcases set_mem _ _ _ _ hsl with rfl | hsl
    · simp
    · exact hin.2 _ hsl
  · exact h2 _ hri

theorem keys_insert (d : Dict ρ (Dict σ (List ε))) (r : ρ) (s : σ) (e : ε) :
    (groupInsert d r s e).map Prod.fst = if r ∈ d.map Prod.fst then d.map Prod.fst else d.map Prod.fst ++ [r] := by
  have := Dict.keys_set d r (Dict.set ((Dict.get? d r).getD []) s ((Dict.get? ((Dict.get? d r).getD []) s).getD [] ++ [e]))
  unfold groupInsert
  by_cases hr : r ∈ d.map Prod.fst
  · rw [if_pos hr]
    exact this.trans (if_pos hr)
  · rw [if_neg hr]
    exact this.trans (if_neg hr)

theorem scopes_insert (d : Dict ρ (Dict σ (List ε))) (r : ρ) (s : σ) (e : ε) (r' : ρ) :
    ((Dict.get? (groupInsert d r s e) r').getD []).map Prod.fst =
      if r = r' ∧ s ∉ ((Dict.get? d r').getD []).map Prod.fst then ((Dict.get? d r').getD []).map Prod.fst ++ [s]
      else ((Dict.get? d r').getD []).map Prod.fst := by
  unfold groupInsert
  by_cases hr : r = r'
  · subst hr
    simp only [Dict.get?_set_self, Option.getD_some, true_and]
    have := Dict.keys_set ((Dict.get? d r).getD []) s ((Dict.get? ((Dict.get? d r).getD []) s).getD [] ++ [e])
    simp only [Dict.keys, Dict.has_iff] at this
    rw [this]
    by_cases hs : s ∈ ((Dict.get? d r).getD []).map Prod.fst <;> simp [hs]
  · simp only [hr, false_and, if_false]
    rw [Dict.get?_set_ne _ _ hr]

/-- The loop only depends on what has been inserted; induction from the right. -/
theorem loop_snoc (res : τ → ρ) (scope : τ → σ) (enc : τ → Option ε) (d : Dict ρ (Dict σ (List ε))) (l : List τ) (x : τ) :
    groupLoop res scope enc d (l ++ [x]) =
      (groupLoop res scope enc d l).bind (fun d' => (enc x).map (fun e => groupInsert d' (res x) (scope x) e)) := by
  induction l generalizing d with
  | nil => simp only [List.nil_append, groupLoop, Option.bind_some]; cases enc x <;> rfl
  | cons y l ih =>
    simp only [List.cons_append, groupLoop]
    cases enc y with
    | none => rfl
    | some e => exact ih _

/-- **C44** Encoding a batch succeeds exactly if every item can be encoded: one that cannot loses the whole batch. -/
theorem C44_encodable (res : τ → ρ) (scope : τ → σ) (enc : τ → Option ε) (batch : List τ) :
    (group res scope enc batch).isSome ↔ ∀ x ∈ batch, (enc x).isSome := by
  unfold group
  generalize ([] : Dict ρ (Dict σ (List ε))) = d
  induction batch generalizing d with
  | nil => simp [groupLoop]
  | cons x l ih =>
    simp only [groupLoop, List.forall_mem_cons]
    cases enc x with
    | none => simp
    | some e => simpa using ih _

/-- **C44** The items of the request are a permutation of the batch, each encoded and filed under its own resource and scope. -/
theorem C44_permutation (res : τ → ρ) (scope : τ → σ) (enc : τ → Option ε) (batch : List τ) (d : Dict ρ (Dict σ (List ε)))
    (h : group res scope enc batch = some d) :
    (items d).Perm (batch.filterMap (fun x => (enc x).map (fun e => (res x, scope x, e)))) ∧ (items d).length = batch.length := by
  have main : (items d).Perm (batch.filterMap (fun x => (enc x).map (fun e => (res x, scope x, e)))) ∧
      batch.length = (batch.filterMap (fun x => (enc x).map (fun e => (res x, scope x, e)))).length := by
    unfold group at h
    induction batch using List.reverseRecOn generalizing d with
    | nil => simp only [groupLoop, Option.some.injEq] at h; subst h; simp [items]
    | append_singleton l x ih =>
      rw [loop_snoc, Option.bind_eq_some_iff] at h
      obtain ⟨d', hd', h⟩ := h
      rw [Option.map_eq_some_iff] at h
      obtain ⟨e, he, rfl⟩ := h
      obtain ⟨i1, i2⟩ := ih d' hd'
      rw [List.filterMap_append]
      have hx : [x].filterMap (fun x => (enc x).map (fun e => (res x, scope x, e))) = [(res x, scope x, e)] := by simp [he]
      rw [hx]
      exact ⟨(items_insert _ _ _ _).trans (i1.append_right _), by simp [← i2]⟩
  exact ⟨main.1, by rw [main.2]; exact main.1.length_eq⟩

/-- **C44** What is filed under a resource and scope is exactly the batch's items of that resource and scope, encoded, in batch order. -/
theorem C44_order (res : τ → ρ) (scope : τ → σ) (enc : τ → Option ε) (batch : List τ) (d : Dict ρ (Dict σ (List ε)))
    (h : group res scope enc batch = some d) (r : ρ) (s : σ) :
    (under d r s).map some = (batch.filter (fun x => decide (res x = r ∧ scope x = s))).map enc := by
  unfold group at h
  induction batch using List.reverseRecOn generalizing d with
  | nil => simp only [groupLoop, Option.some.injEq] at h; subst h; simp [under]
  | append_singleton l x ih =>
    rw [loop_snoc, Option.bind_eq_some_iff] at h
    obtain ⟨d', hd', h⟩ := h
    rw [Option.map_eq_some_iff] at h
    obtain ⟨e, he, rfl⟩ := h
    rw [under_insert, List.filter_append, List.map_append, ← ih d' hd']
    by_cases hc : res x = r ∧ scope x = s <;> simp [hc, he]

/-- **C44** Every resource appears once, every scope once in its resource, nothing is empty. -/
theorem C44_unique (res : τ → ρ) (scope : τ → σ) (enc : τ → Option ε) (batch : List τ) (d : Dict ρ (Dict σ (List ε)))
    (h : group res scope enc batch = some d) : Tidy d := by
  unfold group at h
  induction batch using List.reverseRecOn generalizing d with
  | nil => simp only [groupLoop, Option.some.injEq] at h; subst h; exact ⟨by simp, by simp⟩
  | append_singleton l x ih =>
    rw [loop_snoc, Option.bind_eq_some_iff] at h
    obtain ⟨d', hd', h⟩ := h
    rw [Option.map_eq_some_iff] at h
    obtain ⟨e, he, rfl⟩ := h
    exact tidy_insert _ _ _ _ (ih d' hd')

/-- **C44** Resources are in the order in which they first occur in the batch, and so are the scopes of each resource. -/
theorem C44_group_order (res : τ → ρ) (scope : τ → σ) (enc : τ → Option ε) (batch : List τ) (d : Dict ρ (Dict σ (List ε)))
    (h : group res scope enc batch = some d) :
    d.map Prod.fst = firsts (batch.map res) ∧
    ∀ r, ((Dict.get? d r).getD []).map Prod.fst = firsts ((batch.filter (fun x => decide (res x = r))).map scope) := by
  unfold group at h
  induction batch using List.reverseRecOn generalizing d with
  | nil => simp only [groupLoop, Option.some.injEq] at h; subst h; simp [firsts]
  | append_singleton l x ih =>
    rw [loop_snoc, Option.bind_eq_some_iff] at h
    obtain ⟨d', hd', h⟩ := h
    rw [Option.map_eq_some_iff] at h
    obtain ⟨e, he, rfl⟩ := h
    obtain ⟨i1, i2⟩ := ih d' hd'
    constructor
    · rw [keys_insert, i1, List.map_append, List.map_cons, List.map_nil, firsts_snoc]
      simp only [mem_firsts]
    · intro r
      rw [scopes_insert, i2, List.filter_append, List.map_append]
      by_cases hr : res x = r
      · simp only [hr, true_and, List.filter_cons, decide_true, if_true, List.filter_nil, List.map_cons, List.map_nil, firsts_snoc, mem_firsts]
        by_cases hm : scope x ∈ (l.filter (fun x => decide (res x = r))).map scope <;> simp only [hm, if_true, if_false, not_true, not_false_iff]
      · simp [hr]

/-- A batch with two resources interleaved. -/
example : group (fun (x : Nat × Nat × Nat) => x.1) (·.2.1) (fun x => some x.2.2) [(1, 1, 10), (2, 1, 11), (1, 2, 12), (1, 1, 13)] =
    some [(1, [(1, [10, 13]), (2, [12])]), (2, [(1, [11])])] := rfl

/-- The spans of a request: an instance. Here the resource and scope of a span are opaque. -/
abbrev encodeSpans (batch : List (ρ × σ × SdkSpan)) : Option (Dict ρ (Dict σ (List PBSpan))) :=
  group (fun x => x.1) (fun x => x.2.1) (fun x => encodeSpan x.2.2) batch

/-- **C44** (finding) One span whose id is out of range, for instance a link to a context made up by the application, loses all the
others in the batch. -/
theorem C44_poisoned (pre post : List (ρ × σ × SdkSpan)) (r : ρ) (s : σ) (x : SdkSpan) (l : SdkLink) (hl : l ∈ x.links)
    (hbad : l.ctx.traceId < 0 ∨ 2 ^ 128 ≤ l.ctx.traceId) : encodeSpans (pre ++ (r, s, x) :: post) = none := by
  have h : ¬ (encodeSpans (pre ++ (r, s, x) :: post)).isSome := by
    rw [C44_encodable]
    intro hall
    have := (C45_span_encodable x).1 (hall (r, s, x) (by simp))
    have := (this.2.2.2 l hl).1
    omega
  simpa using h

/-! ## Metrics -/

theorem encodeScopes_eq (enc : τ → Option ε) (d : Dict σ (List ε)) (l : List (σ × List τ))
    (hn : (d.map Prod.fst ++ l.map Prod.fst).Nodup) (r : Dict σ (List ε)) (h : encodeScopes enc d l = some r) :
    ∃ l' : List (σ × List ε), r = d ++ l' ∧
      List.Forall₂ (fun (a : σ × List τ) (b : σ × List ε) => b.1 = a.1 ∧ a.2.map enc = b.2.map some) l l' := by
  induction l generalizing d with
  | nil => simp only [encodeScopes, Option.some.injEq] at h; exact ⟨[], by simp [h], .nil⟩
  | cons a l ih =>
    obtain ⟨s, ms⟩ := a
    simp only [encodeScopes] at h
    split at h
    · simp at h
    · rename_i es hes
      have hs : s ∉ Dict.keys d := by
        intro hm
        rw [List.nodup_append] at hn
        exact hn.2.2 s hm s (by simp) rfl
      rw [Dict.set_of_not_mem _ _ _ hs] at h
      obtain ⟨l', rfl, hl'⟩ := ih (d ++ [(s, es)]) (by simpa using hn) h
      refine ⟨(s, es) :: l', by simp, .cons ⟨rfl, ?_⟩ hl'⟩
      clear h hn ih
      induction ms generalizing es with
      | nil => simp only [List.mapM_nil, Option.pure_def, Option.some.injEq] at hes; subst hes; rfl
      | cons m ms ihm =>
        simp only [List.mapM_cons, Option.bind_eq_bind, Option.bind_eq_some_iff, Option.pure_def, Option.some.injEq] at hes
        obtain ⟨q, hq, l2, hl2, rfl⟩ := hes
        simp only [List.map_cons, hq]
        rw [ihm l2 hl2]

theorem encodeMetrics_eq (enc : τ → Option ε) (d : Dict ρ (Dict σ (List ε))) (l : List (ρ × List (σ × List τ)))
    (hn : (d.map Prod.fst ++ l.map Prod.fst).Nodup) (hs : ∀ rs ∈ l, (rs.2.map Prod.fst).Nodup) (r : Dict ρ (Dict σ (List ε)))
    (h : encodeMetrics enc d l = some r) :
    ∃ l' : List (ρ × List (σ × List ε)), r = d ++ l' ∧ List.Forall₂ (fun (a : ρ × List (σ × List τ)) (b : ρ × List (σ × List ε)) => b.1 = a.1 ∧
      List.Forall₂ (fun (a : σ × List τ) (b : σ × List ε) => b.1 = a.1 ∧ a.2.map enc = b.2.map some) a.2 b.2) l l' := by
  induction l generalizing d with
  | nil => simp only [encodeMetrics, Option.some.injEq] at h; exact ⟨[], by simp [h], .nil⟩
  | cons a l ih =>
    obtain ⟨k, ss⟩ := a
    simp only [encodeMetrics] at h
    split at h
    · simp at h
    · rename_i x hx
      have hk : k ∉ Dict.keys d := by
        intro hm
        rw [List.nodup_append] at hn
        exact hn.2.2 k hm k (by simp) rfl
      rw [Dict.set_of_not_mem _ _ _ hk] at h
      obtain ⟨x', hx', hf⟩ := encodeScopes_eq enc [] ss (by simpa using hs _ List.mem_cons_self) x hx
      obtain ⟨l', rfl, hl'⟩ := ih (d ++ [(k, x)]) (by simpa using hn) (fun rs hrs => hs rs (List.mem_cons_of_mem _ hrs)) h
      rw [List.nil_append] at hx'
      subst hx'
      exact ⟨(k, x) :: l', by simp, .cons ⟨rfl, hf⟩ hl'⟩

/-- **C44** Metrics data whose resources are distinct and whose scopes are distinct in each resource (that is what an SDK reader
produces) is encoded structure by structure: the same resources, scopes and metrics, in order. -/
theorem C44_metrics (enc : τ → Option ε) (data : List (ρ × List (σ × List τ))) (hr : (data.map Prod.fst).Nodup)
    (hs : ∀ rs ∈ data, (rs.2.map Prod.fst).Nodup) (r : Dict ρ (Dict σ (List ε))) (h : encodeMetrics enc [] data = some r) :
    List.Forall₂ (fun (a : ρ × List (σ × List τ)) (b : ρ × List (σ × List ε)) => b.1 = a.1 ∧
      List.Forall₂ (fun (a : σ × List τ) (b : σ × List ε) => b.1 = a.1 ∧ a.2.map enc = b.2.map some) a.2 b.2) data r := by
  obtain ⟨l', h1, h2⟩ := encodeMetrics_eq enc [] data (by simpa using hr) hs r h
  rw [List.nil_append] at h1
  exact h1 ▸ h2

/-- **C44** (refutation in general) Metrics data with a repeated resource, such as that of two providers merged by hand, loses the first
occurrence. -/
theorem C44_metrics_lost :
    encodeMetrics some [] [(1, [(1, [10])]), (1, [(2, [20])])] = some [(1, [(2, [20])])] ∧
    encodeMetrics some [] [(1, [(1, [10]), (1, [20])])] = some [(1, [(1, [20])])] := ⟨rfl, rfl⟩

example : encodeMetrics some [] [(1, [(1, [10, 11]), (2, [20])]), (2, [(1, [30])])] = some [(1, [(1, [10, 11]), (2, [20])]), (2, [(1, [30])])] := rfl

/-! ## C68: log records -/

/-- **C68** A log record is encoded exactly if its trace id, span id, flags and severity number are set, the ids are in range and the body
can be expressed (`None` included). -/
theorem C68_encodable (r : SdkLog) : (encodeLog r).isSome ↔
    (∃ s, r.spanId = some s ∧ 0 ≤ s ∧ s < 2 ^ 64) ∧ (∃ t, r.traceId = some t ∧ 0 ≤ t ∧ t < 2 ^ 128) ∧ r.flags.isSome ∧
    Encodable true r.body ∧ r.severity.isSome := by
  have hid : ∀ (len : Nat) (o : Option Int), (encodeLogId len o).isSome ↔ ∃ s, o = some s ∧ 0 ≤ s ∧ s < 256 ^ len := by
    intro len o
    cases o with
    | none => simp [encodeLogId]
    | some n =>
      simp only [encodeLogId]
      have hpos : (0 : Int) < 256 ^ len := Int.pow_pos (by decide)
      split
      · rename_i h0; subst h0; simp [hpos]
      · rw [← (toBytes_spec len n).1]; simp
  have e8 : (2 : Int) ^ 64 = 256 ^ 8 := by decide
  have e16 : (2 : Int) ^ 128 = 256 ^ 16 := by decide
  rw [e8, e16, ← hid, ← hid, ← C43_encodable]
  unfold encodeLog
  cases encodeLogId 8 r.spanId <;> cases encodeLogId 16 r.traceId <;> cases r.flags <;> cases encodeValue true r.body <;>
    cases r.severity <;> simp

/-- **C68** An encoded log record says what the record said; an empty id means there was no span. -/
theorem C68_faithful (r : SdkLog) (p : PBLog) (h : encodeLog r = some p) :
    r.spanId = some (fromBytes p.spanId : Int) ∧ r.traceId = some (fromBytes p.traceId : Int) ∧
    (p.spanId = [] ↔ r.spanId = some 0) ∧ (p.traceId = [] ↔ r.traceId = some 0) ∧
    r.flags = some p.flags ∧ r.severity = some p.severity ∧ p.severityText = r.severityText.getD [] ∧ p.time = r.time.getD 0 ∧
    p.observed = r.observed.getD 0 ∧ p.dropped = r.dropped ∧ decodeOpt p.body = r.body ∧
    ((∀ kv ∈ r.attrs, Encodable false kv.2) → meaning p.attrs = r.attrs) := by
  have hid : ∀ (len : Nat) (o : Option Int) (bs : List Nat), 0 < len → encodeLogId len o = some bs →
      o = some (fromBytes bs : Int) ∧ (bs = [] ↔ o = some 0) := by
    intro len o bs hlen ho
    cases o with
    | none => simp [encodeLogId] at ho
    | some n =>
      simp only [encodeLogId] at ho
      split at ho
      · rename_i h0; subst h0; injection ho with ho; subst ho; simp [fromBytes]
      · rename_i h0
        have := (toBytes_spec len n).2 bs ho
        refine ⟨by rw [this.2.2], ?_⟩
        constructor
        · intro hb; rw [hb] at this; simp at this; omega
        · intro hb; injection hb with hb; exact absurd hb h0
  unfold encodeLog at h
  split at h
  · rename_i s t f b n hs ht hf hb hn
    injection h with h
    subst h
    exact ⟨(hid 8 _ _ (by decide) hs).1, (hid 16 _ _ (by decide) ht).1, (hid 8 _ _ (by decide) hs).2, (hid 16 _ _ (by decide) ht).2, hf, hn, rfl, rfl, rfl, rfl,
      C43_roundtrip true r.body b hb, fun ha => ((C43_attributes r.attrs).2.1).2 ha⟩
  · simp at h

/-- **C68** (finding) A log record made with the constructor's defaults, `LogRecord(body=...)`, has no trace id and cannot be encoded: with
it the whole batch is lost. -/
theorem C68_default_record (r : SdkLog) (h : r.traceId = none ∨ r.spanId = none ∨ r.flags = none ∨ r.severity = none)
    (pre post : List (ρ × σ × SdkLog)) (a : ρ) (b : σ) :
    encodeLog r = none ∧ group (fun x => x.1) (fun x => x.2.1) (fun x => encodeLog x.2.2) (pre ++ (a, b, r) :: post) = none := by
  have h1 : ¬ (encodeLog r).isSome := by
    rw [C68_encodable]
    rintro ⟨⟨s, hs, _⟩, ⟨t, ht, _⟩, hf, _, hn⟩
    rcases h with h | h | h | h
    · rw [h] at ht; simp at ht
    · rw [h] at hs; simp at hs
    · rw [h] at hf; simp at hf
    · rw [h] at hn; simp at hn
  have h2 : ¬ (group (fun x => x.1) (fun x => x.2.1) (fun x => encodeLog x.2.2) (pre ++ (a, b, r) :: post)).isSome := by
    rw [C44_encodable]
    intro hall
    exact h1 (hall (a, b, r) (by simp))
  exact ⟨by simpa using h1, by simpa using h2⟩

/-- The ordinary record, as made by the logging handler outside a span. -/
example : encodeLog ⟨some 5, some 6, some 0, some 0, some 0, some "INFO".toList, some 9, .str "hi".toList, [], 0⟩ =
    some ⟨5, 6, [], [], 0, "INFO".toList, 9, some (.str "hi".toList), [], 0⟩ := rfl

end Otlp
end Otel
