import Verif.Model.Resource
import Verif.Props.Attributes
import Verif.Lemmas.Baggage
/-!
# C41, C42: resources
-/
namespace Otel

namespace Dict
variable {κ ν : Type} [DecidableEq κ]

theorem set_eq_self (d : Dict κ ν) (k : κ) (v : ν) (h : get? d k = some v) : set d k v = d := by
  induction d with
  | nil => simp at h
  | cons p d ih =>
    obtain ⟨a, b⟩ := p
    simp only [get?] at h
    simp only [set]
    split
    · rename_i hk; rw [if_pos hk] at h; injection h with h; rw [h, hk]
    · rename_i hk; rw [if_neg hk] at h; rw [ih h]

theorem set_set (d : Dict κ ν) (k : κ) (v w : ν) : set (set d k v) k w = set d k w := by
  induction d with
  | nil => simp [set]
  | cons p d ih =>
    obtain ⟨a, b⟩ := p
    simp only [set]
    split
    · simp [set]
    · rename_i hk; simp [set, hk, ih]

theorem set_comm (d : Dict κ ν) (k k' : κ) (v w : ν) (hne : k ≠ k') (hk : k ∈ keys d) :
    set (set d k' w) k v = set (set d k v) k' w := by
  induction d with
  | nil => simp at hk
  | cons p d ih =>
    obtain ⟨a, b⟩ := p
    by_cases h1 : a = k
    · subst h1
      simp [set, hne]
    · have hk' : k ∈ keys d := by
        rw [keys_cons, List.mem_cons] at hk
        exact hk.resolve_left (fun h => h1 h.symm)
      by_cases h2 : a = k'
      · subst h2; simp [set, Ne.symm hne]
      · simp [set, h1, h2, ih hk']

theorem mem_keys_set (d : Dict κ ν) (k : κ) (v : ν) : k ∈ keys (set d k v) := by
  rw [← has_iff, has, get?_set_self]; rfl

theorem mem_keys_set_of_mem (d : Dict κ ν) (k k' : κ) (v : ν) (h : k ∈ keys d) : k ∈ keys (set d k' v) := by
  rw [← has_iff, has, get?_set]
  split
  · rfl
  · have := (has_iff d k).2 h; exact this

theorem set_update (d e : Dict κ ν) (k : κ) (v : ν) (hk : k ∈ keys d) (he : k ∉ keys e) :
    set (update d e) k v = update (set d k v) e := by
  induction e generalizing d with
  | nil => rfl
  | cons p e ih =>
    rw [keys_cons, List.mem_cons, not_or] at he
    rw [update_cons, update_cons, ih _ (mem_keys_set_of_mem d k p.1 p.2 hk) he.2, set_comm d k p.1 v p.2 he.1 hk]

theorem update_set (d e : Dict κ ν) (k : κ) (v : ν) (he : (keys e).Nodup) : update d (set e k v) = set (update d e) k v := by
  induction e generalizing d with
  | nil => rfl
  | cons p e ih =>
    obtain ⟨a, b⟩ := p
    rw [keys_cons, List.nodup_cons] at he
    simp only [set]
    split
    · rename_i hk
      subst hk
      rw [update_cons, update_cons, set_update _ _ _ _ (mem_keys_set d a b) he.1, set_set]
    · rw [update_cons, update_cons, ih _ he.2]

/-- `a.update(b.update(c))` has the same entries in the same order as `a.update(b); a.update(c)`. -/
theorem update_assoc (a b c : Dict κ ν) (hb : (keys b).Nodup) : update (update a b) c = update a (update b c) := by
  induction c generalizing b with
  | nil => rfl
  | cons p c ih =>
    rw [update_cons, update_cons, ← ih _ (nodup_set b p.1 p.2 hb), update_set _ _ _ _ hb]

theorem update_sub (d e : Dict κ ν) (h : ∀ kv ∈ e, get? d kv.1 = some kv.2) : update d e = d := by
  induction e with
  | nil => rfl
  | cons p e ih =>
    rw [update_cons, set_eq_self d p.1 p.2 (h p (by simp)), ih (fun kv hkv => h kv (List.mem_cons_of_mem _ hkv))]

theorem update_empty (e : Dict κ ν) (h : (keys e).Nodup) : update [] e = e := by
  have : ∀ d : Dict κ ν, (keys (d ++ e)).Nodup → update d e = d ++ e := by
    induction e with
    | nil => intro d _; simp [update_nil]
    | cons p e ih =>
      intro d hn
      have hp : p.1 ∉ keys d := by
        intro hm
        rw [keys_append, List.nodup_append] at hn
        exact hn.2.2 p.1 hm p.1 (by simp) rfl
      rw [keys_cons, List.nodup_cons] at h
      rw [update_cons, set_of_not_mem _ _ _ hp, ih h.2 _ (by simpa using hn)]
      simp
  exact this [] h

theorem mem_set (d : Dict κ ν) (k : κ) (v : ν) (q : κ × ν) (h : q ∈ set d k v) : q = (k, v) ∨ q ∈ d := by
  induction d with
  | nil => simp only [set, List.mem_singleton] at h; exact .inl h
  | cons p d ih =>
    obtain ⟨a, b⟩ := p
    simp only [set] at h
    split at h
    · rcases List.mem_cons.1 h with h | h
      · exact .inl h
      · exact .inr (List.mem_cons_of_mem _ h)
    · rcases List.mem_cons.1 h with h | h
      · exact .inr (by rw [h]; simp)
      · exact (ih h).imp_right (List.mem_cons_of_mem _)

theorem mem_update (d e : Dict κ ν) (q : κ × ν) (h : q ∈ update d e) : q ∈ e ∨ q ∈ d := by
  induction e generalizing d with
  | nil => exact .inr h
  | cons p e ih =>
    rw [update_cons] at h
    rcases ih _ h with h | h
    · exact .inl (List.mem_cons_of_mem _ h)
    · rcases mem_set _ _ _ _ h with h | h
      · exact .inl (by rw [h]; simp)
      · exact .inr h

end Dict

namespace Spec
variable {κ ν : Type} [DecidableEq κ]

theorem get?_lastAssignments (l : List (κ × ν)) (k : κ) :
    Dict.get? (lastAssignments l) k = ((l.filter (fun p => decide (p.1 = k))).map Prod.snd).getLast? := by
  have hone : ∀ (l : List (κ × ν)) (k : κ), k ∉ l.map Prod.fst → l.filter (fun p => decide (p.1 = k)) = [] := by
    intro l k hk
    rw [List.filter_eq_nil_iff]
    intro p hp he
    simp only [decide_eq_true_eq] at he
    exact hk (he ▸ List.mem_map_of_mem hp)
  induction l with
  | nil => rfl
  | cons p l ih =>
    obtain ⟨a, b⟩ := p
    unfold lastAssignments
    by_cases ha : a = k
    · subst ha
      by_cases hm : a ∈ l.map Prod.fst
      · rw [if_pos hm, ih, List.filter_cons_of_pos (by simp), List.map_cons]
        have hne : (l.filter (fun p => decide (p.1 = a))).map Prod.snd ≠ [] := by
          obtain ⟨q, hq, hqa⟩ := List.mem_map.1 hm
          intro h
          rw [List.map_eq_nil_iff, List.filter_eq_nil_iff] at h
          exact h q hq (by simp [hqa])
        rw [List.getLast?_cons_of_ne_nil hne]
      · rw [if_neg hm, List.filter_cons_of_pos (by simp), hone l a hm]
        simp [Dict.get?]
    · rw [List.filter_cons_of_neg (by simp [ha])]
      split
      · exact ih
      · simp only [Dict.get?, if_neg ha]; exact ih

end Spec

namespace Resource
open Spec

/-! ## Specification -/

/-- Two schema urls can be merged. -/
def Compatible (s t : Str) : Prop := s = [] ∨ t = [] ∨ s = t

/-- What every resource satisfies: no key twice, keys non-empty, values valid. -/
def WF (r : Resource) : Prop := r.attrs.keys.Nodup ∧ ∀ kv ∈ r.attrs, kv.1 ≠ [] ∧ ValidStored none kv.2

/-- The value given for `k`: the last valid one. -/
def given (attributes : List (AKey × Val)) (k : Str) : Option Val :=
  (attributes.filterMap (fun kv => if kv.1 = .str k then Attr.clean kv.1 kv.2 none else none)).getLast?

/-! ## Construction -/

theorem new_attrs (a : List (AKey × Val)) (s : Option Str) :
    (new a s).attrs = lastAssignments (a.filterMap (BAttrs.stored none)) := by
  have h := BAttrs.C14_contents none none a
  rw [show newest none (lastAssignments (a.filterMap (BAttrs.stored none))) = lastAssignments (a.filterMap (BAttrs.stored none)) from rfl] at h
  rw [← h]
  simp only [new, attributesOf, BAttrs.new]
  suffices h : ∀ b : BAttrs, b.immutable = false →
      a.foldl (fun (b : BAttrs) kv => b.setCore kv.1 kv.2) b = a.foldl (fun b kv => b.step (.set kv.1 kv.2)) b by
    exact congrArg BAttrs.d (h _ rfl)
  induction a with
  | nil => intro b _; rfl
  | cons kv a ih =>
    intro b hb
    simp only [List.foldl_cons]
    have e : b.step (.set kv.1 kv.2) = b.setCore kv.1 kv.2 := by simp [BAttrs.step, BAttrs.set, hb]
    rw [e]
    refine ih ?_ _ ?_
    · exact BAttrs.C14_contents none none a
    · rw [(BAttrs.setCore_cfg b kv.1 kv.2).2.2, hb]

theorem get?_new (a : List (AKey × Val)) (s : Option Str) (k : Str) : Dict.get? (new a s).attrs k = given a k := by
  rw [new_attrs, get?_lastAssignments]
  unfold given
  congr 1
  induction a with
  | nil => rfl
  | cons kv a ih =>
    obtain ⟨key, v⟩ := kv
    rw [List.filterMap_cons, List.filterMap_cons]
    cases key with
    | bad n => simpa [BAttrs.stored] using ih
    | str x =>
      simp only [BAttrs.stored, AKey.str.injEq]
      cases hc : Attr.clean (.str x) v none with
      | none => simp only [ite_self]; exact ih
      | some v' =>
        simp only
        by_cases hx : x = k
        · rw [if_pos hx, List.filter_cons_of_pos (by simp [hx])]
          simp only [List.map_cons]
          exact congrArg _ ih
        · rw [if_neg hx, List.filter_cons_of_neg (by simp [hx])]
          exact ih

theorem stored_valid (kv : AKey × Val) (p : Str × Val) (h : BAttrs.stored none kv = some p) : p.1 ≠ [] ∧ ValidStored none p.2 := by
  have := BAttrs.C15_stored_valid none none [.set kv.1 kv.2] p
  apply this
  have hc := BAttrs.C14_contents none none [kv]
  simp only [List.foldl_cons, List.foldl_nil] at hc ⊢
  rw [hc]
  simp only [List.filterMap_cons, h, List.filterMap_nil, lastAssignments, newest]
  simp

theorem lastAssignments_mem {κ ν : Type} [DecidableEq κ] (l : List (κ × ν)) (p : κ × ν) (h : p ∈ lastAssignments l) : p ∈ l := by
  induction l with
  | nil => exact h
  | cons q l ih =>
    unfold lastAssignments at h
    split at h
    · exact List.mem_cons_of_mem _ (ih h)
    · rcases List.mem_cons.1 h with h | h
      · rw [h]; simp
      · exact List.mem_cons_of_mem _ (ih h)

/-- **C41** Every resource has each key once, non-empty keys and valid values. -/
theorem C41_well_formed (a : List (AKey × Val)) (s : Option Str) : WF (new a s) := by
  rw [WF, new_attrs]
  refine ⟨lastAssignments_keys _, ?_⟩
  intro kv hkv
  obtain ⟨x, _, hx⟩ := List.mem_filterMap.1 (lastAssignments_mem _ _ hkv)
  exact stored_valid x kv hx

theorem lastAssignments_self {κ ν : Type} [DecidableEq κ] (l : List (κ × ν)) (h : (l.map Prod.fst).Nodup) : lastAssignments l = l := by
  induction l with
  | nil => rfl
  | cons p l ih =>
    rw [List.map_cons, List.nodup_cons] at h
    unfold lastAssignments
    rw [if_neg h.1, ih h.2]

theorem new_items (d : Dict Str Val) (s : Option Str) (hn : d.keys.Nodup) (hv : ∀ kv ∈ d, kv.1 ≠ [] ∧ ValidStored none kv.2) :
    new (items d) s = ⟨d, s.getD []⟩ := by
  have : (new (items d) s).attrs = d := by
    rw [new_attrs]
    have e : (items d).filterMap (BAttrs.stored none) = d := by
      unfold items
      rw [List.filterMap_map]
      clear hn
      induction d with
      | nil => rfl
      | cons kv d ih =>
        have h := hv kv (by simp)
        have hc := BAttrs.C15_valid_kept kv.1 h.1 kv.2 none h.2 (.inl rfl)
        rw [List.filterMap_cons]
        simp only [Function.comp, BAttrs.stored, hc]
        exact congrArg _ (ih (fun kv h => hv kv (List.mem_cons_of_mem _ h)))
    rw [e]
    exact lastAssignments_self d hn
  have h2 : (new (items d) s).schema = s.getD [] := rfl
  generalize new (items d) s = r at this h2 ⊢
  cases r
  simp only at this h2
  rw [this, h2]

theorem update_wf (a b : Resource) (ha : WF a) (hb : WF b) : (Dict.update a.attrs b.attrs).keys.Nodup ∧
    ∀ kv ∈ Dict.update a.attrs b.attrs, kv.1 ≠ [] ∧ ValidStored none kv.2 := by
  refine ⟨Dict.nodup_update _ _ ha.1, ?_⟩
  intro kv hkv
  rcases Dict.mem_update _ _ _ hkv with h | h
  · exact hb.2 kv h
  · exact ha.2 kv h

theorem merge_eq (a b : Resource) (ha : WF a) (hb : WF b) (h : Compatible a.schema b.schema) :
    a.merge b = ⟨Dict.update a.attrs b.attrs, if a.schema = [] then b.schema else a.schema⟩ := by
  obtain ⟨hn, hv⟩ := update_wf a b ha hb
  unfold merge
  simp only
  split
  · rw [new_items _ _ hn hv]; rfl
  · rename_i h1
    split
    · rw [new_items _ _ hn hv]; rfl
    · rename_i h2
      rcases h with h | h | h
      · exact absurd h h1
      · exact absurd h h2
      · rw [if_pos h, new_items _ _ hn hv, h]; rfl

/-- **C41** Merging keeps well-formedness. -/
theorem C41_merge_well_formed (a b : Resource) (ha : WF a) (hb : WF b) : WF (a.merge b) := by
  by_cases h : Compatible a.schema b.schema
  · rw [merge_eq a b ha hb h]
    exact update_wf a b ha hb
  · simp only [Compatible, not_or] at h
    unfold merge
    simp only
    rw [if_neg h.1, if_neg h.2.1, if_neg h.2.2]
    exact ha

/-- **C41** Merging compatible resources: every key has the other's value if it has one, else the receiver's; the schema url is the
non-empty one. -/
theorem C41_override (a b : Resource) (ha : WF a) (hb : WF b) (h : Compatible a.schema b.schema) :
    (∀ k, Dict.get? (a.merge b).attrs k = (Dict.get? b.attrs k).or (Dict.get? a.attrs k)) ∧
    (a.merge b).schema = if a.schema = [] then b.schema else a.schema := by
  rw [merge_eq a b ha hb h]
  exact ⟨fun k => Dict.get?_update _ _ k hb.1, rfl⟩

/-- **C41** On conflicting schema urls the result is the receiver, unchanged. -/
theorem C41_conflict (a b : Resource) (h : ¬ Compatible a.schema b.schema) : a.merge b = a := by
  simp only [Compatible, not_or] at h
  unfold merge
  simp only
  rw [if_neg h.1, if_neg h.2.1, if_neg h.2.2]

theorem empty_eq : empty = ⟨[], []⟩ := rfl

/-- **C41** The empty resource is a two-sided identity. -/
theorem C41_identity (a : Resource) (ha : WF a) : empty.merge a = a ∧ a.merge empty = a := by
  have he : WF empty := C41_well_formed _ _
  rw [merge_eq _ _ he ha (.inl rfl), merge_eq _ _ ha he (.inr (.inl rfl))]
  constructor
  · rw [empty_eq]
    simp only [if_true]
    rw [Dict.update_empty _ ha.1]
  · rw [empty_eq]
    simp only [Dict.update_nil]
    split
    · rename_i h; rw [← h]
    · rfl

/-- **C41** Merging a resource with itself changes nothing. -/
theorem C41_idempotent (a : Resource) (ha : WF a) : a.merge a = a := by
  rw [merge_eq a a ha ha (.inr (.inr rfl)), Dict.update_sub]
  · simp
  · intro kv hkv
    exact Dict.get?_of_mem _ ha.1 _ _ hkv

/-- **C41** Merging is associative when the schema urls are pairwise compatible, including the order of the attributes. -/
theorem C41_assoc (a b c : Resource) (ha : WF a) (hb : WF b) (hc : WF c) (hab : Compatible a.schema b.schema)
    (hbc : Compatible b.schema c.schema) (hac : Compatible a.schema c.schema) : (a.merge b).merge c = a.merge (b.merge c) := by
  have h1 := C41_merge_well_formed a b ha hb
  have h2 := C41_merge_well_formed b c hb hc
  have c1 : Compatible (a.merge b).schema c.schema := by
    rw [(C41_override a b ha hb hab).2]; split <;> assumption
  have c2 : Compatible a.schema (b.merge c).schema := by
    rw [(C41_override b c hb hc hbc).2]; split <;> assumption
  rw [merge_eq _ _ h1 hc c1, merge_eq _ _ ha h2 c2, merge_eq _ _ ha hb hab, merge_eq _ _ hb hc hbc]
  simp only [Dict.update_assoc _ _ _ hb.1]
  by_cases h : a.schema = [] <;> simp [h]

/-- **C41** (refutation in general) With conflicting schema urls the grouping matters. -/
theorem C41_not_assoc :
    let a := new [(.str ['a'], strVal ['1'])] (some ['x'])
    let b := new [(.str ['b'], strVal ['2'])] none
    let c := new [(.str ['c'], strVal ['3'])] (some ['y'])
    (a.merge b).merge c ≠ a.merge (b.merge c) ∧ Dict.get? (a.merge (b.merge c)).attrs ['b'] = none := by decide

/-- **C41** The attributes of a resource are those given: the last valid value for each key. -/
theorem C41_constructor (a : List (AKey × Val)) (s : Option Str) (k : Str) :
    Dict.get? (new a s).attrs k = given a k ∧ (new a s).schema = s.getD [] := ⟨get?_new a s k, rfl⟩

/-- **C41** The attributes of a resource cannot be changed: setting or deleting a key raises. -/
theorem C41_immutable (a : List (AKey × Val)) (k : AKey) (k' : Str) (v : Val) (s : Option Str) :
    (attributesOf a).set k v = none ∧ (attributesOf a).del k' = none ∧ (new a s).attrs = (attributesOf a).d := ⟨rfl, rfl, rfl⟩

/-! ## C42 -/

/-- The values Python takes for false: `None`, `False`, zero, and the empty string, bytes and sequence. -/
inductive Falsy : Val → Prop
  | none : Falsy (.atom .none)
  | bool : Falsy (.atom (.bool false))
  | int (p : Bool) : Falsy (.atom (.int 0 p))
  | float (p : Bool) : Falsy (.atom (.float 0 p))
  | str (p : Bool) : Falsy (.atom (.str [] p))
  | bytes (p : Bool) : Falsy (.atom (.bytes [] p))
  | seq : Falsy (.seq [])

theorem truthy_iff (v : Val) : truthy v = true ↔ ¬ Falsy v := by
  constructor
  · intro h hf
    cases hf <;> simp [truthy] at h
  · intro h
    cases v with
    | atom a =>
      cases a <;> simp only [truthy]
      all_goals first | rfl | skip
      all_goals (try (by_contra hc; simp at hc; subst hc; exact h (by constructor)))
      exact absurd Falsy.none h
    | seq l => cases l with
      | nil => exact absurd Falsy.seq h
      | cons x l => rfl

theorem falsy_iff (v : Val) : truthy v = false ↔ Falsy v := by
  have := truthy_iff v
  cases h : truthy v <;> simp_all

theorem aggregate_wf (r : Resource) (l : List Detected) (r' : Resource) (hr : WF r) (hl : ∀ x, .ok x ∈ l → WF x)
    (h : aggregate r l = some r') : WF r' := by
  induction l generalizing r with
  | nil => simp only [aggregate, Option.some.injEq] at h; exact h ▸ hr
  | cons d l ih =>
    have hl' : ∀ x, .ok x ∈ l → WF x := fun x hx => hl x (List.mem_cons_of_mem _ hx)
    cases d with
    | ok x => exact ih _ (C41_merge_well_formed r x hr (hl x (by simp))) hl' h
    | fails b =>
      cases b with
      | false => exact ih _ (C41_merge_well_formed r empty hr (C41_well_formed _ _)) hl' h
      | true => simp [aggregate] at h

/-- A schema url that is empty or `s`. -/
theorem aggregate_schema (s : Str) (r : Resource) (l : List Detected) (r' : Resource) (hr : WF r) (hl : ∀ x, .ok x ∈ l → WF x)
    (hs : r.schema = [] ∨ r.schema = s) (hls : ∀ x, .ok x ∈ l → x.schema = [] ∨ x.schema = s)
    (h : aggregate r l = some r') : r'.schema = [] ∨ r'.schema = s := by
  have hm : ∀ x : Resource, WF x → (x.schema = [] ∨ x.schema = s) → (r.merge x).schema = [] ∨ (r.merge x).schema = s := by
    intro x hx hxs
    have hc : Compatible r.schema x.schema := by
      rcases hs with hs | hs
      · exact .inl hs
      · rcases hxs with h | h
        · exact .inr (.inl h)
        · exact .inr (.inr (by rw [hs, h]))
    rw [(C41_override r x hr hx hc).2]
    split <;> assumption
  induction l generalizing r with
  | nil => simp only [aggregate, Option.some.injEq] at h; exact h ▸ hs
  | cons d l ih =>
    have hl' : ∀ x, .ok x ∈ l → WF x := fun x hx => hl x (List.mem_cons_of_mem _ hx)
    have hls' : ∀ x, .ok x ∈ l → x.schema = [] ∨ x.schema = s := fun x hx => hls x (List.mem_cons_of_mem _ hx)
    have hm' : ∀ y : Resource, WF y → (y.schema = [] ∨ y.schema = s) → ∀ x : Resource, WF x → (x.schema = [] ∨ x.schema = s) →
        (y.merge x).schema = [] ∨ (y.merge x).schema = s := by
      intro y hy hys x hx hxs
      have hc : Compatible y.schema x.schema := by
        rcases hys with hs | hs
        · exact .inl hs
        · rcases hxs with h | h
          · exact .inr (.inl h)
          · exact .inr (.inr (by rw [hs, h]))
      rw [(C41_override y x hy hx hc).2]
      split <;> assumption
    cases d with
    | ok x =>
      have hx := hl x (by simp)
      exact ih (r.merge x) (C41_merge_well_formed r x hr hx) hl' (hm x hx (hls x (by simp))) hls' h
        (hm' _ (C41_merge_well_formed r x hr hx) (hm x hx (hls x (by simp))))
    | fails b =>
      cases b with
      | false =>
        have he : WF empty := C41_well_formed _ _
        have hes : (empty : Resource).schema = [] ∨ (empty : Resource).schema = s := .inl rfl
        exact ih (r.merge empty) (C41_merge_well_formed r empty hr he) hl' (hm _ he hes) hls' h
          (hm' _ (C41_merge_well_formed r empty hr he) (hm _ he hes))
      | true => simp [aggregate] at h

/-- The name of the service is there and not empty. -/
def Named (r : Resource) : Prop := ∃ v, Dict.get? r.attrs serviceName = some v ∧ ¬ Falsy v

theorem clean_str (k : Str) (hk : k ≠ []) (s : Str) : Attr.clean (.str k) (strVal s) none = some (strVal s) := by
  cases k with
  | nil => exact absurd rfl hk
  | cons c k => rfl

theorem given_single (k : Str) (hk : k ≠ []) (s : Str) (k' : Str) :
    given [(.str k, strVal s)] k' = if k = k' then some (strVal s) else none := by
  unfold given
  rw [List.filterMap_cons]
  simp only [AKey.str.injEq, List.filterMap_nil]
  by_cases h : k = k'
  · rw [if_pos h, if_pos h, clean_str k hk]; rfl
  · rw [if_neg h, if_neg h]; rfl

theorem defaultServiceName_ne (exe : Option Val) (n : Str) (h : defaultServiceName exe = some n) : n ≠ [] := by
  unfold defaultServiceName at h
  intro hn
  subst hn
  split at h
  · injection h with h; exact absurd h (by decide)
  · split at h
    · split at h
      · injection h with h; simp at h
      · simp at h
    · injection h with h; exact absurd h (by decide)

theorem finish_named (agg : Resource) (attributes : List (AKey × Val)) (schema : Option Str) (r : Resource) (hw : WF agg)
    (hc : Compatible agg.schema (schema.getD [])) (h : finish agg attributes schema = some r) : Named r := by
  unfold finish at h
  simp only at h
  split at h
  · rename_i hn
    injection h with h
    subst h
    cases hg : Dict.get? (agg.merge (new attributes schema)).attrs serviceName with
    | none => rw [hg] at hn; simp [named] at hn
    | some v => rw [hg] at hn; exact ⟨v, hg, (truthy_iff v).1 hn⟩
  · split at h
    · simp at h
    · rename_i n hd
      injection h with h
      subst h
      have hw1 := C41_merge_well_formed agg (new attributes schema) hw (C41_well_formed _ _)
      have hs : Compatible (agg.merge (new attributes schema)).schema (new [(.str serviceName, strVal n)] schema).schema := by
        rw [(C41_override agg (new attributes schema) hw (C41_well_formed _ _) hc).2]
        split
        · exact .inr (.inr rfl)
        · exact hc
      refine ⟨strVal n, ?_, ?_⟩
      · rw [(C41_override _ _ hw1 (C41_well_formed _ _) hs).1, get?_new, given_single _ (by decide), if_pos rfl]
        rfl
      · have := defaultServiceName_ne _ n hd
        cases n with
        | nil => exact absurd rfl this
        | cons c n => exact (truthy_iff _).1 rfl

/-- **C42** Whatever the attributes, the environment and the detectors: if no detector names a schema url different from the one given to
`create`, the resource has a non-empty service name. -/
theorem C42_always_named (version : Str) (detected : List Detected) (attributes : List (AKey × Val)) (schema : Option Str) (r : Resource)
    (hd : ∀ x, .ok x ∈ detected → WF x) (hs : schema.getD [] = [] ∨ ∀ x, .ok x ∈ detected → x.schema = [] ∨ x.schema = schema.getD [])
    (h : create version detected attributes schema = some r) : Named r := by
  unfold create at h
  split at h
  · simp at h
  · rename_i agg ha
    refine finish_named agg attributes schema r (aggregate_wf _ _ _ (C41_well_formed _ _) hd ha) ?_ h
    rcases hs with hs | hs
    · exact .inr (.inl hs)
    · rcases aggregate_schema (schema.getD []) _ _ _ (C41_well_formed _ _) hd (.inl rfl) hs ha with h | h
      · exact .inl h
      · exact .inr (.inr h)

/-- **C42** (refutation) A detector with another schema url: the resource has neither the explicit attributes nor a service name. -/
theorem C42_conflict_unnamed :
    let r := create ['1'] [.ok (new [(.str ['h'], strVal ['x'])] (some ['a']))] [(.str serviceName, strVal ['s'])] (some ['b'])
    (r.bind (fun r => Dict.get? r.attrs serviceName)) = none ∧ r.isSome := by decide

/-- **C42** (refutation) `create` raises `TypeError` when `process.executable.name` is not a string and there is no service name. -/
theorem C42_type_error (version : Str) : create version [] [(.str executableName, .atom (.int 5 true))] none = none := rfl

/-- **C42** (refutation) An explicit empty service name hides `OTEL_SERVICE_NAME`. -/
theorem C42_empty_hides :
    ((create ['1'] [.ok (detect none (some ['e', 'n', 'v']))] [(.str serviceName, strVal [])] none).bind
      (fun r => Dict.get? r.attrs serviceName)) = some (strVal "unknown_service".toList) := by decide +kernel

/-- `OTEL_SERVICE_NAME` beats a service name in `OTEL_RESOURCE_ATTRIBUTES`; other keys come from the latter. -/
theorem get?_detect (ea en : Option Str) (k : Str) :
    Dict.get? (detect ea en).attrs k =
      if k = [] then none
      else if k = serviceName ∧ en.getD [] ≠ [] then some (strVal (en.getD []))
      else (Dict.get? (envAttrs ea) k).map strVal := by
  have hnew : ∀ d : Dict Str Str, d.keys.Nodup → ∀ k, Dict.get? (new (d.map (fun kv => (.str kv.1, strVal kv.2))) none).attrs k =
      if k = [] then none else (Dict.get? d k).map strVal := by
    intro d hd k
    rw [get?_new]
    unfold given
    rw [List.filterMap_map]
    have hne : ∀ d : Dict Str Str, k ∉ d.keys → d.filterMap ((fun kv : AKey × Val => if kv.1 = .str k then Attr.clean kv.1 kv.2 none else none) ∘
        (fun kv : Str × Str => (AKey.str kv.1, strVal kv.2))) = [] := by
      intro d hd
      rw [List.filterMap_eq_nil_iff]
      intro kv hkv
      simp only [Function.comp, AKey.str.injEq]
      rw [if_neg]
      rintro rfl
      exact hd (List.mem_map_of_mem hkv)
    induction d with
    | nil => simp
    | cons p d ih =>
      obtain ⟨a, b⟩ := p
      rw [Dict.keys_cons, List.nodup_cons] at hd
      rw [List.filterMap_cons]
      simp only [Function.comp, AKey.str.injEq, Dict.get?]
      by_cases ha : a = k
      · subst ha
        rw [if_pos rfl, if_pos rfl]
        have e := hne d hd.1
        simp only [Function.comp, AKey.str.injEq] at e
        by_cases hk : a = []
        · subst hk
          simp only [Attr.clean, if_true]
          have e' : ∀ f : Str × Str → Option Val, List.filterMap f d = [] → (List.filterMap f d).getLast? = none := by
            intro f hf; rw [hf]; rfl
          exact e' _ e
        · rw [clean_str a hk, if_neg hk]
          simp only [Option.map_some]
          rw [e]; rfl
      · rw [if_neg ha, if_neg ha]
        simpa only [Function.comp, AKey.str.injEq] using ih hd.2
  have hmap : ∀ l : List Str, ∀ d : Dict Str Str, d.keys.Nodup → (l.foldl (fun d item =>
      match cutC '=' item with
      | (k, some v) => Dict.set d (pyStrip k) (Url.unquote (pyStrip v))
      | (_, none) => d) d).keys.Nodup := by
    intro l
    induction l with
    | nil => intro d hd; exact hd
    | cons x l ih =>
      intro d hd
      apply ih
      cases hc : cutC '=' x with
      | mk a b =>
        cases b with
        | none => simp only [hc]; exact hd
        | some v => simp only [hc]; exact Dict.nodup_set _ _ _ hd
  have henv : ∀ s, (envMap s).keys.Nodup := fun s => hmap _ _ (by simp)
  unfold detect
  simp only
  generalize hD : envAttrs ea = D
  have hDn : (Dict.keys D).Nodup := by
    rw [← hD]
    unfold envAttrs
    split <;> simp [henv]
  cases en with
  | none => simp only [Option.getD_none, ne_eq, not_true_eq_false, and_false, if_false]; exact hnew D hDn k
  | some s =>
    cases s with
    | nil => simp only [Option.getD_some, ne_eq, not_true_eq_false, and_false, if_false]; exact hnew D hDn k
    | cons c cs =>
      simp only [Option.getD_some]
      rw [hnew _ (Dict.nodup_set _ _ _ hDn), Dict.get?_set]
      by_cases hk : k = []
      · simp [hk]
      · rw [if_neg hk, if_neg hk]
        by_cases hs : serviceName = k
        · subst hs; simp
        · rw [if_neg hs, if_neg (fun h => hs h.1.symm)]

/-- The value of the environment for a key: `OTEL_SERVICE_NAME` for the service name if set and not empty, else the attribute of
`OTEL_RESOURCE_ATTRIBUTES`. -/
def envValue (ea en : Option Str) (k : Str) : Option Val :=
  if k = [] then none
  else if k = serviceName ∧ en.getD [] ≠ [] then some (strVal (en.getD []))
  else (Dict.get? (envAttrs ea) k).map strVal

/-- **C42** With the built-in environment detector alone, a key other than the service name has the explicit value, else the one of the
environment, else the default; so does the service name if that value is not empty, and else it is `unknown_service`, with the executable's
name if known. -/
theorem C42_precedence (version : Str) (ea en : Option Str) (attributes : List (AKey × Val)) (schema : Option Str) (r : Resource)
    (h : create version [.ok (detect ea en)] attributes schema = some r) (k : Str) :
    let value (k : Str) : Option Val := ((given attributes k).or (envValue ea en k)).or (Dict.get? (default version).attrs k)
    (k ≠ serviceName → Dict.get? r.attrs k = value k) ∧
    (∀ v, value serviceName = some v → ¬ Falsy v → Dict.get? r.attrs serviceName = some v) ∧
    ((∀ v, value serviceName = some v → Falsy v) →
      Dict.get? r.attrs serviceName = (defaultServiceName (value executableName)).map strVal) := by
  intro value
  have hdw : WF (default version) := C41_well_formed _ _
  have hew : WF (detect ea en) := by unfold detect; exact C41_well_formed _ _
  have hes : (detect ea en).schema = [] := by unfold detect; rfl
  have hagg : aggregate (default version) [.ok (detect ea en)] = some ((default version).merge (detect ea en)) := rfl
  have haw := C41_merge_well_formed _ _ hdw hew
  have ha := C41_override _ _ hdw hew (.inl rfl)
  have has : ((default version).merge (detect ea en)).schema = [] := by
    rw [ha.2]; exact hes
  have hm := C41_override ((default version).merge (detect ea en)) (new attributes schema) haw (C41_well_formed _ _) (.inl has)
  have hmw := C41_merge_well_formed ((default version).merge (detect ea en)) (new attributes schema) haw (C41_well_formed _ _)
  have hval : ∀ k, Dict.get? (((default version).merge (detect ea en)).merge (new attributes schema)).attrs k = value k := by
    intro k
    rw [hm.1, ha.1, get?_new, get?_detect, ← Option.or_assoc]
    rfl
  unfold create at h
  rw [hagg] at h
  simp only [finish, hval] at h
  split at h
  · rename_i hn
    injection h with h
    subst h
    refine ⟨fun _ => hval k, fun v hv _ => by rw [hval, hv], ?_⟩
    intro hf
    cases hv : value serviceName with
    | none => rw [hv] at hn; simp [named] at hn
    | some v => rw [hv] at hn; exact absurd (hf v hv) ((truthy_iff v).1 hn)
  · rename_i hn
    cases hd : defaultServiceName (value executableName) with
    | none => rw [hd] at h; simp at h
    | some n =>
      rw [hd] at h
      injection h with h
      subst h
      have hs : Compatible (((default version).merge (detect ea en)).merge (new attributes schema)).schema
          (new [(.str serviceName, strVal n)] schema).schema := by
        rw [hm.2, if_pos has]; exact .inr (.inr rfl)
      have hf := (C41_override _ _ hmw (C41_well_formed [(.str serviceName, strVal n)] schema) hs).1
      refine ⟨?_, ?_, ?_⟩
      · intro hk
        rw [hf, get?_new, given_single _ (by decide), if_neg (Ne.symm hk), hval]
        rfl
      · intro v hv ht
        rw [hv] at hn
        exact absurd ((truthy_iff v).2 ht) hn
      · intro _
        rw [hf, get?_new, given_single _ (by decide), if_pos rfl]
        rfl

/-- **C42** With the environment detector alone, `create` raises exactly when there is no service name and the name of the executable is
given and is neither a string nor empty. -/
theorem C42_raises_iff (version : Str) (ea en : Option Str) (attributes : List (AKey × Val)) (schema : Option Str) :
    let value (k : Str) : Option Val := ((given attributes k).or (envValue ea en k)).or (Dict.get? (default version).attrs k)
    create version [.ok (detect ea en)] attributes schema = none ↔
      (∀ v, value serviceName = some v → Falsy v) ∧ ∃ v, value executableName = some v ∧ ¬ Falsy v ∧ ∀ s p, v ≠ .atom (.str s p) := by
  intro value
  have hdw : WF (default version) := C41_well_formed _ _
  have hew : WF (detect ea en) := by unfold detect; exact C41_well_formed _ _
  have hes : (detect ea en).schema = [] := by unfold detect; rfl
  have hagg : aggregate (default version) [.ok (detect ea en)] = some ((default version).merge (detect ea en)) := rfl
  have haw := C41_merge_well_formed _ _ hdw hew
  have ha := C41_override _ _ hdw hew (.inl rfl)
  have has : ((default version).merge (detect ea en)).schema = [] := by
    rw [ha.2, if_pos (show (default version).schema = [] from rfl), hes]
  have hm := C41_override ((default version).merge (detect ea en)) (new attributes schema) haw (C41_well_formed _ _) (.inl has)
  have hval : ∀ k, Dict.get? (((default version).merge (detect ea en)).merge (new attributes schema)).attrs k = value k := by
    intro k
    rw [hm.1, ha.1, get?_new, get?_detect, ← Option.or_assoc]
    rfl
  unfold create
  rw [hagg]
  simp only [finish, hval]
  have hn : named (value serviceName) = true ↔ ¬ ∀ v, value serviceName = some v → Falsy v := by
    cases value serviceName with
    | none => simp [named]
    | some v => simp [named, truthy_iff]
  have he : defaultServiceName (value executableName) = none ↔
      ∃ v, value executableName = some v ∧ ¬ Falsy v ∧ ∀ s p, v ≠ .atom (.str s p) := by
    cases value executableName with
    | none => simp [defaultServiceName]
    | some v =>
      simp only [Option.some.injEq, exists_eq_left', defaultServiceName]
      rw [← truthy_iff]
      split
      · rename_i ht
        split
        · simp
        · rename_i h
          simp only [true_iff]
          exact ⟨ht, h⟩
      · rename_i ht
        simp [ht]
  split
  · rename_i h
    rw [hn] at h
    simp only [reduceCtorEq, false_iff]
    exact fun hh => h hh.1
  · rename_i h
    rw [hn, not_not] at h
    rw [← he]
    cases defaultServiceName (value executableName) <;> simp
    exact h

example : create ['1'] [.ok (detect (some "service.name=".toList) none)] [(.str executableName, .atom (.int 5 true))] none = none :=
  (C42_raises_iff _ _ _ _ _).2 ⟨by
    intro v hv
    have : v = .atom (.str [] true) := by
      have h : (((given [(.str executableName, .atom (.int 5 true))] serviceName).or (envValue (some "service.name=".toList) none serviceName)).or
        (Dict.get? (default ['1']).attrs serviceName)) = some (.atom (.str [] true)) := by decide +kernel
      exact (Option.some.inj (h.symm.trans hv)).symm
    subst this; exact .str _, .atom (.int 5 true), by decide +kernel, by rintro ⟨⟩, by intro s p; simp⟩

/-! ## The environment variable -/

/-- `k1=v1,k2=v2` with quoted values. -/
def envText (d : Dict Str Str) : Str := joinS [','] (d.map (fun kv => kv.1 ++ '=' :: Url.quote kv.2))

theorem quote_chars (s : Str) (c : Char) (hc : c ∈ Url.quote s) : Url.alwaysSafe c = true ∨ c = '%' ∨ c = '/' := by
  obtain ⟨d, _, hd⟩ := List.mem_flatMap.mp hc
  unfold Url.quoteChar at hd
  split at hd
  · rename_i h
    simp only [List.mem_singleton] at hd
    subst hd
    simp only [Bool.or_eq_true, beq_iff_eq] at h
    rcases h with h | h
    · exact .inl h
    · exact .inr (.inr h)
  · obtain ⟨b, hb, hx⟩ := List.mem_flatMap.mp hd
    have h : ∀ n, n < 16 → Url.alwaysSafe (Url.hexUpper n) = true := by decide
    have := Url.encodeChar_lt d b hb
    simp only [Url.pctByte, List.mem_cons, List.not_mem_nil, or_false] at hx
    rcases hx with rfl | rfl | rfl
    · exact .inr (.inl rfl)
    · exact .inl (h _ (by omega))
    · exact .inl (h _ (by omega))

theorem safe_not (c : Char) (h : Url.alwaysSafe c = true ∨ c = '%' ∨ c = '/') : c ≠ ',' ∧ isPySpace c = false := by
  rcases h with h | rfl | rfl
  · simp only [Url.alwaysSafe, isUpper, isLower, isDig, inRange, Bool.or_eq_true, Bool.and_eq_true, decide_eq_true_eq, beq_iff_eq] at h
    have hn : (c.toNat ≥ 0x30 ∧ c.toNat ≤ 0x39) ∨ (c.toNat ≥ 0x41 ∧ c.toNat ≤ 0x5a) ∨ (c.toNat ≥ 0x61 ∧ c.toNat ≤ 0x7a) ∨
        c.toNat = 0x5f ∨ c.toNat = 0x2e ∨ c.toNat = 0x2d ∨ c.toNat = 0x7e := by
      rcases h with ((((((h | h) | h) | h) | h) | h) | h)
      · omega
      · omega
      · omega
      all_goals subst h; decide
    constructor
    · rintro rfl
      have : (','.toNat) = 0x2c := rfl
      omega
    · simp only [isPySpace, inRange, Bool.or_eq_false_iff, Bool.and_eq_false_iff, decide_eq_false_iff_not, beq_eq_false_iff_ne]
      constructor <;> omega
  · decide
  · decide

/-- **C42** What is written into `OTEL_RESOURCE_ATTRIBUTES` as comma-separated `key=value` pairs with percent-encoded values is read back
exactly, for all values and all keys without commas, equals signs and surrounding white space. -/
theorem C42_env_roundtrip (d : Dict Str Str) (hn : d.keys.Nodup) (hne : d ≠ [])
    (hk : ∀ kv ∈ d, ',' ∉ kv.1 ∧ '=' ∉ kv.1 ∧ (∀ c, kv.1.head? = some c → isPySpace c = false) ∧
      (∀ c, kv.1.getLast? = some c → isPySpace c = false)) : envMap (envText d) = d := by
  unfold envMap envText
  rw [splitC_joinS]
  · rw [List.foldl_map]
    have e : ∀ (es acc : Dict Str Str), (∀ kv ∈ es, kv ∈ d) → es.foldl (fun (d : Dict Str Str) (kv : Str × Str) =>
        match cutC '=' (kv.1 ++ '=' :: Url.quote kv.2) with
        | (k, some v) => Dict.set d (pyStrip k) (Url.unquote (pyStrip v))
        | (_, none) => d) acc = es.foldl (fun d kv => Dict.set d kv.1 kv.2) acc := by
      intro es
      induction es with
      | nil => intro acc _; rfl
      | cons kv es ih =>
        intro acc hs
        have hkv := hk kv (hs kv (by simp))
        simp only [List.foldl_cons]
        rw [cutC_append _ _ _ hkv.2.1]
        have h1 : pyStrip kv.1 = kv.1 := stripBy_eq_self _ _ hkv.2.2.1 hkv.2.2.2
        have h2 : pyStrip (Url.quote kv.2) = Url.quote kv.2 := stripBy_eq_self _ _
          (fun c hc => (safe_not c (quote_chars _ c (List.mem_of_head? hc))).2)
          (fun c hc => (safe_not c (quote_chars _ c (List.mem_of_getLast? hc))).2)
        simp only [h1, h2, Url.unquote_quote]
        exact ih _ (fun kv h => hs kv (List.mem_cons_of_mem _ h))
    have e1 := e d [] (fun _ h => h)
    have e2 := Baggage.foldl_set_fresh [] d (by simpa using hn)
    simp only [List.nil_append] at e2
    rw [← e2]
    rw [e2]
    exact e1.trans e2
  · intro p hp
    obtain ⟨kv, hkv, rfl⟩ := List.mem_map.1 hp
    rw [List.mem_append, List.mem_cons, not_or, not_or]
    exact ⟨(hk kv hkv).1, by decide, fun h => (safe_not _ (quote_chars _ _ h)).1 rfl⟩
  · simpa using hne

/-- An item of the variable that defines the key `k` as `v`: `name=text`, both stripped, the text percent-decoded. -/
def Defines (item k v : Str) : Prop := ∃ name text, item = name ++ '=' :: text ∧ '=' ∉ name ∧ k = pyStrip name ∧ v = Url.unquote (pyStrip text)

/-- **C42** A key has the value of the last item that defines it, whatever else the variable contains; items without `=` are ignored. -/
theorem C42_env_last (s k v : Str) : Dict.get? (envMap s) k = some v ↔
    ∃ pre item post, splitC ',' s = pre ++ item :: post ∧ Defines item k v ∧ ∀ x ∈ post, ∀ w, ¬ Defines x k w := by
  unfold envMap
  generalize splitC ',' s = l
  induction l using List.reverseRecOn with
  | nil => simp
  | append_singleton l x ih =>
    rw [List.foldl_append]
    simp only [List.foldl_cons, List.foldl_nil]
    generalize l.foldl _ ([] : Dict Str Str) = d at ih ⊢
    have hdef : ∀ k v, Defines x k v ↔ ∃ t, (cutC '=' x).2 = some t ∧ k = pyStrip (cutC '=' x).1 ∧ v = Url.unquote (pyStrip t) := by
      intro k v
      constructor
      · rintro ⟨n, t, rfl, hn, rfl, rfl⟩
        rw [cutC_append _ _ _ hn]
        exact ⟨t, rfl, rfl, rfl⟩
      · rintro ⟨t, h1, rfl, rfl⟩
        have := cutC_some '=' x (cutC '=' x).1 t (by rw [← h1])
        exact ⟨(cutC '=' x).1, t, this.1, this.2, rfl, rfl⟩
    have hold : (∀ w, ¬ Defines x k w) → (Dict.get? d k = some v ↔ ∃ pre item post, l ++ [x] = pre ++ item :: post ∧ Defines item k v ∧
        ∀ y ∈ post, ∀ w, ¬ Defines y k w) := by
      intro hx
      rw [ih]
      constructor
      · rintro ⟨pre, item, post, rfl, hd, hp⟩
        refine ⟨pre, item, post ++ [x], by simp, hd, ?_⟩
        intro y hy w
        rcases List.mem_append.1 hy with hy | hy
        · exact hp y hy w
        · rw [List.mem_singleton.1 hy]; exact hx w
      · rintro ⟨pre, item, post, he, hd, hp⟩
        cases post using List.reverseRecOn with
        | nil =>
          have := List.append_inj' he rfl
          simp only [List.cons.injEq, and_true] at this
          rw [← this.2] at hd
          exact absurd hd (hx v)
        | append_singleton post z _ =>
          rw [← List.cons_append, ← List.append_assoc] at he
          have := List.append_inj' he rfl
          refine ⟨pre, item, post, this.1, hd, fun y hy w => hp y (by simp [hy]) w⟩
    cases hc : cutC '=' x with
    | mk a b =>
      cases b with
      | none =>
        simp only
        apply hold
        intro w hw
        rw [hdef, hc] at hw
        simp at hw
      | some t =>
        simp only
        rw [Dict.get?_set]
        by_cases hk : pyStrip a = k
        · rw [if_pos hk]
          constructor
          · intro h
            injection h with h
            exact ⟨l, x, [], rfl, (hdef k v).2 ⟨t, by rw [hc], by rw [hc]; exact hk.symm, h.symm⟩, by simp⟩
          · rintro ⟨pre, item, post, he, hd, hp⟩
            cases post using List.reverseRecOn with
            | nil =>
              have := List.append_inj' he rfl
              simp only [List.cons.injEq, and_true] at this
              rw [← this.2, hdef, hc] at hd
              obtain ⟨t', h1, _, h2⟩ := hd
              simp only [Option.some.injEq] at h1
              rw [h2, h1]
            | append_singleton post z _ =>
              rw [← List.cons_append, ← List.append_assoc] at he
              have := (List.append_inj' he rfl).2
              simp only [List.cons.injEq, and_true] at this
              refine absurd ((hdef k _).2 ⟨t, by rw [hc], by rw [hc]; exact hk.symm, rfl⟩) (hp x (by simp [this]) _)
        · rw [if_neg hk]
          apply hold
          intro w hw
          rw [hdef, hc] at hw
          obtain ⟨_, _, h, _⟩ := hw
          exact hk h.symm

/-- **C42** A failing detector that does not ask to raise counts as the empty resource; one that asks makes `create` raise. -/
theorem C42_failing_detector (r : Resource) (l : List Detected) (hr : WF r) :
    aggregate r (.fails false :: l) = aggregate r l ∧ aggregate r (.fails true :: l) = none := by
  refine ⟨?_, rfl⟩
  rw [aggregate, (C41_identity r hr).2]

/-- **C42** Of several detectors without schema urls the later wins. -/
theorem C42_later_detector (r a b : Resource) (hr : WF r) (ha : WF a) (hb : WF b) (h1 : a.schema = []) (h2 : b.schema = []) :
    ∃ x, aggregate r [.ok a, .ok b] = some x ∧
      ∀ k, Dict.get? x.attrs k = ((Dict.get? b.attrs k).or (Dict.get? a.attrs k)).or (Dict.get? r.attrs k) := by
  refine ⟨_, rfl, ?_⟩
  intro k
  rw [(C41_override _ b (C41_merge_well_formed r a hr ha) hb (.inr (.inl h2))).1, (C41_override r a hr ha (.inr (.inl h1))).1,
    Option.or_assoc]

/-- A case meeting all hypotheses, through the whole of `create`. -/
example : (create ['1'] [.ok (detect (some "service.name=a,k=%41b, j = x ,junk".toList) (some "svc".toList))]
    [(.str ['k'], strVal ['e']), (.str [], strVal ['n'])] none).map (fun r => (Dict.get? r.attrs serviceName, Dict.get? r.attrs ['k'],
      Dict.get? r.attrs ['j'])) = some (some (strVal "svc".toList), some (strVal ['e']), some (strVal ['x'])) := by decide +kernel

/-- **C42** A resource created without a service name is called `unknown_service:` followed by the name of the executable if that is given,
and `unknown_service` otherwise. -/
theorem C42_unknown_service (version : Str) (ea en : Option Str) (attributes : List (AKey × Val)) (schema : Option Str) (r : Resource)
    (h : create version [.ok (detect ea en)] attributes schema = some r)
    (hn : given attributes serviceName = none) (he : envValue ea en serviceName = none) :
    (given attributes executableName = none → envValue ea en executableName = none →
      Dict.get? r.attrs serviceName = some (strVal "unknown_service".toList)) ∧
    ∀ (c : Char) (cs : Str), (given attributes executableName).or (envValue ea en executableName) = some (strVal (c :: cs)) →
      Dict.get? r.attrs serviceName = some (strVal ("unknown_service:".toList ++ c :: cs)) := by
  have hd : Dict.get? (default version).attrs serviceName = none := by rfl
  have hd2 : Dict.get? (default version).attrs executableName = none := by rfl
  have h3 := (C42_precedence version ea en attributes schema r h serviceName).2.2 (by simp [hn, he, hd])
  simp only at h3
  refine ⟨?_, ?_⟩
  · intro h1 h2
    rw [h3, h1, h2, hd2]
    rfl
  · intro c cs hc
    rw [h3, hc]
    rfl

example : ((create ['1'] [.ok (detect (some "process.executable.name=py,a=b".toList) none)] [] none).bind
    (fun r => Dict.get? r.attrs serviceName)) = some (strVal "unknown_service:py".toList) := by decide +kernel

/-- **C42** Every created resource names the SDK, unless the caller or the environment says otherwise. -/
theorem C42_sdk_attributes (version : Str) (ea en : Option Str) (attributes : List (AKey × Val)) (schema : Option Str) (r : Resource)
    (h : create version [.ok (detect ea en)] attributes schema = some r) (k v : String)
    (hk : (k, v) ∈ [("telemetry.sdk.language", "python"), ("telemetry.sdk.name", "opentelemetry"), ("telemetry.sdk.version", String.ofList version)])
    (h1 : given attributes k.toList = none) (h2 : envValue ea en k.toList = none) :
    Dict.get? r.attrs k.toList = some (.atom (.str v.toList true)) := by
  have hd : Dict.get? (default version).attrs k.toList = some (.atom (.str v.toList true)) := by
    simp only [List.mem_cons, Prod.mk.injEq, List.not_mem_nil, or_false] at hk
    rcases hk with ⟨rfl, rfl⟩ | ⟨rfl, rfl⟩ | ⟨rfl, rfl⟩
    · rfl
    · rfl
    · have e : (String.ofList version).toList = version := String.toList_ofList
      rw [e]; rfl
  have hne : k.toList ≠ serviceName := by
    simp only [List.mem_cons, Prod.mk.injEq, List.not_mem_nil, or_false] at hk
    rcases hk with ⟨rfl, rfl⟩ | ⟨rfl, rfl⟩ | ⟨rfl, rfl⟩ <;> decide
  have := (C42_precedence version ea en attributes schema r h k.toList).1 hne
  simp only [h1, h2, hd, Option.none_or] at this
  exact this

/-! ## Several detectors -/

/-- The detectors the user asked for: `otel`, and every entry of the comma-separated list, without the white space around it. -/
def Requested (env : Str) (n : Str) : Prop := n = "otel".toList ∨ ∃ item ∈ splitC ',' env, item ≠ [] ∧ n = pyStrip item

/-- An order in which Python may iterate the set of names. -/
def Enumerates (env : Str) (order : List Str) : Prop := order.Nodup ∧ ∀ n, n ∈ order ↔ n ∈ detectorNames env

theorem detectorNames_iff (env n : Str) : n ∈ detectorNames env ↔ Requested env n := by
  simp only [detectorNames, Requested, List.mem_cons, List.mem_map, List.mem_filter]
  constructor
  · rintro (h | ⟨a, ⟨h1, h2⟩, rfl⟩)
    · exact .inl h
    · exact .inr ⟨a, h1, by simpa using h2, rfl⟩
  · rintro (h | ⟨a, h1, h2, rfl⟩)
    · exact .inl h
    · exact .inr ⟨a, ⟨h1, by simpa using h2⟩, rfl⟩

theorem aggregate_get (l : List Detected) (r x : Resource) (k : Str) (hr : WF r) (hs : r.schema = [])
    (hl : ∀ y, .ok y ∈ l → WF y ∧ y.schema = []) (h : aggregate r l = some x) :
    WF x ∧ x.schema = [] ∧ ((∀ y, .ok y ∈ l → Dict.get? y.attrs k = none) → Dict.get? x.attrs k = Dict.get? r.attrs k) ∧
    ∀ v, (∀ y, .ok y ∈ l → Dict.get? y.attrs k = none ∨ Dict.get? y.attrs k = some v) →
      ((∃ y, .ok y ∈ l ∧ Dict.get? y.attrs k = some v) ∨ Dict.get? r.attrs k = some v) → Dict.get? x.attrs k = some v := by
  induction l generalizing r with
  | nil =>
    simp only [aggregate, Option.some.injEq] at h
    subst h
    exact ⟨hr, hs, fun _ => rfl, fun v _ h => by simpa using h⟩
  | cons d l ih =>
    cases d with
    | ok y =>
      obtain ⟨hyw, hys⟩ := hl y (by simp)
      obtain ⟨o1, o2⟩ := C41_override r y hr hyw (.inl hs)
      rw [if_pos hs] at o2
      obtain ⟨i1, i2, i3, i4⟩ := ih (r.merge y) (C41_merge_well_formed r y hr hyw) (o2.trans hys) (fun z hz => hl z (by simp [hz])) h
      refine ⟨i1, i2, fun hn => ?_, fun v hv hx => ?_⟩
      · rw [i3 (fun z hz => hn z (by simp [hz])), o1, hn y (by simp), Option.none_or]
      · refine i4 v (fun z hz => hv z (by simp [hz])) ?_
        rw [o1]
        rcases hx with ⟨z, hz, hzv⟩ | hx
        · rcases List.mem_cons.1 hz with hz | hz
          · injection hz with hz; subst hz; exact .inr (by rw [hzv]; rfl)
          · exact .inl ⟨z, hz, hzv⟩
        · rcases hv y (by simp) with h | h
          · exact .inr (by rw [h]; exact hx)
          · exact .inr (by rw [h]; rfl)
    | fails b =>
      cases b with
      | true => simp [aggregate] at h
      | false =>
        rw [(C42_failing_detector r l hr).1] at h
        obtain ⟨i1, i2, i3, i4⟩ := ih r hr hs (fun z hz => hl z (by simp [hz])) h
        refine ⟨i1, i2, fun hn => i3 (fun z hz => hn z (by simp [hz])), fun v hv hx => i4 v (fun z hz => hv z (by simp [hz])) ?_⟩
        rcases hx with ⟨z, hz, hzv⟩ | hx
        · rcases List.mem_cons.1 hz with hz | hz
          · cases hz
          · exact .inl ⟨z, hz, hzv⟩
        · exact .inr hx

theorem finish_get (agg : Resource) (attributes : List (AKey × Val)) (schema : Option Str) (r : Resource) (hw : WF agg) (hs : agg.schema = [])
    (h : finish agg attributes schema = some r) (k : Str) (hk : k ≠ serviceName) :
    Dict.get? r.attrs k = (given attributes k).or (Dict.get? agg.attrs k) := by
  have hm := C41_override agg (new attributes schema) hw (C41_well_formed _ _) (.inl hs)
  have hmw := C41_merge_well_formed agg (new attributes schema) hw (C41_well_formed _ _)
  have hg : Dict.get? (agg.merge (new attributes schema)).attrs k = (given attributes k).or (Dict.get? agg.attrs k) := by
    rw [hm.1, get?_new]
  unfold finish at h
  simp only at h
  split at h
  · injection h with h; subst h; exact hg
  · split at h
    · simp at h
    · rename_i n hd
      injection h with h
      subst h
      have hc : Compatible (agg.merge (new attributes schema)).schema (new [(.str serviceName, strVal n)] schema).schema := by
        rw [hm.2, if_pos hs]; exact .inr (.inr rfl)
      rw [(C41_override _ _ hmw (C41_well_formed _ _) hc).1, get?_new, given_single _ (by decide), if_neg (Ne.symm hk), hg]
      rfl

/-- **C42** Several detectors, none with a schema url and no two of which give the same key: whatever the order in which Python iterates their
names, a key other than the service name has the value given to `create`, else that of the requested detector which gives it, else the default. -/
theorem C42_detectors (version env : Str) (order : List Str) (load : Str → Option Detected) (attributes : List (AKey × Val)) (schema : Option Str)
    (r : Resource) (ho : Enumerates env order) (hw : ∀ n x, load n = some (.ok x) → WF x ∧ x.schema = [])
    (hd : ∀ n m x y k v w, load n = some (.ok x) → load m = some (.ok y) → Dict.get? x.attrs k = some v → Dict.get? y.attrs k = some w → n = m)
    (h : createFrom version order load attributes schema = some r) (k : Str) (hk : k ≠ serviceName) :
    (∀ v, given attributes k = some v → Dict.get? r.attrs k = some v) ∧
    (given attributes k = none →
      (∀ n x v, Requested env n → load n = some (.ok x) → Dict.get? x.attrs k = some v → Dict.get? r.attrs k = some v) ∧
      ((∀ n x, Requested env n → load n = some (.ok x) → Dict.get? x.attrs k = none) → Dict.get? r.attrs k = Dict.get? (default version).attrs k)) := by
  unfold createFrom create at h
  split at h
  · simp at h
  · rename_i agg ha
    have hmem : ∀ y, Detected.ok y ∈ order.filterMap load ↔ ∃ n, Requested env n ∧ load n = some (.ok y) := by
      intro y
      rw [List.mem_filterMap]
      simp only [ho.2, detectorNames_iff]
    obtain ⟨i1, i2, i3, i4⟩ := aggregate_get _ _ _ k (C41_well_formed _ _) rfl (fun y hy => by
      obtain ⟨n, _, hn⟩ := (hmem y).1 hy
      exact hw n y hn) ha
    have hf := finish_get agg attributes schema r i1 i2 h k hk
    refine ⟨fun v hv => by rw [hf, hv]; rfl, fun hn => ⟨fun n x v hr hx hv => ?_, fun hno => ?_⟩⟩
    · rw [hf, hn, Option.none_or]
      refine i4 v (fun y hy => ?_) (.inl ⟨x, (hmem x).2 ⟨n, hr, hx⟩, hv⟩)
      obtain ⟨m, _, hm⟩ := (hmem y).1 hy
      cases hg : Dict.get? y.attrs k with
      | none => exact .inl rfl
      | some w =>
        have := hd n m x y k v w hx hm hv hg
        subst this
        rw [hx] at hm
        injection hm with hm
        injection hm with hm
        subst hm
        exact .inr (hg.symm.trans hv)
    · rw [hf, hn, Option.none_or]
      exact i3 (fun y hy => by
        obtain ⟨n, hr, hn⟩ := (hmem y).1 hy
        exact hno n y hr hn)

/-- **C42** (refutation) If two requested detectors give the same key, the result depends on the order in which Python iterates a set of strings,
which changes from one process to the next. -/
theorem C42_overlap_violated : ∃ (env : Str) (o1 o2 : List Str) (load : Str → Option Detected), Enumerates env o1 ∧ Enumerates env o2 ∧
    ((createFrom ['1'] o1 load [] none).bind fun r => Dict.get? r.attrs ['k']) = some (strVal ['a']) ∧
    ((createFrom ['1'] o2 load [] none).bind fun r => Dict.get? r.attrs ['k']) = some (strVal ['b']) := by
  refine ⟨" x".toList, ["x".toList, "otel".toList], ["otel".toList, "x".toList],
    fun n => some (.ok (new [(.str ['k'], strVal (if n = "otel".toList then ['a'] else ['b']))] none)), ⟨by decide, fun n => ?_⟩, ⟨by decide, fun n => ?_⟩,
    by decide +kernel, by decide +kernel⟩
  · rw [show detectorNames " x".toList = ["otel".toList, "x".toList] by decide]
    simp only [List.mem_cons, List.not_mem_nil, or_false]
    exact or_comm
  · rw [show detectorNames " x".toList = ["otel".toList, "x".toList] by decide]

/-- Non-vacuity: two detectors asked for, one of which is not installed. -/
example : Enumerates "p, ,q ,p".toList ["q".toList, [], "otel".toList, "p".toList] ∧
    ((createFrom ['1'] ["q".toList, [], "otel".toList, "p".toList] (fun n => if n = "p".toList then some (.ok (new [(.str ['k'], strVal ['v'])] none))
      else if n = [] then none else some (.fails false)) [] none).bind fun r => Dict.get? r.attrs ['k']) = some (strVal ['v']) := by
  refine ⟨⟨by decide, fun n => ?_⟩, by decide +kernel⟩
  rw [show detectorNames "p, ,q ,p".toList = ["otel".toList, "p".toList, [], "q".toList, "p".toList] by decide]
  simp only [List.mem_cons, List.not_mem_nil, or_false]
  constructor
  · rintro (h | h | h | h) <;> simp [h]
  · rintro (h | h | h | h | h) <;> simp [h]

end Resource
end Otel
