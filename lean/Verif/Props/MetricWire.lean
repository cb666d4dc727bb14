import Verif.Spec.MetricWire
import Verif.Props.Measured
import Verif.Props.OtlpMetrics
import Mathlib.Data.List.Induction
import Mathlib.Data.List.Dedup
import Mathlib.Data.List.Nodup
import Mathlib.Tactic.SplitIfs
import Mathlib.Algebra.Order.BigOperators.Group.List
/-!
# C118: what the collector reads is what was measured
-/
namespace Otel
namespace MetricWire
open Recording (Slot Env Call Reply)
open Measured (Pt XEv)
open Otlp (SdkMetric NumberPoint PBMetric PBNumber PyVal PB)
open scoped List
variable {σ K : Type} [DecidableEq σ] [DecidableEq K]

/-! ## One request -/

theorem mapM_some {α β : Type} {f : α → Option β} {l : List α} {m : List β} (h : l.mapM f = some m) : List.Forall₂ (fun a b => f a = some b) l m := by
  induction l generalizing m with
  | nil => simp at h; subst h; exact .nil
  | cons a l ih =>
    rw [List.mapM_cons] at h
    cases hf : f a with
    | none => rw [hf] at h; cases h
    | some b =>
      rw [hf] at h
      cases hl : l.mapM f with
      | none => rw [hl] at h; cases h
      | some m' => rw [hl] at h; cases h; exact .cons hf (ih hl)

/-- What a metric of the SDK says for the attributes looked for. -/
def said (f : List (Str × Option PB) → Bool) (m : SdkMetric) : List Int :=
  match m.data with
  | .sum _ _ pts => pts.filterMap fun p => if f (Otlp.encodeAttributes p.head.attrs) then (match p.value with | .int i => some i | .float _ => none) else none
  | _ => []

theorem encode_number (w : Bool) (q : NumberPoint) (p : PBNumber) (h : Otlp.encodeNumber w q = some p) : p.head.attrs = Otlp.encodeAttributes q.head.attrs ∧ p.value = q.value := by
  have hp : ∃ hd v, p = ⟨hd, v⟩ ∧ Otlp.encodeHead w q.head = some hd ∧ Otlp.encodeNum q.value = some v := by
    unfold Otlp.encodeNumber at h
    split at h
    · rename_i hd v h1 h2; exact ⟨hd, v, (Option.some.inj h).symm, h1, h2⟩
    · cases h
  obtain ⟨hd, v, rfl, h1, h2⟩ := hp
  refine ⟨?_, Otlp.num_spec _ _ h2⟩
  simp only [Otlp.encodeHead, Option.map_eq_some_iff] at h1
  obtain ⟨ex, -, rfl⟩ := h1
  rfl

theorem values_points (f : List (Str × Option PB) → Bool) (l : List NumberPoint) (pts : List PBNumber) (h : List.Forall₂ (fun a p => Otlp.encodeNumber true a = some p) l pts) :
    (pts.filterMap fun p => if f p.head.attrs then (match p.value with | .int i => some i | .float _ => none) else none) =
      l.filterMap fun p => if f (Otlp.encodeAttributes p.head.attrs) then (match p.value with | .int i => some i | .float _ => none) else none := by
  induction h with
  | nil => rfl
  | cons h1 h2 ih =>
    obtain ⟨e1, e2⟩ := encode_number true _ _ h1
    rw [List.filterMap_cons, List.filterMap_cons, e1, e2, ih]

theorem encode_metric (f : List (Str × Option PB) → Bool) (m : SdkMetric) (t : Nat) (mo : Bool) (pts : List NumberPoint) (hm : m.data = .sum t mo pts) (p : PBMetric) (h : Otlp.encodeMetric m = some p) :
    p.name = m.name ∧ values f p.data = said f m := by
  simp only [Otlp.encodeMetric, hm, Otlp.encodeData, Option.map_eq_some_iff] at h
  obtain ⟨_, ⟨l, hl, rfl⟩, rfl⟩ := h
  refine ⟨rfl, ?_⟩
  simp only [said, hm]
  rw [← values_points f _ _ (mapM_some hl)]
  by_cases he : l.isEmpty = true
  · rw [List.isEmpty_iff] at he; subst he; rfl
  · rw [if_neg he]; rfl

theorem scopes_get (d : Desc σ K) (b : List (Pt K (Metrics.NumPoint Int))) (l : List Slot) (c : σ) :
    (Dict.get? (l.foldl (fun D s => Dict.set D (d.scope s) ((Dict.get? D (d.scope s)).getD [] ++ [metric d b s])) ([] : Dict σ (List SdkMetric))) c).getD [] =
      (l.filter fun s => d.scope s = c).map (metric d b) := by
  induction l using List.reverseRecOn with
  | nil => rfl
  | append_singleton l s ih =>
    rw [List.foldl_append, List.foldl_cons, List.foldl_nil, List.filter_append, List.map_append, ← ih, Dict.get?_set]
    by_cases h : d.scope s = c
    · subst h; simp
    · rw [if_neg h]; simp [h]

theorem scopes_nodup (d : Desc σ K) (b : List (Pt K (Metrics.NumPoint Int))) (l : List Slot) :
    (Dict.keys (l.foldl (fun D s => Dict.set D (d.scope s) ((Dict.get? D (d.scope s)).getD [] ++ [metric d b s])) ([] : Dict σ (List SdkMetric)))).Nodup := by
  induction l using List.reverseRecOn with
  | nil => exact List.nodup_nil
  | append_singleton l s ih => rw [List.foldl_append, List.foldl_cons, List.foldl_nil]; exact Dict.nodup_set _ _ _ ih

theorem flatMap_get {β : Type} (D : Dict σ (List SdkMetric)) (hn : (Dict.keys D).Nodup) (c : σ) (g : List SdkMetric → List β) (hg : g [] = []) :
    (D.flatMap fun p => if p.1 = c then g p.2 else []) = g ((Dict.get? D c).getD []) := by
  induction D with
  | nil => exact hg.symm
  | cons p D ih =>
    obtain ⟨c', v⟩ := p
    rw [Dict.keys_cons, List.nodup_cons] at hn
    rw [List.flatMap_cons, ih hn.2]
    simp only [Dict.get?]
    by_cases h : c' = c
    · subst h
      rw [(Dict.get?_eq_none_iff D c').2 hn.1, if_pos rfl, if_pos rfl]
      simp [hg]
    · rw [if_neg h, if_neg h]; rfl

theorem mem_slots (b : List (Pt K (Metrics.NumPoint Int))) (s : Slot) : s ∈ slots b ↔ ∃ q ∈ b, q.1 = s := by
  unfold slots; rw [List.mem_eraseDups, List.mem_map]

theorem eraseDups_nodup : ∀ (n : Nat) (l : List Slot), l.length ≤ n → l.eraseDups.Nodup
  | 0, l, h => by
    have : l = [] := List.length_eq_zero_iff.1 (Nat.le_zero.1 h)
    subst this; exact List.nodup_nil
  | n + 1, [], _ => List.nodup_nil
  | n + 1, a :: l, h => by
    rw [List.eraseDups_cons, List.nodup_cons]
    refine ⟨?_, eraseDups_nodup n _ (Nat.le_trans (List.length_filter_le _ _) (Nat.le_of_succ_le_succ h))⟩
    rw [List.mem_eraseDups, List.mem_filter]
    simp

theorem slots_nodup (b : List (Pt K (Metrics.NumPoint Int))) : (slots b).Nodup := eraseDups_nodup _ _ (Nat.le_refl _)

/-- All metrics are sums. -/
theorem scopes_sums (d : Desc σ K) (b : List (Pt K (Metrics.NumPoint Int))) : ∀ g ∈ scopeMetrics d b, ∀ m ∈ g.2, ∃ s ∈ slots b, d.scope s = g.1 ∧ m = metric d b s := by
  intro g hg m hm
  have h1 := Dict.get?_of_mem _ (scopes_nodup d b (slots b)) g.1 g.2 hg
  have h2 := scopes_get d b (slots b) g.1
  rw [h1] at h2
  rw [show g.2 = _ from h2] at hm
  obtain ⟨s, hs, rfl⟩ := List.mem_map.1 hm
  obtain ⟨h3, h4⟩ := List.mem_filter.1 hs
  exact ⟨s, h3, of_decide_eq_true h4, rfl⟩

theorem flatMap_single {α β : Type} [DecidableEq α] (l : List α) (hn : l.Nodup) (a : α) (g : α → List β) (h : ∀ x ∈ l, x ≠ a → g x = []) (h0 : a ∉ l → g a = []) : l.flatMap g = g a := by
  by_cases ha : a ∈ l
  · obtain ⟨l1, l2, rfl⟩ := List.append_of_mem ha
    have hn' := List.nodup_middle.1 hn
    rw [List.nodup_cons] at hn'
    have e1 : l1.flatMap g = [] := List.flatMap_eq_nil_iff.2 fun x hx => h x (by simp [hx]) (by rintro rfl; exact hn'.1 (by simp [hx]))
    have e2 : l2.flatMap g = [] := List.flatMap_eq_nil_iff.2 fun x hx => h x (by simp [hx]) (by rintro rfl; exact hn'.1 (by simp [hx]))
    rw [List.flatMap_append, List.flatMap_cons, e1, e2]; simp
  · rw [h0 ha]
    exact List.flatMap_eq_nil_iff.2 fun x hx => h x hx (by rintro rfl; exact ha hx)

theorem said_metric (d : Desc σ K) (f : List (Str × Option PB) → Bool) (b : List (Pt K (Metrics.NumPoint Int))) (s : Slot) :
    said f (metric d b s) = ((b.filter fun q => q.1 = s).filter fun q => f (Otlp.encodeAttributes (d.attrs q.2.1))).map fun q => q.2.2.value := by
  simp only [said, metric, List.filterMap_map]
  generalize (b.filter fun q => decide (q.1 = s)) = c
  induction c with
  | nil => rfl
  | cons q c ih =>
    rw [List.filterMap_cons, List.filter_cons, ih]
    by_cases hf : f (Otlp.encodeAttributes (d.attrs q.2.1)) = true
    · simp [point, hf]
    · simp [point, hf]

/-- Looking for a stream in an encoded collection gives its points, if no other metric has its scope and name and no other stream its encoded attributes. -/
theorem C118_request (d : Desc σ K) (f : List (Str × Option PB) → Bool) (s : Slot) (k : K) (b : List (Pt K (Metrics.NumPoint Int))) (req : List (σ × List PBMetric)) (hd : Distinct d f s k b)
    (h : request d b = some req) : readings (d.scope s) (d.name s) f req = (Measured.ofStream s k b).map Metrics.NumPoint.value := by
  have h1 := mapM_some h
  have hs := scopes_sums d b
  have h2 : readings (d.scope s) (d.name s) f req = (scopeMetrics d b).flatMap fun g => if g.1 = d.scope s then g.2.flatMap fun m => if m.name = d.name s then said f m else [] else [] := by
    unfold readings
    clear h
    generalize scopeMetrics d b = D at h1 hs
    induction h1 with
    | nil => rfl
    | @cons g g' D req hg hr ih =>
      rw [List.flatMap_cons, List.flatMap_cons, ih (fun g hg => hs g (List.mem_cons_of_mem _ hg))]
      congr 1
      rw [Option.map_eq_some_iff] at hg
      obtain ⟨ms, hms, rfl⟩ := hg
      have hs' := hs g List.mem_cons_self
      split_ifs with hsc
      · have h3 := mapM_some hms
        clear hms hsc
        generalize g.2 = l at h3 hs'
        induction h3 with
        | nil => rfl
        | @cons m m' l l' hm hl ih' =>
          obtain ⟨s', -, -, rfl⟩ := hs' m List.mem_cons_self
          obtain ⟨e1, e2⟩ := encode_metric f (metric d b s') _ _ _ rfl _ hm
          rw [List.flatMap_cons, List.flatMap_cons, ih' (fun m hm => hs' m (List.mem_cons_of_mem _ hm)), e1, e2]
      · rfl
  rw [h2, flatMap_get (scopeMetrics d b) (scopes_nodup d b _) (d.scope s) (fun ms => ms.flatMap fun m => if m.name = d.name s then said f m else []) rfl]
  rw [show Dict.get? (scopeMetrics d b) (d.scope s) = Dict.get? ((slots b).foldl (fun D s => Dict.set D (d.scope s) ((Dict.get? D (d.scope s)).getD [] ++ [metric d b s])) ([] : Dict σ (List SdkMetric)))
    (d.scope s) from rfl, scopes_get, List.flatMap_map]
  have h3 : ((slots b).filter fun s' => d.scope s' = d.scope s).flatMap (fun s' => if (metric d b s').name = d.name s then said f (metric d b s') else []) = said f (metric d b s) := by
    refine (flatMap_single _ ((slots_nodup b).filter _) s _ ?_ ?_).trans ?_
    · intro s' hs' hne
      obtain ⟨h4, h5⟩ := List.mem_filter.1 hs'
      obtain ⟨q, hq, rfl⟩ := (mem_slots b s').1 h4
      rw [if_neg]
      exact fun hn => hne ((hd q hq).1 (of_decide_eq_true h5) hn)
    · intro hno
      rw [if_pos (show (metric d b s).name = d.name s from rfl), said_metric]
      have : (b.filter fun q => decide (q.1 = s)) = [] := by
        rw [List.filter_eq_nil_iff]
        intro q hq hqs
        exact hno (List.mem_filter.2 ⟨(mem_slots b s).2 ⟨q, hq, of_decide_eq_true hqs⟩, by simp⟩)
      rw [this]; rfl
    · rw [if_pos (show (metric d b s).name = d.name s from rfl)]
  rw [h3, said_metric]
  unfold Measured.ofStream
  clear h h1 h2 h3 hs
  induction b with
  | nil => rfl
  | cons q b ih =>
    have ih := ih fun q hq => hd q (List.mem_cons_of_mem _ hq)
    obtain ⟨-, hk⟩ := hd q List.mem_cons_self
    obtain ⟨s', k', p⟩ := q
    rw [List.filterMap_cons, List.filter_cons]
    by_cases h1 : s' = s
    · subst h1
      by_cases h2 : k' = k
      · subst h2
        simp only [decide_true, if_true, List.filter_cons, hk.2 rfl, and_self, List.map_cons, ih]
      · have : f (Otlp.encodeAttributes (d.attrs k')) = false := by
          cases hh : f (Otlp.encodeAttributes (d.attrs k')) with
          | false => rfl
          | true => exact absurd (hk.1 hh) h2
        simp only [decide_true, if_true, List.filter_cons, this, h2, and_false, if_false, ih, Bool.false_eq_true]
    · simp only [h1, decide_false, if_false, false_and, Bool.false_eq_true, ih]

/-- A collection can be encoded if and only if every value in it fits 64 bits. -/
theorem C118_encodable (d : Desc σ K) (b : List (Pt K (Metrics.NumPoint Int))) : (request d b).isSome ↔ Fits b := by
  unfold request
  rw [Otlp.mapM_isSome]
  constructor
  · intro h q hq
    have hs := (mem_slots b q.1).2 ⟨q, hq, rfl⟩
    have hg : metric d b q.1 ∈ (Dict.get? (scopeMetrics d b) (d.scope q.1)).getD [] := by
      rw [show Dict.get? (scopeMetrics d b) (d.scope q.1) = Dict.get? ((slots b).foldl (fun D s => Dict.set D (d.scope s) ((Dict.get? D (d.scope s)).getD [] ++ [metric d b s])) ([] : Dict σ (List SdkMetric)))
        (d.scope q.1) from rfl, scopes_get]
      exact List.mem_map.2 ⟨_, List.mem_filter.2 ⟨hs, by simp⟩, rfl⟩
    cases hD : Dict.get? (scopeMetrics d b) (d.scope q.1) with
    | none => rw [hD] at hg; cases hg
    | some ms =>
      rw [hD] at hg
      have := h _ (Dict.mem_of_get? _ _ _ hD)
      rw [Option.isSome_map, Otlp.mapM_isSome] at this
      have := this _ hg
      simp only [Otlp.encodeMetric, metric, Otlp.encodeData, Option.isSome_map, Otlp.mapM_isSome] at this
      have := this (point d q) (List.mem_map.2 ⟨q, List.mem_filter.2 ⟨hq, by simp⟩, rfl⟩)
      exact ((Otlp.C70_number_encodable _ _).1 this).2 _ rfl
  · intro h g hg
    rw [Option.isSome_map, Otlp.mapM_isSome]
    intro m hm
    obtain ⟨s, -, -, rfl⟩ := scopes_sums d b g hg m hm
    simp only [Otlp.encodeMetric, metric, Otlp.encodeData, Option.isSome_map, Otlp.mapM_isSome]
    intro p hp
    obtain ⟨q, hq, rfl⟩ := List.mem_map.1 hp
    refine (Otlp.C70_number_encodable _ _).2 ⟨by simp [point], fun i hi => ?_⟩
    have := h q (List.mem_filter.1 hq).1
    simp only [point, Otlp.Num.int.injEq] at hi
    subst hi; exact this

/-! ## The collections behind the exports -/

omit [DecidableEq σ] in
theorem of_collections {P I : Type} (t : Nat) (l : List (Recording.Ev K I (Option P))) (o o' : Option Nat) (cur : List (Pt K P)) (r : Nat) (b : List (Pt K P)) (hb : Measured.brk t o l = some o')
    (h : (r, b) ∈ Measured.collectionsFrom t cur l) :
    (o = some r ∧ ∃ mid post, l = mid ++ .ended t r :: post ∧ .ended t r ∉ mid ∧ b = Measured.curAfter t cur mid) ∨
    ∃ pre mid post, l = pre ++ .began t r :: (mid ++ .ended t r :: post) ∧ .ended t r ∉ mid ∧ b = Measured.curAfter t [] mid := by
  induction l generalizing o cur with
  | nil => cases h
  | cons e l ih =>
    have push : ∀ (o1 : Option Nat) (cur1 : List (Pt K P)), Measured.brk t o1 l = some o' → (r, b) ∈ Measured.collectionsFrom t cur1 l → (o1 = some r → o = some r) → (e ≠ .ended t r) →
        (∀ mid, Measured.curAfter t cur (e :: mid) = Measured.curAfter t cur1 mid) → 
        (o = some r ∧ ∃ mid post, e :: l = mid ++ .ended t r :: post ∧ .ended t r ∉ mid ∧ b = Measured.curAfter t cur mid) ∨
        ∃ pre mid post, e :: l = pre ++ .began t r :: (mid ++ .ended t r :: post) ∧ .ended t r ∉ mid ∧ b = Measured.curAfter t [] mid := by
      intro o1 cur1 h1 h2 h3 h4 h5
      rcases ih o1 cur1 h1 h2 with ⟨g1, mid, post, rfl, g2, g3⟩ | ⟨pre, mid, post, rfl, g2, g3⟩
      · exact .inl ⟨h3 g1, e :: mid, post, rfl, by simp [Ne.symm h4, g2], by rw [h5]; exact g3⟩
      · exact .inr ⟨e :: pre, mid, post, rfl, g2, g3⟩
    cases e with
    | began u r' =>
      simp only [Measured.brk, Measured.collectionsFrom] at hb h
      by_cases hu : u = t
      · subst hu
        rw [if_pos rfl] at hb h
        split_ifs at hb with ho
        rcases ih _ _ hb h with ⟨g1, mid, post, rfl, g2, g3⟩ | ⟨pre, mid, post, rfl, g2, g3⟩
        · cases g1
          exact .inr ⟨[], mid, post, rfl, g2, g3⟩
        · exact .inr ⟨_ :: pre, mid, post, rfl, g2, g3⟩
      · rw [if_neg hu] at hb h
        exact push o cur hb h id (by simp) (fun mid => by simp only [Measured.curAfter, if_neg hu])
    | ended u r' =>
      simp only [Measured.brk, Measured.collectionsFrom] at hb h
      by_cases hu : u = t
      · subst hu
        rw [if_pos rfl] at hb h
        split_ifs at hb with ho
        have hrest : (r, b) ∈ Measured.collectionsFrom u [] l → (o = some r ∧ ∃ mid post, Recording.Ev.ended u r' :: l = mid ++ .ended u r :: post ∧ .ended u r ∉ mid ∧ b = Measured.curAfter u cur mid) ∨
            ∃ pre mid post, Recording.Ev.ended u r' :: l = pre ++ .began u r :: (mid ++ .ended u r :: post) ∧ .ended u r ∉ mid ∧ b = Measured.curAfter u [] mid := by
          intro h
          rcases ih _ _ hb h with ⟨g1, -⟩ | ⟨pre, mid, post, rfl, g2, g3⟩
          · cases g1
          · exact .inr ⟨_ :: pre, mid, post, rfl, g2, g3⟩
        split_ifs at h with hc
        · exact hrest h
        · rcases List.mem_cons.1 h with h | h
          · cases h
            exact .inl ⟨ho, [], l, rfl, by simp, rfl⟩
          · exact hrest h
      · rw [if_neg hu] at hb h
        exact push o cur hb h id (by simp [hu]) (fun mid => by simp only [Measured.curAfter, if_neg hu])
    | collected u s k now p =>
      cases p with
      | none => exact push o cur hb h id (by simp) (fun mid => rfl)
      | some p =>
        simp only [Measured.brk, Measured.collectionsFrom] at hb h
        split_ifs at hb with h1
        by_cases hu : u = t
        · rw [if_pos hu] at h
          exact push o _ hb h id (by simp) (fun mid => by simp only [Measured.curAfter, if_pos hu])
        · rw [if_neg hu] at h
          exact push o _ hb h id (by simp) (fun mid => by simp only [Measured.curAfter, if_neg hu])
    | called u i x => exact push o cur hb h id (by simp) (fun mid => rfl)
    | observed u r' i x => exact push o cur hb h id (by simp) (fun mid => rfl)
    | created s k x => exact push o cur hb h id (by simp) (fun mid => rfl)
    | fed u s k x => exact push o cur hb h id (by simp) (fun mid => rfl)

omit [DecidableEq σ] [DecidableEq K] in
theorem mem_curAfter {P I : Type} (t : Nat) (mid : List (Recording.Ev K I (Option P))) (cur : List (Pt K P)) (s : Slot) (k : K) (p : P) (h : (s, k, p) ∈ Measured.curAfter t cur mid) :
    (s, k, p) ∈ cur ∨ ∃ now, .collected t s k now (some p) ∈ mid := by
  induction mid generalizing cur with
  | nil => exact .inl h
  | cons e mid ih =>
    have push : ∀ cur1 : List (Pt K P), (s, k, p) ∈ Measured.curAfter t cur1 mid → ((s, k, p) ∈ cur1 → (s, k, p) ∈ cur ∨ ∃ now, .collected t s k now (some p) ∈ e :: mid) →
        (s, k, p) ∈ cur ∨ ∃ now, .collected t s k now (some p) ∈ e :: mid := by
      intro cur1 h1 h2
      rcases ih cur1 h1 with h3 | ⟨now, h3⟩
      · exact h2 h3
      · exact .inr ⟨now, List.mem_cons_of_mem _ h3⟩
    cases e with
    | began u r =>
      simp only [Measured.curAfter] at h
      split_ifs at h
      · exact push _ h (fun h => by cases h)
      · exact push _ h .inl
    | ended u r =>
      simp only [Measured.curAfter] at h
      split_ifs at h
      · exact push _ h (fun h => by cases h)
      · exact push _ h .inl
    | collected u s' k' now p' =>
      cases p' with
      | none => exact push _ h .inl
      | some p' =>
        simp only [Measured.curAfter] at h
        split_ifs at h with hu
        · refine push _ h fun h => ?_
          rcases List.mem_append.1 h with h | h
          · exact .inl h
          · rw [List.mem_singleton] at h
            cases h
            subst hu
            exact .inr ⟨now, List.mem_cons_self⟩
        · exact push _ h .inl
    | called u i x => exact push _ h .inl
    | observed u r' i x => exact push _ h .inl
    | created s k x => exact push _ h .inl
    | fed u s k x => exact push _ h .inl

theorem started {P : Type} [DecidableEq P] (t r : Nat) (b : List (Pt K P)) (ok : Bool) (l : List (XEv K P)) (now : Option (Nat × List (Pt K P))) (h : Measured.OneByOne r now l) (hd : .done t r b ok ∈ l) :
    now = some (t, b) ∨ (r, b) ∈ Measured.startsBy t l := by
  induction l generalizing now with
  | nil => cases hd
  | cons e l ih =>
    have tail : (r, b) ∈ Measured.startsBy t l → (r, b) ∈ Measured.startsBy t (e :: l) := by
      intro h; unfold Measured.startsBy at h ⊢; rw [List.filterMap_cons]; split
      · exact h
      · exact List.mem_cons_of_mem _ h
    cases e with
    | start u r' b' =>
      have hd : .done t r b ok ∈ l := by rcases List.mem_cons.1 hd with h | h; cases h; exact h
      simp only [Measured.OneByOne] at h
      split_ifs at h with hr
      · rcases ih _ h.2 hd with h1 | h1
        · cases h1
          subst hr
          exact .inr (by simp [Measured.startsBy])
        · exact .inr (tail h1)
      · exact (ih _ h hd).imp_right tail
    | done u r' b' ok' =>
      simp only [Measured.OneByOne] at h
      rcases List.mem_cons.1 hd with he | hd
      · cases he
        rw [if_pos rfl] at h
        exact .inl h.1
      · split_ifs at h with hr
        · rcases ih _ h.2 hd with h1 | h1
          · cases h1
          · exact .inr (tail h1)
        · exact (ih _ h hd).imp_right tail

/-- What an exporter is given is the result of a collection of its reader. -/
theorem batch_of {I P S : Type} [DecidableEq P] (env : Env K I (Option P) S) (progs : List (List (Call I))) (sched : List (Nat × Reply I × Bool)) (t r : Nat) (b : List (Pt K P)) (ok : Bool)
    (h : .done t r b ok ∈ (Measured.run env progs sched).exports) :
    ∃ pre mid post, (Measured.run env progs sched).core.log = pre ++ .began t r :: (mid ++ .ended t r :: post) ∧ .ended t r ∉ mid ∧ b = Measured.curAfter t [] mid := by
  have h1 := (started t r b ok _ none (Measured.C101_one_by_one env progs sched r) h).resolve_left (by simp)
  have h2 := (Measured.C101_exports env progs sched t).1.subset h1
  obtain ⟨o, hb, -⟩ := ((Measured.inv_run env progs sched).thr t).shape
  exact (of_collections t _ none o [] r b hb h2).resolve_left (by simp)

/-- An exporter is given points of its own reader's streams. -/
theorem batch_reader {I P S : Type} [DecidableEq P] (env : Env K I (Option P) S) (progs : List (List (Call I))) (sched : List (Nat × Reply I × Bool)) (t r : Nat) (b : List (Pt K P)) (ok : Bool)
    (h : .done t r b ok ∈ (Measured.run env progs sched).exports) : ∀ q ∈ b, q.1.r = r := by
  obtain ⟨pre, mid, post, h1, h2, rfl⟩ := batch_of env progs sched t r b ok h
  rintro ⟨s, k, p⟩ hq
  rcases mem_curAfter t mid [] s k p hq with h3 | ⟨now, h3⟩
  · cases h3
  · obtain ⟨sched', hrun, -⟩ := Measured.core_run env progs sched
    rw [hrun] at h1
    refine ((Recording.C95_collection env progs sched' t r pre mid post h1 h2).2.1 s k).2 ?_
    unfold Recording.takes
    refine Nat.ne_of_gt (List.length_pos_of_mem (List.mem_filter.2 ⟨h3, by simp⟩))

/-! ## Totals -/

theorem ofStream_nil {P : Type} (s : Slot) (k : K) (b : List (Pt K P)) (h : ∀ q ∈ b, q.1 ≠ s) : Measured.ofStream s k b = [] := by
  unfold Measured.ofStream
  rw [List.filterMap_eq_nil_iff]
  rintro ⟨s', k', p⟩ hq
  exact if_neg fun hh => h _ hq hh.1

/-- What the collector reads and what it does not get is what was exported. -/
theorem books (d : Desc σ K) (f : List (Str × Option PB) → Bool) (s : Slot) (k : K) (l : List (XEv K (Metrics.NumPoint Int))) (h1 : ∀ t r b ok, .done t r b ok ∈ l → ∀ q ∈ b, q.1.r = r)
    (h2 : ∀ t b ok, .done t s.r b ok ∈ l → Distinct d f s k b) :
    ((received d s.r l).flatMap (readings (d.scope s) (d.name s) f)).sum + ((lost s k l).map Metrics.NumPoint.value).sum =
      ((Measured.ended s k true l).map Metrics.NumPoint.value).sum + ((Measured.ended s k false l).map Metrics.NumPoint.value).sum := by
  induction l with
  | nil => rfl
  | cons e l ih =>
    have ih := ih (fun t r b ok h => h1 t r b ok (List.mem_cons_of_mem _ h)) (fun t b ok h => h2 t b ok (List.mem_cons_of_mem _ h))
    cases e with
    | start t r b => exact ih
    | done t r b ok =>
      have hx : ∀ ok', Measured.ended s k ok' (.done t r b ok :: l) = (if ok = ok' then Measured.ofStream s k b else []) ++ Measured.ended s k ok' l := fun _ => rfl
      have hl : lost s k (.done t r b ok :: l) = (if r = s.r ∧ (ok = false ∨ ¬ Fits b) then Measured.ofStream s k b else []) ++ lost s k l := rfl
      have hr : ((received d s.r (.done t r b ok :: l)).flatMap (readings (d.scope s) (d.name s) f)).sum =
          (if r = s.r ∧ ok = true ∧ Fits b then ((Measured.ofStream s k b).map Metrics.NumPoint.value).sum else 0) + ((received d s.r l).flatMap (readings (d.scope s) (d.name s) f)).sum := by
        unfold received
        rw [List.filterMap_cons]
        by_cases hc : r = s.r ∧ ok = true
        · obtain ⟨rfl, rfl⟩ := hc
          have he := C118_encodable d b
          cases hq : request d b with
          | none =>
            rw [hq] at he
            rw [if_neg (fun h => by simpa using he.2 h.2.2)]
            simp [hq]
          | some req =>
            rw [hq] at he
            rw [if_pos ⟨rfl, rfl, he.1 rfl⟩]
            simp only [and_self, if_true, hq, List.flatMap_cons, List.sum_append]
            rw [C118_request d f s k b req (h2 t b true List.mem_cons_self) hq]
        · rw [if_neg (fun h => hc ⟨h.1, h.2.1⟩)]
          simp [hc]
      rw [hx, hx, hl, hr]
      simp only [List.map_append, List.sum_append]
      by_cases hs : r = s.r
      · subst hs
        cases ok with
        | true =>
          by_cases hf : Fits b
          · simp only [hf, and_self, not_true, or_self, and_false, if_true, if_false, Bool.true_eq_false, List.map_nil, List.sum_nil]; omega
          · simp only [hf, and_false, not_false_iff, or_true, and_self, if_true, if_false, Bool.true_eq_false, List.map_nil, List.sum_nil]; omega
        | false =>
          simp only [true_or, and_true, false_and, and_false, if_true, if_false, Bool.false_eq_true, List.map_nil, List.sum_nil]; omega
      · have : Measured.ofStream s k b = [] := ofStream_nil s k b fun q hq => by
          rintro rfl; exact hs (h1 t r b ok List.mem_cons_self q hq).symm
        rw [this]
        simp only [ite_self, List.map_nil, List.sum_nil]; omega

/-- Counters read with delta temporality and sent by OTLP, in every schedule and whatever exports fail: when all threads have finished, what the collector has read, what was lost and what has not been collected
add up to all threads' measurements. -/
theorem C118_total {I : Type} (d : Desc σ K) (f : List (Str × Option PB) → Bool) (start : I → Int) (readers : Nat) (arity : Nat → Nat → Nat) (key : Slot → I → K) (val : I → Int)
    (progs : List (List (Call I))) (sched : List (Nat × Reply I × Bool)) (s : Slot) (k : K) (a : Metrics.SumAgg Int) :
    let env := Env.of (Metrics.sumM .delta .delta 0) readers arity key val (fun x => Metrics.SumAgg.new .delta (start x))
    let st := Measured.run env progs sched
    st.finished → (k, a) ∈ st.core.dict s → (∀ t b ok, .done t s.r b ok ∈ st.exports → Distinct d f s k b) →
      ((received d s.r st.exports).flatMap (readings (d.scope s) (d.name s) f)).sum + ((lost s k st.exports).map Metrics.NumPoint.value).sum + a.value.getD 0 =
        ((Recording.made env progs.length s k st.core.log).map val).sum := by
  intro env st hf ha hd
  rw [← Measured.C101_delta_total start readers arity key val progs sched s k a hf ha, books d f s k st.exports (fun t r b ok h => batch_reader env progs sched t r b ok h) hd]

/-- If the server accepts every request and every value of every collection fits, the collector has read everything that was measured and collected. -/
theorem C118_exact {I : Type} (d : Desc σ K) (f : List (Str × Option PB) → Bool) (start : I → Int) (readers : Nat) (arity : Nat → Nat → Nat) (key : Slot → I → K) (val : I → Int)
    (progs : List (List (Call I))) (sched : List (Nat × Reply I × Bool)) (s : Slot) (k : K) (a : Metrics.SumAgg Int) :
    let env := Env.of (Metrics.sumM .delta .delta 0) readers arity key val (fun x => Metrics.SumAgg.new .delta (start x))
    let st := Measured.run env progs sched
    st.finished → (k, a) ∈ st.core.dict s → (∀ t b ok, .done t s.r b ok ∈ st.exports → Distinct d f s k b ∧ Fits b ∧ ok = true) →
      ((received d s.r st.exports).flatMap (readings (d.scope s) (d.name s) f)).sum + a.value.getD 0 = ((Recording.made env progs.length s k st.core.log).map val).sum := by
  intro env st hf ha hd
  rw [← C118_total d f start readers arity key val progs sched s k a hf ha fun t b ok h => (hd t b ok h).1]
  have : lost s k st.exports = [] := by
    unfold lost
    rw [List.flatMap_eq_nil_iff]
    intro e he
    cases e with
    | start => rfl
    | done t r b ok =>
      refine if_neg ?_
      rintro ⟨rfl, h⟩
      obtain ⟨-, h1, h2⟩ := hd t b ok he
      rcases h with h | h
      · rw [h] at h2; cases h2
      · exact h h1
  rw [this]
  simp
  rfl

/-! ## Cumulative temporality -/

/-- What a collection gets of a stream is what the stream received before. -/
theorem value_at {I : Type} (start : I → Int) (readers : Nat) (arity : Nat → Nat → Nat) (key : Slot → I → K) (val : I → Int) (progs : List (List (Call I))) (sched : List (Nat × Reply I)) (s : Slot) (k : K) (t : Nat)
    (now : Int) (o : Option (Metrics.NumPoint Int)) (pre post : List (Recording.Ev K I (Option (Metrics.NumPoint Int)))) :
    let env := Env.of (Metrics.sumM .delta .cumulative 0) readers arity key val (fun x => Metrics.SumAgg.new .delta (start x))
    let st := Recording.run env progs sched
    st.log = pre ++ .collected t s k now o :: post → ∃ x, o = some ⟨some (start x), now, ((Recording.fedTo s k pre).map val).sum⟩ := by
  intro env st hlog
  have hs := Recording.streams_run env progs sched
  have hin : o ∈ Recording.outsOf s k st.log := by
    rw [hlog]; simp [Recording.outsOf]
  rcases hs.at_ s k with ⟨-, -, g3, -⟩ | ⟨x, b, g1, g2, g3, g4⟩
  · rw [show Recording.outsOf s k st.log = [] from g3] at hin; cases hin
  · refine ⟨x, ?_⟩
    have e1 : Recording.opsOf s k st.log = Recording.opsOf s k pre ++ .coll now :: Recording.opsOf s k post := by rw [hlog]; simp [Recording.opsOf]
    have e2 : Recording.outsOf s k st.log = Recording.outsOf s k pre ++ o :: Recording.outsOf s k post := by rw [hlog]; simp [Recording.outsOf]
    rw [show Recording.opsOf s k (Recording.run env progs sched).log = _ from e1, show Recording.outsOf s k (Recording.run env progs sched).log = _ from e2, Recording.alone_append] at g4
    have g5 := (Prod.mk.inj g4).1
    obtain ⟨-, g6⟩ := List.append_inj g5 (Recording.alone_length env s _ k pre)
    have g7 := (List.cons.inj (show (env.coll s (Recording.alone env s (env.new s k x) (Recording.opsOf s k pre)).2 now).1 :: _ = o :: _ from g6)).1
    have hm := Recording.alone_machine (Metrics.sumM .delta .cumulative 0) readers arity key val (fun x => (Metrics.SumAgg.new .delta (start x) : Metrics.SumAgg Int)) s (env.new s k x)
      (Recording.opsOf s k pre)
    have g7 := (congrArg (fun p => (env.coll s p.2 now).1) hm).symm.trans g7
    obtain ⟨i1, i2, i3⟩ := Recording.sum_cumulative_run (start x) 0 ((Recording.opsOf s k pre).map (Recording.toOp val)) (Metrics.SumAgg.new .delta (start x)) rfl rfl
    rw [← g7]
    show (Metrics.SumAgg.collect (((Metrics.sumM .delta .cumulative 0).run (Metrics.SumAgg.new .delta (start x)) ((Recording.opsOf s k pre).map (Recording.toOp val))).1 : Metrics.SumAgg Int) .cumulative now).1 = _
    simp only [Metrics.SumAgg.collect, i1]
    rw [i2, i3, Recording.ops_measurements]
    simp [Metrics.SumAgg.new]

theorem ofStream_append {P : Type} (s : Slot) (k : K) (b c : List (Pt K P)) : Measured.ofStream s k (b ++ c) = Measured.ofStream s k b ++ Measured.ofStream s k c := List.filterMap_append

theorem ofStream_curAfter {I P : Type} (t : Nat) (s : Slot) (k : K) (mid : List (Recording.Ev K I (Option P))) (h1 : ∀ r, .began t r ∉ mid) (h2 : ∀ r, .ended t r ∉ mid) (cur : List (Pt K P)) :
    (Measured.ofStream s k (Measured.curAfter t cur mid)).length ≤ (Measured.ofStream s k cur).length + Recording.takes t s k mid := by
  induction mid generalizing cur with
  | nil => exact Nat.le_refl _
  | cons e mid ih =>
    have ih := fun cur => ih (fun r hm => h1 r (List.mem_cons_of_mem _ hm)) (fun r hm => h2 r (List.mem_cons_of_mem _ hm)) cur
    have mono : Recording.takes t s k mid ≤ Recording.takes t s k (e :: mid) := by
      exact ((List.sublist_cons_self _ mid).filter _).length_le
    cases e with
    | began u r =>
      have : u ≠ t := by rintro rfl; exact h1 r List.mem_cons_self
      simp only [Measured.curAfter, if_neg this]; exact (ih cur).trans (Nat.add_le_add_left mono _)
    | ended u r =>
      have : u ≠ t := by rintro rfl; exact h2 r List.mem_cons_self
      simp only [Measured.curAfter, if_neg this]; exact (ih cur).trans (Nat.add_le_add_left mono _)
    | collected u s' k' now p =>
      cases p with
      | none => exact (ih cur).trans (Nat.add_le_add_left mono _)
      | some p =>
        simp only [Measured.curAfter]
        split_ifs with hu
        · refine (ih _).trans ?_
          rw [ofStream_append, List.length_append]
          by_cases hc : s' = s ∧ k' = k
          · have : Recording.takes t s k (.collected u s' k' now (some p) :: mid) = Recording.takes t s k mid + 1 := by
              unfold Recording.takes; rw [List.filter_cons, if_pos (by simp [hu, hc])]; rfl
            rw [this]
            have : (Measured.ofStream s k [(s', k', p)]).length = 1 := by simp [Measured.ofStream, hc]
            omega
          · have : (Measured.ofStream s k [(s', k', p)]).length = 0 := by simp [Measured.ofStream, hc]
            omega
        · exact (ih cur).trans (Nat.add_le_add_left mono _)
    | called u i x => exact (ih cur).trans (Nat.add_le_add_left mono _)
    | observed u r' i x => exact (ih cur).trans (Nat.add_le_add_left mono _)
    | created s' k' x => exact (ih cur).trans (Nat.add_le_add_left mono _)
    | fed u s' k' x => exact (ih cur).trans (Nat.add_le_add_left mono _)

theorem mem_ofStream {P : Type} (s : Slot) (k : K) (p : P) (b : List (Pt K P)) : p ∈ Measured.ofStream s k b ↔ (s, k, p) ∈ b := by
  unfold Measured.ofStream
  rw [List.mem_filterMap]
  constructor
  · rintro ⟨⟨s', k', p'⟩, h, he⟩
    dsimp only at he
    split_ifs at he with hc
    obtain ⟨rfl, rfl⟩ := hc
    cases he; exact h
  · intro h
    exact ⟨_, h, by simp⟩

/-- A collection has one point of every stream that existed when it began: what the stream had received when it was read, during the collection. -/
theorem cumulative_batch {I : Type} (start : I → Int) (readers : Nat) (arity : Nat → Nat → Nat) (key : Slot → I → K) (val : I → Int) (progs : List (List (Call I))) (sched : List (Nat × Reply I × Bool))
    (s : Slot) (k : K) (t : Nat) (pre mid post : List (Recording.Ev K I (Option (Metrics.NumPoint Int)))) :
    let env := Env.of (Metrics.sumM .delta .cumulative 0) readers arity key val (fun x => Metrics.SumAgg.new .delta (start x))
    let st := Measured.run env progs sched
    st.core.log = pre ++ .began t s.r :: (mid ++ .ended t s.r :: post) → .ended t s.r ∉ mid → Recording.creations s k pre ≠ [] →
      ∃ x now m1 m2, mid = m1 ++ m2 ∧ Measured.ofStream s k (Measured.curAfter t [] mid) = [⟨some (start x), now, ((Recording.fedTo s k (pre ++ m1)).map val).sum⟩] := by
  intro env st hlog hmid hcr
  obtain ⟨hin1, hin2⟩ := Measured.inside hlog hmid
  obtain ⟨sched', hrun, -⟩ := Measured.core_run env progs sched
  have hlog' : (Recording.run env progs sched').log = pre ++ .began t s.r :: (mid ++ .ended t s.r :: post) := by rw [← hrun]; exact hlog
  have htake := (Recording.C95_collection env progs sched' t s.r pre mid post hlog' hmid).1 s k rfl hcr
  obtain ⟨now, o, hmem⟩ := Measured.takes_mem (h := by rw [htake]; exact one_ne_zero)
  have hlen := ofStream_curAfter t s k mid hin1 hin2 []
  rw [htake] at hlen
  obtain ⟨m1, m2, hm⟩ := List.append_of_mem hmem
  obtain ⟨x, rfl⟩ := value_at start readers arity key val progs sched' s k t now o (pre ++ .began t s.r :: m1) (m2 ++ .ended t s.r :: post) (by rw [hlog', hm]; simp)
  have hin := (mem_ofStream s k _ _).2 (Measured.curAfter_mem hin1 hin2 [] (.inr ⟨now, hmem⟩))
  refine ⟨x, now, m1, _, hm, ?_⟩
  have hf : Recording.fedTo s k (pre ++ .began t s.r :: m1) = Recording.fedTo s k (pre ++ m1) := by simp [Recording.fedTo]
  rw [hf] at hin
  generalize Measured.ofStream s k (Measured.curAfter t [] mid) = l at hin hlen
  match l, hin, hlen with
  | [y], hin, _ => rw [List.mem_singleton] at hin; rw [hin]
  | y :: z :: l, _, hlen => simp [Measured.ofStream] at hlen

theorem batch_exported {I P S : Type} [DecidableEq P] (env : Env K I (Option P) S) (progs : List (List (Call I))) (sched : List (Nat × Reply I × Bool)) (t r : Nat)
    (pre mid post : List (Recording.Ev K I (Option P))) (hlog : (Measured.run env progs sched).core.log = pre ++ .began t r :: (mid ++ .ended t r :: post))
    (hne : Measured.curAfter t [] mid ≠ []) : (r, Measured.curAfter t [] mid) ∈ Measured.collections t (Measured.run env progs sched).core.log := by
  rw [hlog]
  unfold Measured.collections
  rw [Measured.collectionsFrom_append]
  refine List.mem_append_right _ ?_
  simp only [Measured.collectionsFrom, if_true]
  rw [Measured.collectionsFrom_append]
  refine List.mem_append_right _ ?_
  simp only [Measured.collectionsFrom, if_true]
  rw [if_neg hne]
  exact List.mem_cons_self

/-- Counters read with cumulative temporality and sent by OTLP, in every schedule: a collection that begins when the last measurement of a stream has been made is exported, and its request, if every value of the
collection fits, has for this stream one point with the total of all threads' measurements, whatever happened to earlier requests. -/
theorem C118_cumulative {I : Type} (d : Desc σ K) (f : List (Str × Option PB) → Bool) (start : I → Int) (readers : Nat) (arity : Nat → Nat → Nat) (key : Slot → I → K) (val : I → Int)
    (progs : List (List (Call I))) (sched : List (Nat × Reply I × Bool)) (s : Slot) (k : K) (t : Nat) (pre mid post : List (Recording.Ev K I (Option (Metrics.NumPoint Int)))) :
    let env := Env.of (Metrics.sumM .delta .cumulative 0) readers arity key val (fun x => Metrics.SumAgg.new .delta (start x))
    let st := Measured.run env progs sched
    st.finished → st.core.log = pre ++ .began t s.r :: (mid ++ .ended t s.r :: post) → .ended t s.r ∉ mid → Recording.creations s k pre ≠ [] → (∀ u x, .fed u s k x ∉ mid ++ post) →
      ∃ b, (s.r, b) ∈ Measured.startsBy t st.exports ∧ (Fits b → Distinct d f s k b →
        ∃ req, request d b = some req ∧ readings (d.scope s) (d.name s) f req = [((Recording.made env progs.length s k st.core.log).map val).sum]) := by
  intro env st hf hlog hmid hcr hfed
  obtain ⟨x, now, m1, m2, hm, hb⟩ := cumulative_batch start readers arity key val progs sched s k t pre mid post hlog hmid hcr
  have hne : Measured.curAfter t [] mid ≠ [] := by intro h; rw [h] at hb; cases hb
  refine ⟨Measured.curAfter t [] mid, ?_, fun hfit hd => ?_⟩
  · rw [(Measured.C101_exports env progs sched t).2 (hf t)]
    exact batch_exported env progs sched t s.r pre mid post hlog hne
  · obtain ⟨req, hreq⟩ := Option.isSome_iff_exists.1 ((C118_encodable d _).2 hfit)
    refine ⟨req, hreq, ?_⟩
    rw [C118_request d f s k _ req hd hreq, hb]
    obtain ⟨sched', hrun, -⟩ := Measured.core_run env progs sched
    have hfc : (Recording.run env progs sched').finished := by rw [← hrun]; exact Measured.finished_core hf
    have hperm := (Recording.fed_made env progs sched' hfc s k).map val
    have none_fed : ∀ l : List (Recording.Ev K I (Option (Metrics.NumPoint Int))), (∀ u x, .fed u s k x ∉ l) → Recording.fedTo s k l = [] := by
      intro l hl
      unfold Recording.fedTo
      rw [List.filterMap_eq_nil_iff]
      intro e he
      cases e with
      | fed u' s' k' x' =>
        by_cases hc : s' = s ∧ k' = k
        · obtain ⟨rfl, rfl⟩ := hc
          exact absurd he (hl u' x')
        · simp [if_neg hc]
      | _ => rfl
    have happ : ∀ l m : List (Recording.Ev K I (Option (Metrics.NumPoint Int))), Recording.fedTo s k (l ++ m) = Recording.fedTo s k l ++ Recording.fedTo s k m := fun _ _ => List.filterMap_append
    have hcons : ∀ (r' : Nat) (m : List (Recording.Ev K I (Option (Metrics.NumPoint Int)))), Recording.fedTo s k (.began t r' :: m) = Recording.fedTo s k m := fun _ _ => rfl
    have hconse : ∀ (r' : Nat) (m : List (Recording.Ev K I (Option (Metrics.NumPoint Int)))), Recording.fedTo s k (.ended t r' :: m) = Recording.fedTo s k m := fun _ _ => rfl
    have e1 : Recording.fedTo s k (Recording.run env progs sched').log = Recording.fedTo s k pre := by
      rw [← hrun, show (Measured.run env progs sched).core.log = _ from hlog, happ, hcons, happ, hconse, none_fed mid (fun u x h => hfed u x (by simp [h])), none_fed post (fun u x h => hfed u x (by simp [h]))]
      simp
    have e2 : Recording.fedTo s k (pre ++ m1) = Recording.fedTo s k pre := by
      rw [happ, none_fed m1 (fun u x h => hfed u x (by rw [hm]; simp [h]))]; simp
    rw [e2, ← e1, show st.core = _ from hrun, ← hperm.sum_eq]
    rfl

theorem curAfter_points {I P : Type} (t : Nat) (mid : List (Recording.Ev K I (Option P))) (h1 : ∀ r, .began t r ∉ mid) (h2 : ∀ r, .ended t r ∉ mid) (cur : List (Pt K P)) :
    Measured.curAfter t cur mid = cur ++ Measured.points t mid := by
  induction mid generalizing cur with
  | nil => simp [Measured.curAfter, Measured.points]
  | cons e mid ih =>
    have ih := fun cur => ih (fun r hm => h1 r (List.mem_cons_of_mem _ hm)) (fun r hm => h2 r (List.mem_cons_of_mem _ hm)) cur
    cases e with
    | began u r =>
      have : u ≠ t := by rintro rfl; exact h1 r List.mem_cons_self
      simp only [Measured.curAfter, if_neg this]; exact ih cur
    | ended u r =>
      have : u ≠ t := by rintro rfl; exact h2 r List.mem_cons_self
      simp only [Measured.curAfter, if_neg this]; exact ih cur
    | collected u s' k' now p =>
      cases p with
      | none => exact ih cur
      | some p =>
        simp only [Measured.curAfter, Measured.points, List.filterMap_cons]
        split_ifs with hu
        · rw [ih]; simp [Measured.points]
        · exact ih cur
    | called u i x => exact ih cur
    | observed u r' i x => exact ih cur
    | created s' k' x => exact ih cur
    | fed u s' k' x => exact ih cur

/-- A counter whose total no longer fits 64 bits takes the other metrics of its reader with it, for ever: with cumulative temporality and measurements that are not negative, no collection that begins later
gives a request. -/
theorem C118_poisoned_violated {I : Type} (d : Desc σ K) (start : I → Int) (readers : Nat) (arity : Nat → Nat → Nat) (key : Slot → I → K) (val : I → Int) (hval : ∀ x, 0 ≤ val x)
    (progs : List (List (Call I))) (sched : List (Nat × Reply I × Bool)) (s : Slot) (k : K) (t : Nat) (pre mid post : List (Recording.Ev K I (Option (Metrics.NumPoint Int)))) :
    let env := Env.of (Metrics.sumM .delta .cumulative 0) readers arity key val (fun x => Metrics.SumAgg.new .delta (start x))
    let st := Measured.run env progs sched
    st.core.log = pre ++ .began t s.r :: (mid ++ .ended t s.r :: post) → .ended t s.r ∉ mid → Recording.creations s k pre ≠ [] → 2 ^ 63 ≤ ((Recording.fedTo s k pre).map val).sum →
      (s.r, Measured.points t mid) ∈ Measured.collections t st.core.log ∧ request d (Measured.points t mid) = none := by
  intro env st hlog hmid hcr hbig
  obtain ⟨hin1, hin2⟩ := Measured.inside hlog hmid
  obtain ⟨x, now, m1, m2, hm, hb⟩ := cumulative_batch start readers arity key val progs sched s k t pre mid post hlog hmid hcr
  have hne : Measured.curAfter t [] mid ≠ [] := by intro h; rw [h] at hb; cases hb
  have hp := curAfter_points t mid hin1 hin2 []
  rw [List.nil_append] at hp
  rw [← hp]
  refine ⟨batch_exported env progs sched t s.r pre mid post hlog hne, ?_⟩
  rw [← Option.not_isSome_iff_eq_none, C118_encodable]
  intro hfit
  have := (hfit _ ((mem_ofStream s k _ _).1 (by rw [hb]; exact List.mem_cons_self))).2
  have happ : Recording.fedTo s k (pre ++ m1) = Recording.fedTo s k pre ++ Recording.fedTo s k m1 := List.filterMap_append
  simp only [happ, List.map_append, List.sum_append] at this
  have h0 : 0 ≤ ((Recording.fedTo s k m1).map val).sum := by
    refine List.sum_nonneg fun v hv => ?_
    obtain ⟨y, -, rfl⟩ := List.mem_map.1 hv
    exact hval y
  omega

/-! ## Examples, and where it goes wrong -/

/-- Attributes: the value itself. One scope for two instruments, whose counters are called `a`, `b`, ... -/
def exDesc : Desc Nat Int where
  scope := fun _ => 0
  name := fun s => [Char.ofNat (97 + s.i)]
  description := fun _ => []
  unit := fun _ => []
  attrs := fun k => [("k".toList, .int k)]
  temporality := 1
  monotonic := fun _ => true

/-- Every measurement has its own stream. -/
def exEnv (t : Metrics.Temporality) : Env Int (Int × Int) (Option (Metrics.NumPoint Int)) (Metrics.SumAgg Int) :=
  Env.of (Metrics.sumM .delta t 0) 1 (fun _ _ => 1) (fun _ x => x.1) (fun x => x.2) (fun _ => Metrics.SumAgg.new .delta 0)

def steps (t n : Nat) (ok : Bool) : List (Nat × Reply (Int × Int) × Bool) := List.replicate n (t, [], ok)

/-- The attribute `k` with value `1`. -/
def isOne : List (Str × Option PB) → Bool
  | [(_, some (.int 1))] => true
  | _ => false

/-- `C118_exact` on a run with two threads, two instruments and two collections: the collector reads `5 + 3` for the first instrument and attribute 1. -/
example :
    let st := Measured.run (exEnv .delta) [[.record 0 (1, 5), .record 1 (1, 9), .record 0 (2, 4)], [.collect 0 100, .record 0 (1, 3), .collect 0 200]] (steps 0 40 true ++ steps 1 80 true)
    (∀ t < 2, st.core.threads[t]? = some [] ∧ st.phase t = .idle) ∧ (received exDesc 0 st.exports).flatMap (readings 0 ['a'] isOne) = [5, 3] ∧
    (st.core.dict ⟨0, 0, 0⟩).map (fun p => (p.1, p.2.value)) = [(1, none), (2, none)] ∧
    ((Measured.startsBy 1 st.exports).all fun b => decide (Fits b.2) && b.2.all fun q =>
      decide ((exDesc.name q.1 = ['a'] → q.1 = ⟨0, 0, 0⟩) ∧ (isOne (Otlp.encodeAttributes (exDesc.attrs q.2.1)) = true ↔ q.2.1 = 1))) = true := by
  decide +kernel

/-- Refuted: a metric whose value cannot be sent does not affect the others. Here a second counter exceeds 64 bits, and the collector gets nothing of the first, now or later. The server is up all the time. -/
theorem C118_alone_violated : ∃ (progs : List (List (Call (Int × Int)))) (sched : List (Nat × Reply (Int × Int) × Bool)),
    (∀ t < progs.length, (Measured.run (exEnv .cumulative) progs sched).core.threads[t]? = some [] ∧ (Measured.run (exEnv .cumulative) progs sched).phase t = .idle) ∧
    (∀ mv ∈ sched, mv.2.2 = true) ∧
    Measured.ended ⟨0, 0, 0⟩ 1 true (Measured.run (exEnv .cumulative) progs sched).exports = [⟨some 0, 100, 5⟩, ⟨some 0, 200, 6⟩] ∧
    received exDesc 0 (Measured.run (exEnv .cumulative) progs sched).exports = [] := by
  refine ⟨[[.record 0 (1, 5), .record 1 (1, 2 ^ 62), .record 1 (1, 2 ^ 62), .collect 0 100, .record 0 (1, 1), .collect 0 200]], steps 0 120 true, by decide +kernel, ?_, by decide +kernel, ?_⟩
  · intro mv h; rw [List.eq_of_mem_replicate h]
  · have h : (Measured.run (exEnv .cumulative) [[.record 0 (1, 5), .record 1 (1, 2 ^ 62), .record 1 (1, 2 ^ 62), .collect 0 100, .record 0 (1, 1), .collect 0 200]] (steps 0 120 true)).exports.all
        (fun | .done _ _ b _ => !decide (Fits b) | _ => true) = true := by decide +kernel
    unfold received
    rw [List.filterMap_eq_nil_iff]
    intro e he
    have := List.all_eq_true.1 h e he
    cases e with
    | start => rfl
    | done t r b ok =>
      dsimp only
      split_ifs
      · rw [← Option.not_isSome_iff_eq_none, C118_encodable]
        simpa using this
      · rfl

/-- Refuted: streams with different attributes are different for the collector. An attribute that cannot be encoded is left out: streams that differ in it arrive with the same attributes. -/
theorem C118_merged_violated : ∃ (progs : List (List (Call (Int × Int)))) (sched : List (Nat × Reply (Int × Int) × Bool)),
    Measured.ended ⟨0, 0, 0⟩ (2 ^ 63) true (Measured.run (exEnv .delta) progs sched).exports = [⟨some 0, 100, 5⟩] ∧
    Measured.ended ⟨0, 0, 0⟩ (2 ^ 64) true (Measured.run (exEnv .delta) progs sched).exports = [⟨some 0, 100, 7⟩] ∧
    (received exDesc 0 (Measured.run (exEnv .delta) progs sched).exports).flatMap (readings 0 ['a'] List.isEmpty) = [5, 7] := by
  exact ⟨[[.record 0 (2 ^ 63, 5), .record 0 (2 ^ 64, 7), .collect 0 100]], steps 0 60 true, by decide +kernel, by decide +kernel, by decide +kernel⟩

/-- `C118_poisoned_violated` on a run: the hypotheses hold of its second collection. -/
example :
    let st := Measured.run (exEnv .cumulative) [[.record 0 (1, 5), .record 1 (1, 2 ^ 63), .collect 0 100, .collect 0 200]] (steps 0 120 true)
    (st.core.log.filter fun | .began .. => true | _ => false).length = 2 ∧ 2 ^ 63 ≤ ((Recording.fedTo ⟨0, 1, 0⟩ 1 (st.core.log.takeWhile fun | .began .. => false | _ => true)).map Prod.snd).sum ∧
    Recording.creations ⟨0, 1, 0⟩ 1 (st.core.log.takeWhile fun | .began .. => false | _ => true) = [(1, 2 ^ 63)] := by
  decide +kernel

end MetricWire
end Otel
