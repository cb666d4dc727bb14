import Verif.Spec.Links
import Verif.Props.Attributes
import Mathlib.Tactic.SplitIfs
import Mathlib.Tactic.ByContra
/-!
# C112: what a span's links show does not change
-/
namespace Otel
namespace Links
open Span (RawAttrs isValidLink mkLink)

theorem run_cons (h : Heap) (a : Op) (p : List Op) : run h (a :: p) = run (step h a) p := rfl
theorem run_append (h : Heap) (p q : List Op) : run h (p ++ q) = run (run h p) q := by simp [run]

theorem process_frame (lim : SpanLimits) (dicts : List RawAttrs) (ls : List Obj) (ids : List Nat) (j : Nat) (hj : j ∉ ids) :
    (process lim dicts ls ids).1[j]? = ls[j]? := by
  induction ids generalizing ls with
  | nil => rfl
  | cons i rest ih =>
    simp only [List.mem_cons, not_or] at hj
    unfold process
    cases hi : ls[i]? with
    | none => exact ih ls hj.2
    | some o =>
      simp only
      split_ifs
      · simp only
        rw [ih _ hj.2, List.getElem?_set_ne (fun e => hj.1 e.symm)]
      · exact ih ls hj.2

theorem process_length (lim : SpanLimits) (dicts : List RawAttrs) (ls : List Obj) (ids : List Nat) : (process lim dicts ls ids).1.length = ls.length := by
  induction ids generalizing ls with
  | nil => rfl
  | cons i rest ih =>
    unfold process
    cases hi : ls[i]? with
    | none => exact ih ls
    | some o =>
      simp only
      split_ifs
      · simp [ih]
      · exact ih ls

theorem process_sub (lim : SpanLimits) (dicts : List RawAttrs) (ls : List Obj) (ids : List Nat) : ∀ i ∈ (process lim dicts ls ids).2, i ∈ ids ∧ i < ls.length := by
  induction ids generalizing ls with
  | nil => simp [process]
  | cons i rest ih =>
    unfold process
    cases hi : ls[i]? with
    | none => exact fun k hk => ⟨List.mem_cons_of_mem _ (ih ls k hk).1, (ih ls k hk).2⟩
    | some o =>
      simp only
      split_ifs
      · intro k hk
        rcases List.mem_cons.mp hk with rfl | hk
        · exact ⟨by simp, (List.getElem?_eq_some_iff.mp hi).1⟩
        · have := ih _ k hk
          rw [List.length_set] at this
          exact ⟨List.mem_cons_of_mem _ this.1, this.2⟩
      · exact fun k hk => ⟨List.mem_cons_of_mem _ (ih ls k hk).1, (ih ls k hk).2⟩

/-- The value a valid link gets. -/
def valueOf (lim : SpanLimits) (dicts : List RawAttrs) (ls : List Obj) (i : Nat) : Option (Option SpanContext × BAttrs) :=
  match ls[i]? with
  | none => none
  | some o => if isValidLink o.ctx (items dicts o.attrs) then
      some (o.ctx, BAttrs.new lim.maxLinkAttributes (items dicts o.attrs) true lim.maxAttributeLength) else none

theorem process_values (lim : SpanLimits) (dicts : List RawAttrs) (ls : List Obj) (ids : List Nat) (hn : ids.Nodup) :
    (process lim dicts ls ids).2.map (fun i => ((process lim dicts ls ids).1[i]?).bind Obj.value) = (ids.filterMap (valueOf lim dicts ls)).map some := by
  induction ids generalizing ls with
  | nil => rfl
  | cons i rest ih =>
    simp only [List.nodup_cons] at hn
    unfold process
    rw [List.filterMap_cons]
    cases hi : ls[i]? with
    | none =>
      have : valueOf lim dicts ls i = none := by simp [valueOf, hi]
      rw [this]
      exact ih ls hn.2
    | some o =>
      simp only
      by_cases hv : isValidLink o.ctx (items dicts o.attrs)
      · have : valueOf lim dicts ls i = some (o.ctx, BAttrs.new lim.maxLinkAttributes (items dicts o.attrs) true lim.maxAttributeLength) := by simp [valueOf, hi, hv]
        rw [this, if_pos hv]
        simp only [List.map_cons]
        rw [ih _ hn.2, process_frame _ _ _ _ _ hn.1, List.getElem?_set_self (List.getElem?_eq_some_iff.mp hi).1]
        congr 1
        congr 1
        refine List.filterMap_congr fun k hk => ?_
        have hne : i ≠ k := fun e => hn.1 (e ▸ hk)
        simp only [valueOf]
        rw [List.getElem?_set_ne hne]
      · have : valueOf lim dicts ls i = none := by simp [valueOf, hi, hv]
        rw [this, if_neg hv]
        exact ih ls hn.2

theorem trim_map {α β : Type} (f : α → β) (m : Option Nat) (l : List α) : (BList.trim m l).map f = BList.trim m (l.map f) := by
  cases m with
  | none => rfl
  | some n => simp [BList.trim]

/-- **C112** A span that is started with distinct `Link` objects shows, at that moment, the contexts and bounded copies of the attributes the objects had, and
counts the links it dropped: links are values, as module `Span` has them. -/
theorem C112_created (h : Heap) (lim : SpanLimits) (ids : List Nat) (hn : ids.Nodup) :
    (step h (.newSpan lim ids)).shown h.spans.length = some ((valued lim h ids).items.map fun l => some (some l.ctx, l.attrs)) ∧
    ((step h (.newSpan lim ids)).spans[h.spans.length]?).map (fun sp => sp.links.dropped) = some (valued lim h ids).dropped := by
  have hv : ids.filterMap (valueOf lim h.dicts h.links) = ((ids.map fun i => (h.links[i]?).map fun o => (o.ctx, items h.dicts o.attrs)).filterMap fun l =>
      match l with
      | some (some c, a) => if isValidLink (some c) a then some (mkLink lim c a) else none
      | _ => none).map fun l => (some l.ctx, l.attrs) := by
    clear hn
    induction ids with
    | nil => rfl
    | cons i rest ih =>
      rw [List.filterMap_cons, List.map_cons, List.filterMap_cons, ih]
      cases hi : h.links[i]? with
      | none => simp [valueOf, hi]
      | some o =>
        obtain ⟨c, a⟩ := o
        cases c with
        | none => simp [valueOf, hi, isValidLink]
        | some c =>
          by_cases hc : isValidLink (some c) (items h.dicts a)
          · simp [valueOf, hi, hc, mkLink]
          · simp [valueOf, hi, hc]
  have hp := process_values lim h.dicts h.links ids hn
  constructor
  · show ((h.spans ++ [_])[h.spans.length]?).map _ = _
    rw [List.getElem?_concat_length]
    simp only [Option.map_some]
    refine congrArg some ?_
    show (BList.trim lim.maxLinks ([] ++ (process lim h.dicts h.links ids).2)).map _ = (BList.trim lim.maxLinks ([] ++ _)).map _
    rw [trim_map, trim_map, List.nil_append, List.nil_append]
    refine congrArg _ ?_
    refine hp.trans ?_
    rw [hv, List.map_map]
    rfl
  · show ((h.spans ++ [_])[h.spans.length]?).map _ = _
    rw [List.getElem?_concat_length]
    simp only [Option.map_some]
    refine congrArg some ?_
    have hl := congrArg List.length hp
    rw [hv] at hl
    simp only [List.length_map] at hl
    show (match lim.maxLinks with | none => 0 | some n => 0 + ((process lim h.dicts h.links ids).2.length + 0 - n)) = (match lim.maxLinks with | none => 0 | some n => 0 + (_ + 0 - n))
    rw [hl]
    rfl

theorem step_length (h : Heap) (a : Op) : h.links.length ≤ (step h a).links.length := by
  cases a with
  | newDict | setItem => exact Nat.le_refl _
  | newLink => simp [step]
  | newSpan lim ids => simp [step, process_length]
  | addLink s c a =>
    simp only [step]
    split
    · exact Nat.le_refl _
    · split_ifs
      · simp
      · exact Nat.le_refl _

/-- A link that no operation gives to a span stays as it is. -/
theorem step_link (h : Heap) (a : Op) (i : Nat) (hi : i < h.links.length) (ha : ¬ a.uses i) : (step h a).links[i]? = h.links[i]? := by
  cases a with
  | newDict | setItem => rfl
  | newLink => simp [step, List.getElem?_append_left hi]
  | newSpan lim ids => exact process_frame _ _ _ _ _ ha
  | addLink s c a =>
    simp only [step]
    split
    · rfl
    · split_ifs
      · simp [List.getElem?_append_left hi]
      · rfl

theorem run_link (h : Heap) (p : List Op) (i : Nat) (hi : i < h.links.length) (hp : ∀ a ∈ p, ¬ a.uses i) : (run h p).links[i]? = h.links[i]? := by
  induction p generalizing h with
  | nil => rfl
  | cons a p ih =>
    rw [run_cons, ih _ (lt_of_lt_of_le hi (step_length h a)) (fun b hb => hp b (by simp [hb]))]
    exact step_link h a i hi (hp a (by simp))

theorem step_span (h : Heap) (a : Op) (s : Nat) (sp : SpanObj) (hs : h.spans[s]? = some sp) (ha : ¬ a.adds s) : (step h a).spans[s]? = some sp := by
  have hl : s < h.spans.length := (List.getElem?_eq_some_iff.mp hs).1
  cases a with
  | newDict | setItem | newLink => exact hs
  | newSpan lim ids => simpa [step, List.getElem?_append_left hl] using hs
  | addLink s' c a =>
    simp only [step]
    split
    · exact hs
    · split_ifs
      · simp only
        rw [List.getElem?_set_ne (fun e => ha e)]
        exact hs
      · exact hs

theorem run_span (h : Heap) (p : List Op) (s : Nat) (sp : SpanObj) (hs : h.spans[s]? = some sp) (hp : ∀ a ∈ p, ¬ a.adds s) : (run h p).spans[s]? = some sp := by
  induction p generalizing h with
  | nil => exact hs
  | cons a p ih => exact ih _ (step_span h a s sp hs (hp a (by simp))) fun b hb => hp b (by simp [hb])

/-- Spans refer to `Link` objects that exist. -/
def Ok (h : Heap) : Prop := ∀ sp ∈ h.spans, ∀ i ∈ sp.links.items, i < h.links.length

theorem mem_trim {α : Type} {m : Option Nat} {l : List α} {x : α} (h : x ∈ BList.trim m l) : x ∈ l := by
  cases m with
  | none => exact h
  | some n => exact List.mem_of_mem_drop h

theorem ok_step (h : Heap) (a : Op) (ho : Ok h) : Ok (step h a) := by
  cases a with
  | newDict | setItem => exact ho
  | newLink c a =>
    intro sp hsp i hi
    have := ho sp hsp i hi
    simp [step]
    omega
  | newSpan lim ids =>
    intro sp hsp i hi
    simp only [step] at hsp ⊢
    rw [process_length]
    rcases List.mem_append.mp hsp with hsp | hsp
    · exact ho sp hsp i hi
    · rw [List.mem_singleton.mp hsp] at hi
      have := mem_trim hi
      exact (process_sub _ _ _ _ i (by simpa [BList.new] using this)).2
  | addLink s c a =>
    simp only [step]
    split
    · exact ho
    · rename_i sp0 hs
      split_ifs
      · intro sp hsp i hi
        simp only [List.length_append, List.length_singleton]
        rcases List.mem_or_eq_of_mem_set hsp with hsp | rfl
        · exact Nat.lt_succ_of_lt (ho sp hsp i hi)
        · rcases List.mem_append.mp (mem_trim hi) with hi | hi
          · exact Nat.lt_succ_of_lt (ho sp0 (List.mem_of_getElem? hs) i hi)
          · rw [List.mem_singleton.mp hi]
            exact Nat.lt_succ_self _
      · exact ho

theorem ok_run (p : List Op) : Ok (run empty p) := by
  have : ∀ h : Heap, Ok h → Ok (run h p) := by
    induction p with
    | nil => exact fun h ho => ho
    | cons a p ih => exact fun h ho => ih _ (ok_step h a ho)
  exact this empty (by simp [Ok, empty])

/-- **C112** What the links of a span show does not change, whatever the program does afterwards to the dictionaries and other objects, as long as it gives
none of these `Link` objects to another span (and adds no link to this one). -/
theorem C112_stable (p q : List Op) (s : Nat) (sp : SpanObj) (hs : (run empty p).spans[s]? = some sp) (hq : ∀ a ∈ q, ¬ a.adds s)
    (hu : ∀ i ∈ sp.links.items, ∀ a ∈ q, ¬ a.uses i) : (run empty (p ++ q)).shown s = (run empty p).shown s := by
  rw [run_append]
  unfold Heap.shown
  rw [hs, run_span _ q s sp hs hq]
  simp only [Option.map_some, Option.some.injEq]
  refine List.map_congr_left fun i hi => ?_
  rw [run_link _ q i (ok_run p sp (List.mem_of_getElem? hs) i hi) (hu i hi)]

/-- Bounded attributes as a constructor leaves them. -/
def Tidy (b : BAttrs) : Prop :=
  (b.d.map Prod.fst).Nodup ∧ (∀ n, b.maxlen = some n → b.d.length ≤ n) ∧ ∀ kv ∈ b.d, Attr.clean (.str kv.1) kv.2 b.maxValueLen = some kv.2

theorem fold_again (l : List (Str × Val)) (b : BAttrs) (hn : ((b.d ++ l).map Prod.fst).Nodup) (hb : ∀ n, b.maxlen = some n → (b.d ++ l).length ≤ n)
    (hc : ∀ kv ∈ l, Attr.clean (.str kv.1) kv.2 b.maxValueLen = some kv.2) :
    (l.map fun kv : Str × Val => (AKey.str kv.1, kv.2)).foldl (fun (b : BAttrs) kv => b.setCore kv.1 kv.2) b = { b with d := b.d ++ l } := by
  induction l generalizing b with
  | nil => simp
  | cons x l ih =>
    obtain ⟨k, v⟩ := x
    have e : b.setCore (.str k) v = { b with d := b.d ++ [(k, v)] } := by
      unfold BAttrs.setCore
      have h0 : b.maxlen ≠ some 0 := by
        intro h0
        have := hb 0 h0
        simp at this
      have hh : ¬ Dict.has b.d k = true := by
        rw [Dict.has_iff]
        intro hk
        rw [List.map_append, List.nodup_append] at hn
        exact hn.2.2 k hk k (by simp) rfl
      have hl : b.maxlen ≠ some b.d.length := by
        intro h0
        have := hb _ h0
        simp at this
      rw [if_neg h0, hc (k, v) (by simp)]
      simp only
      rw [if_neg hh, if_neg hl]
    rw [List.map_cons, List.foldl_cons]
    show (l.map _).foldl _ (b.setCore (.str k) v) = _
    rw [e, ih]
    · simp
    · simpa using hn
    · intro n hm
      simpa using hb n hm
    · exact fun kv hkv => hc kv (by simp [hkv])

/-- Making bounded attributes of bounded attributes, with the same limits, changes nothing but the number of those dropped. -/
theorem again (b : BAttrs) (ht : Tidy b) : BAttrs.new b.maxlen (items [] (.bounded b)) true b.maxValueLen = { b with dropped := 0, immutable := true } := by
  unfold BAttrs.new items
  have := fold_again b.d ⟨b.maxlen, b.maxValueLen, false, 0, []⟩ (by simpa using ht.1) (by simpa using ht.2.1) ht.2.2
  rw [this]
  simp

theorem setCore_tidy (b : BAttrs) (k : AKey) (v : Val) (h : Tidy b) : Tidy (b.setCore k v) := by
  obtain ⟨c1, c2, c3⟩ := BAttrs.setCore_cfg b k v
  have hw := BAttrs.setCore_wf b k v ⟨h.1, h.2.1⟩
  refine ⟨hw.1, hw.2, ?_⟩
  rw [c2]
  intro kv hkv
  rw [BAttrs.setCore_eq] at hkv
  by_cases h0 : b.maxlen = some 0
  · rw [if_pos h0] at hkv
    exact h.2.2 kv hkv
  · rw [if_neg h0] at hkv
    cases hs : BAttrs.stored b.maxValueLen (k, v) with
    | none => rw [hs] at hkv; exact h.2.2 kv hkv
    | some x =>
      have old : ∀ kv ∈ [x], Attr.clean (.str kv.1) kv.2 b.maxValueLen = some kv.2 := by
        intro kv hkv
        rw [List.mem_singleton.mp hkv]
        unfold BAttrs.stored at hs
        cases k with
        | bad n => simp at hs
        | str s =>
          simp only at hs
          cases hc : Attr.clean (.str s) v b.maxValueLen with
          | none => simp [hc] at hs
          | some v' =>
            rw [hc] at hs
            have : x = (s, v') := (Option.some.inj hs).symm
            rw [this]
            exact BAttrs.C15_clean_idempotent _ v v' _ hc
      rw [hs] at hkv
      simp only at hkv
      split at hkv
      · rcases List.mem_append.mp hkv with hkv | hkv
        · exact h.2.2 kv ((Dict.erase_sublist _ _).subset hkv)
        · exact old kv hkv
      · split at hkv
        · rcases List.mem_append.mp hkv with hkv | hkv
          · exact h.2.2 kv (List.mem_of_mem_tail hkv)
          · exact old kv hkv
        · rcases List.mem_append.mp hkv with hkv | hkv
          · exact h.2.2 kv hkv
          · exact old kv hkv

theorem new_tidy (m : Option Nat) (a : RawAttrs) (i : Bool) (l : Option Nat) : Tidy (BAttrs.new m a i l) ∧ (BAttrs.new m a i l).maxlen = m ∧
    (BAttrs.new m a i l).maxValueLen = l ∧ (BAttrs.new m a i l).immutable = i := by
  have : ∀ b : BAttrs, Tidy b → b.maxlen = m → b.maxValueLen = l → Tidy (a.foldl (fun (b : BAttrs) kv => b.setCore kv.1 kv.2) b) ∧
      (a.foldl (fun (b : BAttrs) kv => b.setCore kv.1 kv.2) b).maxlen = m ∧ (a.foldl (fun (b : BAttrs) kv => b.setCore kv.1 kv.2) b).maxValueLen = l := by
    induction a with
    | nil => exact fun b h h1 h2 => ⟨h, h1, h2⟩
    | cons x a ih =>
      intro b h h1 h2
      obtain ⟨c1, c2, c3⟩ := BAttrs.setCore_cfg b x.1 x.2
      exact ih _ (setCore_tidy b _ _ h) (c1.trans h1) (c2.trans h2)
  obtain ⟨h1, h2, h3⟩ := this ⟨m, l, false, 0, []⟩ ⟨by simp, by simp, by simp⟩ rfl rfl
  exact ⟨h1, h2, h3, rfl⟩

/-- A `Link` with these bounded attributes, but for the number of those dropped. -/
def Like (c : Option SpanContext) (b : BAttrs) (o : Option Obj) : Prop := ∃ n, o = some ⟨c, .bounded { b with dropped := n }⟩

theorem process_like (lim : SpanLimits) (dicts : List RawAttrs) (ls : List Obj) (ids : List Nat) (i : Nat) (c : Option SpanContext) (b : BAttrs) (ht : Tidy b)
    (hm : b.immutable = true) (h : Like c b ls[i]?) (hl : i ∈ ids → b.maxlen = lim.maxLinkAttributes ∧ b.maxValueLen = lim.maxAttributeLength) :
    Like c b (process lim dicts ls ids).1[i]? := by
  induction ids generalizing ls with
  | nil => exact h
  | cons k rest ih =>
    have hl' : i ∈ rest → b.maxlen = lim.maxLinkAttributes ∧ b.maxValueLen = lim.maxAttributeLength := fun hr => hl (by simp [hr])
    unfold process
    cases hk : ls[k]? with
    | none => exact ih ls h hl'
    | some o =>
      simp only
      split_ifs
      · simp only
        refine ih _ ?_ hl'
        by_cases hki : k = i
        · subst hki
          obtain ⟨n, hn⟩ := h
          rw [hk] at hn
          have ho := Option.some.inj hn
          obtain ⟨e1, e2⟩ := hl (by simp)
          refine ⟨0, ?_⟩
          rw [List.getElem?_set_self (List.getElem?_eq_some_iff.mp hk).1, ho]
          have ht' : Tidy { b with dropped := n } := ht
          have := again { b with dropped := n } ht'
          simp only at this
          rw [← e1, ← e2]
          show some (Obj.mk c (.bounded (BAttrs.new b.maxlen (items [] (.bounded { b with dropped := n })) true b.maxValueLen))) = _
          rw [this, ← hm]
        · rw [List.getElem?_set_ne hki]
          exact h
      · exact ih ls h hl'

theorem step_like (h : Heap) (a : Op) (lim : SpanLimits) (i : Nat) (c : Option SpanContext) (b : BAttrs) (ht : Tidy b) (hm : b.immutable = true)
    (hb : b.maxlen = lim.maxLinkAttributes ∧ b.maxValueLen = lim.maxAttributeLength) (hi : Like c b h.links[i]?) (ha : a.usesWith lim i) :
    Like c b (step h a).links[i]? := by
  have hlt : i < h.links.length := by
    obtain ⟨n, hn⟩ := hi
    exact (List.getElem?_eq_some_iff.mp hn).1
  cases a with
  | newSpan lim' ids =>
    refine process_like lim' _ _ ids i c b ht hm hi fun hmem => ?_
    obtain ⟨e1, e2⟩ := ha hmem
    rw [e1, e2]
    exact hb
  | newDict a => exact hi
  | setItem j k v => exact hi
  | newLink c' a' => rw [step_link h _ i hlt (by simp [Op.uses])]; exact hi
  | addLink s c' a' => rw [step_link h _ i hlt (by simp [Op.uses])]; exact hi

/-- Bounded with the limits. -/
def Made (lim : SpanLimits) (o : Option Obj) : Prop :=
  ∃ c b, o = some ⟨c, .bounded b⟩ ∧ Tidy b ∧ b.maxlen = lim.maxLinkAttributes ∧ b.maxValueLen = lim.maxAttributeLength ∧ b.immutable = true

theorem process_keeps (lim : SpanLimits) (dicts : List RawAttrs) (ls : List Obj) (ids : List Nat) (i : Nat) (h : Made lim ls[i]?) :
    Made lim (process lim dicts ls ids).1[i]? := by
  induction ids generalizing ls with
  | nil => exact h
  | cons k rest ih =>
    unfold process
    cases hk : ls[k]? with
    | none => exact ih ls h
    | some o =>
      simp only
      split_ifs
      · refine ih _ ?_
        by_cases hki : k = i
        · subst hki
          rw [List.getElem?_set_self (List.getElem?_eq_some_iff.mp hk).1]
          exact ⟨o.ctx, _, rfl, new_tidy _ _ _ _⟩
        · rw [List.getElem?_set_ne hki]
          exact h
      · exact ih ls h

theorem process_made (lim : SpanLimits) (dicts : List RawAttrs) (ls : List Obj) (ids : List Nat) (i : Nat) (h : i ∈ (process lim dicts ls ids).2) :
    Made lim (process lim dicts ls ids).1[i]? := by
  induction ids generalizing ls with
  | nil => simp [process] at h
  | cons k rest ih =>
    unfold process at h ⊢
    cases hk : ls[k]? with
    | none =>
      rw [hk] at h
      exact ih ls h
    | some o =>
      rw [hk] at h
      simp only at h ⊢
      split_ifs with hv
      · rw [if_pos hv] at h
        rcases List.mem_cons.mp h with rfl | h
        · refine process_keeps _ _ _ _ _ ?_
          rw [List.getElem?_set_self (List.getElem?_eq_some_iff.mp hk).1]
          exact ⟨o.ctx, _, rfl, new_tidy _ _ _ _⟩
        · exact ih _ h
      · rw [if_neg hv] at h
        exact ih ls h

theorem run_like (h : Heap) (q : List Op) (lim : SpanLimits) (i : Nat) (c : Option SpanContext) (b : BAttrs) (ht : Tidy b) (hm : b.immutable = true)
    (hb : b.maxlen = lim.maxLinkAttributes ∧ b.maxValueLen = lim.maxAttributeLength) (hi : Like c b h.links[i]?) (hq : ∀ a ∈ q, a.usesWith lim i) :
    Like c b (run h q).links[i]? := by
  induction q generalizing h with
  | nil => exact hi
  | cons a q ih => exact ih _ (step_like h a lim i c b ht hm hb hi (hq a (by simp))) fun x hx => hq x (by simp [hx])

/-- **C112** Also if the `Link` objects are given to other spans with the same limits for links (spans of one provider): the contexts and attributes that the
links of the first show do not change. (The numbers of dropped attributes do: `C112_dropped_violated`.) -/
theorem C112_contents (h : Heap) (q : List Op) (lim : SpanLimits) (ids : List Nat) (hq : ∀ a ∈ q, ¬ a.adds h.spans.length ∧ ∀ i ∈ ids, a.usesWith lim i) :
    (run h (.newSpan lim ids :: q)).contents h.spans.length = (run h [.newSpan lim ids]).contents h.spans.length := by
  have hs : (step h (.newSpan lim ids)).spans[h.spans.length]? = some ⟨lim, BList.fromSeq lim.maxLinks (process lim h.dicts h.links ids).2⟩ := by
    show (h.spans ++ [_])[h.spans.length]? = _
    rw [List.getElem?_concat_length]
  have hs' := run_span _ q _ _ hs fun a ha => (hq a ha).1
  rw [run_cons, run_cons]
  show (run (step h (.newSpan lim ids)) q).contents _ = (step h (.newSpan lim ids)).contents _
  unfold Heap.contents Heap.shown
  rw [hs, hs']
  simp only [Option.map_some, List.map_map, Option.some.injEq]
  refine List.map_congr_left fun i hi => ?_
  have hi2 : i ∈ (process lim h.dicts h.links ids).2 := by simpa [BList.new] using mem_trim hi
  obtain ⟨c, b, e, ht, h1, h2, h3⟩ := process_made lim h.dicts h.links ids i hi2
  have e' : (step h (.newSpan lim ids)).links[i]? = some ⟨c, .bounded b⟩ := e
  obtain ⟨n, e2⟩ := run_like (step h (.newSpan lim ids)) q lim i c b ht h3 ⟨h1, h2⟩ ⟨b.dropped, e'⟩ fun a ha => (hq a ha).2 i (process_sub _ _ _ _ i hi2).1
  simp only [Function.comp_apply]
  rw [e', e2]
  rfl

theorem newSpan_single (h : Heap) (lim : SpanLimits) (i : Nat) (o : Obj) (ho : h.links[i]? = some o) (hv : isValidLink o.ctx (items h.dicts o.attrs)) :
    (step h (.newSpan lim [i])).links[i]? =
      some { o with attrs := .bounded (BAttrs.new lim.maxLinkAttributes (items h.dicts o.attrs) true lim.maxAttributeLength) } := by
  show (process lim h.dicts h.links [i]).1[i]? = _
  simp only [process, ho]
  rw [if_pos hv]
  simp only
  rw [List.getElem?_set_self (List.getElem?_eq_some_iff.mp ho).1]

/-- **C112, refuted** Starting a second span of the same provider with a `Link` object makes both spans report that it has no dropped attributes, however
many were dropped. -/
theorem C112_dropped_violated (h : Heap) (lim : SpanLimits) (i : Nat) (o : Obj) (ho : h.links[i]? = some o) (c : SpanContext) (hc : o.ctx = some c)
    (hv : c.isValid = true) :
    ((run h [.newSpan lim [i]]).links[i]?).map (fun o => dropped o.attrs) =
      some (BAttrs.new lim.maxLinkAttributes (items h.dicts o.attrs) true lim.maxAttributeLength).dropped ∧
    ((run h [.newSpan lim [i], .newSpan lim [i]]).links[i]?).map (fun o => dropped o.attrs) = some 0 := by
  have hvv : ∀ a, isValidLink o.ctx a = true := by
    intro a
    rw [hc]
    simp [isValidLink, hv]
  have e := newSpan_single h lim i o ho (hvv _)
  refine ⟨by show ((step h (.newSpan lim [i])).links[i]?).map _ = _; rw [e]; rfl, ?_⟩
  have e2 := newSpan_single _ lim i _ e (hvv _)
  show ((step (step h (.newSpan lim [i])) (.newSpan lim [i])).links[i]?).map _ = _
  rw [e2]
  obtain ⟨ht, h1, h2, h3⟩ := new_tidy lim.maxLinkAttributes (items h.dicts o.attrs) true lim.maxAttributeLength
  have := again _ ht
  rw [h1, h2] at this
  simp only [Option.map_some, dropped]
  show some (BAttrs.new lim.maxLinkAttributes (items [] (.bounded (BAttrs.new lim.maxLinkAttributes (items h.dicts o.attrs) true lim.maxAttributeLength))) true
    lim.maxAttributeLength).dropped = _
  rw [this]

/-- **C112, refuted** Starting a span of a provider with other limits with a `Link` object changes what an earlier span shows for it: here everything is gone.
The caller's own object changes too, although "the attributes of a Link are immutable". -/
theorem C112_relimited_violated (h : Heap) (lim : SpanLimits) (hl : lim.maxLinkAttributes = some 0) (i : Nat) (o : Obj) (ho : h.links[i]? = some o)
    (c : SpanContext) (hc : o.ctx = some c) (hv : c.isValid = true) :
    ((run h [.newSpan lim [i]]).links[i]?).map (fun o => items h.dicts o.attrs) = some [] := by
  have e := newSpan_single h lim i o ho (by rw [hc]; simp [isValidLink, hv])
  show ((step h (.newSpan lim [i])).links[i]?).map _ = _
  rw [e]
  obtain ⟨ht, h1, h2, h3⟩ := new_tidy lim.maxLinkAttributes (items h.dicts o.attrs) true lim.maxAttributeLength
  have : (BAttrs.new lim.maxLinkAttributes (items h.dicts o.attrs) true lim.maxAttributeLength).d = [] := by
    have := ht.2.1 0 (by rw [h1, hl])
    exact List.length_eq_zero_iff.mp (Nat.le_zero.mp this)
  show some ((BAttrs.new lim.maxLinkAttributes (items h.dicts o.attrs) true lim.maxAttributeLength).d.map _) = _
  rw [this]
  rfl

/-- **C112, refuted** Until a span is started with it, a `Link` shows whatever the caller's dictionary shows. -/
theorem C112_dictionary_violated (h : Heap) (i : Nat) (c : Option SpanContext) (j : Nat) (hi : h.links[i]? = some ⟨c, .dict j⟩) (d : RawAttrs)
    (hj : h.dicts[j]? = some d) (k : AKey) (v : Val) :
    ((run h [.setItem j k v]).links[i]?).map (fun o => items (run h [.setItem j k v]).dicts o.attrs) = some (Dict.set d k v) := by
  show (h.links[i]?).map _ = _
  rw [hi]
  have hlt := (List.getElem?_eq_some_iff.mp hj).1
  show some (((h.dicts.modify j fun d => Dict.set d k v).getD j [])) = _
  rw [List.getD_eq_getElem?_getD, List.getElem?_modify_eq, hj]
  rfl

/-- Limits that keep no attributes of links, and one of them. -/
def noAttrs : SpanLimits := ⟨none, none, none, none, none, some 0, none, none⟩
def oneAttr : SpanLimits := ⟨none, none, none, none, none, some 1, none, none⟩
def noLimits : SpanLimits := ⟨none, none, none, none, none, none, none, none⟩
def two : RawAttrs := [(.str ['a'], .atom (.int 1 true)), (.str ['b'], .atom (.int 2 true))]
def somewhere : SpanContext := ⟨1, 2, false, 1, []⟩

/-- **C112, refuted** A link that a span accepts for its attributes (its context is not valid) is refused by every later one if the first kept none of them. -/
theorem C112_vanishes_violated :
    (run empty [.newDict two, .newLink (some ⟨0, 0, false, 0, []⟩) (some 0), .newSpan noLimits [0]]).shown 0 ≠ some [] ∧
    (run empty [.newDict two, .newLink (some ⟨0, 0, false, 0, []⟩) (some 0), .newSpan noAttrs [0], .newSpan noLimits [0]]).shown 1 = some [] := by
  decide

/-- The hypotheses are met: a span with two links, one of two attributes, of which one is kept. -/
example : (run empty [.newDict two, .newLink (some somewhere) (some 0), .newLink (some somewhere) none, .newSpan oneAttr [0, 1]]).contents 0 =
    some [some (some somewhere, [(['b'], .atom (.int 2 true))]), some (some somewhere, [])] := rfl

example : ((run empty [.newDict two, .newLink (some somewhere) (some 0), .newSpan oneAttr [0]]).links[0]?).map (fun o => dropped o.attrs) = some 1 ∧
    ((run empty [.newDict two, .newLink (some somewhere) (some 0), .newSpan oneAttr [0], .newSpan oneAttr [0]]).links[0]?).map (fun o => dropped o.attrs) = some 0 := by
  decide

end Links
end Otel
