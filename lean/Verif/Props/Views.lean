import Verif.Lemmas.Views
import Verif.Spec.Views
import Mathlib.Tactic.Tauto
import Mathlib.Tactic.ByContra
/-!
# C32: streams of a view applied to an instrument
-/
namespace Otel
namespace Metrics
variable {α : Type} [AddCommGroup α] [LinearOrder α]

omit [AddCommGroup α] [LinearOrder α] in
theorem canon_of_hashable (v : MVal) (h : ∀ l, v ≠ .list l) : ∃ c, v.canon = some c := by
  cases v with
  | atom a => exact ⟨_, rfl⟩
  | tuple l => exact ⟨_, rfl⟩
  | list l => exact absurd rfl (h l)

theorem pyEq_iff (v w : MVal) (c : CVal) (hv : v.canon = some c) : PyEq v w ↔ w.canon = some c := by
  cases v <;> cases w <;> simp [MVal.canon, PyEq] at hv ⊢
  · subst hv; simp [eq_comm]
  · subst hv; simp
  · subst hv; simp
  · subst hv; simp [eq_comm]

theorem streamKey_some (a : MAttrs) (h : Hashable a) :
    ∃ s, streamKey a = some s ∧ ∀ k c, (k, c) ∈ s ↔ ∃ v, (k, v) ∈ a ∧ v.canon = some c := by
  induction a with
  | nil => exact ⟨∅, rfl, by simp⟩
  | cons kv a ih =>
    obtain ⟨k0, v0⟩ := kv
    obtain ⟨s, hs, hm⟩ := ih (fun kv hkv => h kv (by simp [hkv]))
    obtain ⟨c0, hc0⟩ := canon_of_hashable v0 (h (k0, v0) (by simp))
    refine ⟨insert (k0, c0) s, by simp [streamKey, hs, hc0], ?_⟩
    intro k c
    simp only [Finset.mem_insert, Prod.mk.injEq, hm, List.mem_cons]
    constructor
    · rintro (⟨rfl, rfl⟩ | ⟨v, hv, hc⟩)
      · exact ⟨v0, Or.inl ⟨rfl, rfl⟩, hc0⟩
      · exact ⟨v, Or.inr hv, hc⟩
    · rintro ⟨v, ⟨rfl, rfl⟩ | hv, hc⟩
      · left; rw [hc0] at hc; exact ⟨rfl, (Option.some.inj hc).symm⟩
      · exact Or.inr ⟨v, hv, hc⟩

theorem streamKey_none (a : MAttrs) (h : ¬ Hashable a) : streamKey a = none := by
  induction a with
  | nil => exact absurd (by intro kv hkv; simp at hkv) h
  | cons kv a ih =>
    obtain ⟨k0, v0⟩ := kv
    by_cases hv : ∃ l, v0 = .list l
    · obtain ⟨l, rfl⟩ := hv
      simp [streamKey, MVal.canon]
    · have : ¬ Hashable a := by
        intro ha
        apply h
        intro kv hkv l hl
        rcases List.mem_cons.1 hkv with rfl | hkv
        · exact hv ⟨l, hl⟩
        · exact ha kv hkv l hl
      simp [streamKey, ih this]

/-- **C32** Two measurements feed the same stream exactly when the attributes they keep are equal as Python dicts (so that
`1`, `1.0` and `True` are the same value). -/
theorem C32_same_stream_iff (a b : MAttrs) (ha : Hashable a) (hb : Hashable b) :
    streamKey a = streamKey b ↔ DictEq a b := by
  obtain ⟨s, hs, hms⟩ := streamKey_some a ha
  obtain ⟨u, hu, hmu⟩ := streamKey_some b hb
  rw [hs, hu, Option.some.injEq]
  constructor
  · rintro rfl
    constructor
    · intro k v hv
      obtain ⟨c, hc⟩ := canon_of_hashable v (ha _ hv)
      obtain ⟨w, hw, hwc⟩ := (hmu k c).1 ((hms k c).2 ⟨v, hv, hc⟩)
      exact ⟨w, hw, (pyEq_iff v w c hc).2 hwc⟩
    · intro k v hv
      obtain ⟨c, hc⟩ := canon_of_hashable v (hb _ hv)
      obtain ⟨w, hw, hwc⟩ := (hms k c).1 ((hmu k c).2 ⟨v, hv, hc⟩)
      exact ⟨w, hw, (pyEq_iff v w c hc).2 hwc⟩
  · rintro ⟨h1, h2⟩
    ext ⟨k, c⟩
    rw [hms, hmu]
    constructor
    · rintro ⟨v, hv, hc⟩
      obtain ⟨w, hw, he⟩ := h1 k v hv
      exact ⟨w, hw, (pyEq_iff v w c hc).1 he⟩
    · rintro ⟨v, hv, hc⟩
      obtain ⟨w, hw, he⟩ := h2 k v hv
      exact ⟨w, hw, (pyEq_iff v w c hc).1 he⟩

/-- **C32** A measurement with an unhashable kept attribute value is refused with `TypeError`; every other one is accepted. -/
theorem C32_refused_iff (w : View α) (now : Int) (a : Option MAttrs) (v : α) :
    matchOp w (.measure now a v) = none ↔ ¬ Hashable (kept w a) := by
  constructor
  · intro h hh
    obtain ⟨s, hs, _⟩ := streamKey_some _ hh
    simp only [matchOp, kept] at h hs
    simp [hs] at h
  · intro h
    have := streamKey_none _ h
    simp only [kept] at this
    simp [matchOp, this]

/-- **C32** The kept attributes are those whose key the view selects, or all. -/
theorem C32_kept (w : View α) (a : MAttrs) (kv : Str × MVal) :
    kv ∈ kept w (some a) ↔ kv ∈ a ∧ ∀ ks, w.keys = some ks → kv.1 ∈ ks := by
  cases hk : w.keys with
  | none => simp [kept, restrict, hk]
  | some ks => simp [kept, restrict, hk]

/-- All measurements of a history are hashable under the view. -/
def AllHashable (w : View α) (h : List (MatchOp α)) : Prop :=
  ∀ o ∈ h, match o with | .measure _ a _ => Hashable (kept w a) | .coll _ => True

theorem DictEq.symm {a b : MAttrs} (h : DictEq a b) : DictEq b a := ⟨h.2, h.1⟩

theorem opOf_pos (w : View α) (a : MAttrs) (now : Int) (b : Option MAttrs) (v : α) (h : DictEq (kept w b) a) :
    opOf w a (.measure now b v) = some (.meas v) := if_pos h
theorem opOf_neg (w : View α) (a : MAttrs) (now : Int) (b : Option MAttrs) (v : α) (h : ¬ DictEq (kept w b) a) :
    opOf w a (.measure now b v) = none := if_neg h
theorem firstOf_pos (w : View α) (a : MAttrs) (now : Int) (b : Option MAttrs) (v : α) (h : DictEq (kept w b) a) :
    firstOf w a (.measure now b v) = some (now, kept w b) := if_pos h
theorem firstOf_neg (w : View α) (a : MAttrs) (now : Int) (b : Option MAttrs) (v : α) (h : ¬ DictEq (kept w b) a) :
    firstOf w a (.measure now b v) = none := if_neg h
theorem firstOf_coll (w : View α) (a : MAttrs) (t : Int) : firstOf w a (.coll t) = none := rfl

/-- The dictionary of streams as a solo run, in terms of the history. -/
theorem solo_stream (sdk : Sdk α) (rc : ReaderConf α) (w : View α) (i : Instr α) (a : MAttrs) (ha : Hashable a) (k : StreamKey)
    (hk : streamKey a = some k) (h : List (MatchOp α)) (hh : AllHashable w h) :
    ((streamsOf sdk rc i w).solo k (h.filterMap (matchOp w))) =
      (firstWith w a h).map (fun f => (f.2, ((aggM (effective rc.table w i) sdk.dflt i (rc.temporality i.kind) f.1).run
        ((effective rc.table w i).create sdk.dflt i f.1) (streamHistory w a h)).1)) := by
  have hop : ∀ now (b : Option MAttrs) (v : α), Hashable (kept w b) → ∃ k', matchOp w (.measure now b v) = some (.feed k' ⟨now, kept w b, v⟩) ∧
      (k' = k ↔ DictEq (kept w b) a) := by
    intro now b v hb
    obtain ⟨s, hs, _⟩ := streamKey_some _ hb
    refine ⟨s, by simp only [matchOp, kept] at hs ⊢; simp [hs], ?_⟩
    rw [← C32_same_stream_iff _ _ hb ha, hs, hk, Option.some.injEq]
  -- once created
  have hcreated : ∀ (h : List (MatchOp α)), AllHashable w h → ∀ (at' : MAttrs) (st : Int) (s : Agg α),
      (streamsOf sdk rc i w).soloFrom k (some (at', s)) (h.filterMap (matchOp w)) =
        some (at', ((aggM (effective rc.table w i) sdk.dflt i (rc.temporality i.kind) st).run s (h.filterMap (opOf w a))).1) := by
    intro h
    induction h with
    | nil => intros; rfl
    | cons o h ih =>
      intro hh at' st s
      have hh' : AllHashable w h := fun o ho => hh o (by simp [ho])
      cases o with
      | measure now b v =>
        obtain ⟨k', h1, h2⟩ := hop now b v (hh (.measure now b v) (by simp))
        by_cases hd : DictEq (kept w b) a
        · have := ih hh' at' st (s.aggregate v)
          rw [List.filterMap_cons_some h1, List.filterMap_cons_some (opOf_pos w a now b v hd)]
          rw [Members.soloFrom, if_pos (h2.2 hd)]
          exact this
        · have := ih hh' at' st s
          rw [List.filterMap_cons_some h1, List.filterMap_cons_none (opOf_neg w a now b v hd)]
          rw [Members.soloFrom, if_neg (fun hc => hd (h2.1 hc))]
          exact this
      | coll t =>
        have := ih hh' at' st (s.collect (rc.temporality i.kind) t).2
        rw [List.filterMap_cons_some (f := matchOp w) (b := .coll t) rfl, List.filterMap_cons_some (f := opOf w a) (b := .coll t) rfl]
        exact this
  -- before creation
  unfold Members.solo
  induction h with
  | nil => rfl
  | cons o h ih =>
    have hh' : AllHashable w h := fun o ho => hh o (by simp [ho])
    cases o with
    | measure now b v =>
      obtain ⟨k', h1, h2⟩ := hop now b v (hh (.measure now b v) (by simp))
      rw [List.filterMap_cons_some h1]
      by_cases hd : DictEq (kept w b) a
      · rw [Members.soloFrom, if_pos (h2.2 hd)]
        have hf : firstWith w a (.measure now b v :: h) = some (now, kept w b) := by
          rw [firstWith, List.findSome?_cons, firstOf_pos w a now b v hd]
        have hs : streamHistory w a (.measure now b v :: h) = .meas v :: h.filterMap (opOf w a) := by
          unfold streamHistory
          rw [List.dropWhile_cons_of_neg (by simp [firstOf_pos w a now b v hd]), List.filterMap_cons_some (opOf_pos w a now b v hd)]
        rw [hf, hs]
        exact hcreated h hh' _ now _
      · rw [Members.soloFrom, if_neg (fun hc => hd (h2.1 hc))]
        have hf : firstWith w a (.measure now b v :: h) = firstWith w a h := by
          rw [firstWith, List.findSome?_cons, firstOf_neg w a now b v hd]; rfl
        have hs : streamHistory w a (.measure now b v :: h) = streamHistory w a h := by
          unfold streamHistory
          rw [List.dropWhile_cons_of_pos (by simp [firstOf_neg w a now b v hd])]
        rw [hf, hs]
        exact ih hh'
    | coll t =>
      rw [List.filterMap_cons_some (f := matchOp w) (b := FOp.coll t) rfl]
      have hf : firstWith w a (.coll t :: h) = firstWith w a h := by
        rw [firstWith, List.findSome?_cons, firstOf_coll]; rfl
      have hs : streamHistory w a (.coll t :: h) = streamHistory w a h := by
        unfold streamHistory
        rw [List.dropWhile_cons_of_pos (by simp [firstOf_coll])]
      rw [hf, hs]
      exact ih hh'

/-- **C32** Every collection, after any history of (hashable) measurements and collections, reports for every attribute set
`a` at most one data point, and that point is what an aggregation of its own, created at the first measurement with those
attributes and given exactly the measurements with those attributes, reports; its label is those attributes as first given.
`out` lists, per stream, its point or nothing. -/
theorem C32_streams (sdk : Sdk α) (rc : ReaderConf α) (w : View α) (i : Instr α) (h : List (MatchOp α)) (hh : AllHashable w h) (now : Int) :
    ∃ out : List (StreamKey × Option (DataPoint α)),
      ((streamsOf sdk rc i w).run [] ((h ++ [MatchOp.coll now]).filterMap (matchOp w))).2 =
        ((streamsOf sdk rc i w).run [] (h.filterMap (matchOp w))).2 ++ [out] ∧
      (out.map (·.1)).Nodup ∧
      (∀ k o, (k, o) ∈ out → ∃ a, Hashable a ∧ streamKey a = some k) ∧
      ∀ (a : MAttrs) (k : StreamKey) (o : Option (DataPoint α)), Hashable a → streamKey a = some k → ((k, o) ∈ out ↔
        ∃ start label, firstWith w a h = some (start, label) ∧
          o = ((((aggM (effective rc.table w i) sdk.dflt i (rc.temporality i.kind) start).run
            ((effective rc.table w i).create sdk.dflt i start) (streamHistory w a h)).1).collect (rc.temporality i.kind) now).1.map (⟨label, ·⟩)) := by
  let m := streamsOf sdk rc i w
  obtain ⟨hn, hl⟩ := run_solo m (h.filterMap (matchOp w)) [] (by simp)
  have hmem : ∀ k s, (k, s) ∈ (m.run [] (h.filterMap (matchOp w))).1 ↔ m.solo k (h.filterMap (matchOp w)) = some s := by
    intro k s
    rw [← look_mem k s _ hn, hl]; rfl
  refine ⟨(m.run [] (h.filterMap (matchOp w))).1.map (fun ks => (ks.1, (m.coll ks.2 now).1)), ?_, ?_, ?_, ?_⟩
  · rw [List.filterMap_append, (run_append _ _ _ _).2]
    congr 1
  · simpa [List.map_map, Function.comp_def] using hn
  · intro k o hko
    simp only [List.mem_map, Prod.mk.injEq, Prod.exists] at hko
    obtain ⟨k', s, hks, rfl, _⟩ := hko
    have h2 := (hmem _ _).1 hks
    have h3 := (solo_isSome m k' (h.filterMap (matchOp w)) none).1 (by rw [Members.solo] at h2; rw [h2]; rfl)
    rcases h3 with h3 | ⟨mi, h3⟩
    · simp at h3
    · obtain ⟨op, hop, he⟩ := List.mem_filterMap.1 h3
      cases op with
      | measure t b v =>
        have := hh _ hop
        refine ⟨kept w b, this, ?_⟩
        simp only [matchOp, Option.map_eq_some_iff] at he
        obtain ⟨k2, e1, e2⟩ := he
        cases e2
        exact e1
      | coll t => simp [matchOp] at he
  · intro a k o ha hk
    have hs := solo_stream sdk rc w i a ha k hk h hh
    simp only [List.mem_map, Prod.mk.injEq, Prod.exists]
    constructor
    · rintro ⟨k', s, hks, rfl, rfl⟩
      have h2 := (hmem _ _).1 hks
      rw [hs] at h2
      obtain ⟨f, hf, rfl⟩ := Option.map_eq_some_iff.1 h2
      exact ⟨f.1, f.2, hf, rfl⟩
    · rintro ⟨start, label, hf, rfl⟩
      refine ⟨k, _, (hmem _ _).2 (by rw [hs, hf]; rfl), rfl, rfl⟩

/-- **C32** A measurement leaves every other stream of the instrument untouched. -/
theorem C32_others_untouched (sdk : Sdk α) (rc : ReaderConf α) (w : View α) (i : Instr α) (d : List (StreamKey × (MAttrs × Agg α)))
    (k k' : StreamKey) (hk : k ≠ k') (m : MIn α) :
    look k' ((streamsOf sdk rc i w).feedAt k m d) = look k' d := by
  exact (look_feedAt (streamsOf sdk rc i w) k k' m d).trans (if_neg hk)

/-- **C32** Nothing an instrument measured is lost between its streams: with no view key filter or with one, every accepted
measurement belongs to the history of exactly one stream. -/
theorem C32_partition (w : View α) (now : Int) (b : Option MAttrs) (v : α) (a a' : MAttrs) (ha : Hashable a) (ha' : Hashable a')
    (hb : Hashable (kept w b)) :
    opOf w (kept w b) (.measure now b v) = some (.meas v) ∧
    (opOf w a (.measure now b v) = some (.meas v) → opOf w a' (.measure now b v) = some (.meas v) → DictEq a a') := by
  have hrefl : DictEq (kept w b) (kept w b) := (C32_same_stream_iff _ _ hb hb).1 rfl
  refine ⟨opOf_pos _ _ _ _ _ hrefl, ?_⟩
  intro h1 h2
  have d1 : DictEq (kept w b) a := by
    by_contra hc; rw [opOf_neg _ _ _ _ _ hc] at h1; cases h1
  have d2 : DictEq (kept w b) a' := by
    by_contra hc; rw [opOf_neg _ _ _ _ _ hc] at h2; cases h2
  rw [← C32_same_stream_iff _ _ hb ha] at d1
  rw [← C32_same_stream_iff _ _ hb ha'] at d2
  rw [← C32_same_stream_iff _ _ ha ha', ← d1, d2]

/-- `1` and `True` fall into one stream, labelled as first given; different strings do not. -/
example : streamKey [("k".toList, .atom (.int 1))] = streamKey [("k".toList, .atom (.bool true))] ∧
    streamKey [("k".toList, .atom (.str "1".toList))] ≠ streamKey [("k".toList, .atom (.int 1))] := by decide

/-- An ordinary measurement satisfies the hypotheses. -/
example : Hashable [("a".toList, .atom (.str "x".toList)), ("b".toList, .tuple [.int 1])] ∧
    ¬ Hashable [("a".toList, .list [.int 1])] := by
  constructor
  · intro kv hkv l
    simp at hkv
    rcases hkv with rfl | rfl <;> simp
  · intro h
    exact h _ (List.mem_singleton.2 rfl) [.int 1] rfl

end Metrics
end Otel
