import Verif.Spec.ExemplarRace
import Verif.Props.Exemplar
import Verif.Props.Resource
import Mathlib.Tactic.Tauto
/-!
# C99: exemplars offered and collected by several threads
-/
namespace Otel
namespace ExemplarRace
open Metrics Exemplar Spec Spec.ExemplarRace
variable {α : Type} [Zero α] [LinearOrder α]

/-- May the measurement be put into the bucket with this key? -/
def OfKey (k : Kind α) (i : Int) (o : Offer α) : Prop :=
  match k with
  | .simple _ => True
  | .aligned bs => i = (alignedIndex o.value bs : Int)

structure GB (P : Offer α → Prop) (b : Bucket α) : Prop where
  value : b.value = 0 ∨ ∃ o, P o ∧ b.value = o.value
  time : b.time = 0 ∨ ∃ o, P o ∧ b.time = o.time
  attrs : b.attrs = none ∨ b.attrs = some [] ∨ ∃ o, P o ∧ b.attrs = o.attrs
  spanId : b.spanId = none ∨ ∃ o s t, P o ∧ o.span = some (s, t) ∧ b.spanId = some s
  traceId : b.traceId = none ∨ ∃ o s t, P o ∧ o.span = some (s, t) ∧ b.traceId = some t

theorem gb_empty (P : Offer α → Prop) : GB P (Bucket.empty : Bucket α) := ⟨.inl rfl, .inl rfl, .inl rfl, .inl rfl, .inl rfl⟩

theorem gb_write (P : Offer α → Prop) (b : Bucket α) (o : Offer α) (w : Write) (hb : GB P b) (ho : P o) : GB P (b.write o w) := by
  cases w with
  | value => exact ⟨.inr ⟨o, ho, rfl⟩, hb.time, hb.attrs, hb.spanId, hb.traceId⟩
  | time => exact ⟨hb.value, .inr ⟨o, ho, rfl⟩, hb.attrs, hb.spanId, hb.traceId⟩
  | attrs => exact ⟨hb.value, hb.time, .inr (.inr ⟨o, ho, rfl⟩), hb.spanId, hb.traceId⟩
  | spanId =>
    refine ⟨hb.value, hb.time, hb.attrs, ?_, hb.traceId⟩
    cases hs : o.span with
    | none => left; simp [Bucket.write, hs]
    | some x => right; exact ⟨o, x.1, x.2, ho, hs, by simp [Bucket.write, hs]⟩
  | traceId =>
    refine ⟨hb.value, hb.time, hb.attrs, hb.spanId, ?_⟩
    cases hs : o.span with
    | none => left; simp [Bucket.write, hs]
    | some x => right; exact ⟨o, x.1, x.2, ho, hs, by simp [Bucket.write, hs]⟩
  | offered => exact ⟨hb.value, hb.time, hb.attrs, hb.spanId, hb.traceId⟩

theorem gb_clear (P : Offer α → Prop) (b : Bucket α) (w : Write) (hb : GB P b) : GB P (clear b w) := by
  cases w with
  | value => exact ⟨.inl rfl, hb.time, hb.attrs, hb.spanId, hb.traceId⟩
  | time => exact ⟨hb.value, .inl rfl, hb.attrs, hb.spanId, hb.traceId⟩
  | attrs => exact ⟨hb.value, hb.time, .inr (.inl rfl), hb.spanId, hb.traceId⟩
  | spanId => exact ⟨hb.value, hb.time, hb.attrs, .inl rfl, hb.traceId⟩
  | traceId => exact ⟨hb.value, hb.time, hb.attrs, hb.spanId, .inl rfl⟩
  | offered => exact ⟨hb.value, hb.time, hb.attrs, hb.spanId, hb.traceId⟩

/-- The keys the collection still has to visit. -/
def pending : CPc α → List (Int × Nat)
  | .idle => []
  | .next rest => rest
  | .test i id rest => (i, id) :: rest
  | .attrs i id rest => (i, id) :: rest
  | .value i id rest _ => (i, id) :: rest
  | .time i id rest _ _ => (i, id) :: rest
  | .span i id rest _ _ _ => (i, id) :: rest
  | .trace i id rest _ _ _ _ => (i, id) :: rest
  | .reset _ rest _ => rest

/-- What has been read is genuine. -/
def ReadOk (point : MAttrs) (P : Int → Offer α → Prop) : CPc α → Prop
  | .value i _ _ a => Composed point (P i) (⟨a, 0, 0, none, none⟩ : Ex α)
  | .time i _ _ a v => Composed point (P i) (⟨a, v, 0, none, none⟩ : Ex α)
  | .span i _ _ a v t => Composed point (P i) (⟨a, v, t, none, none⟩ : Ex α)
  | .trace i _ _ a v t s => Composed point (P i) (⟨a, v, t, s, none⟩ : Ex α)
  | _ => True

def IsSimple : Kind α → Prop
  | .simple _ => True
  | .aligned _ => False

/-- The call may be where it is. -/
def ActOk (k : Kind α) (key : Nat → Int) (n : Nat) (a : Act α) : Prop :=
  match a.pc with
  | .load => True
  | .store _ => IsSimple k
  | .test => IsSimple k
  | .pick => IsSimple k
  | .draw => IsSimple k
  | .find i => OfKey k i a.o
  | .create i => OfKey k i a.o
  | .install i id => id < n ∧ key id = i ∧ OfKey k i a.o
  | .write id _ => id < n ∧ OfKey k (key id) a.o
  | .done => True
  | .raised => IsSimple k

theorem ofKey_simple {k : Kind α} (h : IsSimple k) (i : Int) (o : Offer α) : OfKey k i o := by
  cases k with
  | simple n => trivial
  | aligned bs => exact h.elim

structure Inv (k : Kind α) (point : MAttrs) (os : List (Offer α)) (key : Nat → Int) (st : State α) : Prop where
  mine : ∀ (t : Nat) a, st.acts[t]? = some a → a.o ∈ os ∧ ActOk k key st.buckets.length a
  nodup : st.storage.keys.Nodup
  stored : ∀ p ∈ st.storage, p.2 < st.buckets.length ∧ key p.2 = p.1 ∧ ∃ o ∈ os, OfKey k p.1 o
  good : ∀ (id : Nat) b, st.buckets[id]? = some b → GB (fun o => o ∈ os ∧ OfKey k (key id) o) b
  pend : ∀ p ∈ pending st.coll, p.2 < st.buckets.length ∧ key p.2 = p.1 ∧ ∃ o ∈ os, OfKey k p.1 o
  read : ReadOk point (fun i o => o ∈ os ∧ OfKey k i o) st.coll
  order : (st.out.map Prod.fst ++ (pending st.coll).map Prod.fst).Pairwise (· < ·)
  outs : ∀ p ∈ st.out, Composed point (fun o => o ∈ os ∧ OfKey k p.1 o) p.2 ∧ ∃ o ∈ os, OfKey k p.1 o
  gots : ∀ l ∈ st.got, (l.map Prod.fst).Pairwise (· < ·) ∧ ∀ p ∈ l, Composed point (fun o => o ∈ os ∧ OfKey k p.1 o) p.2 ∧ ∃ o ∈ os, OfKey k p.1 o

theorem goto_acts (st : State α) (t : Nat) (pc : OPc) (u : Nat) (b : Act α) (h : (st.goto t pc).acts[u]? = some b) :
    (u ≠ t ∧ st.acts[u]? = some b) ∨ ∃ a, st.acts[t]? = some a ∧ b = { a with pc := pc } ∧ u = t := by
  simp only [State.goto, List.getElem?_modify] at h
  by_cases hu : t = u
  · subst hu
    right
    cases ha : st.acts[t]? with
    | none => rw [ha] at h; simp at h
    | some a => rw [ha] at h; simp at h; exact ⟨a, rfl, h.symm, rfl⟩
  · left
    refine ⟨fun e => hu e.symm, ?_⟩
    cases ha : st.acts[u]? with
    | none => rw [ha] at h; simp at h
    | some a => rw [ha] at h; simpa [hu] using h

/-- Moving a call to a place where it may be. -/
theorem inv_goto {k : Kind α} {point : MAttrs} {os : List (Offer α)} {key : Nat → Int} {st : State α} (h : Inv k point os key st) (t : Nat) (pc : OPc)
    (hpc : ∀ a, st.acts[t]? = some a → ActOk k key st.buckets.length { a with pc := pc }) : Inv k point os key (st.goto t pc) := by
  refine ⟨?_, h.nodup, h.stored, h.good, h.pend, h.read, h.order, h.outs, h.gots⟩
  intro u b hb
  rcases goto_acts st t pc u b hb with ⟨_, hb⟩ | ⟨a, ha, rfl, _⟩
  · exact h.mine u b hb
  · exact ⟨(h.mine t a ha).1, hpc a ha⟩

theorem inv_seen {k : Kind α} {point : MAttrs} {os : List (Offer α)} {key : Nat → Int} {st : State α} (h : Inv k point os key st) (n : Int) :
    Inv k point os key { st with seen := n } :=
  ⟨h.mine, h.nodup, h.stored, h.good, h.pend, h.read, h.order, h.outs, h.gots⟩

theorem good_bucket {k : Kind α} {point : MAttrs} {os : List (Offer α)} {key : Nat → Int} {st : State α} (h : Inv k point os key st) (id : Nat) :
    GB (fun o => o ∈ os ∧ OfKey k (key id) o) (st.bucket id) := by
  unfold State.bucket
  cases hb : st.buckets[id]? with
  | none => exact gb_empty _
  | some b => exact h.good id b hb

theorem inv_buckets {k : Kind α} {point : MAttrs} {os : List (Offer α)} {key : Nat → Int} {st : State α} (h : Inv k point os key st) (id : Nat) (f : Bucket α → Bucket α)
    (hf : ∀ b, GB (fun o => o ∈ os ∧ OfKey k (key id) o) b → GB (fun o => o ∈ os ∧ OfKey k (key id) o) (f b)) :
    Inv k point os key { st with buckets := st.buckets.modify id f } := by
  have hl : (st.buckets.modify id f).length = st.buckets.length := by simp
  refine ⟨?_, h.nodup, ?_, ?_, ?_, h.read, h.order, h.outs, h.gots⟩
  · intro t a ha; rw [hl]; exact h.mine t a ha
  · intro p hp; rw [hl]; exact h.stored p hp
  · intro id' b hb
    simp only [List.getElem?_modify] at hb
    by_cases he : id = id'
    · subst he
      cases hb' : st.buckets[id]? with
      | none => rw [hb'] at hb; simp at hb
      | some b' =>
        rw [hb'] at hb
        simp at hb
        rw [← hb]
        exact hf b' (h.good id b' hb')
    · cases hb' : st.buckets[id']? with
      | none => rw [hb'] at hb; simp at hb
      | some b' => rw [hb'] at hb; simp [he] at hb; rw [← hb]; exact h.good id' b' hb'
  · intro p hp; rw [hl]; exact h.pend p hp

theorem actOk_mono {k : Kind α} {key key' : Nat → Int} {n n' : Nat} {a : Act α} (h : ActOk k key n a) (hn : n ≤ n') (hk : ∀ id, id < n → key' id = key id) : ActOk k key' n' a := by
  unfold ActOk at h ⊢
  split at h <;> first | exact h | skip
  · exact ⟨by omega, by rw [hk _ h.1]; exact h.2.1, h.2.2⟩
  · exact ⟨by omega, by rw [hk _ h.1]; exact h.2⟩

theorem inv_offer (k : Kind α) (point : MAttrs) (os : List (Offer α)) (key : Nat → Int) (st : State α) (t : Nat) (h : Inv k point os key st) :
    ∃ key', Inv k point os key' (stepOffer k st t) := by
  unfold stepOffer
  cases ha : st.acts[t]? with
  | none => exact ⟨key, h⟩
  | some a =>
    obtain ⟨hm, hok⟩ := h.mine t a ha
    have move : ∀ pc, ActOk k key st.buckets.length { a with pc := pc } → Inv k point os key (st.goto t pc) := by
      intro pc hp
      refine inv_goto h t pc fun b hb => ?_
      rw [ha] at hb
      injection hb with hb
      exact hb ▸ hp
    simp only
    unfold ActOk at hok
    cases hpc : a.pc with
    | load =>
      cases k with
      | simple n => exact ⟨key, move _ trivial⟩
      | aligned bs => exact ⟨key, move _ rfl⟩
    | store n => rw [hpc] at hok; exact ⟨key, inv_seen (move .test hok) _⟩
    | test =>
      rw [hpc] at hok
      simp only
      split
      · exact ⟨key, move _ hok⟩
      · exact ⟨key, move _ hok⟩
    | pick => rw [hpc] at hok; exact ⟨key, move _ (ofKey_simple hok _ _)⟩
    | draw =>
      rw [hpc] at hok
      simp only
      split
      · exact ⟨key, move _ hok⟩
      · split
        · exact ⟨key, move _ (ofKey_simple hok _ _)⟩
        · exact ⟨key, move _ trivial⟩
    | find i =>
      rw [hpc] at hok
      simp only
      cases hg : Dict.get? st.storage i with
      | none => exact ⟨key, move _ hok⟩
      | some id =>
        have hs := h.stored (i, id) (Dict.mem_of_get? _ _ _ hg)
        refine ⟨key, move _ ⟨hs.1, ?_⟩⟩
        have e : key id = i := hs.2.1
        rw [e]
        exact hok
    | create i =>
      rw [hpc] at hok
      simp only
      let key' : Nat → Int := Function.update key st.buckets.length i
      have hk : ∀ id, id < st.buckets.length → key' id = key id := fun id hid => by
        show Function.update key _ _ _ = _
        rw [Function.update_of_ne (by omega)]
      have hk0 : key' st.buckets.length = i := Function.update_self ..
      have hl : (st.buckets ++ [Bucket.empty]).length = st.buckets.length + 1 := by simp
      refine ⟨key', ?_, h.nodup, ?_, ?_, ?_, h.read, h.order, h.outs, h.gots⟩
      · intro u b hb
        simp only [hl]
        rcases goto_acts st t _ u b hb with ⟨_, hb⟩ | ⟨a', ha', rfl, _⟩
        · exact ⟨(h.mine u b hb).1, actOk_mono (h.mine u b hb).2 (by omega) hk⟩
        · rw [ha] at ha'
          injection ha' with ha'
          subst ha'
          exact ⟨hm, ⟨by omega, hk0, hok⟩⟩
      · intro p hp
        obtain ⟨h1, h2, h3⟩ := h.stored p hp
        exact ⟨by simp only [hl]; omega, by rw [hk _ h1]; exact h2, h3⟩
      · intro id b hb
        by_cases hid : id < st.buckets.length
        · rw [hk id hid]
          refine h.good id b ?_
          simpa [State.goto, List.getElem?_append_left hid] using hb
        · have : id = st.buckets.length := by
            have := (List.getElem?_eq_some_iff.1 hb).1
            simp at this
            omega
          subst this
          simp at hb
          rw [← hb]
          exact gb_empty _
      · intro p hp
        obtain ⟨h1, h2, h3⟩ := h.pend p hp
        exact ⟨by simp only [hl]; omega, by rw [hk _ h1]; exact h2, h3⟩
    | install i id =>
      rw [hpc] at hok
      simp only
      have h' := move (.write id (writes a.o)) ⟨hok.1, hok.2.1 ▸ hok.2.2⟩
      refine ⟨key, h'.mine, Dict.nodup_set _ _ _ h.nodup, ?_, h'.good, h'.pend, h'.read, h'.order, h'.outs, h'.gots⟩
      intro p hp
      rcases Dict.mem_set _ _ _ _ hp with rfl | hp
      · exact ⟨hok.1, hok.2.1, a.o, hm, hok.2.2⟩
      · exact h.stored p hp
    | write id ws =>
      rw [hpc] at hok
      cases ws with
      | nil => exact ⟨key, move _ trivial⟩
      | cons w ws => exact ⟨key, inv_buckets (move (.write id ws) hok) id _ fun b hb => gb_write _ b a.o w hb ⟨hm, hok.2⟩⟩
    | done => exact ⟨key, h⟩
    | raised => exact ⟨key, h⟩

theorem composed_mk {point : MAttrs} {P : Offer α → Prop} {e f : Ex α} (h : Composed point P e)
    (ha : f.attrs = e.attrs) (hv : f.value = e.value ∨ f.value = 0 ∨ ∃ o, P o ∧ f.value = o.value) (ht : f.time = e.time ∨ f.time = 0 ∨ ∃ o, P o ∧ f.time = o.time)
    (hs : f.spanId = e.spanId ∨ f.spanId = none ∨ ∃ o s t, P o ∧ o.span = some (s, t) ∧ f.spanId = some s)
    (hr : f.traceId = e.traceId ∨ f.traceId = none ∨ ∃ o s t, P o ∧ o.span = some (s, t) ∧ f.traceId = some t) : Composed point P f := by
  refine ⟨?_, ?_, ?_, ?_, ?_⟩
  · rcases hv with hv | hv
    · rw [hv]; exact h.value
    · exact hv
  · rcases ht with ht | ht
    · rw [ht]; exact h.time
    · exact ht
  · rw [ha]; exact h.attrs
  · rcases hs with hs | hs
    · rw [hs]; exact h.spanId
    · exact hs
  · rcases hr with hr | hr
    · rw [hr]; exact h.traceId
    · exact hr

/-- The collection goes on to `c`. -/
theorem inv_coll {k : Kind α} {point : MAttrs} {os : List (Offer α)} {key : Nat → Int} {st : State α} (h : Inv k point os key st) (c : CPc α)
    (hp : ∀ p ∈ pending c, p.2 < st.buckets.length ∧ key p.2 = p.1 ∧ ∃ o ∈ os, OfKey k p.1 o) (hr : ReadOk point (fun i o => o ∈ os ∧ OfKey k i o) c)
    (ho : (st.out.map Prod.fst ++ (pending c).map Prod.fst).Pairwise (· < ·)) : Inv k point os key { st with coll := c } :=
  ⟨h.mine, h.nodup, h.stored, h.good, hp, hr, ho, h.outs, h.gots⟩

theorem sorted_keys (d : Dict Int Nat) (h : d.keys.Nodup) : ((d.insertionSort fun a b => a.1 ≤ b.1).map Prod.fst).Pairwise (· < ·) := by
  have hp : (d.insertionSort fun a b => a.1 ≤ b.1).Perm d := List.perm_insertionSort _ d
  have hs : (d.insertionSort fun a b => a.1 ≤ b.1).Pairwise (fun a b => a.1 ≤ b.1) := by
    have : Std.Total (fun a b : Int × Nat => a.1 ≤ b.1) := ⟨fun a b => le_total _ _⟩
    have : IsTrans (Int × Nat) (fun a b => a.1 ≤ b.1) := ⟨fun a b c => le_trans⟩
    exact List.pairwise_insertionSort _ d
  have hn : ((d.insertionSort fun a b => a.1 ≤ b.1).map Prod.fst).Nodup := (hp.map Prod.fst).nodup_iff.2 h
  have hs' : ((d.insertionSort fun a b => a.1 ≤ b.1).map Prod.fst).Pairwise (· ≤ ·) := List.pairwise_map.2 hs
  exact (hs'.and hn).imp fun ⟨h1, h2⟩ => lt_of_le_of_ne h1 h2

theorem inv_collect (k : Kind α) (point : MAttrs) (os : List (Offer α)) (key : Nat → Int) (st : State α) (h : Inv k point os key st) :
    Inv k point os key (stepCollect k point st) := by
  unfold stepCollect
  have hpend := h.pend
  have hord := h.order
  have hread := h.read
  cases hc : st.coll with
  | idle =>
    simp only
    refine ⟨h.mine, h.nodup, h.stored, h.good, ?_, trivial, ?_, by simp, h.gots⟩
    · intro p hp; exact h.stored p ((List.perm_insertionSort _ _).mem_iff.1 hp)
    · simpa [pending] using sorted_keys st.storage h.nodup
  | next rest =>
    cases rest with
    | nil =>
      simp only
      refine ⟨h.mine, h.nodup, h.stored, h.good, by simp [pending], trivial, ?_, h.outs, ?_⟩
      · rw [hc] at hord; simpa [pending] using hord
      · intro l hl
        rcases List.mem_append.1 hl with hl | hl
        · exact h.gots l hl
        · rw [List.mem_singleton] at hl
          subst hl
          rw [hc] at hord
          exact ⟨by simpa [pending] using hord, h.outs⟩
    | cons p rest =>
      obtain ⟨i, id⟩ := p
      rw [hc] at hpend hord
      simp only
      split
      · exact inv_coll h _ hpend trivial hord
      · refine inv_coll h _ (fun p hp => hpend p (List.mem_cons_of_mem _ hp)) trivial ?_
        exact hord.sublist (List.Sublist.append_left (List.Sublist.map _ (List.sublist_cons_self _ _)) _)
  | test i id rest =>
    rw [hc] at hpend hord
    simp only
    split
    · exact inv_coll h _ hpend trivial hord
    · exact inv_coll h _ hpend ⟨.inl rfl, .inl rfl, .inl rfl, .inl rfl, .inl rfl⟩ hord
  | attrs i id rest =>
    rw [hc] at hpend hord
    simp only
    have hg := good_bucket h id
    have hkey : key id = i := (hpend (i, id) (by simp [pending])).2.1
    rw [hkey] at hg
    cases hb : (st.bucket id).attrs with
    | none =>
      simp only
      refine ⟨h.mine, h.nodup, h.stored, h.good, by simp [pending], trivial, ?_, h.outs, h.gots⟩
      exact (List.pairwise_append.1 hord).1 |> fun h => by simpa [pending] using h
    | some l =>
      simp only
      refine inv_coll h _ hpend ⟨.inl rfl, .inl rfl, ?_, .inl rfl, .inl rfl⟩ hord
      rcases hg.attrs with h1 | h1 | ⟨o, ho, h1⟩
      · rw [hb] at h1; cases h1
      · rw [hb] at h1; injection h1 with h1; subst h1; exact .inr (.inl rfl)
      · exact .inr (.inr ⟨o, l, ho, by rw [← h1, hb], rfl⟩)
  | value i id rest a =>
    rw [hc] at hpend hord hread
    have hg := good_bucket h id
    have hkey : key id = i := (hpend (i, id) (by simp [pending])).2.1
    rw [hkey] at hg
    exact inv_coll h _ hpend (composed_mk hread rfl (.inr hg.value) (.inl rfl) (.inl rfl) (.inl rfl)) hord
  | time i id rest a v =>
    rw [hc] at hpend hord hread
    have hg := good_bucket h id
    have hkey : key id = i := (hpend (i, id) (by simp [pending])).2.1
    rw [hkey] at hg
    exact inv_coll h _ hpend (composed_mk hread rfl (.inl rfl) (.inr hg.time) (.inl rfl) (.inl rfl)) hord
  | span i id rest a v t =>
    rw [hc] at hpend hord hread
    have hg := good_bucket h id
    have hkey : key id = i := (hpend (i, id) (by simp [pending])).2.1
    rw [hkey] at hg
    exact inv_coll h _ hpend (composed_mk hread rfl (.inl rfl) (.inl rfl) (.inr hg.spanId) (.inl rfl)) hord
  | trace i id rest a v t s =>
    rw [hc] at hpend hord hread
    have hg := good_bucket h id
    have hkey : key id = i := (hpend (i, id) (by simp [pending])).2.1
    rw [hkey] at hg
    simp only
    refine ⟨h.mine, h.nodup, h.stored, h.good, fun p hp => hpend p (List.mem_cons_of_mem _ hp), trivial, ?_, ?_, h.gots⟩
    · simpa [pending] using hord
    · intro p hp
      rcases List.mem_append.1 hp with hp | hp
      · exact h.outs p hp
      · rw [List.mem_singleton] at hp
        subst hp
        exact ⟨composed_mk hread rfl (.inl rfl) (.inl rfl) (.inl rfl) (.inr hg.traceId), (hpend (i, id) (by simp [pending])).2.2⟩
  | reset id rest ws =>
    rw [hc] at hpend hord
    cases ws with
    | nil => exact inv_coll h _ hpend trivial hord
    | cons w ws => exact inv_buckets (inv_coll h (.reset id rest ws) hpend trivial hord) id _ fun b hb => gb_clear _ b w hb

theorem inv_init (k : Kind α) (point : MAttrs) (offers : List (Offer α × Nat)) : Inv k point (offers.map Prod.fst) (fun _ => 0) (State.init offers) := by
  refine ⟨?_, List.nodup_nil, by simp [State.init], by simp [State.init], by simp [State.init, pending], trivial, by simp [State.init, pending], by simp [State.init],
    by simp [State.init]⟩
  intro t a ha
  simp only [State.init, List.getElem?_map, Option.map_eq_some_iff] at ha
  obtain ⟨x, hx, rfl⟩ := ha
  exact ⟨List.mem_map_of_mem (List.mem_of_getElem? hx), trivial⟩

theorem inv_run (k : Kind α) (point : MAttrs) (os : List (Offer α)) (sched : List (Option Nat)) : ∀ st key, Inv k point os key st → ∃ key', Inv k point os key' (run k point st sched) := by
  induction sched with
  | nil => intro st key h; exact ⟨key, h⟩
  | cons m l ih =>
    intro st key h
    cases m with
    | none => exact ih _ key (inv_collect k point os key st h)
    | some t =>
      obtain ⟨key', h'⟩ := inv_offer k point os key st t h
      exact ih _ key' h'

/-- **C99** Whatever the threads do, every collection returns exemplars of different buckets, and every field of an exemplar is that of a measurement that was offered, or that of an empty
bucket. -/
theorem C99_composed (k : Kind α) (point : MAttrs) (offers : List (Offer α × Nat)) (sched : List (Option Nat)) :
    ∀ l ∈ (run k point (State.init offers) sched).got, (l.map Prod.fst).Pairwise (· < ·) ∧ ∀ p ∈ l, Composed point (fun o => o ∈ offers.map Prod.fst) p.2 := by
  obtain ⟨key, h⟩ := inv_run k point _ sched _ _ (inv_init k point offers)
  intro l hl
  obtain ⟨h1, h2⟩ := h.gots l hl
  refine ⟨h1, fun p hp => ?_⟩
  have hc := (h2 p hp).1
  refine ⟨?_, ?_, ?_, ?_, ?_⟩
  · exact hc.value.imp_right fun ⟨o, ho, h⟩ => ⟨o, ho.1, h⟩
  · exact hc.time.imp_right fun ⟨o, ho, h⟩ => ⟨o, ho.1, h⟩
  · exact hc.attrs.imp_right (Or.imp_right fun ⟨o, a, ho, h⟩ => ⟨o, a, ho.1, h⟩)
  · exact hc.spanId.imp_right fun ⟨o, s, t, ho, h⟩ => ⟨o, s, t, ho.1, h⟩
  · exact hc.traceId.imp_right fun ⟨o, s, t, ho, h⟩ => ⟨o, s, t, ho.1, h⟩

theorem length_of_pairwise_lt (l : List Int) (n : Nat) (h : l.Pairwise (· < ·)) (hb : ∀ i ∈ l, 0 ≤ i ∧ i ≤ n) : l.length ≤ n + 1 := by
  have hn : (l.map Int.toNat).Nodup := by
    refine (List.pairwise_map.2 ?_)
    refine (List.Pairwise.and_mem.1 h).imp ?_
    rintro a b ⟨ha, hb', hab⟩
    have := hb a ha
    have := hb b hb'
    omega
  have hs : l.map Int.toNat ⊆ List.range (n + 1) := by
    intro x hx
    obtain ⟨i, hi, rfl⟩ := List.mem_map.1 hx
    have := hb i hi
    simp
    omega
  have := (hn.subperm hs).length_le
  simpa using this

/-- **C99** The reservoir of a histogram, whatever the threads do: recording never raises; a collection has at most one exemplar per bucket of the histogram, and its value lies within
that bucket (or is that of an empty one). -/
theorem C99_aligned (boundaries : List α) (point : MAttrs) (offers : List (Offer α × Nat)) (sched : List (Option Nat)) :
    (∀ a ∈ (run (.aligned boundaries) point (State.init offers) sched).acts, a.pc ≠ .raised) ∧
    ∀ l ∈ (run (.aligned boundaries) point (State.init offers) sched).got, l.length ≤ boundaries.length + 1 ∧
      ∀ p ∈ l, p.2.value = 0 ∨ ∃ n : Nat, p.1 = n ∧ inBucket boundaries n p.2.value := by
  obtain ⟨key, h⟩ := inv_run (.aligned boundaries) point _ sched _ _ (inv_init (.aligned boundaries) point offers)
  refine ⟨?_, ?_⟩
  · intro a ha hr
    obtain ⟨t, ht⟩ := List.mem_iff_getElem?.1 ha
    have := (h.mine t a ht).2
    unfold ActOk at this
    rw [hr] at this
    exact this
  · intro l hl
    obtain ⟨h1, h2⟩ := h.gots l hl
    refine ⟨?_, ?_⟩
    · have := length_of_pairwise_lt (l.map Prod.fst) boundaries.length h1 (by
        intro i hi
        obtain ⟨p, hp, rfl⟩ := List.mem_map.1 hi
        obtain ⟨_, o, _, ho⟩ := h2 p hp
        have ho : p.1 = (alignedIndex o.value boundaries : Int) := ho
        have := alignedIndex_le o.value boundaries
        omega)
      simpa using this
    · intro p hp
      rcases (h2 p hp).1.value with h3 | ⟨o, ⟨_, ho⟩, h3⟩
      · exact .inl h3
      · refine .inr ⟨alignedIndex o.value boundaries, ho, ?_⟩
        rw [h3]
        exact (C39_aligned_bucket boundaries o.value).1

/-! ## Recording alone -/

/-- The count of measurements is at least one where it is used. -/
structure Counted (st : State α) : Prop where
  seen : 0 ≤ st.seen
  acts : ∀ (t : Nat) a, st.acts[t]? = some a → match a.pc with
    | .store n => 0 ≤ n
    | .test => 1 ≤ st.seen
    | .pick => 1 ≤ st.seen
    | .draw => 1 ≤ st.seen
    | .find i => 0 ≤ i
    | .create i => 0 ≤ i
    | .install i _ => 0 ≤ i
    | .raised => False
    | _ => True
  keys : ∀ p ∈ st.storage, 0 ≤ p.1

theorem counted_goto {st : State α} (h : Counted st) (t : Nat) (pc : OPc) (hpc : match pc with
    | .store n => 0 ≤ n
    | .test => 1 ≤ st.seen
    | .pick => 1 ≤ st.seen
    | .draw => 1 ≤ st.seen
    | .find i => 0 ≤ i
    | .create i => 0 ≤ i
    | .install i _ => 0 ≤ i
    | .raised => False
    | _ => True) : Counted (st.goto t pc) := by
  refine ⟨h.seen, ?_, h.keys⟩
  intro u b hb
  rcases goto_acts st t pc u b hb with ⟨_, hb⟩ | ⟨a, ha, rfl, _⟩
  · exact h.acts u b hb
  · exact hpc

theorem counted_offer (k : Kind α) (st : State α) (t : Nat) (h : Counted st) : Counted (stepOffer k st t) := by
  unfold stepOffer
  cases ha : st.acts[t]? with
  | none => exact h
  | some a =>
    have hok := h.acts t a ha
    simp only
    cases hpc : a.pc with
    | load =>
      cases k with
      | simple n => exact counted_goto h t _ h.seen
      | aligned bs => exact counted_goto h t _ (by show (0 : Int) ≤ (alignedIndex a.o.value bs : Int); omega)
    | store n =>
      rw [hpc] at hok
      have hok : 0 ≤ n := hok
      refine ⟨by show 0 ≤ n + 1; omega, ?_, h.keys⟩
      intro u b hb
      rcases goto_acts st t _ u b hb with ⟨_, hb⟩ | ⟨a', _, rfl, _⟩
      · have := h.acts u b hb
        revert this
        cases b.pc <;> intro this <;> first | exact this | (show 1 ≤ n + 1; omega)
      · show 1 ≤ n + 1; omega
    | test =>
      rw [hpc] at hok
      simp only
      split
      · exact counted_goto h t _ hok
      · exact counted_goto h t _ hok
    | pick =>
      rw [hpc] at hok
      have hok : 1 ≤ st.seen := hok
      exact counted_goto h t _ (by show 0 ≤ st.seen - 1; omega)
    | draw =>
      rw [hpc] at hok
      have hok : 1 ≤ st.seen := hok
      simp only
      split
      · omega
      · split
        · exact counted_goto h t _ (Int.emod_nonneg _ (by omega))
        · exact counted_goto h t _ trivial
    | find i =>
      rw [hpc] at hok
      simp only
      cases Dict.get? st.storage i with
      | none => exact counted_goto h t _ hok
      | some id => exact counted_goto h t _ trivial
    | create i =>
      rw [hpc] at hok
      exact ⟨h.seen, (counted_goto h t (.install i st.buckets.length) hok).acts, h.keys⟩
    | install i id =>
      rw [hpc] at hok
      refine ⟨h.seen, (counted_goto h t (.write id (writes a.o)) trivial).acts, ?_⟩
      intro p hp
      rcases Dict.mem_set _ _ _ _ hp with rfl | hp
      · exact hok
      · exact h.keys p hp
    | write id ws =>
      cases ws with
      | nil => exact counted_goto h t _ trivial
      | cons w ws => exact ⟨h.seen, (counted_goto h t (.write id ws) trivial).acts, h.keys⟩
    | done => exact h
    | raised => exact h

/-- **C99** As long as no collection runs, any number of threads may record at the same time: none of the calls raises. -/
theorem C99_recording_never_raises (k : Kind α) (point : MAttrs) (offers : List (Offer α × Nat)) (sched : List Nat) :
    ∀ a ∈ (run k point (State.init offers) (sched.map some)).acts, a.pc ≠ .raised := by
  have : ∀ (l : List Nat) (st : State α), Counted st → Counted (run k point st (l.map some)) := by
    intro l
    induction l with
    | nil => intro st h; exact h
    | cons t l ih => intro st h; exact ih _ (counted_offer k st t h)
  have h := this sched (State.init offers) ⟨le_refl _, by
    intro t a ha
    simp only [State.init, List.getElem?_map, Option.map_eq_some_iff] at ha
    obtain ⟨x, _, rfl⟩ := ha
    trivial, by simp [State.init]⟩
  intro a ha hr
  obtain ⟨t, ht⟩ := List.mem_iff_getElem?.1 ha
  have := h.acts t a ht
  rw [hr] at this
  exact this

/-! ## Collections that fail -/

theorem bucket_modify (st : State α) (id id' : Nat) (f : Bucket α → Bucket α) :
    State.bucket { st with buckets := st.buckets.modify id f } id' = if id = id' ∧ id < st.buckets.length then f (st.bucket id') else st.bucket id' := by
  unfold State.bucket
  simp only [List.getElem?_modify]
  by_cases h : id = id'
  · subst h
    by_cases hl : id < st.buckets.length
    · rw [List.getElem?_eq_getElem hl]; simp [hl]
    · rw [List.getElem?_eq_none (by omega)]; simp [hl]
  · cases hb : st.buckets[id']? <;> simp [h]

theorem bucket_append (st : State α) (id : Nat) : State.bucket { st with buckets := st.buckets ++ [.empty] } id = st.bucket id := by
  unfold State.bucket
  by_cases h : id < st.buckets.length
  · simp [List.getElem?_append_left h]
  · rw [List.getElem?_append_right (by omega), List.getElem?_eq_none (l := st.buckets) (by omega)]
    cases hn : ([Bucket.empty] : List (Bucket α))[id - st.buckets.length]? with
    | none => rfl
    | some b =>
      have := List.mem_of_getElem? hn
      simp at this
      simp [this]

/-- What a step of a call changes. -/
theorem offer_change (k : Kind α) (os : List (Offer α)) (st : State α) (t : Nat) (hm : ∀ (t : Nat) a, st.acts[t]? = some a → a.o ∈ os) :
    (∀ (u : Nat) a, (stepOffer k st t).acts[u]? = some a → a.o ∈ os) ∧ (stepOffer k st t).coll = st.coll ∧ (stepOffer k st t).failed = st.failed ∧
    ∀ id, ((stepOffer k st t).bucket id).attrs = (st.bucket id).attrs ∨ ∃ o ∈ os, ((stepOffer k st t).bucket id).attrs = o.attrs := by
  have mg : ∀ pc (u : Nat) a, (st.goto t pc).acts[u]? = some a → a.o ∈ os := by
    intro pc u a ha
    rcases goto_acts st t pc u a ha with ⟨_, ha⟩ | ⟨b, hb, rfl, _⟩
    · exact hm u a ha
    · exact hm t b hb
  unfold stepOffer
  cases ha : st.acts[t]? with
  | none => exact ⟨hm, rfl, rfl, fun id => .inl rfl⟩
  | some a =>
    simp only
    cases hpc : a.pc with
    | load => cases k <;> exact ⟨mg _, rfl, rfl, fun id => .inl rfl⟩
    | store n => exact ⟨mg _, rfl, rfl, fun id => .inl rfl⟩
    | test => simp only; split <;> exact ⟨mg _, rfl, rfl, fun id => .inl rfl⟩
    | pick => exact ⟨mg _, rfl, rfl, fun id => .inl rfl⟩
    | draw =>
      simp only
      split
      · exact ⟨mg _, rfl, rfl, fun id => .inl rfl⟩
      · split <;> exact ⟨mg _, rfl, rfl, fun id => .inl rfl⟩
    | find i =>
      simp only
      cases Dict.get? st.storage i <;> exact ⟨mg _, rfl, rfl, fun id => .inl rfl⟩
    | create i => exact ⟨mg _, rfl, rfl, fun id => .inl (congrArg Bucket.attrs (bucket_append (st.goto t _) id))⟩
    | install i id => exact ⟨mg _, rfl, rfl, fun id => .inl rfl⟩
    | write id ws =>
      cases ws with
      | nil => exact ⟨mg _, rfl, rfl, fun id => .inl rfl⟩
      | cons w ws =>
        refine ⟨mg _, rfl, rfl, fun id' => ?_⟩
        show (State.bucket { (st.goto t (.write id ws)) with buckets := (st.goto t (.write id ws)).buckets.modify id fun b => b.write a.o w } id').attrs = _ ∨ ∃ o ∈ os,
          (State.bucket { (st.goto t (.write id ws)) with buckets := (st.goto t (.write id ws)).buckets.modify id fun b => b.write a.o w } id').attrs = _
        rw [bucket_modify]
        split
        · cases w with
          | attrs => exact .inr ⟨a.o, hm t a ha, rfl⟩
          | _ => exact .inl rfl
        · exact .inl rfl
    | done => exact ⟨hm, rfl, rfl, fun id => .inl rfl⟩
    | raised => exact ⟨hm, rfl, rfl, fun id => .inl rfl⟩

/-- Some measurements have attributes: the bucket whose attributes are about to be read has some. -/
structure Full (os : List (Offer α)) (st : State α) : Prop where
  mine : ∀ (t : Nat) a, st.acts[t]? = some a → a.o ∈ os
  coll : ∀ i id rest, st.coll = .attrs i id rest → (st.bucket id).attrs ≠ none
  failed : st.failed = 0

/-- No measurement has attributes. -/
structure Bare (os : List (Offer α)) (st : State α) : Prop where
  mine : ∀ (t : Nat) a, st.acts[t]? = some a → a.o ∈ os
  bare : ∀ id, (st.bucket id).attrs.getD [] = []
  coll : ∀ i id rest, st.coll ≠ .attrs i id rest
  failed : st.failed = 0

theorem full_step (k : Kind α) (point : MAttrs) (os : List (Offer α)) (hos : ∀ o ∈ os, o.attrs ≠ none) (st : State α) (m : Option Nat) (h : Full os st) :
    Full os (step k point st m) := by
  cases m with
  | some t =>
    obtain ⟨h1, h2, h3, h4⟩ := offer_change k os st t h.mine
    refine ⟨h1, ?_, h3.trans h.failed⟩
    intro i id rest hc
    have hc' : st.coll = .attrs i id rest := h2 ▸ hc
    rcases h4 id with h5 | ⟨o, ho, h5⟩
    · show ((stepOffer k st t).bucket id).attrs ≠ none
      rw [h5]; exact h.coll i id rest hc'
    · show ((stepOffer k st t).bucket id).attrs ≠ none
      rw [h5]; exact hos o ho
  | none =>
    show Full os (stepCollect k point st)
    unfold stepCollect
    cases hc : st.coll with
    | idle => exact ⟨h.mine, by simp, h.failed⟩
    | next rest =>
      cases rest with
      | nil => exact ⟨h.mine, by simp, h.failed⟩
      | cons p rest =>
        simp only
        split <;> exact ⟨h.mine, by simp, h.failed⟩
    | test i id rest =>
      simp only
      cases hb : (st.bucket id).attrs with
      | none => exact ⟨h.mine, by simp, h.failed⟩
      | some l =>
        cases l with
        | nil => exact ⟨h.mine, by simp, h.failed⟩
        | cons x l =>
          refine ⟨h.mine, ?_, h.failed⟩
          intro i' id' rest' he
          simp only [CPc.attrs.injEq] at he
          obtain ⟨_, rfl, _⟩ := he
          show (st.bucket id).attrs ≠ none
          rw [hb]; simp
    | attrs i id rest =>
      simp only
      cases hb : (st.bucket id).attrs with
      | none => exact absurd hb (h.coll i id rest hc)
      | some l => exact ⟨h.mine, by simp, h.failed⟩
    | value i id rest a => exact ⟨h.mine, by simp, h.failed⟩
    | time i id rest a v => exact ⟨h.mine, by simp, h.failed⟩
    | span i id rest a v t => exact ⟨h.mine, by simp, h.failed⟩
    | trace i id rest a v t s => exact ⟨h.mine, by simp, h.failed⟩
    | reset id rest ws => cases ws <;> exact ⟨h.mine, by simp, h.failed⟩

theorem bare_step (k : Kind α) (point : MAttrs) (os : List (Offer α)) (hos : ∀ o ∈ os, o.attrs.getD [] = []) (st : State α) (m : Option Nat) (h : Bare os st) :
    Bare os (step k point st m) := by
  cases m with
  | some t =>
    obtain ⟨h1, h2, h3, h4⟩ := offer_change k os st t h.mine
    refine ⟨h1, ?_, fun i id rest hc => h.coll i id rest (h2 ▸ hc), h3.trans h.failed⟩
    intro id
    rcases h4 id with h5 | ⟨o, ho, h5⟩
    · show ((stepOffer k st t).bucket id).attrs.getD [] = []
      rw [h5]; exact h.bare id
    · show ((stepOffer k st t).bucket id).attrs.getD [] = []
      rw [h5]; exact hos o ho
  | none =>
    show Bare os (stepCollect k point st)
    unfold stepCollect
    cases hc : st.coll with
    | idle => exact ⟨h.mine, h.bare, by simp, h.failed⟩
    | next rest =>
      cases rest with
      | nil => exact ⟨h.mine, h.bare, by simp, h.failed⟩
      | cons p rest =>
        simp only
        split <;> exact ⟨h.mine, h.bare, by simp, h.failed⟩
    | test i id rest =>
      simp only
      cases hb : (st.bucket id).attrs with
      | none => exact ⟨h.mine, h.bare, by simp, h.failed⟩
      | some l =>
        cases l with
        | nil => exact ⟨h.mine, h.bare, by simp, h.failed⟩
        | cons x l =>
          have := h.bare id
          rw [hb] at this
          simp at this
    | attrs i id rest => exact absurd hc (h.coll i id rest)
    | value i id rest a => exact ⟨h.mine, h.bare, by simp, h.failed⟩
    | time i id rest a v => exact ⟨h.mine, h.bare, by simp, h.failed⟩
    | span i id rest a v t => exact ⟨h.mine, h.bare, by simp, h.failed⟩
    | trace i id rest a v t s => exact ⟨h.mine, h.bare, by simp, h.failed⟩
    | reset id rest ws =>
      cases ws with
      | nil => exact ⟨h.mine, h.bare, by simp, h.failed⟩
      | cons w ws =>
        refine ⟨h.mine, ?_, by simp, h.failed⟩
        intro id'
        show (State.bucket { { st with coll := .reset id rest ws } with buckets := st.buckets.modify id fun b => clear b w } id').attrs.getD [] = []
        rw [bucket_modify { st with coll := .reset id rest ws }]
        split
        · cases w with
          | attrs => rfl
          | _ => exact h.bare id'
        · exact h.bare id'

/-- **C99** A collection never fails if all measurements of the stream have attributes or none has any, which is so unless a view drops attributes. -/
theorem C99_collect_never_fails (k : Kind α) (point : MAttrs) (offers : List (Offer α × Nat)) (hu : Uniform (offers.map Prod.fst)) (sched : List (Option Nat)) :
    (run k point (State.init offers) sched).failed = 0 := by
  have mine : ∀ (t : Nat) a, (State.init offers).acts[t]? = some a → a.o ∈ offers.map Prod.fst := by
    intro t a ha
    simp only [State.init, List.getElem?_map, Option.map_eq_some_iff] at ha
    obtain ⟨x, hx, rfl⟩ := ha
    exact List.mem_map_of_mem (List.mem_of_getElem? hx)
  by_cases hb : ∀ o ∈ offers.map Prod.fst, o.attrs.getD [] = []
  · have : ∀ (l : List (Option Nat)) st, Bare (offers.map Prod.fst) st → Bare (offers.map Prod.fst) (run k point st l) := by
      intro l
      induction l with
      | nil => intro st h; exact h
      | cons m l ih => intro st h; exact ih _ (bare_step k point _ hb st m h)
    exact (this sched _ ⟨mine, by simp [State.bucket, State.init, Bucket.empty], by simp [State.init], rfl⟩).failed
  · have hf : ∀ o ∈ offers.map Prod.fst, o.attrs ≠ none := by
      intro o ho hn
      apply hb
      intro o' ho'
      exact (hu o ho o' ho').1 (by rw [hn]; rfl)
    have : ∀ (l : List (Option Nat)) st, Full (offers.map Prod.fst) st → Full (offers.map Prod.fst) (run k point st l) := by
      intro l
      induction l with
      | nil => intro st h; exact h
      | cons m l ih => intro st h; exact ih _ (full_step k point _ hf st m h)
    exact (this sched _ ⟨mine, by simp [State.init], rfl⟩).failed

/-! ## One call at a time -/

/-- The state with the call `t` at `pc` and these variables. -/
def X (st : State α) (t : Nat) (pc : OPc) (seen : Int) (storage : Dict Int Nat) (buckets : List (Bucket α)) : State α :=
  { st with acts := st.acts.modify t fun a => { a with pc := pc }, seen := seen, storage := storage, buckets := buckets }

theorem X_at (st : State α) (t : Nat) (a : Act α) (h : st.acts[t]? = some a) (pc : OPc) (s : Int) (d : Dict Int Nat) (b : List (Bucket α)) :
    (X st t pc s d b).acts[t]? = some { a with pc := pc } := by
  simp [X, List.getElem?_modify, h]

theorem X_goto (st : State α) (t : Nat) (pc pc' : OPc) (s : Int) (d : Dict Int Nat) (b : List (Bucket α)) : (X st t pc s d b).goto t pc' = X st t pc' s d b := by
  simp only [X, State.goto, List.modify_modify_eq]
  rfl

theorem X_self (st : State α) (t : Nat) (a : Act α) (h : st.acts[t]? = some a) : X st t a.pc st.seen st.storage st.buckets = st := by
  have : st.acts.modify t (fun b => { b with pc := a.pc }) = st.acts := by
    apply List.ext_getElem?
    intro u
    rw [List.getElem?_modify]
    by_cases hu : t = u
    · subst hu; rw [h]; simp
    · cases st.acts[u]? <;> simp [hu]
  unfold X
  rw [this]

theorem runs_det {k : Kind α} {point : MAttrs} {m : Option Nat} {stop : State α → Prop} {st s₁ s₂ : State α} (h₁ : Runs k point m stop st s₁) (h₂ : Runs k point m stop st s₂) : s₁ = s₂ := by
  induction h₁ with
  | stop st h =>
    cases h₂ with
    | stop _ _ => rfl
    | step _ _ hn _ => exact absurd h hn
  | step st st' hn _ ih =>
    cases h₂ with
    | stop _ h => exact absurd h hn
    | step _ _ _ h => exact ih h

/-- A step of a call that has not ended. -/
theorem runs_X {k : Kind α} {point : MAttrs} {st : State α} {t : Nat} {a : Act α} (h : st.acts[t]? = some a) {pc pc' : OPc} {s s' : Int} {d d' : Dict Int Nat} {b b' : List (Bucket α)}
    {st' : State α} (hpc : pc ≠ .done) (hpc' : pc ≠ .raised) (hs : stepOffer k (X st t pc s d b) t = X st t pc' s' d' b') (hr : Runs k point (some t) (Ended t) (X st t pc' s' d' b') st') :
    Runs k point (some t) (Ended t) (X st t pc s d b) st' := by
  refine .step _ _ ?_ (by show Runs k point (some t) (Ended t) (stepOffer k _ t) st'; rw [hs]; exact hr)
  intro he
  rcases he _ (X_at st t a h pc s d b) with h | h
  · exact hpc h
  · exact hpc' h

theorem runs_done {k : Kind α} {point : MAttrs} {st : State α} {t : Nat} {a : Act α} (h : st.acts[t]? = some a) (s : Int) (d : Dict Int Nat) (b : List (Bucket α)) :
    Runs k point (some t) (Ended t) (X st t .done s d b) (X st t .done s d b) := by
  refine .stop _ fun c hc => ?_
  rw [X_at st t a h] at hc
  injection hc with hc
  exact .inl (hc ▸ rfl)

theorem modify_modify {β : Type} (l : List β) (i : Nat) (f g : β → β) : (l.modify i f).modify i g = l.modify i fun x => g (f x) := List.modify_modify_eq ..

theorem runs_writes {k : Kind α} {point : MAttrs} {st : State α} {t : Nat} {a : Act α} (h : st.acts[t]? = some a) (s : Int) (d : Dict Int Nat) (id : Nat) (ws : List Write) :
    ∀ b : List (Bucket α), Runs k point (some t) (Ended t) (X st t (.write id ws) s d b) (X st t .done s d (b.modify id fun x => ws.foldl (fun x w => x.write a.o w) x)) := by
  induction ws with
  | nil =>
    intro b
    refine runs_X h (pc' := .done) (s' := s) (d' := d) (b' := b) (by simp) (by simp) ?_ ?_
    · unfold stepOffer; rw [X_at st t a h]; simp only; rw [X_goto]
    · have : b.modify id (fun x => ([] : List Write).foldl (fun x w => x.write a.o w) x) = b := by
        simp only [List.foldl_nil]
        exact List.modify_id ..
      rw [this]
      exact runs_done h s d b
  | cons w ws ih =>
    intro b
    refine runs_X h (pc' := .write id ws) (s' := s) (d' := d) (b' := b.modify id fun x => x.write a.o w) (by simp) (by simp) ?_ ?_
    · unfold stepOffer; rw [X_at st t a h]; simp only; rw [X_goto]; rfl
    · have := ih (b.modify id fun x => x.write a.o w)
      rw [modify_modify] at this
      exact this

theorem foldl_writes (o : Offer α) (b : Bucket α) : (writes o).foldl (fun x w => x.write o w) b = b.offer o := by
  cases hs : o.span with
  | none => simp [writes, hs, Bucket.write, Bucket.offer]
  | some x => simp [writes, hs, Bucket.write, Bucket.offer]

/-- The storage and the buckets after the measurement was put into the bucket with key `i`. -/
def putIn (i : Int) (o : Offer α) (d : Dict Int Nat) (b : List (Bucket α)) : Dict Int Nat × List (Bucket α) :=
  match Dict.get? d i with
  | some id => (d, b.modify id fun x => x.offer o)
  | none => (Dict.set d i b.length, (b ++ [Bucket.empty]).modify b.length fun x => x.offer o)

theorem runs_find {k : Kind α} {point : MAttrs} {st : State α} {t : Nat} {a : Act α} (h : st.acts[t]? = some a) (s : Int) (i : Int) (d : Dict Int Nat) (b : List (Bucket α)) :
    Runs k point (some t) (Ended t) (X st t (.find i) s d b) (X st t .done s (putIn i a.o d b).1 (putIn i a.o d b).2) := by
  unfold putIn
  cases hg : Dict.get? d i with
  | some id =>
    refine runs_X h (pc' := .write id (writes a.o)) (s' := s) (d' := d) (b' := b) (by simp) (by simp) ?_ ?_
    · unfold stepOffer; rw [X_at st t a h]
      have : Dict.get? (X st t (.find i) s d b).storage i = some id := hg
      simp only [this]; rw [X_goto]
    · have := runs_writes (k := k) (point := point) h s d id (writes a.o) b
      simp only [foldl_writes] at this
      exact this
  | none =>
    refine runs_X h (pc' := .create i) (s' := s) (d' := d) (b' := b) (by simp) (by simp) ?_ ?_
    · unfold stepOffer; rw [X_at st t a h]
      have : Dict.get? (X st t (.find i) s d b).storage i = none := hg
      simp only [this]; rw [X_goto]
    · refine runs_X h (pc' := .install i b.length) (s' := s) (d' := d) (b' := b ++ [.empty]) (by simp) (by simp) ?_ ?_
      · unfold stepOffer; rw [X_at st t a h]; simp only; rw [X_goto]; rfl
      · refine runs_X h (pc' := .write b.length (writes a.o)) (s' := s) (d' := Dict.set d i b.length) (b' := b ++ [.empty]) (by simp) (by simp) ?_ ?_
        · unfold stepOffer; rw [X_at st t a h]; simp only; rw [X_goto]; rfl
        · have := runs_writes (k := k) (point := point) h s (Dict.set d i b.length) b.length (writes a.o) (b ++ [.empty])
          simp only [foldl_writes] at this
          exact this

/-- The reservoir, as a single thread sees it. -/
structure Rel (st : State α) (r : Res α) : Prop where
  idle : st.coll = .idle
  seen : st.seen = r.seen
  nodup : st.storage.keys.Nodup
  keys : ∀ p ∈ st.storage, (∃ n : Nat, p.1 = n ∧ n < r.bound) ∧ p.2 < st.buckets.length
  apart : ∀ p ∈ st.storage, ∀ q ∈ st.storage, p.2 = q.2 → p = q
  same : ∀ n : Nat, r.bucket n = match Dict.get? st.storage (n : Int) with | some id => st.bucket id | none => .empty

theorem rel_put (st : State α) (t : Nat) (r : Res α) (h : Rel st r) (n : Nat) (o : Offer α) (s : Nat) :
    Rel (X st t .done s (putIn n o st.storage st.buckets).1 (putIn n o st.storage st.buckets).2) ({ r with seen := s }.put n o) := by
  unfold putIn
  cases hg : Dict.get? st.storage (n : Int) with
  | some id =>
    have hmem := Dict.mem_of_get? _ _ _ hg
    refine ⟨h.idle, rfl, h.nodup, ?_, h.apart, ?_⟩
    · intro p hp
      obtain ⟨⟨m, hm, hb⟩, hl⟩ := h.keys p hp
      refine ⟨⟨m, hm, ?_⟩, by simpa [X] using hl⟩
      show m < max r.bound (n + 1)
      omega
    · intro m
      show Function.update r.bucket n ((r.bucket n).offer o) m = match Dict.get? st.storage (m : Int) with
        | some id' => ((st.buckets.modify id fun x => x.offer o)[id']?).getD .empty
        | none => .empty
      have hlen := (h.keys _ hmem).2
      simp only at hlen
      by_cases hm : m = n
      · subst hm
        rw [Function.update_self, h.same m, hg]
        simp only
        have := bucket_modify st id id (fun x => x.offer o)
        rw [if_pos ⟨rfl, hlen⟩] at this
        exact this.symm
      · rw [Function.update_of_ne hm, h.same m]
        cases hg' : Dict.get? st.storage (m : Int) with
        | none => rfl
        | some id' =>
          simp only
          have hne : ¬ (id = id' ∧ id < st.buckets.length) := by
            rintro ⟨e, _⟩
            have := h.apart _ hmem _ (Dict.mem_of_get? _ _ _ hg') e
            simp only [Prod.mk.injEq] at this
            exact hm (by omega)
          have := bucket_modify st id id' (fun x => x.offer o)
          rw [if_neg hne] at this
          exact this.symm
  | none =>
    have hnk := (Dict.get?_eq_none_iff _ _).1 hg
    have hset := Dict.set_of_not_mem st.storage (n : Int) st.buckets.length hnk
    have hlen : ((st.buckets ++ [Bucket.empty]).modify st.buckets.length fun x => x.offer o).length = st.buckets.length + 1 := by simp
    refine ⟨h.idle, rfl, Dict.nodup_set _ _ _ h.nodup, ?_, ?_, ?_⟩
    · intro p hp
      show (∃ m : Nat, p.1 = m ∧ m < max r.bound (n + 1)) ∧ p.2 < ((st.buckets ++ [Bucket.empty]).modify st.buckets.length fun x => x.offer o).length
      rw [hlen]
      rcases Dict.mem_set _ _ _ _ hp with rfl | hp
      · exact ⟨⟨n, rfl, by omega⟩, by simp⟩
      · obtain ⟨⟨m, hm, hb⟩, hl⟩ := h.keys p hp
        exact ⟨⟨m, hm, by omega⟩, by omega⟩
    · intro p hp q hq he
      have hp : p ∈ Dict.set st.storage (n : Int) st.buckets.length := hp
      have hq : q ∈ Dict.set st.storage (n : Int) st.buckets.length := hq
      rcases Dict.mem_set _ _ _ _ hp with rfl | hp <;> rcases Dict.mem_set _ _ _ _ hq with rfl | hq
      · rfl
      · have := (h.keys q hq).2; simp only at he; omega
      · have := (h.keys p hp).2; simp only at he; omega
      · exact h.apart p hp q hq he
    · intro m
      show Function.update r.bucket n ((r.bucket n).offer o) m = match Dict.get? (Dict.set st.storage (n : Int) st.buckets.length) (m : Int) with
        | some id' => (((st.buckets ++ [Bucket.empty]).modify st.buckets.length fun x => x.offer o)[id']?).getD .empty
        | none => .empty
      rw [Dict.get?_set]
      by_cases hm : m = n
      · subst hm
        rw [Function.update_self, if_pos rfl, h.same m, hg]
        simp [List.getElem?_modify]
      · rw [Function.update_of_ne hm, if_neg (by omega), h.same m]
        cases hg' : Dict.get? st.storage (m : Int) with
        | none => rfl
        | some id' =>
          simp only
          have hl := (h.keys _ (Dict.mem_of_get? _ _ _ hg')).2
          simp only at hl
          have hne : st.buckets.length ≠ id' := by omega
          rw [List.getElem?_modify, List.getElem?_append_left hl]
          simp [State.bucket, hne]

/-- A call of `offer` that nothing interrupts. -/
theorem offer_alone (k : Kind α) (point : MAttrs) (st : State α) (t : Nat) (a : Act α) (r : Res α) (h : Rel st r) (ha : st.acts[t]? = some a) (hpc : a.pc = .load) :
    ∃ s' d' b', Runs k point (some t) (Ended t) st (X st t .done s' d' b') ∧ Rel (X st t .done s' d' b') (stepRes k r (.offer a.o a.r)) := by
  have hself := X_self st t a ha
  rw [hpc] at hself
  cases k with
  | aligned bs =>
    refine ⟨_, _, _, ?_, rel_put st t r h (alignedIndex a.o.value bs) a.o r.seen⟩
    have hsuf : ∀ st', Runs (.aligned bs) point (some t) (Ended t) (X st t .load st.seen st.storage st.buckets) st' → Runs (.aligned bs) point (some t) (Ended t) st st' := by
      intro st' h'; rw [hself] at h'; exact h'
    apply hsuf
    refine runs_X (st := st) ha (pc' := .find (alignedIndex a.o.value bs)) (s' := st.seen) (d' := st.storage) (b' := st.buckets) (by simp) (by simp) ?_ ?_
    · unfold stepOffer; rw [X_at st t a ha]; simp only; rw [X_goto]
    · have := runs_find (k := .aligned bs) (point := point) ha st.seen (alignedIndex a.o.value bs) st.storage st.buckets
      rw [h.seen] at this ⊢
      exact this
  | simple size =>
    have pre : ∀ st', Runs (.simple size) point (some t) (Ended t) (X st t .test (st.seen + 1) st.storage st.buckets) st' → Runs (.simple size) point (some t) (Ended t) st st' := by
      intro st' hr
      rw [← hself]
      refine runs_X (st := st) ha (pc' := .store st.seen) (s' := st.seen) (d' := st.storage) (b' := st.buckets) (by simp) (by simp) ?_ ?_
      · unfold stepOffer; rw [X_at st t a ha]; simp only; rw [X_goto]; rfl
      · refine runs_X (st := st) ha (by simp) (by simp) ?_ hr
        unfold stepOffer; rw [X_at st t a ha]; simp only; rw [X_goto]; rfl
    have hseen : st.seen + 1 = ((r.seen + 1 : Nat) : Int) := by rw [h.seen]; push_cast; rfl
    rw [hseen] at pre
    show ∃ s' d' b', _ ∧ Rel _ (r.offerSimple size a.o a.r)
    unfold Res.offerSimple
    simp only
    by_cases hlt : r.seen + 1 < size
    · rw [if_pos hlt]
      refine ⟨_, _, _, pre _ ?_, rel_put st t r h (r.seen + 1 - 1) a.o (r.seen + 1)⟩
      refine runs_X (st := st) ha (pc' := .pick) (s' := ((r.seen + 1 : Nat) : Int)) (d' := st.storage) (b' := st.buckets) (by simp) (by simp) ?_ ?_
      · unfold stepOffer; rw [X_at st t a ha]; simp only
        rw [if_pos (by show ((r.seen + 1 : Nat) : Int) < (size : Int); omega), X_goto]
      · refine runs_X (st := st) ha (pc' := .find (((r.seen + 1 - 1 : Nat) : Int))) (s' := ((r.seen + 1 : Nat) : Int)) (d' := st.storage) (b' := st.buckets) (by simp) (by simp) ?_
          (runs_find ha _ _ _ _)
        unfold stepOffer; rw [X_at st t a ha]; simp only; rw [X_goto]
        show X st t (.find (((r.seen + 1 : Nat) : Int) - 1)) _ _ _ = _
        congr 2
        omega
    · rw [if_neg hlt]
      have hdraw : ∀ st', Runs (.simple size) point (some t) (Ended t) (X st t .draw ((r.seen + 1 : Nat) : Int) st.storage st.buckets) st' →
          Runs (.simple size) point (some t) (Ended t) st st' := by
        intro st' hr
        refine pre _ (runs_X (st := st) ha (by simp) (by simp) ?_ hr)
        unfold stepOffer; rw [X_at st t a ha]; simp only
        rw [if_neg (by show ¬ ((r.seen + 1 : Nat) : Int) < (size : Int); omega), X_goto]
      have hmod : ((a.r : Int) % ((r.seen + 1 : Nat) : Int)) = ((a.r % (r.seen + 1) : Nat) : Int) := by push_cast; rfl
      by_cases hi : a.r % (r.seen + 1) < size
      · rw [if_pos hi]
        refine ⟨_, _, _, hdraw _ ?_, rel_put st t r h (a.r % (r.seen + 1)) a.o (r.seen + 1)⟩
        refine runs_X (st := st) ha (pc' := .find ((a.r % (r.seen + 1) : Nat) : Int)) (s' := ((r.seen + 1 : Nat) : Int)) (d' := st.storage) (b' := st.buckets) (by simp) (by simp) ?_
          (runs_find ha _ _ _ _)
        unfold stepOffer; rw [X_at st t a ha]; simp only
        rw [if_neg (by show ¬ ((r.seen + 1 : Nat) : Int) ≤ 0; omega)]
        show (if (a.r : Int) % ((r.seen + 1 : Nat) : Int) < (size : Int) then State.goto _ t (.find ((a.r : Int) % ((r.seen + 1 : Nat) : Int))) else _) = _
        rw [hmod, if_pos (by omega), X_goto]
      · rw [if_neg hi]
        refine ⟨((r.seen + 1 : Nat) : Int), st.storage, st.buckets, hdraw _ ?_, ?_⟩
        · refine runs_X (st := st) ha (pc' := .done) (s' := ((r.seen + 1 : Nat) : Int)) (d' := st.storage) (b' := st.buckets) (by simp) (by simp) ?_ (runs_done ha _ _ _)
          unfold stepOffer; rw [X_at st t a ha]; simp only
          rw [if_neg (by show ¬ ((r.seen + 1 : Nat) : Int) ≤ 0; omega)]
          show (if (a.r : Int) % ((r.seen + 1 : Nat) : Int) < (size : Int) then _ else State.goto _ t .done) = _
          rw [hmod, if_neg (by omega), X_goto]
        · exact ⟨h.idle, rfl, h.nodup, h.keys, h.apart, h.same⟩

/-- The state with these variables of the collection. -/
def Y (st : State α) (coll : CPc α) (out : List (Int × Ex α)) (buckets : List (Bucket α)) : State α := { st with coll := coll, out := out, buckets := buckets }

theorem runs_Y {k : Kind α} {point : MAttrs} {st : State α} {c c' : CPc α} {out out' : List (Int × Ex α)} {b b' : List (Bucket α)} {st' : State α} (hc : c ≠ .idle)
    (hs : stepCollect k point (Y st c out b) = Y st c' out' b') (hr : Runs k point none Idle (Y st c' out' b') st') : Runs k point none Idle (Y st c out b) st' := by
  refine .step _ _ (fun he => hc he) ?_
  show Runs k point none Idle (stepCollect k point _) st'
  rw [hs]; exact hr

theorem runs_clears {k : Kind α} {point : MAttrs} {st : State α} {out : List (Int × Ex α)} {id : Nat} {rest : List (Int × Nat)} {st' : State α} (ws : List Write) :
    ∀ b : List (Bucket α), Runs k point none Idle (Y st (.next rest) out (b.modify id fun x => ws.foldl clear x)) st' →
      Runs k point none Idle (Y st (.reset id rest ws) out b) st' := by
  induction ws with
  | nil =>
    intro b hr
    refine runs_Y (c' := .next rest) (out' := out) (b' := b) (by simp) rfl ?_
    have : b.modify id (fun x => ([] : List Write).foldl clear x) = b := by
      simp only [List.foldl_nil]
      exact List.modify_id ..
    rw [this] at hr
    exact hr
  | cons w ws ih =>
    intro b hr
    refine runs_Y (c' := .reset id rest ws) (out' := out) (b' := b.modify id fun x => clear x w) (by simp) rfl ?_
    apply ih
    rw [modify_modify]
    exact hr

theorem foldl_clears (b : Bucket α) : clears.foldl clear b = ⟨0, some [], 0, none, none, false⟩ := rfl

/-- What the collection gets from the bucket with this key and number. -/
def fetched (point : MAttrs) (b : List (Bucket α)) (p : Int × Nat) : Option (Int × Ex α) := ((b[p.2]?.getD .empty).collect point).1.map fun e => (p.1, e)

/-- One bucket. -/
theorem runs_bucket {k : Kind α} {point : MAttrs} {st : State α} {out : List (Int × Ex α)} {i : Int} {id : Nat} {rest : List (Int × Nat)} {b : List (Bucket α)} {st' : State α}
    (hr : Runs k point none Idle (Y st (.next rest) (out ++ (fetched point b (i, id)).toList) (b.modify id fun x => (x.collect point).2)) st') :
    Runs k point none Idle (Y st (.next ((i, id) :: rest)) out b) st' := by
  cases hx : b[id]? with
  | none =>
    have hm : b.modify id (fun x => (x.collect point).2) = b := List.modify_eq_self (by simpa using hx)
    have hf : fetched point b (i, id) = none := by simp [fetched, hx, Bucket.collect, Bucket.empty]
    rw [hm, hf] at hr
    refine runs_Y (c' := .next rest) (out' := out) (b' := b) (by simp) ?_ (by simpa using hr)
    show (if ((Y st _ out b).bucket id).offered then _ else _) = _
    rw [if_neg (by simp [State.bucket, Y, hx, Bucket.empty])]
    rfl
  | some x =>
    have hb : ∀ c o, (Y st c o b).bucket id = x := by intro c o; simp [State.bucket, Y, hx]
    by_cases ho : x.offered
    · have hf : fetched point b (i, id) = some (i, ⟨filtered point x.attrs, x.value, x.time, x.spanId, x.traceId⟩) := by simp [fetched, hx, Bucket.collect, ho]
      have hm : b.modify id (fun x => (x.collect point).2) = b.modify id fun x => clears.foldl clear x := by
        apply List.ext_getElem?
        intro u
        rw [List.getElem?_modify, List.getElem?_modify]
        by_cases hu : id = u
        · subst hu; simp [hx, foldl_clears, Bucket.collect, ho]
        · simp [hu]
      rw [hf, hm] at hr
      simp only [Option.toList_some] at hr
      refine runs_Y (c' := .test i id rest) (out' := out) (b' := b) (by simp) ?_ ?_
      · show (if ((Y st _ out b).bucket id).offered then _ else _) = _
        rw [if_pos (by rw [hb]; exact ho)]
        rfl
      have tail : Runs k point none Idle (Y st (.value i id rest (filtered point x.attrs)) out b) st' := by
        refine runs_Y (c' := .time i id rest (filtered point x.attrs) x.value) (out' := out) (b' := b) (by simp) ?_ ?_
        · show Y st (.time i id rest (filtered point x.attrs) ((Y st _ out b).bucket id).value) out b = _
          rw [hb]
        refine runs_Y (c' := .span i id rest (filtered point x.attrs) x.value x.time) (out' := out) (b' := b) (by simp) ?_ ?_
        · show Y st (.span i id rest (filtered point x.attrs) x.value ((Y st _ out b).bucket id).time) out b = _
          rw [hb]
        refine runs_Y (c' := .trace i id rest (filtered point x.attrs) x.value x.time x.spanId) (out' := out) (b' := b) (by simp) ?_ ?_
        · show Y st (.trace i id rest (filtered point x.attrs) x.value x.time ((Y st _ out b).bucket id).spanId) out b = _
          rw [hb]
        refine runs_Y (c' := .reset id rest clears) (out' := out ++ [(i, ⟨filtered point x.attrs, x.value, x.time, x.spanId, x.traceId⟩)]) (b' := b) (by simp) ?_ ?_
        · show Y st (.reset id rest clears) (out ++ [(i, ⟨filtered point x.attrs, x.value, x.time, x.spanId, ((Y st _ out b).bucket id).traceId⟩)]) b = _
          rw [hb]
        exact runs_clears _ _ hr
      rcases hat : x.attrs with _ | _ | ⟨y, l⟩
      · rw [hat] at tail
        refine runs_Y (c' := .value i id rest none) (out' := out) (b' := b) (by simp) ?_ tail
        unfold stepCollect
        simp only [Y] at hb ⊢
        rw [hb, hat]
      · rw [hat] at tail
        refine runs_Y (c' := .value i id rest none) (out' := out) (b' := b) (by simp) ?_ tail
        unfold stepCollect
        simp only [Y] at hb ⊢
        rw [hb, hat]
      · rw [hat] at tail
        refine runs_Y (c' := .attrs i id rest) (out' := out) (b' := b) (by simp) ?_ ?_
        · unfold stepCollect
          simp only [Y] at hb ⊢
          rw [hb, hat]
        refine runs_Y (out' := out) (b' := b) (by simp) ?_ tail
        unfold stepCollect
        simp only [Y] at hb ⊢
        rw [hb, hat]
        rfl
    · have hf : fetched point b (i, id) = none := by simp [fetched, hx, Bucket.collect, ho]
      have hm : b.modify id (fun x => (x.collect point).2) = b := by
        apply List.ext_getElem?
        intro u
        rw [List.getElem?_modify]
        by_cases hu : id = u
        · subst hu; simp [hx, Bucket.collect, ho]
        · simp [hu]
      rw [hm, hf] at hr
      refine runs_Y (c' := .next rest) (out' := out) (b' := b) (by simp) ?_ (by simpa using hr)
      show (if ((Y st _ out b).bucket id).offered then _ else _) = _
      rw [if_neg (by rw [hb]; exact ho)]
      rfl

/-- The count after a collection. -/
def seenAfter (k : Kind α) (n : Int) : Int := match k with | .simple _ => 0 | .aligned _ => n

theorem runs_rest (k : Kind α) (point : MAttrs) (st : State α) (rest : List (Int × Nat)) : ∀ (out : List (Int × Ex α)) (b : List (Bucket α)), (rest.map Prod.snd).Nodup →
    ∃ b' : List (Bucket α), b'.length = b.length ∧ (∀ u : Nat, b'[u]?.getD .empty = if u ∈ rest.map Prod.snd then ((b[u]?.getD .empty).collect point).2 else b[u]?.getD .empty) ∧
      ∃ o : List (Int × Ex α), Runs k point none Idle (Y st (.next rest) out b)
        { Y st .idle o b' with got := st.got ++ [out ++ rest.filterMap (fetched point b)], seen := seenAfter k st.seen } := by
  induction rest with
  | nil =>
    intro out b _
    refine ⟨b, rfl, by simp, out, ?_⟩
    refine .step _ _ (fun he => by cases he) ?_
    have : step k point (Y st (.next []) out b) none = { Y st .idle out b with got := st.got ++ [out ++ [].filterMap (fetched point b)], seen := seenAfter k st.seen } := by
      cases k <;> simp [step, stepCollect, Y, seenAfter]
    rw [this]
    exact .stop _ rfl
  | cons p rest ih =>
    intro out b hn
    obtain ⟨i, id⟩ := p
    simp only [List.map_cons, List.nodup_cons] at hn
    obtain ⟨b', hl, hb', o, hr⟩ := ih (out ++ (fetched point b (i, id)).toList) (b.modify id fun x => (x.collect point).2) hn.2
    have hget : ∀ u : Nat, (b.modify id fun x => (x.collect point).2)[u]?.getD .empty = if u = id then ((b[u]?.getD .empty).collect point).2 else b[u]?.getD .empty := by
      intro u
      rw [List.getElem?_modify]
      by_cases hu : id = u
      · subst hu
        cases b[id]? <;> simp [Bucket.collect, Bucket.empty]
      · have hu' : ¬ u = id := fun e => hu e.symm
        simp [hu, hu']
    refine ⟨b', by simpa using hl, ?_, o, ?_⟩
    · intro u
      rw [hb' u, hget u]
      by_cases hu : u = id
      · subst hu
        rw [if_neg hn.1]
        simp
      · have hmm : u ∈ ((i, id) :: rest).map Prod.snd ↔ u ∈ rest.map Prod.snd := by simp only [List.map_cons, List.mem_cons, hu, false_or]
        simp only [hu, if_false, hmm]
    · have hfm : rest.filterMap (fetched point (b.modify id fun x => (x.collect point).2)) = rest.filterMap (fetched point b) := by
        apply List.filterMap_congr
        intro q hq
        unfold fetched
        rw [hget, if_neg]
        rintro rfl
        exact hn.1 (List.mem_map_of_mem hq)
      have : out ++ ((i, id) :: rest).filterMap (fetched point b) = out ++ (fetched point b (i, id)).toList ++ rest.filterMap (fetched point (b.modify id fun x => (x.collect point).2)) := by
        rw [hfm, List.filterMap_cons, List.append_assoc]
        cases fetched point b (i, id) <;> simp
      rw [this]
      exact runs_bucket hr

/-- The buckets by ascending key. -/
theorem sorted_storage (st : State α) (r : Res α) (h : Rel st r) (point : MAttrs) :
    ((st.storage.insertionSort fun a b => a.1 ≤ b.1).filterMap (fetched point st.buckets)).map Prod.snd = (r.collect point).1 := by
  have hperm := List.perm_insertionSort (fun a b : Int × Nat => a.1 ≤ b.1) st.storage
  have hsort := List.pairwise_insertionSort (fun a b : Int × Nat => a.1 ≤ b.1) st.storage
  generalize st.storage.insertionSort (fun a b : Int × Nat => a.1 ≤ b.1) = l at hperm hsort
  have hkeys : (l.map Prod.fst).Nodup := (hperm.map Prod.fst).nodup_iff.2 h.nodup
  have hnat : ∀ p ∈ l, p.1 = ((p.1.toNat : Nat) : Int) ∧ p.1.toNat < r.bound := by
    intro p hp
    obtain ⟨⟨n, hn, hb⟩, _⟩ := h.keys p (hperm.mem_iff.1 hp)
    rw [hn]; exact ⟨by simp, by simpa using hb⟩
  have hL : (List.range r.bound).filter (fun n => decide (n ∈ l.map fun p => p.1.toNat)) = l.map fun p => p.1.toNat := by
    have hinc : (l.map fun p => p.1.toNat).Pairwise (· < ·) := by
      rw [List.pairwise_map]
      have hlt : l.Pairwise fun a b => a.1 ≤ b.1 ∧ a.1 ≠ b.1 := hsort.and (List.pairwise_map.1 hkeys)
      refine hlt.imp_of_mem fun {a b} ha hb hab => ?_
      have h1 := (hnat a ha).1
      have h2 := (hnat b hb).1
      omega
    have hn1 : ((List.range r.bound).filter (fun n => decide (n ∈ l.map fun p => p.1.toNat))).Nodup := List.nodup_range.filter _
    have hn2 : (l.map fun p => p.1.toNat).Nodup := hinc.imp fun h => Nat.ne_of_lt h
    refine List.Perm.eq_of_pairwise (le := (· ≤ ·)) (fun a b _ _ hab hba => Nat.le_antisymm hab hba) ?_ (hinc.imp Nat.le_of_lt) ?_
    · exact (List.pairwise_lt_range.imp Nat.le_of_lt).filter _
    · refine (List.perm_ext_iff_of_nodup hn1 hn2).2 fun n => ?_
      rw [List.mem_filter, decide_eq_true_iff, List.mem_range]
      constructor
      · exact And.right
      · intro hn
        refine ⟨?_, hn⟩
        obtain ⟨p, hp, rfl⟩ := List.mem_map.1 hn
        exact (hnat p hp).2
  have hget : ∀ p ∈ l, r.bucket p.1.toNat = st.buckets[p.2]?.getD .empty := by
    intro p hp
    have hp' : (p.1, p.2) ∈ st.storage := hperm.mem_iff.1 hp
    rw [h.same, ← (hnat p hp).1, Dict.get?_of_mem _ h.nodup _ _ hp']
    rfl
  show _ = (List.range r.bound).filterMap fun i => ((r.bucket i).collect point).1
  have hsub : (List.range r.bound).filterMap (fun i => ((r.bucket i).collect point).1) =
      ((List.range r.bound).filter (fun n => decide (n ∈ l.map fun p => p.1.toNat))).filterMap (fun i => ((r.bucket i).collect point).1) := by
    rw [List.filterMap_filter]
    apply List.filterMap_congr
    intro n _
    by_cases hn : n ∈ l.map fun p => p.1.toNat
    · simp only [hn, decide_true, if_true]
    · simp only [hn, decide_false]
      have : Dict.get? st.storage (n : Int) = none := by
        rw [Dict.get?_eq_none_iff]
        intro hc
        obtain ⟨p, hp, he⟩ := List.mem_map.1 hc
        exact hn (List.mem_map.2 ⟨p, hperm.mem_iff.2 hp, by rw [he]; simp⟩)
      rw [h.same, this]
      simp [Bucket.collect, Bucket.empty]
  rw [hsub, hL, List.filterMap_map, List.map_filterMap]
  apply List.filterMap_congr
  intro p hp
  simp only [fetched, Function.comp_apply, hget p hp]
  cases ((st.buckets[p.2]?.getD .empty).collect point).1 <;> rfl

/-- A collection that nothing interrupts. -/
theorem collect_alone (k : Kind α) (point : MAttrs) (st : State α) (r : Res α) (h : Rel st r) (hk : ∀ bs, k = .aligned bs → r.seen = 0) :
    ∃ st', Runs k point none Idle (step k point st none) st' ∧ Rel st' (stepRes k r (.collect point)) ∧ st'.acts = st.acts ∧ st'.failed = st.failed ∧
      ∃ g, st'.got = st.got ++ [g] ∧ g.map Prod.snd = (r.collect point).1 := by
  have hperm := List.perm_insertionSort (fun a b : Int × Nat => a.1 ≤ b.1) st.storage
  have hnd : ((st.storage.insertionSort fun a b => a.1 ≤ b.1).map Prod.snd).Nodup := by
    rw [(hperm.map Prod.snd).nodup_iff]
    have hst : st.storage.Nodup := List.Nodup.of_map _ h.nodup
    exact hst.map_on fun p hp q hq => h.apart p hp q hq
  have hstep : step k point st none = Y st (.next (st.storage.insertionSort fun a b => a.1 ≤ b.1)) [] st.buckets := by
    simp only [step, stepCollect, h.idle, Y]
  obtain ⟨b', hl, hb', o, hr⟩ := runs_rest k point st _ [] st.buckets hnd
  rw [hstep]
  refine ⟨_, hr, ?_, rfl, rfl, _, rfl, ?_⟩
  · have hres : stepRes k r (.collect point) = (r.collect point).2 := by cases k <;> rfl
    rw [hres]
    refine ⟨rfl, ?_, h.nodup, ?_, h.apart, ?_⟩
    · show seenAfter k st.seen = ((0 : Nat) : Int)
      cases k with
      | simple n => rfl
      | aligned bs => show st.seen = _; rw [h.seen, hk bs rfl]
    · intro p hp
      exact ⟨(h.keys p hp).1, by show p.2 < b'.length; rw [hl]; exact (h.keys p hp).2⟩
    · intro n
      show ((r.bucket n).collect point).2 = match Dict.get? st.storage (n : Int) with | some id => b'[id]?.getD .empty | none => .empty
      rw [h.same n]
      cases hg : Dict.get? st.storage (n : Int) with
      | none => simp [Bucket.collect, Bucket.empty]
      | some id =>
        simp only
        rw [hb', if_pos]
        · rfl
        · exact List.mem_map.2 ⟨((n : Int), id), hperm.mem_iff.2 (Dict.mem_of_get? _ _ _ hg), rfl⟩
  · rw [List.nil_append]
    exact sorted_storage st r h point

/-- The calls that have not begun are those of the list. -/
structure Agrees (offers : List (Offer α × Nat)) (st : State α) : Prop where
  mine : ∀ (t : Nat) a, st.acts[t]? = some a → offers[t]? = some (a.o, a.r)
  quiet : ∀ a ∈ st.acts, a.pc = .load ∨ a.pc = .done

theorem serial_rel (k : Kind α) (point : MAttrs) (offers : List (Offer α × Nat)) {st st' : State α} {calls : List (Option Nat)} (hs : Serial k point st calls st') :
    ∀ r : Res α, Rel st r → (∀ bs, k = .aligned bs → r.seen = 0) → Agrees offers st →
      st'.got.map (·.map Prod.snd) = st.got.map (·.map Prod.snd) ++ collections k r (calls.flatMap (opOf point offers)) ∧ Agrees offers st' ∧ st'.failed = st.failed := by
  induction hs with
  | nil st => intro r _ _ ha; exact ⟨by simp [collections], ha, rfl⟩
  | offer st st' st'' t a l hget hpc hr _ ih =>
    intro r hrel hk hag
    obtain ⟨s', d', b', hr', hrel'⟩ := offer_alone k point st t a r hrel hget hpc
    have he := runs_det hr hr'
    subst he
    have hop : opOf point offers (some t) = [.offer a.o a.r] := by simp [opOf, hag.mine t a hget]
    obtain ⟨h1, h2, h3⟩ := ih _ hrel' (by
        intro bs hbs
        subst hbs
        exact hk bs rfl) (by
      refine ⟨fun u c hc => ?_, fun c hc => ?_⟩
      · have hc : (st.acts.modify t fun a => { a with pc := .done })[u]? = some c := hc
        rw [List.getElem?_modify] at hc
        cases hu : st.acts[u]? with
        | none => rw [hu] at hc; cases hc
        | some c' =>
          rw [hu] at hc
          have := hag.mine u c' hu
          by_cases htu : t = u
          · simp [htu] at hc; rw [← hc]; exact this
          · simp [htu] at hc; rw [← hc]; exact this
      · have hc : c ∈ st.acts.modify t fun a => { a with pc := .done } := hc
        obtain ⟨u, hu⟩ := List.mem_iff_getElem?.1 hc
        rw [List.getElem?_modify] at hu
        cases hu' : st.acts[u]? with
        | none => rw [hu'] at hu; cases hu
        | some c' =>
          rw [hu'] at hu
          by_cases htu : t = u
          · simp [htu] at hu; rw [← hu]; exact .inr rfl
          · simp [htu] at hu; rw [← hu]; exact hag.quiet _ (List.mem_of_getElem? hu'))
    refine ⟨?_, h2, h3⟩
    rw [h1, List.flatMap_cons, hop]
    rfl
  | collect st st' st'' l hr _ ih =>
    intro r hrel hk hag
    obtain ⟨s1, hr', hrel', hacts, hfail, g, hgot, hg⟩ := collect_alone k point st r hrel hk
    have he := runs_det hr hr'
    subst he
    obtain ⟨h1, h2, h3⟩ := ih _ hrel' (by intro bs hbs; subst hbs; rfl) ⟨by rw [hacts]; exact hag.mine, by rw [hacts]; exact hag.quiet⟩
    refine ⟨?_, h2, by rw [h3, hfail]⟩
    rw [h1, hgot, List.map_append, List.flatMap_cons]
    simp only [List.map_cons, List.map_nil, hg, List.append_assoc, List.singleton_append]
    congr 1

/-- **C99** As long as no two calls overlap, a reservoir behaves as it does in a single thread (C39, C40): no call of `offer` raises, no collection fails, and the exemplars are those of
the sequential reservoir. -/
theorem C99_one_at_a_time (k : Kind α) (point : MAttrs) (offers : List (Offer α × Nat)) (calls : List (Option Nat)) (st : State α) (h : Serial k point (State.init offers) calls st) :
    (∀ a ∈ st.acts, a.pc ≠ .raised) ∧ st.failed = 0 ∧ st.got.map (·.map Prod.snd) = collections k Res.new (calls.flatMap (opOf point offers)) := by
  have hrel : Rel (State.init offers : State α) Res.new := by
    refine ⟨rfl, rfl, List.nodup_nil, ?_, ?_, ?_⟩
    · intro p hp; cases hp
    · intro p hp; cases hp
    · intro n; rfl
  obtain ⟨h1, h2, h3⟩ := serial_rel k point offers h Res.new hrel (fun _ _ => rfl) ⟨fun t a ha => by
      simp only [State.init, List.getElem?_map] at ha
      cases ho : offers[t]? with
      | none => rw [ho] at ha; cases ha
      | some x => rw [ho] at ha; simp at ha; rw [← ha], fun a ha => by
      simp only [State.init, List.mem_map] at ha
      obtain ⟨x, _, rfl⟩ := ha
      exact .inl rfl⟩
  refine ⟨fun a ha hc => ?_, h3, by simpa [State.init] using h1⟩
  rcases h2.quiet a ha with h | h <;> rw [h] at hc <;> cases hc

/-- **C99** Any calls can be made one after the other: each of them ends. -/
theorem C99_calls_end (k : Kind α) (point : MAttrs) (offers : List (Offer α × Nat)) (calls : List (Option Nat)) (hin : ∀ t, some t ∈ calls → t < offers.length) (hn : (calls.filterMap id).Nodup) :
    ∃ st, Serial k point (State.init offers) calls st := by
  suffices H : ∀ (st : State α) (r : Res α), Rel st r → (∀ bs, k = .aligned bs → r.seen = 0) → (∀ t, some t ∈ calls → ∃ a, st.acts[t]? = some a ∧ a.pc = .load) →
      ∃ st', Serial k point st calls st' by
    refine H _ Res.new ⟨rfl, rfl, List.nodup_nil, (fun p hp => by cases hp), (fun p hp => by cases hp), fun n => rfl⟩ (fun _ _ => rfl) fun t ht => ?_
    refine ⟨_, by simp only [State.init, List.getElem?_map]; rw [List.getElem?_eq_getElem (hin t ht)]; rfl, rfl⟩
  clear hin
  induction calls with
  | nil => intro st r _ _ _; exact ⟨st, .nil st⟩
  | cons m l ih =>
    intro st r hrel hk hc
    cases m with
    | none =>
      obtain ⟨s1, hr', hrel', hacts, _⟩ := collect_alone k point st r hrel hk
      obtain ⟨st', hs⟩ := ih (by simpa using hn) s1 _ hrel' (by intro bs hbs; subst hbs; rfl) (by intro t ht; rw [hacts]; exact hc t (List.mem_cons_of_mem _ ht))
      exact ⟨st', .collect _ _ _ _ hr' hs⟩
    | some t =>
      obtain ⟨a, hget, hpc⟩ := hc t (List.mem_cons_self ..)
      obtain ⟨s', d', b', hr', hrel'⟩ := offer_alone k point st t a r hrel hget hpc
      have hn' : t ∉ l.filterMap id ∧ (l.filterMap id).Nodup := by simpa using hn
      obtain ⟨st', hs⟩ := ih hn'.2 _ _ hrel' (by intro bs hbs; subst hbs; exact hk bs rfl) (by
        intro u hu
        obtain ⟨c, hc', hl⟩ := hc u (List.mem_cons_of_mem _ hu)
        refine ⟨c, ?_, hl⟩
        show (st.acts.modify t fun a => { a with pc := .done })[u]? = some c
        have hne : t ≠ u := by
          rintro rfl
          exact hn'.1 (List.mem_filterMap.2 ⟨some t, hu, rfl⟩)
        rw [List.getElem?_modify, hc']
        simp [hne])
      exact ⟨st', .offer _ _ _ _ _ _ hget hpc hr' hs⟩

theorem collections_size (size : Nat) (hsize : 0 < size) (ops : List (Exemplar.Op α)) : ∀ before : List (Exemplar.Op α), ∀ l ∈ collections (.simple size) (afterSimple size before) ops, l.length ≤ size := by
  induction ops with
  | nil => intro _ l hl; cases hl
  | cons op ops ih =>
    intro before l hl
    have hstep : stepRes (.simple size) (afterSimple size before) op = afterSimple size (before ++ [op]) := by simp [afterSimple, stepRes]
    cases op with
    | offer o r =>
      unfold collections at hl
      rw [hstep] at hl
      exact ih _ l hl
    | collect point =>
      unfold collections at hl
      rw [hstep] at hl
      rcases List.mem_cons.1 hl with rfl | hl
      · exact C39_at_most size hsize before point
      · exact ih _ l hl

/-- **C99** One call at a time, a collection of the simple reservoir has at most as many exemplars as the reservoir has places. -/
theorem C99_one_at_a_time_size (size : Nat) (hsize : 0 < size) (point : MAttrs) (offers : List (Offer α × Nat)) (calls : List (Option Nat)) (st : State α)
    (h : Serial (.simple size) point (State.init offers) calls st) : ∀ g ∈ st.got, g.length ≤ size := by
  intro g hg
  have hm : g.map Prod.snd ∈ st.got.map (·.map Prod.snd) := List.mem_map_of_mem hg
  rw [(C99_one_at_a_time _ point offers calls st h).2.2] at hm
  have := collections_size size hsize (calls.flatMap (opOf point offers)) [] _ hm
  simpa using this

/-- The hypotheses hold for three measurements and two collections; the reservoir has two places. -/
example : ∃ st, Serial (.simple 2) [] (State.init [((⟨5, 10, none, some (7, 8)⟩ : Offer Int), 0), (⟨6, 11, none, none⟩, 1), (⟨9, 12, none, none⟩, 0)]) [some 0, some 1, none, some 2, none] st :=
  C99_calls_end _ _ _ _ (by intro t ht; simp at ht ⊢; omega) (by decide)

/-- What the two collections return then. -/
example : collections (.simple 2) Res.new ([some 0, some 1, none, some 2, none].flatMap
      (opOf [] [((⟨5, 10, none, some (7, 8)⟩ : Offer Int), 0), (⟨6, 11, none, none⟩, 1), (⟨9, 12, none, none⟩, 0)])) =
    [[⟨none, 5, 10, some 7, some 8⟩, ⟨none, 6, 11, none, none⟩], [⟨none, 9, 12, none, none⟩]] := by decide +kernel

/-- `C99_collect_never_fails`: all have attributes, or none has any. -/
example : Uniform [(⟨5, 10, some [("k".toList, .tuple [])], none⟩ : Offer Int), ⟨6, 11, some [("l".toList, .tuple [])], none⟩] ∧ Uniform [(⟨5, 10, none, none⟩ : Offer Int), ⟨6, 11, some [], none⟩] := by
  constructor
  · simp [Uniform]
  · simp [Uniform]

/-! ## What goes wrong when recording and collecting overlap -/

/-- **C99** (refutation) Recording may raise: a collection that ends between the increment of the count and its use leaves an empty range to `randrange`. -/
theorem C99_add_raises_violated :
    ((run (.simple 1) [] (State.init [((⟨5, 10, none, some (7, 8)⟩ : Offer Int), 0)]) [some 0, some 0, some 0, none, none, some 0]).acts.map (·.pc)) = [.raised] := by decide +kernel

/-- **C99** (refutation) Three threads recording into a reservoir of size 2 may leave three exemplars in it. -/
theorem C99_size_violated :
    let o : Nat → Offer Int × Nat := fun n => (⟨n + 1, n, none, some (n, n)⟩, n - 1)
    ((run (.simple 2) [] (State.init [o 0, o 1, o 2])
      (List.replicate 3 (some 0) ++ List.replicate 3 (some 1) ++ List.replicate 3 (some 2) ++ List.replicate 11 (some 0) ++ List.replicate 11 (some 1) ++ List.replicate 11 (some 2) ++
        List.replicate 44 none)).got.map (·.map fun p => (p.1, p.2.value))) = [[(0, 2), (1, 3), (2, 1)]] := by decide +kernel

/-- **C99** (refutation) An exemplar may have a value that nobody measured, without time or span. -/
theorem C99_value_violated :
    ((run (.simple 1) [] (State.init [((⟨5, 10, none, some (7, 8)⟩ : Offer Int), 0), (⟨6, 11, none, some (7, 9)⟩, 0)])
      (List.replicate 14 (some 0) ++ List.replicate 10 (some 1) ++ List.replicate 15 none ++ List.replicate 4 (some 1) ++ List.replicate 15 none)).got.map (·.map Prod.snd)) =
      [[⟨none, 6, 11, some 7, some 9⟩], [⟨none, 0, 0, none, none⟩]] := by decide +kernel

/-- **C99** (refutation) A collection may raise, if a view drops attributes: `None.items()`. -/
theorem C99_collect_violated :
    (run (.simple 1) [] (State.init [((⟨5, 10, some [("k".toList, .tuple [])], some (7, 8)⟩ : Offer Int), 0), (⟨6, 11, none, some (7, 9)⟩, 0)])
      (List.replicate 14 (some 0) ++ List.replicate 3 none ++ List.replicate 8 (some 1) ++ [none])).failed = 1 := by decide +kernel

end ExemplarRace
end Otel
