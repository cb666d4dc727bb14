import Verif.Model.ProxyMetrics
/-!
# C76: proxy meters and instruments
-/
namespace Otel
namespace ProxyMetrics

/-- Arguments an instrument of the kind can have. -/
def Proper (x : Spec) : Prop :=
  (x.callbacks = none ∨ x.kind = .observableCounter ∨ x.kind = .observableUpDownCounter ∨ x.kind = .observableGauge) ∧
  (x.boundaries = none ∨ x.kind = .histogram)

theorem createReal_eq (x : Spec) (h : Proper x) : createReal x = x := by
  obtain ⟨k, n, u, d, c, b⟩ := x
  obtain ⟨h1, h2⟩ := h
  cases k <;> simp_all [createReal]

/-- A step creates instruments with proper arguments only. -/
def ProperStep : Step → Prop
  | .create _ x => Proper x
  | _ => True

def after (valid : Spec → Bool) (l : List Step) : State := l.foldl (step valid) State.init

/-- `i` is a proxy meter the setter has still to reach. -/
def Pending (ph : Phase) (i : Nat) : Prop :=
  match ph with
  | .unset | .assigned => True
  | .meter j | .got j _ => j ≤ i
  | .instr j _ _ => j < i
  | .done => False
  | .raised => False

structure Inv (s : State) : Prop where
  proxy : ∀ (asked : MeterArgs) (j : Nat), (asked, MeterRef.proxy j) ∈ s.obtained → ∃ p : Proxy, s.meters[j]? = some p ∧ p.args = asked
  real : ∀ (asked a : MeterArgs), (asked, MeterRef.real a) ∈ s.obtained → a = asked ∨ a = realArgs asked
  handle : ∀ (n : Nat) (h : Handle), s.handles[n]? = some h → (h.asked, h.meter) ∈ s.obtained ∧ Proper h.spec
  meterReal : ∀ (j : Nat) (p : Proxy) (a : MeterArgs), s.meters[j]? = some p → p.real = some a → a = realArgs p.args
  link : ∀ (n : Nat) (h : Handle) (k : Nat), s.handles[n]? = some h → h.real = some k →
    ∃ a : MeterArgs, s.created[k]? = some (a, h.spec) ∧ (a = h.asked ∨ a = realArgs h.asked)
  inj : ∀ (n n' : Nat) (h h' : Handle) (k : Nat), s.handles[n]? = some h → s.handles[n']? = some h' → h.real = some k → h'.real = some k → n = n'
  surj : ∀ k : Nat, k < s.created.length → ∃ (n : Nat) (h : Handle), s.handles[n]? = some h ∧ h.real = some k
  pending : ∀ (j : Nat) (p : Proxy), s.meters[j]? = some p → Pending s.phase j → p.real = none
  notPending : ∀ (j : Nat) (p : Proxy), s.meters[j]? = some p → p.real = none → Pending s.phase j ∨ s.phase = .raised
  unbacked : ∀ (n : Nat) (h : Handle) (j : Nat) (p : Proxy), s.handles[n]? = some h → h.meter = .proxy j → s.meters[j]? = some p → p.real = none → h.real = none
  backed : ∀ (n : Nat) (h : Handle), s.handles[n]? = some h → h.real = none → ∃ (j : Nat) (p : Proxy), h.meter = .proxy j ∧ s.meters[j]? = some p ∧
    (p.real = none ∨ (∃ k a, s.phase = .instr j k a ∧ k ≤ n) ∨ s.phase = .raised)
  got : ∀ (j : Nat) (a : MeterArgs), s.phase = .got j a → ∃ p : Proxy, s.meters[j]? = some p ∧ a = realArgs p.args
  instr : ∀ (j k : Nat) (a : MeterArgs), s.phase = .instr j k a → (∃ p : Proxy, s.meters[j]? = some p ∧ p.real = some a) ∧
    ∀ (n : Nat) (h : Handle), s.handles[n]? = some h → h.meter = .proxy j → k ≤ n → h.real = none

theorem inv_init : Inv State.init := by
  constructor <;> simp [State.init]

theorem append_get {α : Type} (l : List α) (x y : α) (n : Nat) (h : (l ++ [x])[n]? = some y) : l[n]? = some y ∨ (n = l.length ∧ y = x) := by
  rw [List.getElem?_append] at h
  split at h
  · exact .inl h
  · have : n - l.length = 0 := by
      cases hn : n - l.length with
      | zero => rfl
      | succ m => rw [hn] at h; simp at h
    rw [this] at h
    simp at h
    exact .inr ⟨by omega, h.symm⟩

theorem get_append {α : Type} (l : List α) (x y : α) (n : Nat) (h : l[n]? = some y) : (l ++ [x])[n]? = some y := by
  rw [List.getElem?_append_left (List.getElem?_eq_some_iff.1 h).1]; exact h

theorem get_last {α : Type} (l : List α) (x : α) : (l ++ [x])[l.length]? = some x := by simp

theorem get_lt {α : Type} {l : List α} {n : Nat} {y : α} (h : l[n]? = some y) : n < l.length := (List.getElem?_eq_some_iff.1 h).1

theorem inv_createOn (valid : Spec → Bool) (s : State) (h : Inv s) (asked : MeterArgs) (m : MeterRef) (a : MeterArgs) (x : Spec)
    (hm : (asked, m) ∈ s.obtained) (ha : a = asked ∨ a = realArgs asked) (hx : Proper x)
    (hp : ∀ j, m = .proxy j → ∃ p : Proxy, s.meters[j]? = some p ∧ p.real ≠ none ∧ s.meterLocked j = false) : Inv (createOn valid s asked m a x) := by
  unfold createOn
  split
  rotate_left
  · exact h
  have lt : ∀ (n : Nat) (y : Handle) (k : Nat), s.handles[n]? = some y → y.real = some k → k < s.created.length := by
    intro n y k h1 h2
    obtain ⟨b, hb, _⟩ := h.link n y k h1 h2
    exact get_lt hb
  constructor
  · exact h.proxy
  · exact h.real
  · intro n y hy
    rcases append_get _ _ _ _ hy with hy | ⟨_, rfl⟩
    · exact h.handle n y hy
    · exact ⟨hm, hx⟩
  · exact h.meterReal
  · intro n y k hy hk
    rcases append_get _ _ _ _ hy with hy | ⟨_, rfl⟩
    · obtain ⟨b, hb, hb'⟩ := h.link n y k hy hk
      exact ⟨b, get_append _ _ _ _ hb, hb'⟩
    · cases hk; exact ⟨a, get_last _ _, ha⟩
  · intro n n' y y' k hy hy' hk hk'
    rcases append_get _ _ _ _ hy with hy | ⟨hn, rfl⟩ <;> rcases append_get _ _ _ _ hy' with hy' | ⟨hn', rfl⟩
    · exact h.inj n n' y y' k hy hy' hk hk'
    · cases hk'; exact absurd (lt n y _ hy hk) (Nat.lt_irrefl _)
    · cases hk; exact absurd (lt n' y' _ hy' hk') (Nat.lt_irrefl _)
    · rw [hn, hn']
  · intro k hk
    rw [List.length_append, List.length_singleton] at hk
    by_cases e : k = s.created.length
    · subst e; exact ⟨s.handles.length, _, get_last _ _, rfl⟩
    · obtain ⟨n, y, hy, hk⟩ := h.surj k (by omega)
      exact ⟨n, y, get_append _ _ _ _ hy, hk⟩
  · exact h.pending
  · exact h.notPending
  · intro n y j p hy hj hpj hr
    rcases append_get _ _ _ _ hy with hy | ⟨_, rfl⟩
    · exact h.unbacked n y j p hy hj hpj hr
    · obtain ⟨q, hq, hq', _⟩ := hp j hj
      rw [show s.meters[j]? = some p from hpj] at hq; cases hq; exact absurd hr hq'
  · intro n y hy hr
    rcases append_get _ _ _ _ hy with hy | ⟨_, rfl⟩
    · exact h.backed n y hy hr
    · exact absurd hr (by simp)
  · exact h.got
  · intro j k b hph
    refine ⟨(h.instr j k b hph).1, fun n y hy hj hk => ?_⟩
    rcases append_get _ _ _ _ hy with hy | ⟨_, rfl⟩
    · exact (h.instr j k b hph).2 n y hy hj hk
    · obtain ⟨_, _, _, hl⟩ := hp j hj
      simp only [State.meterLocked, show s.phase = .instr j k b from hph] at hl
      simp at hl

/-- Only the phase changes. -/
theorem inv_phase (s : State) (h : Inv s) (ph : Phase) (h1 : ∀ j p, s.meters[j]? = some p → Pending ph j → Pending s.phase j)
    (h2 : ∀ j p, s.meters[j]? = some p → p.real = none → Pending s.phase j ∨ s.phase = .raised → Pending ph j ∨ ph = .raised)
    (h3 : ∀ (n : Nat) (y : Handle) (j k : Nat) (a : MeterArgs), s.handles[n]? = some y → y.meter = .proxy j → y.real = none → s.phase = .instr j k a → k ≤ n →
      (∃ k a, ph = .instr j k a ∧ k ≤ n) ∨ ph = .raised)
    (h3' : s.phase = .raised → ph = .raised)
    (h4 : ∀ j a, ph = .got j a → ∃ p : Proxy, s.meters[j]? = some p ∧ a = realArgs p.args)
    (h5 : ∀ j k a, ph = .instr j k a → (∃ p : Proxy, s.meters[j]? = some p ∧ p.real = some a) ∧
      ∀ (n : Nat) (y : Handle), s.handles[n]? = some y → y.meter = .proxy j → k ≤ n → y.real = none) : Inv { s with phase := ph } := by
  constructor
  · exact h.proxy
  · exact h.real
  · exact h.handle
  · exact h.meterReal
  · exact h.link
  · exact h.inj
  · exact h.surj
  · exact fun j p hp hq => h.pending j p hp (h1 j p hp hq)
  · exact fun j p hp hq => h2 j p hp hq (h.notPending j p hp hq)
  · exact h.unbacked
  · intro n y hy hr
    obtain ⟨j, p, hj, hp, hc⟩ := h.backed n y hy hr
    refine ⟨j, p, hj, hp, ?_⟩
    rcases hc with hc | ⟨k, a, hc, hk⟩ | hc
    · exact .inl hc
    · exact .inr (h3 n y j k a hy hj hr hc hk)
    · exact .inr (.inr (h3' hc))
  · exact h4
  · exact h5

theorem inv_step (valid : Spec → Bool) (s : State) (h : Inv s) (c : Step) (hc : ProperStep c) : Inv (step valid s c) := by
  cases c with
  | set =>
    simp only [step]; split
    · rename_i hph
      exact inv_phase s h _ (by simp [hph, Pending]) (by simp [Pending]) (by simp [hph]) (by simp [hph]) (by simp) (by simp)
    · exact h
  | next =>
    simp only [step]; split
    · rename_i hph
      exact inv_phase s h _ (by simp [hph, Pending]) (by simp [Pending]) (by simp [hph]) (by simp [hph]) (by simp) (by simp)
    · rename_i j hph
      split
      · rename_i p hp
        refine inv_phase s h _ (by simp [hph, Pending]) (by simp [hph, Pending]) (by simp [hph]) (by simp [hph]) ?_ (by simp)
        rintro j' a e; cases e; exact ⟨p, hp, rfl⟩
      · rename_i hp
        refine inv_phase s h _ (by simp [Pending]) ?_ (by simp [hph]) (by simp [hph]) (by simp) (by simp)
        intro i p hi _ hq
        have := get_lt hi
        have h2 := List.getElem?_eq_none_iff.1 hp
        simp only [hph, Pending] at hq
        rcases hq with hq | hq
        · omega
        · simp at hq
    · rename_i j a hph
      obtain ⟨p, hp, ha⟩ := h.got j a hph
      rw [hp]
      dsimp only
      have hpn : p.real = none := h.pending j p hp (by simp [hph, Pending])
      have hjl := get_lt hp
      have hget : ∀ (i : Nat) (q : Proxy), (s.meters.set j { p with real := some a })[i]? = some q →
          (i = j ∧ q = { p with real := some a }) ∨ (i ≠ j ∧ s.meters[i]? = some q) := by
        intro i q hq
        by_cases e : i = j
        · subst e; rw [List.getElem?_set_self hjl] at hq; cases hq; exact .inl ⟨rfl, rfl⟩
        · rw [List.getElem?_set_ne (Ne.symm e)] at hq; exact .inr ⟨e, hq⟩
      have hself : (s.meters.set j { p with real := some a })[j]? = some { p with real := some a } := List.getElem?_set_self hjl
      have hoth : ∀ i, i ≠ j → (s.meters.set j { p with real := some a })[i]? = s.meters[i]? := fun i e => List.getElem?_set_ne (Ne.symm e)
      constructor
      · intro asked i hi
        obtain ⟨q, hq, hq'⟩ := h.proxy asked i hi
        by_cases e : i = j
        · subst e; rw [hp] at hq; cases hq; exact ⟨_, hself, hq'⟩
        · exact ⟨q, (hoth i e).trans hq, hq'⟩
      · exact h.real
      · exact h.handle
      · intro i q b hq hb
        rcases hget i q hq with ⟨rfl, rfl⟩ | ⟨_, hq⟩
        · cases hb; exact ha
        · exact h.meterReal i q b hq hb
      · exact h.link
      · exact h.inj
      · exact h.surj
      · intro i q hq hpen
        rcases hget i q hq with ⟨rfl, rfl⟩ | ⟨_, hq⟩
        · simp [Pending] at hpen
        · exact h.pending i q hq (by simp only [hph, Pending] at hpen ⊢; omega)
      · intro i q hq hr
        rcases hget i q hq with ⟨rfl, rfl⟩ | ⟨e, hq⟩
        · exact absurd hr (by simp)
        · left
          rcases h.notPending i q hq hr with h1 | h1
          · simp only [hph, Pending] at h1 ⊢; omega
          · rw [hph] at h1; exact absurd h1 (by simp)
      · intro n y i q hy hyi hq hr
        rcases hget i q hq with ⟨rfl, rfl⟩ | ⟨e, hq⟩
        · exact absurd hr (by simp)
        · exact h.unbacked n y i q hy hyi hq hr
      · intro n y hy hr
        obtain ⟨i, q, hi, hq, hcase⟩ := h.backed n y hy hr
        by_cases e : i = j
        · subst e
          exact ⟨i, _, hi, hself, .inr (.inl ⟨0, a, rfl, Nat.zero_le _⟩)⟩
        · refine ⟨i, q, hi, (hoth i e).trans hq, ?_⟩
          rcases hcase with h1 | ⟨k, b, h1, _⟩ | h1
          · exact .inl h1
          · rw [hph] at h1; exact absurd h1 (by simp)
          · rw [hph] at h1; exact absurd h1 (by simp)
      · intro i b e; exact absurd e (by simp)
      · rintro i k b e
        cases e
        exact ⟨⟨_, hself, rfl⟩, fun n y hy hyj _ => h.unbacked n y j p hy hyj hp hpn⟩
    · rename_i j k a hph
      obtain ⟨⟨p, hp, hpr⟩, hnone⟩ := h.instr j k a hph
      split
      · rename_i y hy
        split
        · rename_i hym
          split
          · -- the real instrument is created
            have hcr : createReal y.spec = y.spec := createReal_eq _ (h.handle k y hy).2
            rw [hcr]
            have hkl := get_lt hy
            have hyr : y.real = none := hnone k y hy hym (Nat.le_refl _)
            have hask : a = realArgs y.asked := by
              obtain ⟨q, hq, hq'⟩ := h.proxy y.asked j (hym ▸ (h.handle k y hy).1)
              rw [hp] at hq; cases hq
              rw [← hq']; exact h.meterReal j p a hp hpr
            have lt : ∀ (n : Nat) (z : Handle) (i : Nat), s.handles[n]? = some z → z.real = some i → i < s.created.length := by
              intro n z i h1 h2
              obtain ⟨b, hb, _⟩ := h.link n z i h1 h2
              exact get_lt hb
            have hself : (s.handles.set k { y with real := some s.created.length })[k]? = some { y with real := some s.created.length } := List.getElem?_set_self hkl
            have hoth : ∀ i, i ≠ k → (s.handles.set k { y with real := some s.created.length })[i]? = s.handles[i]? := fun i e => List.getElem?_set_ne (Ne.symm e)
            have hget : ∀ (i : Nat) (q : Handle), (s.handles.set k { y with real := some s.created.length })[i]? = some q →
                (i = k ∧ q = { y with real := some s.created.length }) ∨ (i ≠ k ∧ s.handles[i]? = some q) := by
              intro i q hq
              by_cases e : i = k
              · subst e; rw [hself] at hq; cases hq; exact .inl ⟨rfl, rfl⟩
              · rw [hoth i e] at hq; exact .inr ⟨e, hq⟩
            constructor
            · exact h.proxy
            · exact h.real
            · intro n z hz
              rcases hget n z hz with ⟨rfl, rfl⟩ | ⟨_, hz⟩
              · exact h.handle n y hy
              · exact h.handle n z hz
            · exact h.meterReal
            · intro n z i hz hi
              rcases hget n z hz with ⟨rfl, rfl⟩ | ⟨_, hz⟩
              · cases hi; exact ⟨a, get_last _ _, .inr hask⟩
              · obtain ⟨b, hb, hb'⟩ := h.link n z i hz hi
                exact ⟨b, get_append _ _ _ _ hb, hb'⟩
            · intro n n' z z' i hz hz' hi hi'
              rcases hget n z hz with ⟨rfl, rfl⟩ | ⟨e, hz⟩ <;> rcases hget n' z' hz' with ⟨rfl, rfl⟩ | ⟨e', hz'⟩
              · rfl
              · cases hi; exact absurd (lt n' z' _ hz' hi') (Nat.lt_irrefl _)
              · cases hi'; exact absurd (lt n z _ ‹_› hi) (Nat.lt_irrefl _)
              · exact h.inj n n' z z' i hz hz' hi hi'
            · intro i hi
              rw [List.length_append, List.length_singleton] at hi
              by_cases e : i = s.created.length
              · subst e; exact ⟨k, _, hself, rfl⟩
              · obtain ⟨n, z, hz, hi⟩ := h.surj i (by omega)
                have hn : n ≠ k := by rintro rfl; rw [hy] at hz; cases hz; rw [hyr] at hi; exact absurd hi (by simp)
                exact ⟨n, z, (hoth n hn).trans hz, hi⟩
            · intro i q hq hpen; exact h.pending i q hq (by simp only [hph, Pending] at hpen ⊢; exact hpen)
            · intro i q hq hr
              rcases h.notPending i q hq hr with h1 | h1
              · exact .inl (by simp only [hph, Pending] at h1 ⊢; exact h1)
              · rw [hph] at h1; exact absurd h1 (by simp)
            · intro n z i q hz hzi hq hr
              rcases hget n z hz with ⟨rfl, rfl⟩ | ⟨_, hz⟩
              · rw [hym] at hzi; cases hzi
                rw [show s.meters[j]? = some q from hq] at hp; cases hp
                rw [hr] at hpr; exact absurd hpr (by simp)
              · exact h.unbacked n z i q hz hzi hq hr
            · intro n z hz hr
              rcases hget n z hz with ⟨rfl, rfl⟩ | ⟨e, hz⟩
              · exact absurd hr (by simp)
              · obtain ⟨i, q, hi, hq, hcase⟩ := h.backed n z hz hr
                refine ⟨i, q, hi, hq, ?_⟩
                rcases hcase with h1 | ⟨k', b, h1, hk'⟩ | h1
                · exact .inl h1
                · rw [hph] at h1; cases h1
                  exact .inr (.inl ⟨k + 1, a, rfl, by omega⟩)
                · rw [hph] at h1; exact absurd h1 (by simp)
            · intro i b e; exact absurd e (by simp)
            · rintro i k' b e
              cases e
              refine ⟨⟨p, hp, hpr⟩, fun n z hz hzj hk' => ?_⟩
              rcases hget n z hz with ⟨rfl, rfl⟩ | ⟨e, hz⟩
              · omega
              · exact hnone n z hz hzj (by omega)
          · exact inv_phase s h _ (by simp [Pending]) (by simp) (by simp) (by simp) (by simp) (by simp)
        · rename_i hym
          refine inv_phase s h _ (by simp [hph, Pending]) (by simp [hph, Pending]) ?_ (by simp [hph]) (by simp) ?_
          · intro n z i k' b hz hzi hr e hk
            rw [hph] at e; cases e
            left
            refine ⟨k + 1, a, rfl, ?_⟩
            have : n ≠ k := by rintro rfl; rw [hy] at hz; cases hz; exact hym hzi
            omega
          · rintro i k' b e
            cases e
            exact ⟨⟨p, hp, hpr⟩, fun n z hz hzj hk' => hnone n z hz hzj (by omega)⟩
      · rename_i hn
        have hlen := List.getElem?_eq_none_iff.1 hn
        refine inv_phase s h _ ?_ ?_ ?_ (by simp [hph]) (by simp) (by simp)
        · intro i q _; simp only [hph, Pending]; omega
        · intro i q _ _ hq
          simp only [hph, Pending] at hq ⊢
          rcases hq with hq | hq
          · exact .inl (by omega)
          · simp at hq
        · intro n z i k' b hz _ _ e hk
          rw [hph] at e; cases e
          have := get_lt hz
          omega
    · exact h
  | proxyMeter a =>
    simp only [step]; split
    · exact h
    · rename_i hnl
      split
      · constructor
        · intro asked j hj
          rcases List.mem_append.1 hj with hj | hj
          · exact h.proxy asked j hj
          · simp at hj
        · intro asked b hj
          rcases List.mem_append.1 hj with hj | hj
          · exact h.real asked b hj
          · simp only [List.mem_singleton, Prod.mk.injEq, MeterRef.real.injEq] at hj
            obtain ⟨rfl, rfl⟩ := hj; exact .inr rfl
        · exact fun n y hy => ⟨List.mem_append_left _ (h.handle n y hy).1, (h.handle n y hy).2⟩
        · exact h.meterReal
        · exact h.link
        · exact h.inj
        · exact h.surj
        · exact h.pending
        · exact h.notPending
        · exact h.unbacked
        · exact h.backed
        · exact h.got
        · exact h.instr
      · rename_i hnr
        have hph : s.phase = .unset ∨ s.phase = .assigned := by
          revert hnr; unfold State.hasReal; split <;> simp_all
        have hpen : ∀ j, Pending s.phase j := by intro j; rcases hph with e | e <;> simp [e, Pending]
        constructor
        · intro asked j hj
          rcases List.mem_append.1 hj with hj | hj
          · obtain ⟨q, hq, hq'⟩ := h.proxy asked j hj
            exact ⟨q, get_append _ _ _ _ hq, hq'⟩
          · simp only [List.mem_singleton, Prod.mk.injEq, MeterRef.proxy.injEq] at hj
            obtain ⟨rfl, rfl⟩ := hj; exact ⟨_, get_last _ _, rfl⟩
        · intro asked b hj
          rcases List.mem_append.1 hj with hj | hj
          · exact h.real asked b hj
          · simp at hj
        · exact fun n y hy => ⟨List.mem_append_left _ (h.handle n y hy).1, (h.handle n y hy).2⟩
        · intro j q b hq hb
          rcases append_get _ _ _ _ hq with hq | ⟨_, rfl⟩
          · exact h.meterReal j q b hq hb
          · exact absurd hb (by simp)
        · exact h.link
        · exact h.inj
        · exact h.surj
        · intro j q hq _
          rcases append_get _ _ _ _ hq with hq | ⟨_, rfl⟩
          · exact h.pending j q hq (hpen j)
          · rfl
        · intro j q _ _; exact .inl (hpen j)
        · intro n y j q hy hyj hq hr
          rcases append_get _ _ _ _ hq with hq | ⟨e, rfl⟩
          · exact h.unbacked n y j q hy hyj hq hr
          · obtain ⟨q, hq, _⟩ := h.proxy y.asked j (hyj ▸ (h.handle n y hy).1)
            have := get_lt hq
            omega
        · intro n y hy hr
          obtain ⟨j, q, hj, hq, hcase⟩ := h.backed n y hy hr
          exact ⟨j, q, hj, get_append _ _ _ _ hq, hcase⟩
        · intro j b e; rcases hph with h1 | h1 <;> exact absurd (h1.symm.trans e) (by simp)
        · intro j k b e; rcases hph with h1 | h1 <;> exact absurd (h1.symm.trans e) (by simp)
  | realMeter a =>
    simp only [step]; split
    · exact h
    · constructor
      · intro asked j hj
        rcases List.mem_append.1 hj with hj | hj
        · exact h.proxy asked j hj
        · simp at hj
      · intro asked b hj
        rcases List.mem_append.1 hj with hj | hj
        · exact h.real asked b hj
        · simp only [List.mem_singleton, Prod.mk.injEq, MeterRef.real.injEq] at hj
          obtain ⟨rfl, rfl⟩ := hj; exact .inl rfl
      · exact fun n y hy => ⟨List.mem_append_left _ (h.handle n y hy).1, (h.handle n y hy).2⟩
      · exact h.meterReal
      · exact h.link
      · exact h.inj
      · exact h.surj
      · exact h.pending
      · exact h.notPending
      · exact h.unbacked
      · exact h.backed
      · exact h.got
      · exact h.instr
  | create n x =>
    simp only [step]; split
    · exact h
    · rename_i asked a ho
      have hm := List.mem_of_getElem? ho
      exact inv_createOn valid s h asked _ a x hm (h.real asked a hm) hc (by simp)
    · rename_i asked j ho
      have hm := List.mem_of_getElem? ho
      obtain ⟨p, hp, hpa⟩ := h.proxy asked j hm
      rw [hp]
      dsimp only
      split
      · exact h
      · rename_i hnl
        split
        · rename_i a ha
          refine inv_createOn valid s h asked _ a x hm ?_ hc ?_
          · right; rw [← hpa]; exact h.meterReal j p a hp ha
          · rintro j' e; cases e
            exact ⟨p, hp, by rw [ha]; simp, by simpa using hnl⟩
        · rename_i hr
          constructor
          · exact h.proxy
          · exact h.real
          · intro m y hy
            rcases append_get _ _ _ _ hy with hy | ⟨_, rfl⟩
            · exact h.handle m y hy
            · exact ⟨hm, hc⟩
          · exact h.meterReal
          · intro m y k hy hk
            rcases append_get _ _ _ _ hy with hy | ⟨_, rfl⟩
            · exact h.link m y k hy hk
            · exact absurd hk (by simp)
          · intro m m' y y' k hy hy' hk hk'
            rcases append_get _ _ _ _ hy with hy | ⟨hn, rfl⟩
            · rcases append_get _ _ _ _ hy' with hy' | ⟨hn', rfl⟩
              · exact h.inj m m' y y' k hy hy' hk hk'
              · exact absurd hk' (by simp)
            · exact absurd hk (by simp)
          · intro k hk
            obtain ⟨m, y, hy, hk⟩ := h.surj k hk
            exact ⟨m, y, get_append _ _ _ _ hy, hk⟩
          · exact h.pending
          · exact h.notPending
          · intro m y i q hy hyi hq hqr
            rcases append_get _ _ _ _ hy with hy | ⟨_, rfl⟩
            · exact h.unbacked m y i q hy hyi hq hqr
            · rfl
          · intro m y hy hyr
            rcases append_get _ _ _ _ hy with hy | ⟨_, rfl⟩
            · exact h.backed m y hy hyr
            · exact ⟨j, p, rfl, hp, .inl hr⟩
          · exact h.got
          · intro i k a hph
            refine ⟨(h.instr i k a hph).1, fun m y hy hyi hk => ?_⟩
            rcases append_get _ _ _ _ hy with hy | ⟨_, rfl⟩
            · exact (h.instr i k a hph).2 m y hy hyi hk
            · rfl
  | record n v =>
    simp only [step]; split
    · exact h
    · split
      · exact ⟨h.proxy, h.real, h.handle, h.meterReal, h.link, h.inj, h.surj, h.pending, h.notPending, h.unbacked, h.backed, h.got, h.instr⟩
      · exact ⟨h.proxy, h.real, h.handle, h.meterReal, h.link, h.inj, h.surj, h.pending, h.notPending, h.unbacked, h.backed, h.got, h.instr⟩

theorem inv_from (valid : Spec → Bool) (l : List Step) (hl : ∀ c, c ∈ l → ProperStep c) (s : State) (h : Inv s) : Inv (l.foldl (step valid) s) := by
  induction l generalizing s with
  | nil => exact h
  | cons c l ih => exact ih (fun d hd => hl d (List.mem_cons_of_mem _ hd)) _ (inv_step valid s h c (hl c List.mem_cons_self))

theorem inv_after (valid : Spec → Bool) (l : List Step) (hl : ∀ c, c ∈ l → ProperStep c) : Inv (after valid l) := inv_from valid l hl _ inv_init

/-- **C76** Once `set_meter_provider` has returned, every instrument any thread ever obtained, before, during or after, is backed by a real
instrument with exactly the arguments it was created with, made by the real meter with the name, version and schema URL the instrument's
meter was asked for. Missing for the full claim: the meter's attributes, which may be lost (`C76_attributes_lost`). -/
theorem C76_backed_partial (valid : Spec → Bool) (l : List Step) (hl : ∀ c, c ∈ l → ProperStep c) (hd : (after valid l).phase = .done)
    (n : Nat) (h : Handle) (hn : (after valid l).handles[n]? = some h) :
    ∃ (k : Nat) (a : MeterArgs), h.real = some k ∧ (after valid l).created[k]? = some (a, h.spec) ∧
      a.name = h.asked.name ∧ a.version = h.asked.version ∧ a.schema = h.asked.schema ∧ (a.attrs = h.asked.attrs ∨ a.attrs = none) := by
  have hi := inv_after valid l hl
  cases hr : h.real with
  | some k =>
    obtain ⟨a, ha, hc⟩ := hi.link n h k hn hr
    refine ⟨k, a, rfl, ha, ?_⟩
    rcases hc with rfl | rfl
    · exact ⟨rfl, rfl, rfl, .inl rfl⟩
    · exact ⟨rfl, rfl, rfl, .inr rfl⟩
  | none =>
    exfalso
    obtain ⟨j, p, _, hp, hc⟩ := hi.backed n h hn hr
    rcases hc with hc | ⟨k, a, hc, _⟩ | hc
    · rcases hi.notPending j p hp hc with h1 | h1
      · rw [hd] at h1; exact h1
      · rw [hd] at h1; exact absurd h1 (by simp)
    · rw [hd] at hc; exact absurd hc (by simp)
    · rw [hd] at hc; exact absurd hc (by simp)

/-- **C76** At every moment the real instruments correspond one to one to the instruments of users that are backed: none is created twice (its
callbacks would run twice), none belongs to two users' instruments, and none exists that nobody asked for. -/
theorem C76_one_to_one (valid : Spec → Bool) (l : List Step) (hl : ∀ c, c ∈ l → ProperStep c) :
    (∀ k, k < (after valid l).created.length → ∃ (n : Nat) (h : Handle), (after valid l).handles[n]? = some h ∧ h.real = some k) ∧
    (∀ (n n' : Nat) (h h' : Handle) (k : Nat), (after valid l).handles[n]? = some h → (after valid l).handles[n']? = some h' →
      h.real = some k → h'.real = some k → n = n') ∧
    ∀ (n : Nat) (h : Handle) (k : Nat), (after valid l).handles[n]? = some h → h.real = some k → ∃ a, (after valid l).created[k]? = some (a, h.spec) :=
  ⟨(inv_after valid l hl).surj, (inv_after valid l hl).inj, fun n h k h1 h2 =>
    ((inv_after valid l hl).link n h k h1 h2).imp fun _ h => h.1⟩

theorem done_stays (valid : Spec → Bool) (s : State) (hd : s.phase = .done) (c : Step) : (step valid s c).phase = .done := by
  cases c with
  | set => simp [step, hd]
  | next => simp [step, hd]
  | proxyMeter a => simp [step, hd, State.providerLocked, State.hasReal]
  | realMeter a => simp [step, hd]
  | create n x =>
    simp only [step]; split
    · exact hd
    · unfold createOn; split <;> exact hd
    · split
      · exact hd
      · split
        · exact hd
        · split
          · unfold createOn; split <;> exact hd
          · exact hd
  | record n v => simp only [step]; split <;> (try split) <;> exact hd

/-- **C76** Once `set_meter_provider` has returned, no measurement is lost: each one reaches the real instrument behind the instrument it was
made with. -/
theorem C76_delivered (valid : Spec → Bool) (l l' : List Step) (hl : ∀ c, c ∈ l ++ l' → ProperStep c) (hd : (after valid l).phase = .done) :
    (after valid (l ++ l')).dropped = (after valid l).dropped ∧
    ∀ (n v : Nat) (h : Handle), (after valid (l ++ l')).handles[n]? = some h →
      ∃ k, h.real = some k ∧ (after valid (l ++ l' ++ [.record n v])).delivered = (after valid (l ++ l')).delivered ++ [(k, v)] := by
  have hdone : ∀ (l' : List Step) (s : State), s.phase = .done → (l'.foldl (step valid) s).phase = .done := by
    intro l'
    induction l' with
    | nil => exact fun _ h => h
    | cons c l' ih => exact fun s h => ih _ (done_stays valid s h c)
  have hd' : (after valid (l ++ l')).phase = .done := by
    unfold after; rw [List.foldl_append]; exact hdone l' _ hd
  constructor
  · have hi := inv_after valid l (fun c hc => hl c (List.mem_append_left _ hc))
    have : ∀ (l' : List Step) (s : State), Inv s → s.phase = .done → (∀ c, c ∈ l' → ProperStep c) → (l'.foldl (step valid) s).dropped = s.dropped := by
      intro l'
      induction l' with
      | nil => exact fun _ _ _ _ => rfl
      | cons c l' ih =>
        intro s hs hph hc
        rw [List.foldl_cons, ih _ (inv_step valid s hs c (hc c List.mem_cons_self)) (done_stays valid s hph c) (fun d hd => hc d (List.mem_cons_of_mem _ hd))]
        cases c with
        | set => simp [step, hph]
        | next => simp [step, hph]
        | proxyMeter a => simp only [step]; split <;> (try split) <;> rfl
        | realMeter a => simp only [step]; split <;> rfl
        | create n x =>
          simp only [step]; split
          · rfl
          · unfold createOn; split <;> rfl
          · split
            · rfl
            · split
              · rfl
              · split
                · unfold createOn; split <;> rfl
                · rfl
        | record n v =>
          simp only [step]; split
          · rfl
          · rename_i h hn
            split
            · rfl
            · rename_i hr
              exfalso
              obtain ⟨j, p, _, hp, hcase⟩ := hs.backed n h hn hr
              rcases hcase with h1 | ⟨k, a, h1, _⟩ | h1
              · rcases hs.notPending j p hp h1 with h2 | h2
                · rw [hph] at h2; exact h2
                · rw [hph] at h2; exact absurd h2 (by simp)
              · rw [hph] at h1; exact absurd h1 (by simp)
              · rw [hph] at h1; exact absurd h1 (by simp)
    unfold after
    rw [List.foldl_append]
    exact this l' _ hi hd (fun c hc => hl c (List.mem_append_right _ hc))
  · intro n v h hn
    obtain ⟨k, _, hk, _⟩ := C76_backed_partial valid (l ++ l') hl hd' n h hn
    refine ⟨k, hk, ?_⟩
    have : after valid (l ++ l' ++ [.record n v]) = step valid (after valid (l ++ l')) (.record n v) := by
      unfold after; rw [List.foldl_append]; rfl
    rw [this]
    simp only [step, hn, hk]

/-! ## The setter always finishes -/

/-- `n` further steps of the setter alone. -/
def settle (valid : Spec → Bool) (s : State) (n : Nat) : State := (List.replicate n Step.next).foldl (step valid) s

theorem settle_succ (valid : Spec → Bool) (s : State) (n : Nat) : settle valid s (n + 1) = settle valid (step valid s .next) n := rfl

theorem settle_instr (valid : Spec → Bool) (d : Nat) (s : State) (j k : Nat) (a : MeterArgs) (hs : s.phase = .instr j k a) (hd : s.handles.length - k = d) :
    ∃ n, (settle valid s n).phase = .raised ∨ ((settle valid s n).phase = .meter (j + 1) ∧ (settle valid s n).meters.length = s.meters.length) := by
  induction d generalizing s k with
  | zero =>
    refine ⟨1, .inr ?_⟩
    have : s.handles[k]? = none := List.getElem?_eq_none_iff.2 (by omega)
    simp [settle, step, hs, this]
  | succ d ih =>
    have hk : k < s.handles.length := by omega
    obtain ⟨y, hy⟩ : ∃ y, s.handles[k]? = some y := ⟨_, List.getElem?_eq_getElem hk⟩
    by_cases hm : y.meter = .proxy j
    · by_cases hv : valid (createReal y.spec) = true
      · have hst : step valid s .next = { s with phase := .instr j (k + 1) a, handles := s.handles.set k { y with real := some s.created.length }, created := s.created ++ [(a, createReal y.spec)] } := by
          simp [step, hs, hy, hm, hv]
        obtain ⟨n, hn⟩ := ih (step valid s .next) (k + 1) (by rw [hst]) (by rw [hst]; simp; omega)
        refine ⟨n + 1, ?_⟩
        rw [settle_succ]
        have hlen : (step valid s .next).meters.length = s.meters.length := by rw [hst]
        rwa [hlen] at hn
      · exact ⟨1, .inl (by simp [settle, step, hs, hy, hm, hv])⟩
    · have hst : step valid s .next = { s with phase := .instr j (k + 1) a } := by simp [step, hs, hy, hm]
      obtain ⟨n, hn⟩ := ih (step valid s .next) (k + 1) (by rw [hst]) (by rw [hst]; simp; omega)
      refine ⟨n + 1, ?_⟩
      rw [settle_succ]
      have hlen : (step valid s .next).meters.length = s.meters.length := by rw [hst]
      rwa [hlen] at hn

theorem settle_add (valid : Spec → Bool) (s : State) (m n : Nat) : settle valid s (m + n) = settle valid (settle valid s m) n := by
  unfold settle; rw [← List.foldl_append, List.replicate_append_replicate]

theorem settle_got (valid : Spec → Bool) (s : State) (j : Nat) (a : MeterArgs) (hs : s.phase = .got j a) (hj : j < s.meters.length) :
    ∃ n, (settle valid s n).phase = .raised ∨ ((settle valid s n).phase = .meter (j + 1) ∧ (settle valid s n).meters.length = s.meters.length) := by
  obtain ⟨p, hp⟩ : ∃ p, s.meters[j]? = some p := ⟨_, List.getElem?_eq_getElem hj⟩
  have hst : step valid s .next = { s with phase := .instr j 0 a, meters := s.meters.set j { p with real := some a } } := by simp [step, hs, hp]
  obtain ⟨n, hn⟩ := settle_instr valid _ (step valid s .next) j 0 a (by rw [hst]) rfl
  refine ⟨n + 1, ?_⟩
  rw [settle_succ]
  have hlen : (step valid s .next).meters.length = s.meters.length := by rw [hst]; simp
  rwa [hlen] at hn

theorem settle_meter (valid : Spec → Bool) (d : Nat) (s : State) (j : Nat) (hs : s.phase = .meter j) (hd : s.meters.length - j = d) :
    ∃ n, (settle valid s n).phase = .raised ∨ (settle valid s n).phase = .done := by
  induction d generalizing s j with
  | zero =>
    refine ⟨1, .inr ?_⟩
    have : s.meters[j]? = none := List.getElem?_eq_none_iff.2 (by omega)
    simp [settle, step, hs, this]
  | succ d ih =>
    have hj : j < s.meters.length := by omega
    obtain ⟨p, hp⟩ : ∃ p, s.meters[j]? = some p := ⟨_, List.getElem?_eq_getElem hj⟩
    have hst : step valid s .next = { s with phase := .got j (realArgs p.args) } := by simp [step, hs, hp]
    obtain ⟨n, hn⟩ := settle_got valid (step valid s .next) j _ (by rw [hst]) (by rw [hst]; exact hj)
    rcases hn with hn | ⟨hn, hl⟩
    · exact ⟨n + 1, .inl hn⟩
    · obtain ⟨m, hm⟩ := ih (settle valid (step valid s .next) n) (j + 1) hn (by rw [hl, hst]; simp; omega)
      refine ⟨n + 1 + m, ?_⟩
      rw [settle_add, settle_succ]
      exact hm

/-- **C76** From every state in which `set_meter_provider` has begun, the setter running alone comes to an end: it never waits for a lock that
is not released (other threads hold the locks for single steps only). -/
theorem C76_setter_finishes (valid : Spec → Bool) (l : List Step) (hl : ∀ c, c ∈ l → ProperStep c) (hs : (after valid l).phase ≠ .unset) :
    ∃ n, (settle valid (after valid l) n).phase = .done ∨ (settle valid (after valid l) n).phase = .raised := by
  have hi := inv_after valid l hl
  generalize after valid l = s at hi hs
  have meter : ∀ (s : State) (j : Nat), s.phase = .meter j → ∃ n, (settle valid s n).phase = .done ∨ (settle valid s n).phase = .raised :=
    fun s j h => (settle_meter valid _ s j h rfl).imp fun _ h => h.symm
  have next : ∀ (s : State) (n : Nat), ((settle valid s n).phase = .raised ∨ ∃ j, (settle valid s n).phase = .meter j) →
      ∃ n, (settle valid s n).phase = .done ∨ (settle valid s n).phase = .raised := by
    intro s n h
    rcases h with h | ⟨j, h⟩
    · exact ⟨n, .inr h⟩
    · obtain ⟨m, hm⟩ := meter _ j h
      exact ⟨n + m, by rw [settle_add]; exact hm⟩
  cases hph : s.phase with
  | unset => exact absurd hph hs
  | assigned => exact next s 1 (.inr ⟨0, by simp [settle, step, hph]⟩)
  | meter j => exact meter s j hph
  | got j a =>
    obtain ⟨p, hp, _⟩ := hi.got j a hph
    obtain ⟨n, hn⟩ := settle_got valid s j a hph (get_lt hp)
    exact next s n (hn.imp id fun h => ⟨_, h.1⟩)
  | instr j k a =>
    obtain ⟨n, hn⟩ := settle_instr valid _ s j k a hph rfl
    exact next s n (hn.imp id fun h => ⟨_, h.1⟩)
  | done => exact ⟨0, .inl hph⟩
  | raised => exact ⟨0, .inr hph⟩

/-- **C76** `set_meter_provider` raises only if some instrument was created with arguments the real provider refuses. -/
theorem C76_raises_only_if (valid : Spec → Bool) (l : List Step) (hv : ∀ x, valid x = true) : (after valid l).phase ≠ .raised := by
  have : ∀ s : State, s.phase ≠ .raised → (l.foldl (step valid) s).phase ≠ .raised := by
    induction l with
    | nil => exact fun _ h => h
    | cons c l ih =>
      intro s hs
      refine ih _ ?_
      cases c with
      | set => simp only [step]; split <;> simp_all
      | next =>
        simp only [step]
        split
        · simp
        · split <;> simp
        · split <;> simp_all
        · split
          · split
            · rw [if_pos (hv _)]; simp
            · simp
          · simp
        · exact hs
      | proxyMeter a => simp only [step]; split <;> (try split) <;> exact hs
      | realMeter a => simp only [step]; split <;> exact hs
      | create n x =>
        simp only [step]; split
        · exact hs
        · unfold createOn; split <;> exact hs
        · split
          · exact hs
          · split
            · exact hs
            · split
              · unfold createOn; split <;> exact hs
              · exact hs
      | record n v => simp only [step]; split <;> (try split) <;> exact hs
  exact this _ (by simp [State.init])

/-! ## What does not hold -/

def exArgs : MeterArgs := ⟨"lib".toList, none, none, some 7⟩
def exSpec (n : String) : Spec := ⟨.counter, n.toList, [], [], none, none⟩

/-- **C76** (refutation) The attributes given to `get_meter` are lost when it goes through the proxy provider, before or after a provider is set. -/
theorem C76_attributes_lost : ∃ l : List Step, (after (fun _ => true) l).phase = .done ∧
    (after (fun _ => true) l).handles.map (fun h => (h.asked.attrs, h.real)) = [(some 7, some 0)] ∧
    (after (fun _ => true) l).created = [({ exArgs with attrs := none }, exSpec "a")] :=
  ⟨[.proxyMeter exArgs, .create 0 (exSpec "a"), .set, .next, .next, .next, .next, .next, .next], by decide⟩

/-- **C76** (refutation) One instrument with a name the SDK refuses, created before the provider is set, makes `set_meter_provider` raise; the
instruments of all other libraries that follow stay unbacked and their measurements are lost. -/
theorem C76_one_bad_name : ∃ l : List Step, (after (fun x => x.name != "1".toList) l).phase = .raised ∧
    (after (fun x => x.name != "1".toList) (l ++ [.record 1 5])).dropped = [(1, 5)] :=
  ⟨[.proxyMeter exArgs, .create 0 (exSpec "1"), .proxyMeter exArgs, .create 1 (exSpec "a"), .set, .next, .next, .next, .next, .next, .next], by decide⟩

/-- A run that meets the hypotheses of the theorems above, with a meter and an instrument obtained at every stage. -/
example : let l : List Step := [.proxyMeter exArgs, .create 0 (exSpec "a"), .record 0 1, .set, .realMeter exArgs, .next, .next, .create 0 (exSpec "b"), .next, .create 1 (exSpec "c"),
      .next, .next, .record 1 2, .next, .next, .next, .create 0 (exSpec "d")]
    (after (fun _ => true) l).phase = .done ∧ (after (fun _ => true) l).handles.map Handle.real = [some 1, some 2, some 0, some 3] ∧
    (after (fun _ => true) l).dropped = [(0, 1)] := by decide

end ProxyMetrics
end Otel
