import Verif.Spec.Limits
import Verif.Lemmas.Str
import Mathlib.Data.List.Induction
import Mathlib.Data.List.TakeWhile
import Mathlib.Tactic.ByContra
/-!
# C20: how limits are resolved
-/
namespace Otel
namespace Limits
open Spec

theorem toNat_ofNat_add (c : Char) (h : isUpper c = true) : (Char.ofNat (c.toNat + 32)).toNat = c.toNat + 32 := by
  have : c.toNat ≤ 0x5a ∧ 0x41 ≤ c.toNat := by
    simp only [isUpper, inRange, Bool.and_eq_true, decide_eq_true_eq] at h; omega
  have hv : (c.toNat + 32).isValidChar := by left; omega
  unfold Char.ofNat
  rw [dif_pos hv]
  rfl

def low (c : Char) : Char := if isUpper c then Char.ofNat (c.toNat + 32) else c

theorem lowerAscii_eq (s : Str) : EnvHeaders.lowerAscii s = s.map low := rfl

theorem low_eq_of_toNat (c d : Char) (h : low c = d) (hd : d.toNat < 97) : c = d := by
  unfold low at h
  split at h
  · rename_i hu
    have := toNat_ofNat_add c hu
    rw [h] at this
    have h2 : 0x41 ≤ c.toNat := by
      simp only [isUpper, inRange, Bool.and_eq_true, decide_eq_true_eq] at hu; omega
    omega
  · exact h

theorem decDigit_low (U : DigitTable) (c : Char) : decDigit? U (low c) = decDigit? U c := by
  unfold low
  split
  · rename_i hu
    have e := toNat_ofNat_add c hu
    have hr : 0x41 ≤ c.toNat ∧ c.toNat ≤ 0x5a := by
      simp only [isUpper, inRange, Bool.and_eq_true, decide_eq_true_eq] at hu; omega
    unfold decDigit?
    rw [if_pos (show (Char.ofNat (c.toNat + 32)).toNat < 128 by omega), if_pos (show c.toNat < 128 by omega)]
    have h1 : isDig (Char.ofNat (c.toNat + 32)) = false := by
      simp only [isDig, inRange, e, Bool.and_eq_false_iff, decide_eq_false_iff_not]; omega
    have h2 : isDig c = false := by
      simp only [isDig, inRange, Bool.and_eq_false_iff, decide_eq_false_iff_not]; omega
    simp [h1, h2]
  · rfl

theorem low_us (c : Char) : low c = '_' ↔ c = '_' := by
  constructor
  · intro h; exact low_eq_of_toNat c '_' h (by decide)
  · rintro rfl; decide

theorem decDigits_low (U : DigitTable) (s : Str) (b : Bool) (acc : Nat) :
    decDigits U b acc (s.map low) = decDigits U b acc s := by
  induction s generalizing b acc with
  | nil => rfl
  | cons c s ih =>
    rw [List.map_cons]
    simp only [decDigits, low_us, decDigit_low, ih]

theorem low_space (c : Char) : isPySpace (low c) = isPySpace c := by
  unfold low
  split
  · rename_i hu
    have e := toNat_ofNat_add c hu
    have hr : 0x41 ≤ c.toNat ∧ c.toNat ≤ 0x5a := by
      simp only [isUpper, inRange, Bool.and_eq_true, decide_eq_true_eq] at hu; omega
    have h1 : ∀ d : Char, 0x41 ≤ d.toNat → d.toNat ≤ 0x7a → isPySpace d = false := by
      intro d hd hd2
      simp [isPySpace, inRange]
      omega
    rw [h1 _ (by omega) (by omega), h1 c (by omega) (by omega)]
  · rfl

theorem pyStrip_low (s : Str) : pyStrip (s.map low) = (pyStrip s).map low := by
  have hc : isPySpace ∘ low = isPySpace := funext low_space
  simp only [pyStrip, stripBy, rstripBy, lstripBy, List.dropWhile_map, hc, ← List.map_reverse]

theorem pyStrip_pyStrip (s : Str) : pyStrip (pyStrip s) = pyStrip s := by
  apply stripBy_eq_self
  · intro c hc
    have hp := rstripBy_prefix isPySpace (lstripBy isPySpace s)
    obtain ⟨t, ht⟩ := hp
    have : (lstripBy isPySpace s).head? = some c := by
      rw [← ht]
      rw [show pyStrip s = rstripBy isPySpace (lstripBy isPySpace s) from rfl] at hc
      cases hq : rstripBy isPySpace (lstripBy isPySpace s) with
      | nil => rw [hq] at hc; simp at hc
      | cons a b => rw [hq] at hc; simpa using hc
    have h2 := List.head?_dropWhile_not isPySpace s
    unfold lstripBy at this
    rw [this] at h2; simpa using h2
  · intro c hc
    exact rstripBy_getLast? _ _ _ hc

theorem pyInt10_low (U : DigitTable) (s : Str) : pyInt10 U (EnvHeaders.lowerAscii (pyStrip s)) = pyInt10 U s := by
  unfold pyInt10
  rw [lowerAscii_eq, pyStrip_low, pyStrip_pyStrip]
  generalize pyStrip s = t
  cases t with
  | nil => rfl
  | cons c r =>
    by_cases h1 : c = '-'
    · subst h1
      rw [List.map_cons, show low '-' = '-' by decide]
      simp only [signDigits, decDigits_low]
    · by_cases h2 : c = '+'
      · subst h2
        rw [List.map_cons, show low '+' = '+' by decide]
        simp only [signDigits, decDigits_low]
      · have e1 : low c ≠ '-' := fun h => h1 (low_eq_of_toNat c '-' h (by decide))
        have e2 : low c ≠ '+' := fun h => h2 (low_eq_of_toNat c '+' h (by decide))
        have g : ∀ (x : Char) (xs : Str), x ≠ '-' → x ≠ '+' →
            signDigits U (x :: xs) = (decDigits U false 0 (x :: xs)).map fun n : Nat => (n : Int) := by
          intro x xs hx hy
          unfold signDigits
          split
          · rename_i heq; simp only [List.cons.injEq] at heq; exact absurd heq.1 hx
          · rename_i heq; simp only [List.cons.injEq] at heq; exact absurd heq.1 hy
          · rfl
        rw [List.map_cons, g _ _ e1 e2, g _ _ h1 h2, ← List.map_cons, decDigits_low]

theorem pyStrip_nil_iff (s : Str) : pyStrip s = [] ↔ ∀ c ∈ s, isPySpace c = true := by
  simp only [pyStrip, stripBy, rstripBy, lstripBy, List.reverse_eq_nil_iff]
  constructor
  · intro h c hc
    rw [List.dropWhile_eq_nil_iff] at h
    by_contra hn
    have hs := List.takeWhile_append_dropWhile (p := isPySpace) (l := s)
    rw [← hs] at hc
    rcases List.mem_append.mp hc with hc | hc
    · exact hn (List.mem_takeWhile_imp hc)
    · exact hn (h c (List.mem_reverse.mpr hc))
  · intro h
    have : s.dropWhile isPySpace = [] := List.dropWhile_eq_nil_iff.mpr h
    rw [this]; rfl

theorem pyInt10_blank (U : DigitTable) (s : Str) (h : pyStrip s = []) : pyInt10 U s = none := by
  unfold pyInt10; rw [h]; rfl

/-- The resolution of one limit follows the rules and raises exactly on a rejected setting. -/
theorem fromEnv_spec (U : DigitTable) (v : Option Int) (env : Option Str) (dflt : Option Nat) :
    (∀ out, fromEnvIfAbsent U v env dflt = .ok out ↔ Resolves U v env dflt out) ∧
    (fromEnvIfAbsent U v env dflt = .raised ↔ Rejected U v env) := by
  unfold fromEnvIfAbsent
  cases v with
  | some v =>
    dsimp only
    by_cases h1 : v = -1
    · subst h1
      rw [if_pos rfl]
      refine ⟨fun out => ⟨fun h => ?_, fun h => ?_⟩, ⟨fun h => ?_, fun h => ?_⟩⟩
      · simp only [Res.ok.injEq] at h; subst h; exact .unset _ _
      · generalize hv : some (-1 : Int) = v at h
        cases h with
        | explicit n => simp at hv
        | unset => rfl
        | _ => simp at hv
      · simp at h
      · generalize hv : some (-1 : Int) = v at h
        cases h with
        | negative v _ hlt => simp at hv; omega
        | text => simp at hv
    · rw [if_neg h1]
      by_cases h2 : v < 0
      · rw [if_pos h2]
        refine ⟨fun out => ⟨fun h => by simp at h, fun h => ?_⟩, ⟨fun _ => .negative v env (by omega), fun _ => rfl⟩⟩
        generalize hv : some v = w at h
        cases h with
        | explicit n => simp at hv; omega
        | unset => simp at hv; omega
        | _ => simp at hv
      · rw [if_neg h2]
        refine ⟨fun out => ⟨fun h => ?_, fun h => ?_⟩, ⟨fun h => by simp at h, fun h => ?_⟩⟩
        · simp only [Res.ok.injEq] at h; subst h
          have e : (some v : Option Int) = some ((v.toNat : Nat) : Int) := by congr 1; omega
          rw [e]
          exact .explicit _ _ _
        · generalize hv : some v = w at h
          cases h with
          | explicit n => simp at hv; subst hv; simp
          | unset => simp at hv; omega
          | _ => simp at hv
        · generalize hv : some v = w at h
          cases h with
          | negative v _ hlt => simp at hv; omega
          | text => simp at hv
  | none =>
    dsimp only
    cases env with
    | none =>
      refine ⟨fun out => ⟨fun h => ?_, fun h => ?_⟩, ⟨fun h => by simp at h, fun h => by cases h⟩⟩
      · simp only [Res.ok.injEq] at h; subst h; exact .default _
      · cases h; rfl
    | some s =>
      dsimp only
      rw [pyInt10_low]
      by_cases hb : EnvHeaders.lowerAscii (pyStrip s) = []
      · rw [if_pos hb]
        have hb2 : pyStrip s = [] := by rw [lowerAscii_eq] at hb; simpa using hb
        have hd : EnvDenotes U s none := .blank s ((pyStrip_nil_iff s).mp hb2)
        refine ⟨fun out => ⟨fun h => ?_, fun h => ?_⟩, ⟨fun h => by simp at h, fun h => ?_⟩⟩
        · simp only [Res.ok.injEq] at h; subst h; exact .environment s _ _ hd
        · cases h with
          | environment s _ out he =>
            cases he with
            | blank => rfl
            | number n hn => rw [pyInt10_blank U s hb2] at hn; simp at hn
        · cases h with
          | text s hn => exact absurd ⟨_, hd⟩ hn
      · rw [if_neg hb]
        have hb2 : pyStrip s ≠ [] := by intro h; exact hb (by rw [h]; rfl)
        cases hp : pyInt10 U s with
        | none =>
          refine ⟨fun out => ⟨fun h => by simp at h, fun h => ?_⟩, ⟨fun _ => .text s ?_, fun _ => rfl⟩⟩
          · cases h with
            | environment s _ out he =>
              cases he with
              | blank hs => exact absurd ((pyStrip_nil_iff s).mpr hs) hb2
              | number n hn => rw [hp] at hn; simp at hn
          · rintro ⟨out, he⟩
            cases he with
            | blank hs => exact absurd ((pyStrip_nil_iff s).mpr hs) hb2
            | number n hn => rw [hp] at hn; simp at hn
        | some v =>
          dsimp only
          by_cases h2 : v < 0
          · rw [if_pos h2]
            refine ⟨fun out => ⟨fun h => by simp at h, fun h => ?_⟩, ⟨fun _ => .text s ?_, fun _ => rfl⟩⟩
            · cases h with
              | environment s _ out he =>
                cases he with
                | blank hs => exact absurd ((pyStrip_nil_iff s).mpr hs) hb2
                | number n hn => rw [hp] at hn; simp at hn; omega
            · rintro ⟨out, he⟩
              cases he with
              | blank hs => exact absurd ((pyStrip_nil_iff s).mpr hs) hb2
              | number n hn => rw [hp] at hn; simp at hn; omega
          · rw [if_neg h2]
            have hv : pyInt10 U s = some ((v.toNat : Nat) : Int) := by rw [hp]; congr 1; omega
            refine ⟨fun out => ⟨fun h => ?_, fun h => ?_⟩, ⟨fun h => by simp at h, fun h => ?_⟩⟩
            · simp only [Res.ok.injEq] at h; subst h; exact .environment s _ _ (.number s _ hv)
            · cases h with
              | environment s _ out he =>
                cases he with
                | blank hs => exact absurd ((pyStrip_nil_iff s).mpr hs) hb2
                | number n hn => rw [hp] at hn; simp at hn; subst hn; simp
            · cases h with
              | text s hn => exact absurd ⟨_, EnvDenotes.number s _ hv⟩ hn

theorem bind_ok {α β : Type} (r : Res α) (f : α → Res β) (b : β) :
    r.bind f = .ok b ↔ ∃ a, r = .ok a ∧ f a = .ok b := by
  cases r <;> simp [Res.bind]

theorem bind_raised {α β : Type} (r : Res α) (f : α → Res β) :
    r.bind f = .raised ↔ r = .raised ∨ ∃ a, r = .ok a ∧ f a = .raised := by
  cases r <;> simp [Res.bind]

theorem ok_or_raised {α : Type} (r : Res α) (h : r ≠ .raised) : ∃ a, r = .ok a := by
  cases r with
  | raised => exact absurd rfl h
  | ok a => exact ⟨a, rfl⟩

/-- **C20 (resolution).** A constructed `SpanLimits` has every limit resolved by the rules; the span, event and
link attribute limits default to the general one, the span attribute length to the general length, and the
general count to 128. No field can be negative (limits are natural numbers or unlimited). -/
theorem C20_span_limits_partial (U : DigitTable) (a : Args) (e : Env) (L : SpanLimits)
    (h : spanLimits U a e = .ok L) :
    Resolves U a.maxEvents e.spanEventCount (some 128) L.maxEvents ∧
    Resolves U a.maxLinks e.spanLinkCount (some 128) L.maxLinks ∧
    Resolves U a.maxSpanAttributes e.spanAttributeCount L.maxAttributes L.maxSpanAttributes ∧
    Resolves U a.maxEventAttributes e.eventAttributeCount L.maxAttributes L.maxEventAttributes ∧
    Resolves U a.maxLinkAttributes e.linkAttributeCount L.maxAttributes L.maxLinkAttributes ∧
    Resolves U a.maxAttributeLength e.attributeValueLength none L.maxAttributeLength ∧
    Resolves U a.maxSpanAttributeLength e.spanAttributeValueLength L.maxAttributeLength L.maxSpanAttributeLength ∧
    (∃ g, Resolves U a.maxAttributes e.attributeCount none g ∧ L.maxAttributes = some (g.getD 128)) := by
  unfold spanLimits at h
  simp only [bind_ok] at h
  obtain ⟨ev, h1, li, h2, g, h3, sa, h4, ea, h5, la, h6, al, h7, sl, h8, hL⟩ := h
  simp only [Res.ok.injEq] at hL
  subst hL
  refine ⟨((fromEnv_spec ..).1 _).mp h1, ((fromEnv_spec ..).1 _).mp h2, ((fromEnv_spec ..).1 _).mp h4,
    ((fromEnv_spec ..).1 _).mp h5, ((fromEnv_spec ..).1 _).mp h6, ((fromEnv_spec ..).1 _).mp h7,
    ((fromEnv_spec ..).1 _).mp h8, g, ((fromEnv_spec ..).1 _).mp h3, ?_⟩
  cases g <;> rfl

/-- **C20 (rejection).** Construction raises exactly when one of the eight settings is negative (other than
`UNSET`) or an environment text that is needed is not a non-negative integer. -/
theorem C20_raises_iff (U : DigitTable) (a : Args) (e : Env) :
    spanLimits U a e = .raised ↔
      (Rejected U a.maxEvents e.spanEventCount ∨ Rejected U a.maxLinks e.spanLinkCount ∨
       Rejected U a.maxAttributes e.attributeCount ∨ Rejected U a.maxSpanAttributes e.spanAttributeCount ∨
       Rejected U a.maxEventAttributes e.eventAttributeCount ∨ Rejected U a.maxLinkAttributes e.linkAttributeCount ∨
       Rejected U a.maxAttributeLength e.attributeValueLength ∨
       Rejected U a.maxSpanAttributeLength e.spanAttributeValueLength) := by
  have R := fun v env d => (fromEnv_spec U v env d).2
  have step : ∀ {β : Type} (v : Option Int) (env : Option Str) (d : Option Nat) (f : Option Nat → Res β) (P : Prop),
      (∀ x, f x = .raised ↔ P) →
      (((fromEnvIfAbsent U v env d).bind f = .raised) ↔ (Rejected U v env ∨ P)) := by
    intro β v env d f P hP
    rw [bind_raised, R]
    constructor
    · rintro (h | ⟨x, _, hx⟩)
      · exact Or.inl h
      · exact Or.inr ((hP x).mp hx)
    · rintro (h | h)
      · exact Or.inl h
      · by_cases hr : Rejected U v env
        · exact Or.inl hr
        · obtain ⟨x, hx⟩ := ok_or_raised (fromEnvIfAbsent U v env d) (fun h' => hr ((R v env d).mp h'))
          exact Or.inr ⟨x, hx, (hP x).mpr h⟩
  unfold spanLimits
  refine step _ _ _ _ _ fun ev => step _ _ _ _ _ fun li => step _ _ _ _ _ fun g => step _ _ _ _ _ fun sa =>
    step _ _ _ _ _ fun ea => step _ _ _ _ _ fun la => step _ _ _ _ _ fun al => ?_
  have := step (β := SpanLimits) a.maxSpanAttributeLength e.spanAttributeValueLength al
    (fun sl => Res.ok (SpanLimits.mk (orDefault g) ev li sa ea la al sl))
    False (by simp)
  rw [or_false] at this
  exact this

/-- **C20 violated.** `max_attributes=UNSET` asks for no limit, but every attribute limit becomes 128; the same
for a blank `OTEL_ATTRIBUTE_COUNT_LIMIT`, and for `LogLimits`. -/
theorem C20_unset_general_count_violated (U : DigitTable) :
    (∃ L, spanLimits U { maxAttributes := some (-1) } {} = .ok L ∧ L.maxAttributes = some 128 ∧ L.maxSpanAttributes = some 128) ∧
    (∃ L, spanLimits U {} { attributeCount := some [] } = .ok L ∧ L.maxSpanAttributes = some 128) ∧
    logLimits U (some (-1)) (some (-1)) {} = .ok (some 128, none) := by
  refine ⟨⟨_, rfl, rfl, rfl⟩, ⟨_, rfl, rfl⟩, rfl⟩

/-- **C20 (logs).** `LogLimits` resolves by the same rules. -/
theorem C20_log_limits_partial (U : DigitTable) (c l : Option Int) (e : Env) (out : Option Nat × Option Nat)
    (h : logLimits U c l e = .ok out) :
    (∃ g, Resolves U c e.attributeCount none g ∧ out.1 = some (g.getD 128)) ∧
    Resolves U l e.attributeValueLength none out.2 := by
  unfold logLimits at h
  simp only [bind_ok] at h
  obtain ⟨g, h1, al, h2, h3⟩ := h
  simp only [Res.ok.injEq] at h3
  subst h3
  refine ⟨⟨g, ((fromEnv_spec ..).1 _).mp h1, by cases g <;> rfl⟩, ((fromEnv_spec ..).1 _).mp h2⟩

example (U : DigitTable) : ∃ L, spanLimits U { maxEvents := some 5, maxSpanAttributes := some (-1) }
    { spanEventCount := some "7".toList, spanLinkCount := some " 12 ".toList, attributeCount := some "33".toList,
      attributeValueLength := some "".toList } = .ok L ∧
    (L.maxEvents, L.maxLinks, L.maxSpanAttributes, L.maxEventAttributes, L.maxSpanAttributeLength) =
      (some 5, some 12, none, some 33, none) := ⟨_, rfl, rfl⟩
example (U : DigitTable) : spanLimits U {} { spanLinkCount := some "-1".toList } = .raised := rfl
example (U : DigitTable) : spanLimits U {} { spanLinkCount := some "1x".toList } = .raised := rfl

/-- **C20** A span made without limits has none, whatever the environment says: no number of events, links or attributes and no length is
bounded. -/
theorem C20_unset (U : DigitTable) (e : Env) : ∃ L, spanLimits U unsetArgs e = .ok L ∧ L.maxEvents = none ∧ L.maxLinks = none ∧
    L.maxSpanAttributes = none ∧ L.maxEventAttributes = none ∧ L.maxLinkAttributes = none ∧ L.maxAttributeLength = none ∧
    L.maxSpanAttributeLength = none := ⟨_, rfl, rfl, rfl, rfl, rfl, rfl, rfl, rfl⟩

/-! ## Decimal numbers in the environment -/

/-- The decimal digit of a number below ten. -/
def digitOf (d : Fin 10) : Char := ['0', '1', '2', '3', '4', '5', '6', '7', '8', '9'][d]

/-- The number a list of digits stands for, the most significant first. -/
def numeral (ds : List (Fin 10)) : Nat := ds.foldl (fun n d => 10 * n + d.val) 0

theorem decDigit_digitOf (U : DigitTable) (d : Fin 10) : decDigit? U (digitOf d) = some d.val := by
  match d with
  | 0 => rfl
  | 1 => rfl
  | 2 => rfl
  | 3 => rfl
  | 4 => rfl
  | 5 => rfl
  | 6 => rfl
  | 7 => rfl
  | 8 => rfl
  | 9 => rfl

theorem digitOf_plain : ∀ d : Fin 10, digitOf d ≠ '_' ∧ digitOf d ≠ '-' ∧ digitOf d ≠ '+' ∧ isPySpace (digitOf d) = false := by decide

theorem decDigits_numeral (U : DigitTable) (ds : List (Fin 10)) (b : Bool) (acc : Nat) (h : ds ≠ [] ∨ b = true) :
    decDigits U b acc (ds.map digitOf) = some (ds.foldl (fun n d => 10 * n + d.val) acc) := by
  induction ds generalizing b acc with
  | nil =>
    rcases h with h | h
    · exact absurd rfl h
    · subst h; rfl
  | cons d ds ih =>
    simp only [List.map_cons, decDigits, if_neg (digitOf_plain d).1, decDigit_digitOf, List.foldl_cons]
    rw [ih true _ (.inr rfl), Nat.mul_comm]

theorem pyStrip_solid (s : Str) (h : ∀ c ∈ s, isPySpace c = false) : pyStrip s = s := by
  have hl : ∀ s : Str, (∀ c ∈ s, isPySpace c = false) → lstripBy isPySpace s = s := by
    intro s h
    cases s with
    | nil => rfl
    | cons c s => simp [lstripBy, h c (by simp)]
  unfold pyStrip stripBy rstripBy
  rw [hl s h]
  have := hl s.reverse (by simpa using h)
  unfold lstripBy at this
  rw [this, List.reverse_reverse]

theorem strip_around (b1 b2 s : Str) (h1 : ∀ c ∈ b1, isPySpace c = true) (h2 : ∀ c ∈ b2, isPySpace c = true) (hs : ∀ c ∈ s, isPySpace c = false) :
    pyStrip (b1 ++ s ++ b2) = s := by
  have hd : ∀ (b s : Str), (∀ c ∈ b, isPySpace c = true) → (b ++ s).dropWhile isPySpace = s.dropWhile isPySpace := by
    intro b s hb
    induction b with
    | nil => rfl
    | cons c b ih => simp [List.dropWhile_cons, hb c (by simp), ih (fun x hx => hb x (by simp [hx]))]
  unfold pyStrip stripBy lstripBy rstripBy
  rw [List.append_assoc, hd _ _ h1]
  cases s with
  | nil =>
    have : (b2 : Str).dropWhile isPySpace = [] := by rw [List.dropWhile_eq_nil_iff]; exact h2
    simp [this]
  | cons c s =>
    have : (c :: s ++ b2).dropWhile isPySpace = c :: s ++ b2 := by simp [hs c (by simp)]
    rw [this, List.reverse_append, hd _ _ (by intro x hx; exact h2 x (by simpa using hx))]
    have := pyStrip_solid (c :: s) hs
    unfold pyStrip stripBy lstripBy rstripBy at this
    simp only [List.dropWhile_cons, hs c (by simp), Bool.false_eq_true, if_false] at this
    exact this

/-- **C20** A limit given in the environment in decimal notation, with white space around it or not, is that number; with a minus sign before it
(and not zero) the construction raises. -/
theorem C20_environment_decimal (U : DigitTable) (b1 b2 : Str) (ds : List (Fin 10)) (dflt : Option Nat) (hne : ds ≠ [])
    (h1 : ∀ c ∈ b1, isPySpace c = true) (h2 : ∀ c ∈ b2, isPySpace c = true) :
    fromEnvIfAbsent U none (some (b1 ++ ds.map digitOf ++ b2)) dflt = .ok (some (numeral ds)) ∧
    (numeral ds ≠ 0 → fromEnvIfAbsent U none (some (b1 ++ ('-' :: ds.map digitOf) ++ b2)) dflt = .raised) := by
  have hsp : ∀ c ∈ ds.map digitOf, isPySpace c = false := by
    intro c hc
    obtain ⟨d, _, rfl⟩ := List.mem_map.1 hc
    exact (digitOf_plain d).2.2.2
  have hnum := decDigits_numeral U ds false 0 (.inl hne)
  have hpos : signDigits U (ds.map digitOf) = some (numeral ds : Int) := by
    cases ds with
    | nil => exact absurd rfl hne
    | cons d ds =>
      rw [List.map_cons] at hnum ⊢
      unfold signDigits
      split
      · rename_i e; exact absurd (List.cons.inj e).1 (digitOf_plain d).2.1
      · rename_i e; exact absurd (List.cons.inj e).1 (digitOf_plain d).2.2.1
      · rw [hnum]; rfl
  refine ⟨?_, fun hz => ?_⟩
  · have hp : pyStrip (b1 ++ ds.map digitOf ++ b2) = ds.map digitOf := strip_around _ _ _ h1 h2 hsp
    refine ((fromEnv_spec U none _ dflt).1 _).2 (.environment _ _ _ (.number _ _ ?_))
    unfold pyInt10
    rw [hp, hpos]
  · have hp : pyStrip (b1 ++ ('-' :: ds.map digitOf) ++ b2) = '-' :: ds.map digitOf := strip_around _ _ _ h1 h2 (by
      intro c hc
      rcases List.mem_cons.1 hc with rfl | hc
      · decide
      · exact hsp c hc)
    have hv : pyInt10 U (b1 ++ ('-' :: ds.map digitOf) ++ b2) = some (-(numeral ds : Int)) := by
      unfold pyInt10
      rw [hp]
      simp only [signDigits, hnum]
      rfl
    refine (fromEnv_spec U none _ dflt).2.2 (.text _ ?_)
    rintro ⟨out, he⟩
    cases he with
    | blank hs =>
      have := hs '-' (by simp)
      exact absurd this (by decide)
    | number n hn => rw [hv] at hn; simp at hn; omega

/-- Non-vacuity. -/
example : [1, 0, 7].map digitOf = "107".toList ∧ numeral [1, 0, 7] = 107 := by decide

/-! ## Which texts are integers -/

/-- All characters are decimal digits. -/
def AllDigits (U : DigitTable) (g : Str) : Prop := ∀ c ∈ g, (decDigit? U c).isSome

/-- `s` is one or more groups of digits joined by single underscores, and `n` is the number its digits stand for. -/
def Numeral (U : DigitTable) (s : Str) (n : Nat) : Prop :=
  ∃ (g : Str) (gs : List Str), g ≠ [] ∧ AllDigits U g ∧ (∀ x ∈ gs, x ≠ [] ∧ AllDigits U x) ∧ s = g ++ gs.flatMap ('_' :: ·) ∧
    n = (g ++ gs.flatten).foldl (fun a c => 10 * a + (decDigit? U c).getD 0) 0

theorem underscore_no_digit (U : DigitTable) : decDigit? U '_' = none := rfl

theorem decDigits_iff (U : DigitTable) (s : Str) : ∀ (b : Bool) (acc n : Nat), decDigits U b acc s = some n ↔
    ∃ (g : Str) (gs : List Str), (b = false → g ≠ []) ∧ AllDigits U g ∧ (∀ x ∈ gs, x ≠ [] ∧ AllDigits U x) ∧ s = g ++ gs.flatMap ('_' :: ·) ∧
      n = (g ++ gs.flatten).foldl (fun a c => 10 * a + (decDigit? U c).getD 0) acc := by
  induction s with
  | nil =>
    intro b acc n
    cases b with
    | false =>
      simp only [decDigits, Bool.false_eq_true, if_false]
      constructor
      · intro h; cases h
      · rintro ⟨g, gs, h1, _, _, h4, _⟩
        exact absurd (List.append_eq_nil_iff.1 h4.symm).1 (h1 trivial)
    | true =>
      simp only [decDigits, if_true, Option.some.injEq]
      constructor
      · rintro rfl
        exact ⟨[], [], by simp, by simp [AllDigits], by simp, rfl, rfl⟩
      · rintro ⟨g, gs, _, _, h3, h4, h5⟩
        obtain ⟨e1, e2⟩ := List.append_eq_nil_iff.1 h4.symm
        cases gs with
        | nil => subst e1; exact h5.symm
        | cons x gs => simp at e2
  | cons c s ih =>
    intro b acc n
    simp only [decDigits]
    by_cases hc : c = '_'
    · subst hc
      rw [if_pos rfl]
      cases b with
      | false =>
        simp only [Bool.false_eq_true, if_false]
        constructor
        · intro h; cases h
        · rintro ⟨g, gs, h1, h2, _, h4, _⟩
          cases g with
          | nil => exact absurd rfl (h1 trivial)
          | cons d g =>
            have : d = '_' := (List.cons.inj h4).1.symm
            subst this
            have := h2 '_' (by simp)
            rw [underscore_no_digit] at this
            cases this
      | true =>
        rw [if_pos rfl, ih]
        constructor
        · rintro ⟨g, gs, h1, h2, h3, h4, h5⟩
          exact ⟨[], g :: gs, by simp, by simp [AllDigits], by
            intro x hx
            rcases List.mem_cons.1 hx with rfl | hx
            · exact ⟨h1 rfl, h2⟩
            · exact h3 x hx, by rw [h4]; simp, by rw [h5]; simp⟩
        · rintro ⟨g, gs, h1, h2, h3, h4, h5⟩
          cases g with
          | cons d g =>
            have : d = '_' := (List.cons.inj h4).1.symm
            subst this
            have := h2 '_' (by simp)
            rw [underscore_no_digit] at this
            cases this
          | nil =>
            cases gs with
            | nil => simp at h4
            | cons x gs =>
              refine ⟨x, gs, fun _ => (h3 x (by simp)).1, (h3 x (by simp)).2, fun y hy => h3 y (by simp [hy]), ?_, ?_⟩
              · simpa using h4
              · simpa using h5
    · rw [if_neg hc]
      cases hd : decDigit? U c with
      | none =>
        constructor
        · intro h; cases h
        · rintro ⟨g, gs, h1, h2, _, h4, _⟩
          cases g with
          | nil =>
            cases gs with
            | nil => simp at h4
            | cons x gs => simp at h4; exact absurd h4.1 hc
          | cons d g =>
            have : d = c := (List.cons.inj h4).1.symm
            subst this
            have := h2 d (by simp)
            rw [hd] at this
            cases this
      | some d =>
        simp only
        rw [ih]
        constructor
        · rintro ⟨g, gs, _, h2, h3, h4, h5⟩
          refine ⟨c :: g, gs, by simp, ?_, h3, by rw [h4]; rfl, ?_⟩
          · intro x hx
            rcases List.mem_cons.1 hx with rfl | hx
            · rw [hd]; rfl
            · exact h2 x hx
          · rw [h5, List.cons_append, List.foldl_cons, hd, Nat.mul_comm acc 10]; rfl
        · rintro ⟨g, gs, _, h2, h3, h4, h5⟩
          cases g with
          | nil =>
            cases gs with
            | nil => simp at h4
            | cons x gs => simp at h4; exact absurd h4.1 hc
          | cons e g =>
            obtain ⟨e1, e2⟩ := List.cons.inj h4
            subst e1
            refine ⟨g, gs, by simp, fun x hx => h2 x (by simp [hx]), h3, e2, ?_⟩
            rw [h5, List.cons_append, List.foldl_cons, hd, Nat.mul_comm acc 10]; rfl

/-- **C20** Exactly these texts are integers: after removing white space at both ends, an optional single sign and groups of decimal digits joined
by single underscores. A sign alone, a leading, trailing or doubled underscore, a space inside, or anything else is refused. -/
theorem C20_integer_text (U : DigitTable) (s : Str) (z : Int) :
    pyInt10 U s = some z ↔
      (∃ n : Nat, Numeral U (pyStrip s) n ∧ z = n) ∨ (∃ (t : Str) (n : Nat), pyStrip s = '+' :: t ∧ Numeral U t n ∧ z = n) ∨
      (∃ (t : Str) (n : Nat), pyStrip s = '-' :: t ∧ Numeral U t n ∧ z = -(n : Int)) := by
  have key : ∀ t n, decDigits U false 0 t = some n ↔ Numeral U t n := by
    intro t n
    rw [decDigits_iff]
    constructor
    · rintro ⟨g, gs, h1, h⟩; exact ⟨g, gs, h1 rfl, h⟩
    · rintro ⟨g, gs, h1, h⟩; exact ⟨g, gs, fun _ => h1, h⟩
  have nosign : ∀ c t n, (c = '-' ∨ c = '+') → ¬ Numeral U (c :: t) n := by
    rintro c t n hc ⟨g, gs, h1, h2, _, h4, _⟩
    cases g with
    | nil => exact h1 rfl
    | cons d g =>
      have : d = c := (List.cons.inj h4).1.symm
      subst this
      have := h2 d (by simp)
      rcases hc with rfl | rfl <;> exact absurd this Bool.false_ne_true
  unfold pyInt10 signDigits
  generalize pyStrip s = t
  split
  · rename_i r
    rw [Option.map_eq_some_iff]
    constructor
    · rintro ⟨n, h, rfl⟩; exact .inr (.inr ⟨r, n, rfl, (key _ _).1 h, rfl⟩)
    · rintro (⟨n, h, _⟩ | ⟨u, n, h, _⟩ | ⟨u, n, h, h2, rfl⟩)
      · exact absurd h (nosign _ _ _ (.inl rfl))
      · cases h
      · cases h; exact ⟨n, (key _ _).2 h2, rfl⟩
  · rename_i r
    rw [Option.map_eq_some_iff]
    constructor
    · rintro ⟨n, h, rfl⟩; exact .inr (.inl ⟨r, n, rfl, (key _ _).1 h, rfl⟩)
    · rintro (⟨n, h, _⟩ | ⟨u, n, h, h2, rfl⟩ | ⟨u, n, h, _⟩)
      · exact absurd h (nosign _ _ _ (.inr rfl))
      · cases h; exact ⟨n, (key _ _).2 h2, rfl⟩
      · cases h
  · rename_i h1 h2
    rw [Option.map_eq_some_iff]
    constructor
    · rintro ⟨n, h, rfl⟩; exact .inl ⟨n, (key _ _).1 h, rfl⟩
    · rintro (⟨n, h, rfl⟩ | ⟨u, n, h, _⟩ | ⟨u, n, h, _⟩)
      · exact ⟨n, (key _ _).2 h, rfl⟩
      · exact absurd h (h2 u)
      · exact absurd h (h1 u)

/-- Non-vacuity: `1_0` is ten; `_1`, `1__0` and `-` are not integers. -/
example : pyInt10 (fun _ => none) "1_0".toList = some 10 ∧ pyInt10 (fun _ => none) "_1".toList = none ∧
    pyInt10 (fun _ => none) "1__0".toList = none ∧ pyInt10 (fun _ => none) "-".toList = none := by decide

end Limits
end Otel
