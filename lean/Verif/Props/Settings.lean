import Verif.Spec.Settings
import Verif.Model.Batch
import Mathlib.Tactic.SplitIfs
import Mathlib.Tactic.Linarith
import Mathlib.Tactic.NormNum
/-!
# C105: settings from arguments and environment variables
-/
namespace Otel
namespace Settings
open Metrics (Fl)

theorem from_int (U : DigitTable) (arg : Option Int) (env : Option Str) (d v : Int) :
    From arg env (pyInt10 U) d v ↔ v = (arg).getD (fromEnv U env d) := by
  constructor
  · rintro (⟨_, h⟩ | ⟨s, _, h, h2, h3⟩ | ⟨h, h2⟩ | ⟨s, h, h2, h3⟩)
    · rw [h]; rfl
    · rw [h, h2]; simp [fromEnv, h3]
    · rw [h, h2]; rfl
    · rw [h, h2]; simp [fromEnv, h3]
  · rintro rfl
    cases arg with
    | some v => exact .argument v rfl
    | none =>
      cases env with
      | none => exact .unset rfl rfl
      | some s =>
        cases h : pyInt10 U s with
        | none => simp only [fromEnv, h]; exact .invalid s rfl rfl h
        | some v => simp only [fromEnv, h]; exact .variable s v rfl rfl h

theorem from_time (U : DigitTable) (arg : Option Fl) (env : Option Str) (d : Int) (v : Fl) :
    From arg env (fun s => (pyInt10 U s).map fun n : Int => Fl.fin n) (Fl.fin d) v ↔
      v = (arg).getD (Fl.fin (fromEnv U env d)) := by
  constructor
  · rintro (⟨_, h⟩ | ⟨s, _, h, h2, h3⟩ | ⟨h, h2⟩ | ⟨s, h, h2, h3⟩)
    · rw [h]; rfl
    · rw [h, h2]
      cases hp : pyInt10 U s with
      | none => rw [hp] at h3; cases h3
      | some n => rw [hp] at h3; cases h3; simp [fromEnv, hp]
    · rw [h, h2]; rfl
    · rw [h, h2]
      cases hp : pyInt10 U s with
      | none => simp [fromEnv, hp]
      | some n => rw [hp] at h3; cases h3
  · rintro rfl
    cases arg with
    | some v => exact .argument v rfl
    | none =>
      cases env with
      | none => exact .unset rfl rfl
      | some s =>
        cases h : pyInt10 U s with
        | none => simp only [fromEnv, h]; exact .invalid s rfl rfl (by simp [h])
        | some v => simp only [fromEnv, h]; exact .variable s _ rfl rfl (by simp [h])

theorem not_small (d : Fl) : le d 0 = false ↔ NotSmall d := by
  cases d with
  | fin q => simp [le, Fl.lt, NotSmall, show (0 : Fl) = .fin 0 from rfl]
  | pinf => simp [le, Fl.lt, NotSmall, show (0 : Fl) = .fin 0 from rfl]
  | ninf => simp [le, Fl.lt, NotSmall, show (0 : Fl) = .fin 0 from rfl]
  | nan => simp [le, NotSmall]

theorem validate_iff (q b : Int) (d : Fl) (t : Fl) : validate q d b = true ↔ Sound ⟨q, d, b, t⟩ := by
  unfold validate Sound
  have h := not_small d
  cases hl : le d 0
  · have hn := h.mp hl
    split_ifs <;> simp_all <;> omega
  · have hn : ¬ NotSmall d := fun hn => by rw [h.mpr hn] at hl; cases hl
    split_ifs <;> simp_all

/-- **C105** A processor is constructed exactly if the settings meant by its arguments and the environment are sound, and then
it has these settings. -/
theorem C105_batching (U : DigitTable) (a : Args) (e : Env) (b : Batching) :
    batching U a e = some b ↔ Meant U a e b ∧ Sound b := by
  unfold batching
  simp only
  constructor
  · intro h
    split_ifs at h with hv
    cases h
    exact ⟨⟨(from_int ..).mpr rfl, (from_time U _ _ defaultDelay _).mpr rfl, (from_int ..).mpr rfl,
      (from_time U _ _ defaultTimeout _).mpr rfl⟩, (validate_iff _ _ _ _).mp hv⟩
  · rintro ⟨⟨h1, h2, h3, h4⟩, hs⟩
    have e1 := (from_int U a.queue e.queue defaultQueue _).mp h1
    have e2 := (from_time U a.delay e.delay defaultDelay _).mp h2
    have e3 := (from_int U a.batch e.batch defaultBatch _).mp h3
    have e4 := (from_time U a.timeout e.timeout defaultTimeout _).mp h4
    rw [← e1, ← e2, ← e3, ← e4, if_pos ((validate_iff _ _ _ b.timeout).mpr hs)]

/-- **C105** Every combination of arguments and environment means settings, and only one: so construction fails exactly if these
are not sound. -/
theorem C105_raises (U : DigitTable) (a : Args) (e : Env) :
    ∃ b, Meant U a e b ∧ (∀ b', Meant U a e b' → b' = b) ∧ (batching U a e = none ↔ ¬ Sound b) := by
  have hm : ∀ b, Meant U a e b ↔ b = ⟨(a.queue).getD (fromEnv U e.queue defaultQueue),
      (a.delay).getD (.fin (fromEnv U e.delay defaultDelay)),
      (a.batch).getD (fromEnv U e.batch defaultBatch),
      (a.timeout).getD (.fin (fromEnv U e.timeout defaultTimeout))⟩ := by
    intro b
    constructor
    · rintro ⟨h1, h2, h3, h4⟩
      have e1 := (from_int U a.queue e.queue defaultQueue _).mp h1
      have e2 := (from_time U a.delay e.delay defaultDelay _).mp h2
      have e3 := (from_int U a.batch e.batch defaultBatch _).mp h3
      have e4 := (from_time U a.timeout e.timeout defaultTimeout _).mp h4
      rw [← e1, ← e2, ← e3, ← e4]
    · rintro rfl
      exact ⟨(from_int ..).mpr rfl, (from_time U _ _ defaultDelay _).mpr rfl, (from_int ..).mpr rfl,
        (from_time U _ _ defaultTimeout _).mpr rfl⟩
  refine ⟨_, (hm _).mpr rfl, fun b' h => (hm b').mp h, ?_⟩
  unfold batching
  simp only
  rw [← validate_iff]
  split_ifs with h <;> simp [h]

/-- **C105** Without arguments, whatever the variables are set to as long as none can be parsed, the defaults are used, and they
are sound. -/
theorem C105_defaults (U : DigitTable) (e : Env)
    (h : ∀ v, (e.queue = some v ∨ e.delay = some v ∨ e.batch = some v ∨ e.timeout = some v) → pyInt10 U v = none) :
    batching U {} e = some ⟨2048, .fin 5000, 512, .fin 30000⟩ := by
  rw [C105_batching]
  have key : ∀ (env : Option Str) (d : Int), (∀ v, env = some v → pyInt10 U v = none) → fromEnv U env d = d := by
    intro env d h
    cases env with
    | none => rfl
    | some s => simp [fromEnv, h s rfl]
  refine ⟨⟨(from_int ..).mpr ?_, (from_time U _ _ 5000 _).mpr ?_, (from_int ..).mpr ?_, (from_time U _ _ 30000 _).mpr ?_⟩, ?_⟩
  · exact (key _ _ fun v hv => h v (.inl hv)).symm
  · show Fl.fin 5000 = Fl.fin (fromEnv U e.delay 5000)
    rw [key _ _ fun v hv => h v (.inr (.inl hv))]; norm_num
  · exact (key _ _ fun v hv => h v (.inr (.inr (.inl hv)))).symm
  · show Fl.fin 30000 = Fl.fin (fromEnv U e.timeout 30000)
    rw [key _ _ fun v hv => h v (.inr (.inr (.inr hv)))]; norm_num
  · refine ⟨by norm_num, ?_, by norm_num, by norm_num⟩
    show (0 : ℚ) < 5000
    norm_num

/-- **C105** The settings of every constructed processor meet the assumptions under which C24–C26 describe it. -/
theorem C105_configures {σ : Type} (U : DigitTable) (a : Args) (e : Env) (b : Batching) (h : batching U a e = some b)
    (sampled : σ → Bool) : ∃ c : Batch.Cfg σ, (c.maxQueue : Int) = b.queue ∧ (c.maxBatch : Int) = b.batch ∧ c.sampled = sampled := by
  obtain ⟨h1, _, h3, h4⟩ := ((C105_batching U a e b).mp h).2
  exact ⟨⟨b.queue.toNat, b.batch.toNat, sampled, by omega, by omega⟩, by simp; omega, by simp; omega, rfl⟩

/-- **C105** (refuted) A small queue is not enough of a setting: whoever asks only for a queue of fewer than 512 records, by
argument or by environment variable, gets a `ValueError`, because the default batch size is not reduced. -/
theorem C105_small_queue_violated (U : DigitTable) (n : Int) (hn : n < 512) (s : Str) (hs : pyInt10 U s = some n) :
    batching U { queue := some n } {} = none ∧ batching U {} { queue := some s } = none := by
  constructor
  · rw [Option.eq_none_iff_forall_ne_some]
    intro b h
    obtain ⟨hm, _, _, _, hle⟩ := (C105_batching ..).mp h
    have e1 := (from_int U _ _ _ _).mp hm.queue
    have e3 := (from_int U _ _ _ _).mp hm.batch
    simp only [fromEnv, Option.getD_some, Option.getD_none] at e1 e3
    omega
  · rw [Option.eq_none_iff_forall_ne_some]
    intro b h
    obtain ⟨hm, _, _, _, hle⟩ := (C105_batching ..).mp h
    have e1 := (from_int U _ _ _ _).mp hm.queue
    have e3 := (from_int U _ _ _ _).mp hm.batch
    simp only [fromEnv, hs, Option.getD_none] at e1 e3
    omega

/-! ## The metric reader -/

theorem from_float (float : Str → Option Fl) (arg : Option Fl) (env : Option Str) (d v : Fl) :
    From arg env float d v ↔ v = (arg).getD (floatEnv float env d) := by
  constructor
  · rintro (⟨_, h⟩ | ⟨s, _, h, h2, h3⟩ | ⟨h, h2⟩ | ⟨s, h, h2, h3⟩)
    · rw [h]; rfl
    · rw [h, h2]; simp [floatEnv, h3]
    · rw [h, h2]; rfl
    · rw [h, h2]; simp [floatEnv, h3]
  · rintro rfl
    cases arg with
    | some v => exact .argument v rfl
    | none =>
      cases env with
      | none => exact .unset rfl rfl
      | some s =>
        cases h : float s with
        | none => simp only [floatEnv, h]; exact .invalid s rfl rfl h
        | some v => simp only [floatEnv, h]; exact .variable s v rfl rfl h

/-- **C105** A metric reader exports periodically exactly if the interval it is given is a positive number, is not constructed
exactly if it is zero or less, and otherwise (infinity or NaN) never exports by itself. -/
theorem C105_reader (float : Str → Option Fl) (interval timeout : Option Fl) (ei et : Option Str) (i t : Fl)
    (hi : From interval ei float (.fin 60000) i) (ht : From timeout et float (.fin 30000) t) :
    reader float interval timeout ei et =
      match i with
      | .fin q => if 0 < q then .ticking (.fin q) t else .raised
      | .pinf => .manual .pinf t
      | .ninf => .raised
      | .nan => .manual .nan t := by
  have e1 := (from_float ..).mp hi
  have e2 := (from_float ..).mp ht
  unfold reader
  simp only
  rw [← e1, ← e2]
  cases i with
  | fin q =>
    by_cases h : 0 < q
    · simp [Fl.lt, h, show (0 : Fl) = .fin 0 from rfl]
    · simp [Fl.lt, h, le, show (0 : Fl) = .fin 0 from rfl, not_lt.mp h]
  | pinf => simp [Fl.lt, le, show (0 : Fl) = .fin 0 from rfl]
  | ninf => simp [Fl.lt, le, show (0 : Fl) = .fin 0 from rfl]
  | nan => simp [Fl.lt, le, show (0 : Fl) = .fin 0 from rfl]

/-- **C105** (refuted) An interval that is not a number is neither refused nor used: the reader is constructed and never
exports. -/
theorem C105_nan_violated (float : Str → Option Fl) (s : Str) (h : float s = some Fl.nan) :
    reader float none none (some s) none = .manual .nan (.fin 30000) :=
  C105_reader float none none (some s) none .nan (.fin 30000) (.variable s Fl.nan rfl rfl h) (.unset rfl rfl)

/-- **C105** With a delay of up to 9223372036 seconds, the worker of a constructed processor and the ticker of a reader wait for
that long. -/
theorem C105_waits (q : ℚ) (h : 0 < q) (hm : q ≤ 9223372036000) : firstWait (.fin q) = .blocks (q / 1000) := by
  have h1 : 0 < q / 1000 := by positivity
  have h2 : ¬ (timeoutMax < q / 1000) := by unfold timeoutMax; rw [not_lt, div_le_iff₀ (by norm_num)]; linarith
  simp only [firstWait, seconds, wait]
  rw [if_pos h1, if_neg h2]

/-- **C105** (refuted) Longer delays are accepted, from arguments or the environment, but the worker dies when it first waits. -/
theorem C105_far_violated (U : DigitTable) (n : Int) (h : 9223372036000 < n) (s : Str) (hs : pyInt10 U s = some n) :
    (∃ b, batching U {} { delay := some s } = some b ∧ firstWait b.delay = .raises) ∧
    (∃ b, batching U { delay := some .pinf } {} = some b ∧ firstWait b.delay = .raises) := by
  have hq : (9223372036000 : ℚ) < (n : ℚ) := by exact_mod_cast h
  constructor
  · refine ⟨⟨2048, .fin n, 512, .fin 30000⟩, (C105_batching ..).mpr ⟨⟨.unset rfl rfl, .variable s _ rfl rfl (by simp [hs]), .unset rfl rfl, .unset rfl rfl⟩, ?_⟩, ?_⟩
    · exact ⟨by norm_num, show (0 : ℚ) < n by linarith, by norm_num, by norm_num⟩
    · simp only [firstWait, seconds, wait]
      have h1 : (0 : ℚ) < n / 1000 := by linarith
      have h2 : timeoutMax < (n : ℚ) / 1000 := by unfold timeoutMax; rw [lt_div_iff₀ (by norm_num)]; linarith
      rw [if_pos h1, if_pos h2]
  · exact ⟨⟨2048, .pinf, 512, .fin 30000⟩, (C105_batching ..).mpr ⟨⟨.unset rfl rfl, .argument _ rfl, .unset rfl rfl, .unset rfl rfl⟩,
      by norm_num, trivial, by norm_num, by norm_num⟩, rfl⟩

/-- **C105** (refuted) A delay that is not a number is accepted too, and the worker never waits: it spins. -/
theorem C105_spins_violated (U : DigitTable) :
    ∃ b, batching U { delay := some .nan } {} = some b ∧ firstWait b.delay = .polls :=
  ⟨⟨2048, .nan, 512, .fin 30000⟩, (C105_batching ..).mpr ⟨⟨.unset rfl rfl, .argument _ rfl, .unset rfl rfl, .unset rfl rfl⟩,
    by norm_num, trivial, by norm_num, by norm_num⟩, rfl⟩

/-! ## Examples -/

/-- A queue of 100 from the environment, with a batch size of 50 as argument. -/
example : batching (fun _ => none) { batch := some 50 } { queue := some " 100 ".toList, delay := some "soon".toList } =
    some ⟨100, .fin 5000, 50, .fin 30000⟩ := by decide +kernel

example : pyInt10 (fun _ => none) "100".toList = some 100 := by decide +kernel

end Settings
end Otel
