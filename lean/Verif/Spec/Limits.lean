import Verif.Model.Limits
/-!
# How one limit is resolved, as rules
-/
namespace Otel
namespace Spec

/-- The text of an environment variable denotes a limit (`none` = unlimited): blank, or a non-negative integer. -/
inductive EnvDenotes (U : DigitTable) : Str → Option Nat → Prop
  | blank (s : Str) : (∀ c ∈ s, isPySpace c = true) → EnvDenotes U s none
  | number (s : Str) (n : Nat) : pyInt10 U s = some (n : Int) → EnvDenotes U s (some n)

/-- A limit given as argument, environment text and default resolves to an outcome: an explicit value wins over
the environment, which wins over the default; −1 (`UNSET`) and blank text mean unlimited. -/
inductive Resolves (U : DigitTable) : Option Int → Option Str → Option Nat → Option Nat → Prop
  | explicit (n : Nat) (env : Option Str) (dflt : Option Nat) : Resolves U (some (n : Int)) env dflt (some n)
  | unset (env : Option Str) (dflt : Option Nat) : Resolves U (some (-1)) env dflt none
  | environment (s : Str) (dflt out : Option Nat) : EnvDenotes U s out → Resolves U none (some s) dflt out
  | default (dflt : Option Nat) : Resolves U none none dflt dflt

/-- A setting that must be rejected: a negative explicit value other than `UNSET`, or a text that is not a
non-negative integer. -/
inductive Rejected (U : DigitTable) : Option Int → Option Str → Prop
  | negative (v : Int) (env : Option Str) : v < -1 → Rejected U (some v) env
  | text (s : Str) : (¬ ∃ out, EnvDenotes U s out) → Rejected U none (some s)

end Spec
end Otel
