import Verif.Model.Exit
/-!
# What a program has made and shut down
Read off the calls a program has made, and whether they raised.
-/
namespace Otel
namespace Exit

/-- The providers made, in order: their kind, readers, and whether to shut them down at exit. -/
def creations (l : List Op) : List (Kind × List Nat × Bool) :=
  l.filterMap fun o => match o with
    | .create k rs e => some (k, rs, e)
    | _ => none

/-- The kind of provider `p`. -/
def kindOf (l : List Op) (p : Nat) : Option Kind := ((creations l)[p]?).map fun c => c.1

/-- The processors added to provider `p`, in order. -/
def adds (l : List Op) (p : Nat) : List Nat :=
  l.filterMap fun o => match o with
    | .add q x => if q = p then some x else none
    | _ => none

/-- What was given to provider `p`: the readers of a meter provider; the processors added to one of the other kinds. -/
def given (l : List Op) (p : Nat) : List Nat :=
  match (creations l)[p]? with
  | some (.meter, rs, _) => rs
  | _ => adds l p

/-- Only providers that exist are used, when `n` of them exist before. -/
def ValidFrom : Nat → List Op → Prop
  | _, [] => True
  | n, .create _ _ _ :: l => ValidFrom (n + 1) l
  | n, .add p _ :: l => p < n ∧ ValidFrom n l
  | n, .shutdown p :: l => p < n ∧ ValidFrom n l

/-- Only providers that exist are used. -/
def Valid (l : List Op) : Prop := ValidFrom 0 l

/-- The calls of a program and whether they raised. -/
def calls (raises : Nat → Nat → Bool) (l : List Op) : List (Op × Bool) := l.zip (run raises World.init l).2

/-- The program has shut down provider `p`, by a call that counts: any call for a meter provider, one that did not raise for the
others. `calls` are the program's calls and whether they raised. -/
def Settled (calls : List (Op × Bool)) (p : Nat) : Prop :=
  ∃ c ∈ calls, c.1 = .shutdown p ∧ (kindOf (calls.map Prod.fst) p = some .meter ∨ c.2 = false)

/-- The providers that have to be shut down at exit, in the order in which they were made. -/
def IsPending (calls : List (Op × Bool)) (ps : List Nat) : Prop :=
  List.Pairwise (fun a b : Nat => a < b) ps ∧
    ∀ p : Nat, p ∈ ps ↔ ((creations (calls.map Prod.fst))[p]?).map (fun c => c.2.2) = some true ∧ ¬ Settled calls p

/-- `seg` is what a handler calls when provider `p` of kind `k` has been given `xs` and `n` shutdowns have been made before: the
processors up to the first that raises; none, if they would be called by a thread pool; all readers. -/
def Handled (raises : Nat → Nat → Bool) (p : Nat) (k : Kind) (xs : List Nat) (n : Nat) (seg : List (Nat × Nat)) : Prop :=
  match k with
  | .sync => ∃ m : Nat, seg = (xs.take m).map (fun x => (p, x)) ∧
      (∀ (i x : Nat), i + 1 < m → xs[i]? = some x → raises x (n + i) = false) ∧
      (m < xs.length → ∃ (i x : Nat), m = i + 1 ∧ xs[i]? = some x ∧ raises x (n + i) = true)
  | .conc => seg = []
  | .meter => seg = xs.map fun x => (p, x)

/-- The shutdowns made by the program itself. -/
def before (raises : Nat → Nat → Bool) (l : List Op) : List (Nat × Nat) := (run raises World.init l).1.log

/-- The shutdowns provider `p` makes in `log`. -/
def by_ (p : Nat) (log : List (Nat × Nat)) : List (Nat × Nat) := log.filter fun e => e.1 = p

end Exit
end Otel
