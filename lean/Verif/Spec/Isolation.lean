import Verif.Model.Isolation
import Verif.Spec.ExpHist
/-!
# Specification of C123
Everything is said about the log: what was measured and how each collection ended.
-/
namespace Otel
namespace Isolation
open Metrics

/-- What a single stream experiences. -/
inductive Spec.Own where
  | meas (now v : Int)
  | coll (now : Int)
deriving DecidableEq

/-- The measurements of stream `p` among some measurements. -/
def Spec.mine (p : Nat) : List Meas → List Spec.Own
  | [] => []
  | m :: ms => if m.pos = some p then .meas m.now m.v :: Spec.mine p ms else Spec.mine p ms

/-- What one event means to stream `p`: a collection that failed at an observation did not get to any stream, one that failed at stream `q` got to the streams up to `q`. -/
def Spec.ownEv (p : Nat) : Ev → List Spec.Own
  | .meas m true => Spec.mine p [m]
  | .meas _ false => []
  | .pass _ now obs (.ok _) => Spec.mine p obs ++ [.coll now]
  | .pass _ _ obs (.failed (.obs i)) => Spec.mine p (obs.take i)
  | .pass _ now obs (.failed (.stream q)) => Spec.mine p obs ++ if p ≤ q then [.coll now] else []

/-- What stream `p` experienced. -/
def Spec.own (p : Nat) (log : List Ev) : List Spec.Own := log.flatMap (Spec.ownEv p)

/-- A stream on its own: it comes into being with its first measurement. -/
def Spec.aloneStep (c : Conf) (idx : Int → Int → Int) (a : Option Agg) : Spec.Own → Option Agg
  | .meas now v =>
    match getOrCreate c a now with
    | none => none
    | some a => a.aggregate idx v
  | .coll now => a.map (fun a => (a.collect c.temp now).2)

/-- Its state after some experiences. -/
def Spec.alone (c : Conf) (idx : Int → Int → Int) (l : List Spec.Own) : Option Agg := l.foldl (Spec.aloneStep c idx) none

/-- What a stream experienced as a history of an aggregation (C29–C31, C35–C37). -/
def Spec.history : List Spec.Own → List (Op Int)
  | [] => []
  | .meas _ v :: l => .meas v :: Spec.history l
  | .coll now :: l => .coll now :: Spec.history l

/-- What it answers to a collection after some experiences. -/
def Spec.answer (c : Conf) (idx : Int → Int → Int) (l : List Spec.Own) (now : Int) : Exp.Outcome Point :=
  match Spec.alone c idx l with
  | none => .returned none
  | some a => (a.collect c.temp now).1

/-- The data of a stream in a collection. -/
def Spec.dataOf (p : Nat) (d : List (Nat × Point)) : List Point := (d.filter (fun x => decide (x.1 = p))).map (·.2)

/-- An answer as a list of points. -/
def Spec.points : Exp.Outcome Point → List Point
  | .returned (some x) => [x]
  | _ => []

/-- The values measured. -/
def Spec.values : List Spec.Own → List Int
  | [] => []
  | .meas _ v :: l => v :: Spec.values l
  | .coll _ :: l => Spec.values l

/-- Account of a delta counter: what waits to be collected, what was reported, what was lost. -/
structure Spec.Account where
  waiting : Int
  reported : Int
  lost : Int
deriving DecidableEq

/-- The value of a point of a counter. -/
def Spec.value : Point → Int
  | .num p => p.value
  | _ => 0

/-- One event in the account of counter `p`. What waits is lost when a collection takes it and then fails at a later stream. -/
def Spec.book (p : Nat) (a : Spec.Account) : Ev → Spec.Account
  | .meas m true => { a with waiting := a.waiting + (Spec.values (Spec.mine p [m])).sum }
  | .meas _ false => a
  | .pass _ _ obs (.failed (.obs i)) => { a with waiting := a.waiting + (Spec.values (Spec.mine p (obs.take i))).sum }
  | .pass _ _ obs (.failed (.stream q)) =>
    if p ≤ q then { a with waiting := 0, lost := a.lost + a.waiting + (Spec.values (Spec.mine p obs)).sum }
    else { a with waiting := a.waiting + (Spec.values (Spec.mine p obs)).sum }
  | .pass _ _ _ (.ok d) => { a with waiting := 0, reported := a.reported + ((Spec.dataOf p d).map Spec.value).sum }

/-- The account after a log. -/
def Spec.account (p : Nat) (log : List Ev) : Spec.Account := log.foldl (Spec.book p) ⟨0, 0, 0⟩

/-- The data of the collections that succeeded. -/
def Spec.delivered (log : List Ev) : List (List (Nat × Point)) :=
  log.filterMap (fun e => match e with | .pass _ _ _ (.ok d) => if d.isEmpty then none else some d | _ => none)

/-- Collections by the reader's own thread. -/
def Spec.byThread : Ev → Bool
  | .pass .loop _ _ _ => true
  | .pass .final _ _ _ => true
  | _ => false

/-- Did a collection fail? -/
def Spec.isFailure : Ev → Bool
  | .pass _ _ _ (.failed _) => true
  | _ => false

/-- What one event of the log says about stream `p`, after the events `l`: a collection that succeeded has exactly what the stream answers; one that failed at a stream failed because that stream
raised, and the streams before it had answered. -/
def Spec.Fits (cfg : Nat → Conf) (idx : Int → Int → Int) (p : Nat) (l : List Ev) : Ev → Prop
  | .meas _ _ => True
  | .pass _ now obs (.ok d) => Spec.answer (cfg p) idx (Spec.own p l ++ Spec.mine p obs) now ≠ .raised ∧
      Spec.dataOf p d = Spec.points (Spec.answer (cfg p) idx (Spec.own p l ++ Spec.mine p obs) now)
  | .pass _ _ obs (.failed (.obs i)) => i < obs.length
  | .pass _ now obs (.failed (.stream q)) => (p = q → Spec.answer (cfg p) idx (Spec.own p l ++ Spec.mine p obs) now = .raised) ∧
      (p < q → Spec.answer (cfg p) idx (Spec.own p l ++ Spec.mine p obs) now ≠ .raised)

/-- A failed round of the loop. -/
def Spec.loopFailure : Ev → Bool
  | .pass .loop _ _ (.failed _) => true
  | _ => false

/-- The measurements a program makes, including the observations of its callbacks. -/
def Spec.inputs : List Cmd → List Meas
  | [] => []
  | .meas m :: l => m :: Spec.inputs l
  | .tick _ obs :: l => obs ++ Spec.inputs l
  | .flush _ obs :: l => obs ++ Spec.inputs l
  | .shutdown _ obs :: l => obs ++ Spec.inputs l

/-- A measurement that cannot make anything fail: its attributes are hashable, its magnitude is one the mapping handles, and if its stream is an exponential histogram then of a synchronous instrument, with
size and scale in the ranges the code has, collected with deltas. -/
def Spec.Healthy (cfg : Nat → Conf) (V : Int → Prop) (m : Meas) : Prop :=
  ∃ p, m.pos = some p ∧
    match (cfg p).kind with
    | .exp i size scale => i = .delta ∧ 2 ≤ size ∧ size ≤ 16384 ∧ -10 ≤ scale ∧ scale ≤ 20 ∧ (cfg p).temp = .delta ∧ (m.v ≠ 0 → V (Exp.mag m.v))
    | _ => m.v ≠ 0 → V (Exp.mag m.v)

end Isolation
end Otel
