import Verif.Model.Scrapes
import Mathlib.Data.List.Infix
/-!
# What scrapes should expose
Read off the history: which data were queued, which were taken, by which scrape, and what it was given.
-/
namespace Otel
namespace Scrapes
open Prom (PMetric Family Env)
variable {α ν : Type}

/-- The data queued, in order. -/
def appended (l : List (Ev α ν)) : List (Snap α ν) := l.filterMap fun | .appended _ s => some s | _ => none
/-- The data taken out by scrapes, in order. -/
def taken (l : List (Ev α ν)) : List (Snap α ν) := l.filterMap fun | .popped _ s => some s | _ => none
/-- The data collected and not queued (yet). -/
def collected (l : List (Ev α ν)) : List (Snap α ν) := l.filterMap fun | .began _ _ c => c | _ => none

/-- The scrapes of thread `t`: the data each took, what it was given and whether it raised; `cur` is what the scrape under way took. -/
def scrapesFrom (t : Nat) (cur : List (Snap α ν)) : List (Ev α ν) → List (List (Snap α ν) × List (Item ν) × Bool)
  | [] => []
  | .popped u s :: l => if u = t then scrapesFrom t (cur ++ [s]) l else scrapesFrom t cur l
  | .scraped u out raised :: l => if u = t then (cur, out, raised) :: scrapesFrom t [] l else scrapesFrom t cur l
  | _ :: l => scrapesFrom t cur l

def scrapes (t : Nat) (l : List (Ev α ν)) : List (List (Snap α ν) × List (Item ν) × Bool) := scrapesFrom t [] l

/-- What a scrape is given of data taken one after the other: after each of them, the target info and the families of all taken so far. -/
def exposition (env : Env α) (info : Option (Dict Str Str)) (datas : List (Snap α ν)) : List (Item ν) :=
  ((datas.map Snap.metrics).inits.tail).flatMap fun pre =>
    match Prom.translate env [] pre.flatten with
    | some fams => itemsOf info fams
    | none => []

/-- Every thread is done. -/
def State.finished (st : State α ν) : Prop := ∀ t, st.phase t = .idle ∧ ∀ c, st.threads[t]? = some c → c = []

/-- The data can be translated: no data point of an exponential histogram. -/
def Snap.plain (s : Snap α ν) : Prop := ∀ m ∈ s.metrics, m.kind = .exponential → m.points = []

/-- The target info shown by a scrape that finds the data `q`. -/
def shownInfo (env : Env α) (disable : Bool) (known : Option (Dict Str Str)) : List (Snap α ν) → Option (Dict Str Str)
  | [] => none
  | s :: _ => if disable then none else some (known.getD (infoOf env s))

/-- Thread `t` has something to do. -/
def State.busy (st : State α ν) (t : Nat) : Prop := st.phase t ≠ .idle ∨ ∃ c rest, st.threads[t]? = some (c :: rest)

/-- Every step of the schedule is made by a thread with something to do. -/
def Effective (env : Env α) (disable : Bool) : Sched α ν → State α ν → Prop
  | [], _ => True
  | x :: l, st => st.busy x.1 ∧ Effective env disable l (step env disable x.1 x.2 st)

/-- The target info, as opposed to a family. -/
def Item.isTarget : Item ν → Bool
  | .target _ => true
  | .family _ => false

end Scrapes
end Otel
