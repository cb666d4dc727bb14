import Verif.Model.Tracer
/-!
# What a traced program should produce
Reads off the text of a program which spans it starts, inside which block each one is, what it looks at, and the order of starts and ends.
No contexts, tokens, identifiers or span objects are involved.
-/
namespace Otel
namespace Tracer
open UseSpan (Esc)
open Sampling (Sampler)

/-- The innermost block around a point of the program: none, or that of the `j`-th span, in the same process (`false`) or reached through a
request to another service (`true`). -/
abbrev Place := Option (Nat × Bool)

/-- A span the program starts: the block around it, the arguments, and the sampler of its process. -/
structure Placed where
  place : Place
  opts : Opts
  sampler : Sampler

structure Shape where
  spans : List Placed
  looks : List Place
  /-- (true, i): span `i` starts; (false, i): span `i` ends -/
  events : List (Bool × Nat)
  esc : Option Esc

/-- The shape of a program run with `n` spans already started and the innermost block `cur`. -/
def shape : Sampler → Place → Nat → Prog → Shape
  | _, cur, _, .look => ⟨[], [cur], [], none⟩
  | _, _, _, .raise e => ⟨[], [], [], some e⟩
  | S, cur, n, .seq a b =>
    let q := shape S cur n a
    match q.esc with
    | none => let r := shape S cur (n + q.spans.length) b
              ⟨q.spans ++ r.spans, q.looks ++ r.looks, q.events ++ r.events, r.esc⟩
    | some _ => q
  | S, cur, n, .tryExcept a b =>
    let q := shape S cur n a
    match q.esc with
    | some (.exception _ _) => let r := shape S cur (n + q.spans.length) b
                               ⟨q.spans ++ r.spans, q.looks ++ r.looks, q.events ++ r.events, r.esc⟩
    | _ => q
  | S, cur, n, .start o => ⟨[⟨if o.newTrace then none else cur, o, S⟩], [], [(true, n)], none⟩
  | S, cur, n, .block o b =>
    let q := shape S (some (n, false)) (n + 1) b
    ⟨⟨if o.newTrace then none else cur, o, S⟩ :: q.spans, q.looks, (true, n) :: q.events ++ (if o.endOnExit then [(false, n)] else []), q.esc⟩
  | _, cur, n, .remote S b => { shape S (cur.map fun p => (p.1, true)) n b with esc := none }
  | _, _, _, _ => ⟨[], [], [], none⟩

end Tracer
end Otel
