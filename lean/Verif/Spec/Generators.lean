import Verif.Model.Generators
/-!
# Which blocks are open, and histories that are as if there were no generators
-/
namespace Otel
namespace Generators

/-- The block is open: entered in the strand, by whichever code, and not left. -/
def State.isOpen (st : State) (c : Nat) (b : Block) : Prop := b.strand = c ∧ ∃ a, b ∈ st.blocks a

/-- `i` is the innermost open block of the strand: the one that was entered last (spans are numbered as they are started). -/
def State.innermost (st : State) (c i : Nat) : Prop := (∃ b, st.isOpen c b ∧ b.span = i) ∧ ∀ b, st.isOpen c b → b.span ≤ i

/-- What should be current in the strand: the innermost open block, else what was current at the beginning. -/
def State.Right (v : Nat → Cur) (st : State) (c : Nat) : Prop :=
  (∃ i, st.innermost c i ∧ st.var c = .block i) ∨ ((∀ b, ¬ st.isOpen c b) ∧ st.var c = v c)

/-- An operation that leaves, if any, the innermost open block of its own strand. -/
def InOrder (st : State) (ev : Nat × Op) : Prop := ev.2 = .leave → ∀ b rest, st.blocks (st.actor ev.1) = b :: rest → st.innermost ev.1 b.span

/-- All operations of a history are of this kind. -/
def Along (P : State → Nat × Op → Prop) : State → List (Nat × Op) → Prop
  | _, [] => True
  | st, ev :: evs => P st ev ∧ Along P (step st ev) evs

/-- An operation that does not suspend a generator inside a block, and resumes none that is running. -/
def Outside (st : State) (ev : Nat × Op) : Prop :=
  (ev.2 = .suspend → st.act ev.1 ≠ [] ∧ st.blocks (st.actor ev.1) = []) ∧ ∀ g, ev.2 = .resume g → ∀ c, g ∉ st.act c

/-- `zip(*generators)` with two values each, of `n` generators that make their first `yield` inside a block: each is resumed and enters its block, then each is resumed and leaves it. -/
def zipped (n : Nat) : List (Nat × Op) :=
  ((List.range n).flatMap fun g => [(0, .resume g), (0, .enter), (0, .suspend)]) ++ (List.range n).flatMap fun g => [(0, .resume g), (0, .leave), (0, .suspend)]

/-- `for x in g: with tracer.start_as_current_span(..): ..` in a block of its own, of a generator that yields inside a block. -/
def consumed : List (Nat × Op) := [(0, .enter), (0, .resume 0), (0, .enter), (0, .suspend), (0, .enter), (0, .leave), (0, .resume 0), (0, .leave), (0, .suspend), (0, .leave)]

/-- A generator is begun in a strand, and left in its block there; another strand, with a block of its own, closes it. -/
def elsewhere : List (Nat × Op) := [(0, .resume 0), (0, .enter), (0, .suspend), (1, .enter), (1, .resume 0), (1, .leave), (1, .suspend), (1, .leave)]

/-- A generator that yields outside its block, and is consumed by code with a block around the loop and one in it. -/
def polite : List (Nat × Op) :=
  [(0, .enter), (0, .resume 0), (0, .enter), (0, .leave), (0, .suspend), (0, .enter), (0, .leave), (0, .resume 0), (0, .enter), (0, .leave), (0, .suspend), (0, .leave)]

end Generators
end Otel
