import Verif.Model.Span
/-!
# Link objects are shared
Models what programs do with `Link` objects (`opentelemetry-api/src/opentelemetry/trace/__init__.py` 132–161) and the spans that refer to them
(`opentelemetry-sdk/src/opentelemetry/sdk/trace/__init__.py` 363–366, 785–840, 883–904): a `Link` refers to the dictionary it was given, and a span refers to
the `Link` objects it was given, after replacing their attributes by bounded copies. Module `Span` treats links as values; here the objects have identities
(their positions in the heap).
-/
namespace Otel
namespace Links
open Span (RawAttrs isValidLink)

/-- `link._attributes`: `None`, a dictionary of the program, or bounded attributes. -/
inductive LAttrs where
  | absent
  | dict (i : Nat)
  | bounded (b : BAttrs)
deriving DecidableEq

/-- A `Link` object (trace/__init__.py:140–147). -/
structure Obj where
  ctx : Option SpanContext
  attrs : LAttrs
deriving DecidableEq

/-- A span: the limits of its provider, and its links. -/
structure SpanObj where
  lim : SpanLimits
  links : BList Nat

/-- All objects. -/
structure Heap where
  dicts : List RawAttrs
  links : List Obj
  spans : List SpanObj

/-- The items of `link.attributes`. -/
def items (dicts : List RawAttrs) : LAttrs → RawAttrs
  | .absent => []
  | .dict i => dicts.getD i []
  | .bounded b => b.d.map fun kv => (.str kv.1, kv.2)

/-- `link.dropped_attributes` (trace/__init__.py:153–157). -/
def dropped : LAttrs → Nat
  | .bounded b => b.dropped
  | _ => 0

/-- The loop of `_new_links` (sdk/trace/__init__.py:829–838), which assigns `link._attributes`: the `Link` objects afterwards, and the valid ones among the
given. A `None` among them is a position that does not exist. -/
def process (lim : SpanLimits) (dicts : List RawAttrs) : List Obj → List Nat → List Obj × List Nat
  | ls, [] => (ls, [])
  | ls, i :: rest =>
    match ls[i]? with
    | none => process lim dicts ls rest
    | some o =>
      if isValidLink o.ctx (items dicts o.attrs) then
        let r := process lim dicts (ls.set i { o with attrs := .bounded (BAttrs.new lim.maxLinkAttributes (items dicts o.attrs) true lim.maxAttributeLength) }) rest
        (r.1, i :: r.2)
      else process lim dicts ls rest

/-- What a program does: create a dictionary; change an entry of one; create a `Link`; start a span with some; call `add_link` of a span. -/
inductive Op where
  | newDict (a : RawAttrs)
  | setItem (i : Nat) (k : AKey) (v : Val)
  | newLink (ctx : Option SpanContext) (attrs : Option Nat)
  | newSpan (lim : SpanLimits) (links : List Nat)
  | addLink (span : Nat) (ctx : Option SpanContext) (attrs : Option Nat)

/-- The attributes argument: `None` or a dictionary. -/
def argument : Option Nat → LAttrs
  | none => .absent
  | some i => .dict i

/-- One of them. -/
def step (h : Heap) : Op → Heap
  | .newDict a => { h with dicts := h.dicts ++ [a] }
  | .setItem i k v => { h with dicts := h.dicts.modify i fun d => Dict.set d k v }
  | .newLink c a => { h with links := h.links ++ [⟨c, argument a⟩] }
  | .newSpan lim ids =>
    let r := process lim h.dicts h.links ids
    { h with links := r.1, spans := h.spans ++ [⟨lim, BList.fromSeq lim.maxLinks r.2⟩] }
  | .addLink s c a =>
    match h.spans[s]? with
    | none => h
    | some sp =>
      if isValidLink c (items h.dicts (argument a)) then
        { h with
          links := h.links ++ [⟨c, .bounded (BAttrs.new sp.lim.maxLinkAttributes (items h.dicts (argument a)) true sp.lim.maxAttributeLength)⟩]
          spans := h.spans.set s { sp with links := sp.links.append h.links.length } }
      else h

/-- A program. -/
def run (h : Heap) (p : List Op) : Heap := p.foldl step h

end Links
end Otel
