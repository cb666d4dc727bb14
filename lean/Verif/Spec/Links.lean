import Verif.Model.Links
/-!
# What the links of a span show
-/
namespace Otel
namespace Links
open Span (RawAttrs)

/-- Nothing yet. -/
def empty : Heap := ⟨[], [], []⟩
/-- What a `Link` object shows, if its attributes are bounded: the context and the attributes with the number of those dropped. -/
def Obj.value : Obj → Option (Option SpanContext × BAttrs)
  | ⟨c, .bounded b⟩ => some (c, b)
  | _ => none
/-- What the links of a span show now (`span.links`). -/
def Heap.shown (h : Heap) (s : Nat) : Option (List (Option (Option SpanContext × BAttrs))) :=
  (h.spans[s]?).map fun sp => sp.links.items.map fun i => (h.links[i]?).bind Obj.value
/-- The same without the numbers of dropped attributes: contexts and attributes. -/
def Heap.contents (h : Heap) (s : Nat) : Option (List (Option (Option SpanContext × Dict Str Val))) :=
  (h.shown s).map fun l => l.map fun o => o.map fun x => (x.1, x.2.d)
/-- The links of a span that is created with them as values (module `Span`): contexts and bounded copies of the attributes at that moment. -/
def valued (lim : SpanLimits) (h : Heap) (ids : List Nat) : BList Span.Link :=
  (Span.init lim [] ⟨0, 0, false, 0, []⟩ none [] [] (ids.map fun i => (h.links[i]?).map fun o => (o.ctx, items h.dicts o.attrs))).data.links
/-- The operation gives the `Link` object to a span. -/
def Op.uses (i : Nat) : Op → Prop
  | .newSpan _ ids => i ∈ ids
  | _ => False
/-- The operation gives the object to no span with other limits for links than these. -/
def Op.usesWith (lim : SpanLimits) (i : Nat) : Op → Prop
  | .newSpan lim' ids => i ∈ ids → lim'.maxLinkAttributes = lim.maxLinkAttributes ∧ lim'.maxAttributeLength = lim.maxAttributeLength
  | _ => True
/-- The operation adds a link to the span. -/
def Op.adds (s : Nat) : Op → Prop
  | .addLink s' _ _ => s' = s
  | _ => False

end Links
end Otel
