import Verif.Model.Py
/-!
# W3C baggage grammar, independently of the model
-/
namespace Otel
namespace Spec

/-- Token character: printable US-ASCII except space and `"(),/:;<=>?@[\]{}`. -/
def TokenChar (c : Char) : Prop := '!' ≤ c ∧ c ≤ '~' ∧ c ∉ "\"(),/:;<=>?@[\\]{}".toList

/-- Baggage value character: printable US-ASCII except space, double quote, comma, semicolon, backslash. -/
def BagValueChar (c : Char) : Prop := '!' ≤ c ∧ c ≤ '~' ∧ c ∉ "\",;\\".toList

/-- A non-empty token. -/
def Token' (s : Str) : Prop := s ≠ [] ∧ ∀ c ∈ s, TokenChar c

/-- Optional white space. -/
def Ows (s : Str) : Prop := ∀ c ∈ s, c = ' ' ∨ c = '\t'

/-- A baggage property: a token, or token = value, with optional white space. -/
def BagProperty (p : Str) : Prop :=
  ∃ b1 k b2, Ows b1 ∧ Token' k ∧ Ows b2 ∧
    (p = b1 ++ (k ++ b2) ∨ ∃ b3 v b4, Ows b3 ∧ (∀ c ∈ v, BagValueChar c) ∧ Ows b4 ∧
      p = b1 ++ (k ++ (b2 ++ '=' :: (b3 ++ (v ++ b4)))))

/-- A value followed by any number of `;`-separated properties. -/
def BagValue (s : Str) : Prop :=
  ∃ v ps, s = joinS [';'] (v :: ps) ∧ (∀ c ∈ v, BagValueChar c) ∧ ∀ p ∈ ps, BagProperty p

/-- A well-formed list member `name=value` within the length limit. -/
def BagMember (e name value : Str) : Prop :=
  e.length ≤ 4096 ∧ e = name ++ '=' :: value ∧ Token' name ∧ BagValue value

/-- The well-formed members of a list of texts, in order. -/
inductive Selected : List Str → List (Str × Str) → Prop
  | nil : Selected [] []
  | skip (e es r) : (∀ n v, ¬ BagMember e n v) → Selected es r → Selected (e :: es) r
  | take (e es r n v) : BagMember e n v → Selected es r → Selected (e :: es) ((n, v) :: r)

end Spec
end Otel
