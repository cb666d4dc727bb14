import Verif.Model.Py
/-!
# The W3C `traceparent` format, independently of the model
-/
namespace Otel
namespace Spec

/-- `n` lower-case hexadecimal digits. -/
def Hex (n : Nat) (s : Str) : Prop :=
  s.length = n ∧ ∀ c ∈ s, ('0' ≤ c ∧ c ≤ '9') ∨ ('a' ≤ c ∧ c ≤ 'f')

/-- Only spaces and tabs. -/
def Blanks (s : Str) : Prop := ∀ c ∈ s, c = ' ' ∨ c = '\t'

/-- `h` is, up to surrounding blanks (and one final newline), `ver-tid-sid-fl` followed by an extension
`ext` which is empty or starts with a dash and stays on the line. -/
def Traceparent (h ver tid sid fl ext : Str) : Prop :=
  ∃ pre post, h = pre ++ (ver ++ '-' :: (tid ++ '-' :: (sid ++ '-' :: (fl ++ (ext ++ post))))) ∧
    Blanks pre ∧ Hex 2 ver ∧ Hex 32 tid ∧ Hex 16 sid ∧ Hex 2 fl ∧
    (ext = [] ∨ ∃ e, ext = '-' :: e ∧ '\n' ∉ e) ∧
    (∃ bl, Blanks bl ∧ (post = bl ∨ post = bl ++ ['\n']))

/-- A traceparent that must be accepted: version not `ff`, no extension in version `00`, ids not all
zero. -/
def AcceptableTraceparent (h ver tid sid fl : Str) : Prop :=
  ∃ ext, Traceparent h ver tid sid fl ext ∧ ver ≠ "ff".toList ∧ (ver = "00".toList → ext = []) ∧
    tid ≠ List.replicate 32 '0' ∧ sid ≠ List.replicate 16 '0'

end Spec
end Otel
