import Verif.Model.Py
/-!
# W3C tracestate grammar, written independently of the model (explicit character sets and lengths)
-/
namespace Otel
namespace Spec

/-- lcalpha / DIGIT / "_" / "-" / "*" / "/" -/
def TSKeyChar (c : Char) : Prop :=
  ('a' ≤ c ∧ c ≤ 'z') ∨ ('0' ≤ c ∧ c ≤ '9') ∨ c ∈ ['_', '-', '*', '/']

/-- simple-key = lcalpha 0*255 keychar -/
def TSSimpleKey (k : Str) : Prop :=
  ∃ c cs, k = c :: cs ∧ ('a' ≤ c ∧ c ≤ 'z') ∧ (∀ x ∈ cs, TSKeyChar x) ∧ cs.length ≤ 255

/-- multi-tenant-key = (lcalpha / DIGIT) 0*240 keychar "@" lcalpha 0*13 keychar -/
def TSTenantKey (k : Str) : Prop :=
  ∃ c cs d ds, k = c :: cs ++ '@' :: d :: ds ∧
    (('a' ≤ c ∧ c ≤ 'z') ∨ ('0' ≤ c ∧ c ≤ '9')) ∧ (∀ x ∈ cs, TSKeyChar x) ∧ cs.length ≤ 240 ∧
    ('a' ≤ d ∧ d ≤ 'z') ∧ (∀ x ∈ ds, TSKeyChar x) ∧ ds.length ≤ 13

/-- A tracestate key. -/
def TSKey (k : Str) : Prop := TSSimpleKey k ∨ TSTenantKey k

/-- A tracestate value: 1 to 256 printable ASCII characters other than ',' and '=', the last not a
space. -/
def TSValue (v : Str) : Prop :=
  v.length ≤ 256 ∧ (∀ c ∈ v, ' ' ≤ c ∧ c ≤ '~' ∧ c ≠ ',' ∧ c ≠ '=') ∧ ∃ c, v.getLast? = some c ∧ c ≠ ' '

/-- A well-formed list of tracestate entries. -/
def TSWellFormed (d : List (Str × Str)) : Prop :=
  d.length ≤ 32 ∧ (d.map Prod.fst).Nodup ∧ ∀ kv ∈ d, TSKey kv.1 ∧ TSValue kv.2

end Spec
end Otel
