import Verif.Model.TraceContext
/-!
# B3 headers, independently of the model's parsing
-/
namespace Otel
namespace Spec

/-- The carrier has a usable header `key` with first value `v`. -/
def HeaderIs (c : Carrier) (key v : Str) : Prop := (∃ more, c.get key = some (v :: more)) ∧ v ≠ []

/-- The B3 texts that mean "sampled". -/
def B3Accept (x : Str) : Prop := x = "1".toList ∨ x = "True".toList ∨ x = "true".toList ∨ x = "d".toList

/-- `B3Headers c t s on`: the B3 headers of carrier `c` carry trace id text `t`, span id text `s` and the sampling
decision `on`. The single header wins when it is there. -/
inductive B3Headers (c : Carrier) : Str → Str → Prop → Prop
  | single2 (t s) : '-' ∉ t → '-' ∉ s → HeaderIs c "b3".toList (t ++ '-' :: s) → B3Headers c t s True
  | single3 (t s x) : '-' ∉ t → '-' ∉ s → '-' ∉ x →
      HeaderIs c "b3".toList (t ++ '-' :: (s ++ '-' :: x)) → B3Headers c t s (B3Accept x)
  | single4 (t s x p) : '-' ∉ t → '-' ∉ s → '-' ∉ x → '-' ∉ p →
      HeaderIs c "b3".toList (t ++ '-' :: (s ++ '-' :: (x ++ '-' :: p))) → B3Headers c t s (B3Accept x)
  | multi (t s) : (∀ v, ¬ HeaderIs c "b3".toList v) →
      HeaderIs c "x-b3-traceid".toList t → HeaderIs c "x-b3-spanid".toList s →
      B3Headers c t s ((∃ x, HeaderIs c "x-b3-sampled".toList x ∧ B3Accept x) ∨
        HeaderIs c "x-b3-flags".toList "1".toList)

end Spec
end Otel
