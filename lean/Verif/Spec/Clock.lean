import Verif.Model.Clock
/-!
# Specification of C122
-/
namespace Otel
namespace Clock

/-- Seconds from the epoch to 2038-01-19T03:14:08Z. -/
def Spec.y2038 : ℤ := 2147483648

/-- Seconds from the epoch to 2008-01-10T21:20:00Z. -/
def Spec.y2008 : ℤ := 1200000000

end Clock
end Otel
