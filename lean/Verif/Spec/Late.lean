import Verif.Spec.Infinite

/-!
# Specification: late estimates
-/

namespace FBE.Spec

/-- `y'` is `y`, `d` samples later, with nothing cut off at the end. -/
def IsLate {N : ℕ} (d : ℕ) (y y' : Fin N → ℝ) : Prop :=
  ∀ t : ℕ, zpad y' t = if d ≤ t then zpad y (t - d) else 0

end FBE.Spec
