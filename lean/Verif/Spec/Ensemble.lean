import Verif.Spec.LeastSquares
import Verif.Model.Metrics

/-!
# Specification: weighted sums of estimates
-/

namespace FBE.Spec

variable {s : List ℕ} {e N : ℕ}

/-- One channel, the sum of the channels of `est` with the weights `w`. -/
def ensemble (w : Fin e → ℝ) (est : Sig s e N) : Sig s 1 N := fun m _ t => ∑ j, w j * est m j t

/-- What the filter `f` applied to `x` leaves of `y`, sample by sample. -/
def leftOver {L : ℕ} (f : Fin L → ℝ) (x y : Fin N → ℝ) (t : ℕ) : ℝ := zpad y t - filtered f x t

end FBE.Spec
