import Mathlib.Analysis.SpecialFunctions.Trigonometric.Arctan
import Mathlib.Analysis.SpecialFunctions.Pow.Real
import Verif.Model.XR

/-!
# Specification: decibel values as angles, and small changes of a signal

Independent of the code.
-/

namespace FBE.Spec

/-- The angle whose cotangent is the amplitude ratio of `v` decibels: between 0 (`+inf` dB) and `π/2` (`-inf` dB). -/
noncomputable def dbAngle : XR → ℝ
  | .fin v => Real.arctan ((10 : ℝ) ^ (-v / 20))
  | .pinf => 0
  | .ninf => Real.pi / 2
  | .nan => 0

/-- The signal `y'` differs from `y` by at most the fraction `δ` of the norm of `y`. -/
def Near {N : ℕ} (δ : ℝ) (y y' : Fin N → ℝ) : Prop :=
  ∑ t, (y' t - y t) ^ 2 ≤ δ ^ 2 * ∑ t, y t ^ 2

/-- Decibels per unit of angle, at most, for values in the range from `-d` to `d`. -/
noncomputable def dbPerAngle (d : ℝ) : ℝ :=
  20 / Real.log 10 * ((10 : ℝ) ^ (d / 20) + (10 : ℝ) ^ (-d / 20))

end FBE.Spec
