import Verif.Model.Metrics

/-!
# Specification: the size of gradients
-/

namespace FBE.Spec

open XR Classical

variable {N : ℕ}

/-- How steep a loss of `y` dB is for a signal with unit norm: `20 / ln 10 * (10^(y/20) + 10^(-y/20))`. -/
noncomputable def steepness (y : ℝ) : ℝ := 20 / Real.log 10 * ((10 : ℝ) ^ (y / 20) + (10 : ℝ) ^ (-y / 20))

/-- The same for a loss that `clamp_db` limits: beyond the limits it is flat.  The loss is given before the limitation, and may be
infinite there. -/
noncomputable def steepAt (clampDb : Option ℝ) : XR → ℝ
  | fin y => if ∀ d, clampDb = some d → |y| ≤ d then steepness y else 0
  | _ => 0

/-- The gradient is finite, with the Euclidean norm `a`. -/
def HasLength (g : Fin N → XR) (a : ℝ) : Prop := ∃ γ : Fin N → ℝ, (∀ t, g t = fin (γ t)) ∧ √(∑ t, γ t ^ 2) = a

/-- The gradient is finite, with a Euclidean norm of at most `a`. -/
def LengthAtMost (g : Fin N → XR) (a : ℝ) : Prop := ∃ γ : Fin N → ℝ, (∀ t, g t = fin (γ t)) ∧ √(∑ t, γ t ^ 2) ≤ a

end FBE.Spec
