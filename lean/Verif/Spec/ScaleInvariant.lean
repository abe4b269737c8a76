import Mathlib.Data.Real.Basic
import Mathlib.Algebra.BigOperators.Fin

/-!
# Specification: the two parts of an estimate of the scale-invariant SDR
-/

namespace FBE.Spec

variable {n : ℕ}

/-- Scale of the reference in the estimate: `⟨est, ref⟩ / ‖ref‖²`. -/
noncomputable def scaleOf (x y : Fin n → ℝ) : ℝ := (∑ t, y t * x t) / ∑ t, x t ^ 2

/-- Energy of the part of the estimate `y` along the reference `x`. -/
noncomputable def alongEnergy (x y : Fin n → ℝ) : ℝ := ∑ t, (scaleOf x y * x t) ^ 2

/-- Energy of the rest. -/
noncomputable def restEnergy (x y : Fin n → ℝ) : ℝ := ∑ t, (scaleOf x y * x t - y t) ^ 2

/-- The bound for the error of a coherence computed with `p` bits, when no sample passes through more than `k` operations of a
sum. -/
noncomputable def cohErr (p k : ℕ) : ℝ := 5 * ((k + 2) * 2 ^ (-p : ℤ))

end FBE.Spec
