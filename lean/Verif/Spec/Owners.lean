import Verif.Spec.LeastSquares

/-!
# Specification: how similar two references can be made by filters
-/

namespace FBE.Spec

variable {N : ℕ}

/-- Whatever filters of `L` taps are applied, the correlation coefficient of `x` and `x'` is at most `c`. -/
def AtMostCorrelated (L : ℕ) (c : ℝ) (x x' : Fin N → ℝ) : Prop :=
  ∀ h h' : Fin L → ℝ,
    |∑ t ∈ Finset.range (N + L - 1), filtered h x t * filtered h' x' t| ≤
      c * (√(∑ t ∈ Finset.range (N + L - 1), filtered h x t ^ 2) * √(∑ t ∈ Finset.range (N + L - 1), filtered h' x' t ^ 2))

/-- The decibel value from which on an estimate belongs to one reference only: `10 log10 ((1 + c) / (1 - c))`. -/
noncomputable def ownerDb (c : ℝ) : ℝ := 10 * Real.logb 10 ((1 + c) / (1 - c))

end FBE.Spec
