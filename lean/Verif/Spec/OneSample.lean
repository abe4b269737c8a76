import Verif.Spec.Arrays
import Verif.Spec.Signal

/-!
# Specification: one sample against several
-/

namespace FBE.Spec

/-- The ratio, in decibel, of the square of the sum of the samples of `y` and what is left of the energy of `y`
(nothing if the square of the sum is larger). -/
noncomputable def sumRatio {n : ℕ} (y : Fin n → ℝ) : XR :=
  dbRatio ((∑ t, y t) ^ 2) (max 0 (∑ t, y t ^ 2 - (∑ t, y t) ^ 2))

/-- The signal of `n` samples that are all equal to the only sample of `x`. -/
def stretched (n : ℕ) (x : Fin 1 → ℝ) : Fin n → ℝ := fun _ => x 0

/-- `x` (one sample per signal) with the sample repeated `n` times. -/
def Stretches (n : ℕ) (x x' : Tensor ℝ) : Prop :=
  ∃ c b, x.shape = 1 :: c :: b ∧ x'.shape = n :: c :: b ∧ ∀ t < n, ∀ i, x'.get (t :: i) = x.get (0 :: i)

end FBE.Spec
