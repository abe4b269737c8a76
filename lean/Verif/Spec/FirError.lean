import Verif.Spec.LeastSquares
import Verif.Spec.Limited

/-!
# Specification: conditioning of a reference and the size of rounding errors

Independent of the code.
-/

namespace FBE.Spec

/-- The signal scaled to norm one. -/
noncomputable def unitSig {N : ℕ} (x : Fin N → ℝ) : Fin N → ℝ := fun t => x t / sigNorm x

/-- Filters with `K` taps do not cancel the reference: for the signal scaled to norm one, the output of every filter `h`
has, together with the regularisation `μ ‖h‖²`, at least the energy `l ‖h‖²`. -/
def Conditioned {N : ℕ} (K : ℕ) (μ l : ℝ) (x : Fin N → ℝ) : Prop :=
  ∀ h : Fin K → ℝ, l * ∑ i, h i ^ 2 ≤
    ∑ t ∈ Finset.range (N + K - 1), filtered h (unitSig x) t ^ 2 + μ * ∑ i, h i ^ 2

/-- What a filter `h` leaves of the estimate, both signals scaled to norm one, plus the regularisation `μ ‖h‖²`. -/
noncomputable def regularisedResidual {N K : ℕ} (μ : ℝ) (x y : Fin N → ℝ) (h : Fin K → ℝ) : ℝ :=
  residualOne h (unitSig x) (unitSig y) + μ * ∑ i, h i ^ 2

/-- The least residual over all filters with `K` taps. -/
noncomputable def leastResidual {N : ℕ} (K : ℕ) (μ : ℝ) (x y : Fin N → ℝ) : ℝ :=
  sInf (Set.range (regularisedResidual (K := K) μ x y))

/-- The SDR of the estimate `y` of the reference `x` for filters with `K` taps and the regularisation `μ`, limited to the range
from `-d` to `d`: what is explained against what is left. -/
noncomputable def limitedSdr {N : ℕ} (d : ℝ) (K : ℕ) (μ : ℝ) (x y : Fin N → ℝ) : ℝ :=
  limitedDb d (1 - leastResidual K μ x y) (leastResidual K μ x y)

/-- The regularisation that takes effect: with filters of one tap `sdr_loss` ignores `load_diag`. -/
noncomputable def effectiveLoad (K : ℕ) (load : Option ℝ) : ℝ := if K = 1 then 0 else load.getD 0

/-- The error of a coherence.  `p` bits, `k` operations per sample in a sum, `K` taps; `ρ` the ratio of the norms before and
after the removal of the mean, `ε` and `ε'` the accuracies of the transforms and of the solver, `μ` the regularisation and `l` the
number of `Conditioned`. -/
noncomputable def firErr (p k K : ℕ) (ρ ε ε' μ l : ℝ) : ℝ :=
  K * (1 + μ) / l * (48 * ((k + 4) * ρ * 2 ^ (-p : ℤ)) + 24 * ε + 2 * ε')

end FBE.Spec
