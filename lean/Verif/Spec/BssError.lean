import Verif.Spec.FirError

/-!
# Specification: SIR and SAR of filters fitted by least squares

Independent of the code.
-/

namespace FBE.Spec

variable {N r : ℕ}

/-- Filters with `K` taps for all the references do not cancel each other: for references scaled to norm one, the sum of the outputs
has, together with the regularisation `μ ‖h‖²`, at least the energy `l ‖h‖²`. -/
def ConditionedAll (K : ℕ) (μ l : ℝ) (x : Fin r → Fin N → ℝ) : Prop :=
  ∀ h : Fin r → Fin K → ℝ, l * ∑ c, ∑ i, h c i ^ 2 ≤
    ∑ t ∈ Finset.range (N + K - 1), (∑ c, filtered (h c) (unitSig (x c)) t) ^ 2 + μ * ∑ c, ∑ i, h c i ^ 2

/-- What filters for all the references leave of the estimate, all signals scaled to norm one, plus the regularisation. -/
noncomputable def regularisedResidualAll {K : ℕ} (μ : ℝ) (x : Fin r → Fin N → ℝ) (y : Fin N → ℝ) (h : Fin r → Fin K → ℝ) : ℝ :=
  residualAll h (fun c => unitSig (x c)) (unitSig y) + μ * ∑ c, ∑ i, h c i ^ 2

/-- The least residual over all filters with `K` taps for all the references. -/
noncomputable def leastResidualAll (K : ℕ) (μ : ℝ) (x : Fin r → Fin N → ℝ) (y : Fin N → ℝ) : ℝ :=
  sInf (Set.range (regularisedResidualAll (K := K) μ x y))

/-- The SAR limited to the range from `-d` to `d`: what all the references explain against what is left. -/
noncomputable def limitedSar (d : ℝ) (K : ℕ) (μ : ℝ) (x : Fin r → Fin N → ℝ) (y : Fin N → ℝ) : ℝ :=
  limitedDb d (1 - leastResidualAll K μ x y) (leastResidualAll K μ x y)

/-- The SIR limited to the range from `-d` to `d`: what the reference `c` explains against what the other references explain in
addition. -/
noncomputable def limitedSir (d : ℝ) (K : ℕ) (μ : ℝ) (x : Fin r → Fin N → ℝ) (c : Fin r) (y : Fin N → ℝ) : ℝ :=
  limitedDb d (1 - leastResidual K μ (x c) y) (leastResidual K μ (x c) y - leastResidualAll K μ x y)

end FBE.Spec
