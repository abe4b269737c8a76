import Verif.Spec.Owners
import Verif.Model.Metrics

/-!
# Specification: the share of an estimate that a decibel value stands for
-/

namespace FBE.Spec

/-- The part of the energy that belongs to the target if the ratio of target and rest is this many decibels:
`1 / (1 + 10^(-v/10))`. -/
noncomputable def share : XR → ℝ
  | .fin v => 1 / (1 + (10 : ℝ) ^ (-v / 10))
  | .pinf => 1
  | .ninf => 0
  | .nan => 0

/-- The decibel value that one estimate cannot exceed for `n` references correlated at most by `c`:
`10 log10 ((1 + (n - 1) c) / ((n - 1) (1 - c)))`. -/
noncomputable def sharedDb (n : ℕ) (c : ℝ) : ℝ := 10 * Real.logb 10 ((1 + (n - 1) * c) / ((n - 1) * (1 - c)))

/-- The sum of the references with the weights `g`, for all the estimates. -/
def mixtureOf {s : List ℕ} {r N : ℕ} (e : ℕ) (g : Fin r → ℝ) (ref : Sig s r N) : Sig s e N := fun m _ t => ∑ k, g k * ref m k t

end FBE.Spec
