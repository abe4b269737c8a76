import Verif.Spec.LeastSquares
import Verif.Spec.Perm
import Verif.Model.Metrics

/-!
# Specification: recordings made of two segments
-/

namespace FBE.Spec

variable {s : List ℕ} {c N M : ℕ}

/-- The signals `x` followed by the signals `y`. -/
def joined (x : Sig s c N) (y : Sig s c M) : Sig s c (N + M) := fun m k => Fin.append (x m k) (y m k)

/-- The last `L - 1` samples are zero: a filter of `L` taps does not prolong the signal. -/
def TailSilent (L : ℕ) (x : Fin N → ℝ) : Prop := ∀ t : Fin N, N < t.val + L → x t = 0

/-- The part of the energy of an estimate that counts as distortion if the ratio of the rest and this part is `v`
decibels: `1 / (1 + 10 ^ (v / 10))`. -/
noncomputable def distortionShare : XR → ℝ
  | .fin v => 1 / (1 + 10 ^ (v / 10))
  | .pinf => 0
  | .ninf => 1
  | .nan => 0

end FBE.Spec
