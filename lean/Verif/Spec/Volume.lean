import Verif.Spec.Signal
import Verif.Model.Signal
import Verif.Model.XR

/-!
# Specification: signals at another volume
-/

namespace FBE.Spec

variable {s : List ℕ} {c N : ℕ}

/-- `y` is `x` with every channel at another volume, `a m k` times as loud, and with `zeroMean` possibly at another offset.  All channels are at
least as loud as the threshold of the normalisation, before and after. -/
structure AtVolume (zeroMean : Bool) (a : BIdx s → Fin c → ℝ) (x y : Sig s c N) : Prop where
  pos : ∀ m k, 0 < a m k
  before : ∀ m k, 1e-6 ≤ sigNorm (centred zeroMean (x m k))
  after : ∀ m k, 1e-6 ≤ sigNorm (centred zeroMean (y m k))
  eq : ∀ m k, ∃ d : ℝ, (zeroMean = false → d = 0) ∧ ∀ t, y m k t = a m k * x m k t + d

/-- The gradients of every channel divided by a number of its own; infinities and NaN stay. -/
noncomputable def dividedBy (a : BIdx s → Fin c → ℝ) (g : BIdx s → Fin c → Fin N → XR) : BIdx s → Fin c → Fin N → XR :=
  fun m k t => (g m k t).div (.fin (a m k))

end FBE.Spec
