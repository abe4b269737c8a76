import Verif.Model.Signal
import Verif.Model.XR

/-!
# Specification: signals with the polarity inverted
-/

namespace FBE.Spec

variable {s : List ℕ} {c N : ℕ}

/-- The channels selected by `f` with the polarity inverted. -/
def inverted (f : BIdx s → Fin c → Bool) (x : Sig s c N) : Sig s c N := fun m k t => if f m k then -x m k t else x m k t

/-- The gradients of the channels selected by `f` with the opposite sign; NaN stays. -/
noncomputable def invertedGrad (f : BIdx s → Fin c → Bool) (g : BIdx s → Fin c → Fin N → XR) : BIdx s → Fin c → Fin N → XR :=
  fun m k t => if f m k then (g m k t).neg else g m k t

end FBE.Spec
