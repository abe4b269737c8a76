import Verif.Model.Metrics
import Verif.Spec.Signal

/-!
# Specification: conditions on the options and on the signals
-/

namespace FBE

open Spec

/-- The value added to the diagonal (`load_diag`, nothing for `None`). -/
noncomputable def Opts.load (o : Opts) : ℝ := o.loadDiag.getD 0

/-- A direct solve: no iterative solver, or the shortcut for length one. -/
def Opts.direct (o : Opts) : Prop := o.filterLength = 1 ∨ o.useCgIter = none

/-- `clamp_db` is absent or not negative. -/
def Opts.clampOk (o : Opts) : Prop := ∀ d, o.clampDb = some d → 0 ≤ d

/-- The signal is not quieter than the threshold of the normalisation. -/
def Spec.Audible {N : ℕ} (x : Fin N → ℝ) : Prop := 1e-6 ≤ sigNorm x

/-- The signal can be normalised: not too quiet, or silent. -/
def Normalisable {N : ℕ} (x : Fin N → ℝ) : Prop := 1e-6 ≤ sigNorm x ∨ x = 0

end FBE
