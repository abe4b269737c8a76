import Verif.Model.Basic
import Verif.Model.Signal
import Mathlib.LinearAlgebra.Matrix.Determinant.Basic

/-!
# Specification: remixed references
-/

namespace FBE.Spec

/-- Signals mixed sample by sample: channel `k` becomes `∑ A k l x l`. -/
noncomputable def mixed {N r : ℕ} (A : Matrix (Fin r) (Fin r) ℝ) (x : Fin r → Fin N → ℝ) : Fin r → Fin N → ℝ :=
  fun k t => ∑ l, A k l * x l t

/-- The same for a batch, with a matrix for each item. -/
noncomputable def remixed {s : List ℕ} {N r : ℕ} (A : BIdx s → Matrix (Fin r) (Fin r) ℝ) (x : Sig s r N) : Sig s r N :=
  fun m => mixed (A m) (x m)

end FBE.Spec
