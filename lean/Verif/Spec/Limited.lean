import Mathlib.Analysis.SpecialFunctions.Log.Base
import Mathlib.Analysis.SpecialFunctions.Pow.Real
import Verif.Spec.ScaleInvariant
import Verif.Spec.Perm

/-!
# Specification: a ratio in decibels, limited to a range

Independent of the code.
-/

namespace FBE.Spec

/-- The ratio of the energies `A` and `B` in decibels, limited to the range from `-d` to `d`. -/
noncomputable def limitedDb (d A B : ℝ) : ℝ :=
  if B * (10 : ℝ) ^ (d / 10) ≤ A then d else if A * (10 : ℝ) ^ (d / 10) ≤ B then -d else 10 * Real.logb 10 (A / B)

/-- The documented scale-invariant SDR of the estimate `y` of the reference `x`, limited to the range from `-d` to `d`. -/
noncomputable def limitedSiSdr {n : ℕ} (d : ℝ) (x y : Fin n → ℝ) : ℝ :=
  limitedDb d (alongEnergy x y) (restEnergy x y)

/-- The total of a matrix over the pairs of a pairing. -/
def Pairing.sum {r e : ℕ} (P : Pairing r e) (S : Fin r → Fin e → ℝ) : ℝ := ∑ k, P.values S k

end FBE.Spec
