import Verif.Model.RoundedCg
import Verif.Spec.Signal

/-!
# Arithmetic that is fine enough
-/

namespace FBE.Spec

open Rounded

/-- All the relative errors of an execution are at most `η`: of an operation with `p` bits, of the sums, of the transforms, of the solver
and of the weights of the preconditioner. -/
structure Fine (η : ℝ) (p : ℕ) (A : Accuracy) (ω : ℝ) : Prop where
  unit : (2 : ℝ) ^ (-p : ℤ) ≤ η
  sums : A.k * (2 : ℝ) ^ (-p : ℤ) ≤ η
  fft : A.fft ≤ η
  solve : A.solve ≤ η
  weights : |ω| ≤ η

/-- Two values, limited to the range from `-d` to `d`, are numbers and differ by `ε` at most. -/
def CloseIn (d ε : ℝ) (v v' : XR) : Prop := ∃ w w', clip d v = .fin w ∧ clip d v' = .fin w' ∧ |w - w'| ≤ ε

end FBE.Spec
