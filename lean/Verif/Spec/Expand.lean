import Verif.Spec.Arrays

/-!
# Specification: arrays expanded along their leading axes
-/

namespace FBE.Spec

/-- The array of shape `b + (n,)` repeated to the shape `f + (n,)` (`broadcast_to`; shapes are listed from the
last axis to the first). -/
def repeated (x : Tensor ℝ) (b f : List ℕ) (n : ℕ) : Tensor ℝ :=
  ⟨n :: f, fun i => x.get (i.headD 0 :: Tensor.bcIdx b i.tail)⟩

/-- The installations where the direct solver looks at the numbers of axes only: torch < 1.8 (with the wrapper of
the package) and numpy < 2. -/
def ExpandsMatrices (A : Api) : Prop := A = oldTorchApi ∨ ∃ lsa, LsaCorrect lsa ∧ A = numpyApi lsa false

end FBE.Spec
