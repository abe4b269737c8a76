import Verif.Model.CgComplex
import Mathlib.LinearAlgebra.Matrix.PosDef

/-!
# Specification: complex systems and the real systems of twice the size
-/

namespace FBE.Spec

open Matrix

variable {J : Type} [Fintype J]

/-- Real and imaginary parts, one after the other. -/
def reIm (v : J → ℂ) : J ⊕ J → ℝ := Sum.elim (fun i => (v i).re) fun i => (v i).im

/-- The real matrix that acts on the real and imaginary parts. -/
def realMatrix (T : Matrix J J ℂ) : Matrix (J ⊕ J) (J ⊕ J) ℝ :=
  Matrix.fromBlocks (T.map Complex.re) (-(T.map Complex.im)) (T.map Complex.im) (T.map Complex.re)

/-- The two safeguards change nothing during the first `n` iterations, as long as the residual is not zero. -/
def ComplexQuiet (A M : (J → ℂ) → (J → ℂ)) (b x0 : J → ℂ) (n : ℕ) : Prop :=
  ∀ i < n, (CplxCg.cgRun A M b x0 i).r = 0 ∨
    (1e-6 ≤ (star (CplxCg.cgRun A M b x0 i).p ⬝ᵥ A (CplxCg.cgRun A M b x0 i).p).re ∧
      1e-6 ≤ (CplxCg.cgRun A M b x0 i).rsold.re)

end FBE.Spec
