import Mathlib.Analysis.InnerProductSpace.PiL2
import Mathlib.LinearAlgebra.Matrix.PosDef
import Mathlib.Data.Matrix.Mul

/-!
# Specification: the preconditioned conjugate gradient method

The textbook iteration, without safeguards.  `M` is the inverse of the preconditioning matrix.
-/

namespace FBE.Spec

open Matrix

variable {J : Type} [Fintype J]

/-- Approximate solution, residual, search direction. -/
structure Pcg (J : Type) where
  x : J → ℝ
  r : J → ℝ
  p : J → ℝ

/-- Start at `x0`. -/
def pcgStart (A M : (J → ℝ) → (J → ℝ)) (b x0 : J → ℝ) : Pcg J := ⟨x0, b - A x0, M (b - A x0)⟩

/-- One iteration. -/
noncomputable def pcgStep (A M : (J → ℝ) → (J → ℝ)) (s : Pcg J) : Pcg J :=
  let α := (s.r ⬝ᵥ M s.r) / (s.p ⬝ᵥ A s.p)
  let r := s.r - α • A s.p
  let β := (r ⬝ᵥ M r) / (s.r ⬝ᵥ M s.r)
  ⟨s.x + α • s.p, r, M r + β • s.p⟩

/-- The state after `n` iterations. -/
noncomputable def pcg (A M : (J → ℝ) → (J → ℝ)) (b x0 : J → ℝ) : ℕ → Pcg J
  | 0 => pcgStart A M b x0
  | n + 1 => pcgStep A M (pcg A M b x0 n)

/-- No denominator of the first `n` iterations is below `eps` before the solution has been found. -/
def PcgQuiet (eps : ℝ) (A M : (J → ℝ) → (J → ℝ)) (b x0 : J → ℝ) (n : ℕ) : Prop :=
  ∀ i < n, (pcg A M b x0 i).r = 0 ∨
    (eps ≤ (pcg A M b x0 i).p ⬝ᵥ A (pcg A M b x0 i).p ∧ eps ≤ (pcg A M b x0 i).r ⬝ᵥ M (pcg A M b x0 i).r)

/-- A symmetric positive definite operator. -/
structure Spd (A : (J → ℝ) →ₗ[ℝ] (J → ℝ)) : Prop where
  symm : ∀ u v, u ⬝ᵥ A v = v ⬝ᵥ A u
  pos : ∀ v, v ≠ 0 → 0 < v ⬝ᵥ A v

end FBE.Spec
