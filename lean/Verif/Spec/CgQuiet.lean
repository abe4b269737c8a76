import Verif.Model.Metrics
import Mathlib.LinearAlgebra.Matrix.Circulant

/-!
# Specification: when the safeguards of the iterative solver are inactive
-/

namespace FBE.Spec

open Matrix

/-- The two safeguards `max(·, 1e-6)` of the loop change nothing during the first `n` iterations, as
long as the residual is not zero. -/
def CgQuiet {J : Type} [Fintype J] (A M : (J → ℝ) → (J → ℝ)) (b x0 : J → ℝ) (n : ℕ) : Prop :=
  ∀ i < n, (cgRun A M b x0 i).r = 0 ∨
    (1e-6 ≤ (cgRun A M b x0 i).p ⬝ᵥ A (cgRun A M b x0 i).p ∧ 1e-6 ≤ (cgRun A M b x0 i).rsold)

variable {s : List ℕ} {r e N : ℕ}

/-- The safeguards are inactive in the first `n` iterations of all solves for the SDR. -/
def SdrQuiet (B : Backend) (o : Opts) (ref : Sig s r N) (est : Sig s e N) (n : ℕ) : Prop :=
  ∀ f, nFft N = .ok f → ∀ m k j, CgQuiet
    (symToeplitzOp B (min o.filterLength f) (sdrAcf o f ref m k))
    (circPrecond B (min o.filterLength f) (sdrAcf o f ref m k))
    (vec (min o.filterLength f) (sdrXcorr o f ref est m k j)) (fun _ => 0) n

/-- The safeguards are inactive in the first `n` iterations of all solves for the SAR, started at
`x0`. -/
def SarQuiet (B : Backend) (o : Opts) (ref : Sig s r N) (est : Sig s e N)
    (x0 : (f : ℕ) → BIdx s → Fin e → Fin (min o.filterLength f) × Fin r → ℝ) (n : ℕ) : Prop :=
  ∀ f, nFft N = .ok f → ∀ m j, CgQuiet
    (blockToeplitzOp B (min o.filterLength f) (bssAcf o f ref m))
    (blockPrecond B (min o.filterLength f) (bssAcf o f ref m))
    (xcorrFlat o f (min o.filterLength f) ref est m j) (x0 f m j) n

/-- The loop of `conjugate_gradient` with an arbitrary rule `when` for recomputing the residual from
its definition (the code intends "every fifth iteration"). -/
noncomputable def cgScheduled {J : Type} [Fintype J] (recompute : ℕ → Bool) (A M : (J → ℝ) → (J → ℝ))
    (b x0 : J → ℝ) : ℕ → (J → ℝ) × (J → ℝ) × (J → ℝ) × ℝ
  | 0 => (x0, b - A x0, M (b - A x0), (b - A x0) ⬝ᵥ M (b - A x0))
  | n + 1 =>
    let (x, r, p, rs) := cgScheduled recompute A M b x0 n
    let alpha := rs / max (p ⬝ᵥ A p) 1e-6
    let x' := x + alpha • p
    let r' := if recompute n then b - A x' else r - alpha • A p
    let rs' := r' ⬝ᵥ M r'
    (x', r', M r' + (rs' / max rs 1e-6) • p, rs')

/-- Squared Frobenius norm of a real matrix. -/
def frobSq {I : Type*} [Fintype I] (A : Matrix I I ℝ) : ℝ := ∑ i, ∑ j, A i j ^ 2

end FBE.Spec
