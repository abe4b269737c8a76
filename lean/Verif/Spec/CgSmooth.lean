import Verif.Model.Metrics

/-!
# Specification: where the iterative solver is differentiable

The code replaces small denominators by 1e-6.  The results are differentiable where no denominator equals
this threshold exactly.
-/

namespace FBE.Spec

open Matrix

/-- No denominator of the first `n` iterations equals the threshold. -/
def CgSmooth {J : Type} [Fintype J] (A M : (J → ℝ) → (J → ℝ)) (b x0 : J → ℝ) (n : ℕ) : Prop :=
  ∀ i < n, (cgRun A M b x0 i).p ⬝ᵥ A (cgRun A M b x0 i).p ≠ 1e-6 ∧ (cgRun A M b x0 i).rsold ≠ 1e-6

variable {s : List ℕ} {r e N T : ℕ}

/-- No denominator of the iterations for reference `k` and estimate `j` of item `m` equals the threshold. -/
def PairSmooth (o : Opts) (nIter : ℕ) (ref : Sig s r N) (est : Sig s e T) (m : BIdx s) (k : Fin r) (j : Fin e) : Prop :=
  ∀ n, nFft N T = .ok n → CgSmooth
    (symToeplitzOp torchBackend (min o.filterLength n) (sdrAcf o n ref m k))
    (circPrecond torchBackend (min o.filterLength n) (sdrAcf o n ref m k))
    (vec (min o.filterLength n) (sdrXcorr o n ref est m k j)) (fun _ => 0) nIter

/-- No squared eigenvalue of the circulant preconditioners of the references equals the threshold. -/
def PrecondSmooth (o : Opts) (ref : Sig s r N) (T : ℕ) : Prop :=
  ∀ n, nFft N T = .ok n → ∀ m k, ∀ f ≤ min o.filterLength n / 2,
    Complex.normSq ((rfft (min o.filterLength n) (symPrecondCol (sdrAcf o n ref m k))).getD f 0) ≠ 1e-6

/-- The initial value of the iterations for the SAR: zeros, or the solutions for the single references. -/
noncomputable def blockStart (warm : Bool) (o : Opts) (n nIter : ℕ) (ref : Sig s r N) (est : Sig s e T) (m : BIdx s) (j : Fin e) :
    Fin (min o.filterLength n) × Fin r → ℝ :=
  if warm then fun p => toeplitzCg torchBackend (min o.filterLength n) (bssAcfSdr o n ref m p.2)
    (vec (min o.filterLength n) (sdrXcorr o n ref est m p.2 j)) nIter p.1 else 0

/-- No denominator of the iterations with all references and estimate `j` of item `m` equals the threshold. -/
def BlockSmooth (warm : Bool) (o : Opts) (nIter : ℕ) (ref : Sig s r N) (est : Sig s e T) (m : BIdx s) (j : Fin e) : Prop :=
  ∀ n, nFft N T = .ok n → CgSmooth
    (blockToeplitzOp torchBackend (min o.filterLength n) (bssAcf o n ref m))
    (blockPrecond torchBackend (min o.filterLength n) (bssAcf o n ref m))
    (xcorrFlat o n (min o.filterLength n) ref est m j) (blockStart warm o n nIter ref est m j) nIter

end FBE.Spec
