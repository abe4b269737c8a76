import Verif.Model.Cgd
import Mathlib.Data.Complex.Basic
import Mathlib.LinearAlgebra.Matrix.DotProduct

/-!
# Model: `conjugate_gradient` called with complex arrays

The metrics call it with real arrays only (`Model/Cgd.lean`).  The matrix, the preconditioner, the right-hand sides and the
start are complex here.
-/

namespace FBE.CplxCg

open Matrix

variable {J : Type} [Fintype J]

/-- `inner_prod`, numpy/cgd.py:287-288, torch/cgd.py:295-296: the first argument is conjugated. -/
noncomputable def innerProd (a b : J → ℂ) : ℂ := star a ⬝ᵥ b

/-- `np.maximum(z, eps)` for a complex array, as called by `clamp` (numpy/helpers.py:27-30): numpy orders complex numbers by the
real part, then by the imaginary part. -/
noncomputable def clampMin (z : ℂ) (eps : ℝ) : ℂ := if eps < z.re ∨ (z.re = eps ∧ 0 ≤ z.im) then z else (eps : ℂ)

/-- The variables of the loop in numpy/cgd.py:324-352, for one column. -/
structure CgState (J : Type) where
  x : J → ℂ
  r : J → ℂ
  p : J → ℂ
  rsold : ℂ

/-- numpy/cgd.py:324-328: initialisation. -/
noncomputable def cgInit (A M : (J → ℂ) → (J → ℂ)) (b x0 : J → ℂ) : CgState J :=
  let r := b - A x0
  let z := M r
  ⟨x0, r, z, innerProd r z⟩

/-- numpy/cgd.py:335-352: body of the loop for a given `epoch`; `epoch + 1 % 5 == 0` parses as `epoch + (1 % 5) == 0`. -/
noncomputable def cgBody (A M : (J → ℂ) → (J → ℂ)) (b : J → ℂ) (st : CgState J) (epoch : ℕ) : CgState J :=
  let Ap := A st.p
  let pAp := innerProd st.p Ap
  let alpha := st.rsold / clampMin pAp 1e-6
  let x := st.x + alpha • st.p
  let r := if epoch + 1 % 5 = 0 then b - A x else st.r - alpha • Ap
  let z := M r
  let rsnew := innerProd r z
  let beta := rsnew / clampMin st.rsold 1e-6
  ⟨x, r, z + beta • st.p, rsnew⟩

/-- The state after `n_iter` iterations.  numpy/cgd.py:324-352. -/
noncomputable def cgRun (A M : (J → ℂ) → (J → ℂ)) (b x0 : J → ℂ) (nIter : ℕ) : CgState J :=
  (List.range nIter).foldl (cgBody A M b) (cgInit A M b x0)

/-- numpy/cgd.py:291-363, torch/cgd.py:299-371: `conjugate_gradient` for one matrix and the columns `κ`, without `x_true`.
`torch.clamp` (torch/cgd.py:346, 358) does not take complex tensors and raises a `RuntimeError`. -/
noncomputable def conjugateGradient {κ : Type} (torch : Bool) (A M : (J → ℂ) → (J → ℂ)) (b x0 : κ → J → ℂ) (nIter : ℕ) :
    Except PyErr (κ → J → ℂ) :=
  if torch = true ∧ 1 ≤ nIter then .error .runtimeError else .ok fun k => (cgRun A M (b k) (x0 k) nIter).x

end FBE.CplxCg
