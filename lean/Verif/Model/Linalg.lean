import Verif.Model.Helpers
import Mathlib.LinearAlgebra.Matrix.NonsingularInverse

/-!
# Model of `linalg.py` and of `linalg.solve`

The axis of lags is a `List`; the other axes are index functions.  Axis order is abstracted: an
array of shape `(..., c, l, d)` or `(..., l, c, d)` is a function of `c` and `d` to lists, so that
`swapaxes`/`moveaxis`/`transpose` of the lag axis leave no trace in the model.  Flattening two axes
`(l, c)` into one (`reshape(... + (-1,) ...)`) gives the index type `Fin l × Fin c`.
-/

namespace FBE

open Classical Matrix

/-- The content of a list of length `n` as a vector.
The results of `irfft` of size `n` at numpy/cgd.py:106-110, 150-151, torch/cgd.py:114-118, 158-159. -/
def vec (n : ℕ) (l : List ℝ) : Fin n → ℝ := fun i => l.getD i 0

/-- numpy/linalg.py:24-29, torch/linalg.py:24-30, `hankel_view(x, n_rows)[a, b]`: the strided view
reads the element at offset `a + b`; `none` if this is outside of the buffer. -/
def hankelView (x : List ℝ) (a b : ℕ) : Option ℝ := x[a + b]?

/-- Number of columns of `hankel_view(x, n_rows)`, numpy/linalg.py:26, torch/linalg.py:26. -/
def hankelCols (x : List ℝ) (nRows : ℕ) : ℤ := x.length - nRows + 1

/-- numpy/linalg.py:32-39, torch/linalg.py:33-40, `toeplitz(x)` for `x.shape[-1] = n`.
The default of `getD` is never used (property C37). -/
def toeplitz (B : Backend) (n : ℕ) (x : List ℝ) : Matrix (Fin n) (Fin n) ℝ :=
  fun i j => (hankelView (B.revTail x ++ x) (n - 1 - i) j).getD 0

/-- `vec` of numpy/linalg.py:55: `concatenate((x[-n + 1:], x[:n]))`. -/
def blockVec (n : ℕ) (x : List ℝ) : List ℝ :=
  pySlice x (some (-(n : ℤ) + 1)) none ++ pySlice x none (some n)

/-- numpy/linalg.py:42-61, torch/linalg.py:43-62, `block_toeplitz(x)` for a batch `ι` of arrays with
`x.shape[-3] // 2 = n`.  The assignment in line 57 fails when the Hankel view does not have `n`
columns.  The default of `getD` is never used (property C37). -/
noncomputable def blockToeplitz {ι : Type} {c : ℕ} (B : Backend) (n : ℕ) (x : ι → Fin c → Fin c → List ℝ) :
    Except PyErr (ι → Matrix (Fin n × Fin c) (Fin n × Fin c) ℝ) :=
  if ∃ m r d, hankelCols (blockVec n (x m r d)) n ≠ n then .error B.shapeErr
  else .ok fun m p q => (hankelView (blockVec n (x m p.2 q.2)) (n - 1 - p.1) q.1).getD 0

/-- `linalg.solve(A, b)` for a stack of matrices and a stack of matrices of right-hand sides
(external, exact arithmetic): fails for the whole stack if one matrix is singular.
numpy/metrics.py:69, 270, 545, 560, torch/metrics.py:64, 266, 540, 557. -/
noncomputable def solveStack {ι κ J : Type} [Fintype J] [DecidableEq J] (A : ι → Matrix J J ℝ)
    (b : ι → κ → J → ℝ) : Except PyErr (ι → κ → J → ℝ) :=
  if ∃ i, (A i).det = 0 then .error .linAlgError else .ok fun i k => (A i)⁻¹ *ᵥ b i k

/-- `linalg.solve(A, b)` for a stack of matrices of shape `s + (c, n, n)` and right-hand sides of
shape `s + (c, n)`.  numpy >= 2 reads the right-hand sides as a stack of `c × n` matrices: a
`ValueError` if `c ≠ n`; the case `c = n` (where it solves different systems) is not modelled.
numpy/metrics.py:270, 545, torch/metrics.py:266, 540. -/
noncomputable def solveVecs {ι : Type} (B : Backend) (c : ℕ) {n : ℕ}
    (A : ι → Matrix (Fin n) (Fin n) ℝ) (b : ι → Fin n → ℝ) : Except PyErr (ι → Fin n → ℝ) :=
  if B.stackedVectors then
    match solveStack A (fun i (_ : Unit) => b i) with
    | .error err => .error err
    | .ok sol => .ok fun i => sol i ()
  else if c ≠ n then .error .valueError
  else .error .unmodelled

end FBE
