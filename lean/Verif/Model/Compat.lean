import Verif.Model.Tensor

/-!
# Model of `torch/compatibility.py`, and the array functions of the three installations

The code runs on numpy, on torch >= 1.8 and, through wrappers, on older versions of torch with the package
`torch_complex`.  `Api` collects the functions that differ.  A `torch_complex.ComplexTensor` of two real
tensors is modelled by the complex tensor with these parts.
-/

namespace FBE

open Classical Tensor

/-- The array functions in which the installations differ.
torch/compatibility.py:48-161, numpy/metrics.py:24-25, numpy/cgd.py:24. -/
structure Api where
  /-- the points where the two packages differ on lists -/
  B : Backend
  rfft : Tensor ℝ → Option ℕ → ℤ → Except PyErr (Tensor ℂ)
  /-- `irfft` of a complex array -/
  irfft : Tensor ℂ → Option ℕ → ℤ → Except PyErr (Tensor ℝ)
  /-- `irfft` of a real array -/
  irfftReal : Tensor ℝ → Option ℕ → ℤ → Except PyErr (Tensor ℝ)
  solve : Tensor ℝ → Tensor ℝ → Except PyErr (Tensor ℝ)
  inv : Tensor ℂ → Except PyErr (Tensor ℂ)
  /-- the diagonal of the last two axes, for arrays of `c` channels:
  `x[..., idx, idx]` with `idx = list(range(c))` (numpy), `torch.diagonal(x, dim1=-2, dim2=-1)` -/
  diag : ℕ → Tensor ℝ → Except PyErr (Tensor ℝ)
  /-- numpy/cgd.py:60 `moveaxis(r, axis, -1)`, torch/cgd.py:61 `r.transpose(dim, -1)` -/
  toLast : Tensor ℝ → ℤ → Except PyErr (Tensor ℝ)
  /-- numpy/cgd.py:75 `moveaxis(c, -1, axis)`, torch/cgd.py:78 `c.transpose(dim, -1)` -/
  fromLast : Tensor ℝ → ℤ → Except PyErr (Tensor ℝ)

/-- The exception for unsuitable shapes.
External functions, for instance numpy/metrics.py:57, torch/metrics.py:52. -/
def Api.err (A : Api) : PyErr := A.B.shapeErr

/-! ### torch >= 1.8 -/

/-- `torch.linalg.solve(A, b)`, torch/compatibility.py:141-142: `b` is a stack of vectors if it has one axis, or
the shape of `A` without the last axis. -/
noncomputable def solveTorch (A b : Tensor ℝ) : Except PyErr (Tensor ℝ) :=
  if b.shape.length = 1 ∨ (A.shape.length - 1 = b.shape.length ∧ b.shape = A.shape.drop 1) then
    solveVec .runtimeError A b
  else solveMat .runtimeError A b

/-- The functions of torch/compatibility.py:98-109, 139-148, for torch >= 1.8. -/
noncomputable def torchApi : Api where
  B := torchBackend
  rfft := rfftT .runtimeError
  irfft := irfftT .runtimeError
  irfftReal x := irfftT .runtimeError (x.map Complex.ofReal)
  solve := solveTorch
  inv := invMat
  diag _ x := x.diagonal
  toLast x dim := x.transpose dim (-1)
  fromLast x dim := x.transpose dim (-1)

/-! ### torch < 1.8 -/

/-- `torch.rfft(x, 1)` of old versions (external): a new last axis has the real and the imaginary part.
torch/compatibility.py:61. -/
noncomputable def oldRfft (x : Tensor ℝ) : Except PyErr (Tensor ℝ) :=
  match x.along (fun l => FBE.rfft l.length l) (-1) with
  | .error err => .error err
  | .ok X => .ok (tab (2 :: X.shape) fun i =>
      if i.getD 0 0 = 0 then (X.get (i.drop 1)).re else (X.get (i.drop 1)).im)

/-- `torch.irfft(x, 1, signal_sizes=[n])` of old versions (external): the last axis must have size two, the
number of frequencies must be the one of signals of size `n`.  torch/compatibility.py:91. -/
noncomputable def oldIrfft (x : Tensor ℝ) (n : ℕ) : Except PyErr (Tensor ℝ) :=
  match x.shape with
  | 2 :: f :: s =>
    if f = n / 2 + 1 then
      (tab (f :: s) fun i => (⟨x.get (0 :: i), x.get (1 :: i)⟩ : ℂ)).along (fun l => FBE.irfft n l) (-1)
    else .error .runtimeError
  | _ => .error .runtimeError

/-- `torch_complex.ComplexTensor(re, im)`.  torch/compatibility.py:63. -/
noncomputable def complexTensor (re im : Tensor ℝ) : Except PyErr (Tensor ℂ) :=
  if re.shape = im.shape then .ok (tab re.shape fun i => (⟨re.get i, im.get i⟩ : ℂ)) else .error .assertionError

/-- torch/compatibility.py:51-67, `rfft` for torch < 1.8. -/
noncomputable def compatRfft (x : Tensor ℝ) (n : Option ℕ) (dim : ℤ) : Except PyErr (Tensor ℂ) := do
  let x ← x.transpose dim (-1)
  let m ← x.size (-1)
  let x ← match n with
    | none => .ok x
    | some n =>
      if n > m then x.padLast (n - m)
      else if n < m then x.slice (-1) none (some n)
      else .ok x
  if n.getD m = 0 then .error .runtimeError
  let x ← oldRfft x
  let re ← x.select 0 0
  let im ← x.select 0 1
  let x ← complexTensor re im
  x.transpose dim (-1)

/-- torch/compatibility.py:77-96, the part of `irfft` for torch < 1.8 on the stacked tensor.  Line 86 pads the
last axis, of size two, and line 89 takes the size of this axis. -/
noncomputable def compatIrfftTail (x : Tensor ℝ) (n : Option ℕ) (dim : ℤ) : Except PyErr (Tensor ℝ) := do
  let x ← match n with
    | none => do
      let k ← x.size (-1)
      oldIrfft x ((k - 1) * 2)
    | some n => do
      let nFreq := n / 2 + 1
      let m ← x.size (-2)
      let y ← if nFreq < m then x.slice (-2) none (some nFreq)
        else if nFreq > m then x.padLast (nFreq - m)
        else .ok x
      oldIrfft y n
  x.transpose dim (-1)

/-- torch/compatibility.py:69-96, `irfft` for torch < 1.8 of a `ComplexTensor`. -/
noncomputable def compatIrfft (x : Tensor ℂ) (n : Option ℕ) (dim : ℤ) : Except PyErr (Tensor ℝ) := do
  let x ← x.transpose dim (-1)
  let x ← Tensor.stack .runtimeError (x.map Complex.re) (x.map Complex.im)
  compatIrfftTail x n dim

/-- torch/compatibility.py:69-96, `irfft` for torch < 1.8 of a real tensor. -/
noncomputable def compatIrfftReal (x : Tensor ℝ) (n : Option ℕ) (dim : ℤ) : Except PyErr (Tensor ℝ) := do
  let x ← x.transpose dim (-1)
  let x ← Tensor.stack .runtimeError x (x.map fun _ => 0)
  compatIrfftTail x n dim

/-- torch/compatibility.py:115-125, `solve` for torch < 1.8 (`torch.solve` takes stacks of matrices). -/
noncomputable def compatSolve (A b : Tensor ℝ) : Except PyErr (Tensor ℝ) :=
  if b.shape.length = A.shape.length - 1 then solveVec .runtimeError A b
  else solveMat .runtimeError A b

/-- The functions of torch/compatibility.py:49-96, 113-137, for torch < 1.8. -/
noncomputable def oldTorchApi : Api where
  B := torchBackend
  rfft := compatRfft
  irfft := compatIrfft
  irfftReal := compatIrfftReal
  solve := compatSolve
  inv := invMat
  diag _ x := x.diagonal
  toLast x dim := x.transpose dim (-1)
  fromLast x dim := x.transpose dim (-1)

/-- torch/compatibility.py:151-161, `einsum_complex`: four real products. -/
noncomputable def einsumComplex (la lb lo : List Char) (x y : Tensor ℂ) : Except PyErr (Tensor ℂ) := do
  let rr ← Tensor.einsum .runtimeError la lb lo (x.map Complex.re) (y.map Complex.re)
  let ri ← Tensor.einsum .runtimeError la lb lo (x.map Complex.re) (y.map Complex.im)
  let ir ← Tensor.einsum .runtimeError la lb lo (x.map Complex.im) (y.map Complex.re)
  let ii ← Tensor.einsum .runtimeError la lb lo (x.map Complex.im) (y.map Complex.im)
  let re ← Tensor.zip .runtimeError (· - ·) rr ii
  let im ← Tensor.zip .runtimeError (· + ·) ri ir
  complexTensor re im

/-! ### numpy -/

/-- `numpy.linalg.solve(A, b)`: before numpy 2, `b` is a stack of vectors if it has one axis less than `A`;
since numpy 2 only if it has one axis.  numpy/metrics.py:69, 270, 545, 560. -/
noncomputable def solveNumpy (numpy2 : Bool) (A b : Tensor ℝ) : Except PyErr (Tensor ℝ) :=
  if (if numpy2 then b.shape.length = 1 else b.shape.length = A.shape.length - 1) then solveVec .valueError A b
  else solveMat .valueError A b

/-- The functions used by the numpy package.
numpy/metrics.py:24-34, numpy/cgd.py:24-25, numpy/helpers.py:23-24. -/
noncomputable def numpyApi (scipyLsa : Lsa) (numpy2 : Bool) : Api where
  B := numpyBackend scipyLsa numpy2
  rfft := rfftT .valueError
  irfft := irfftT .valueError
  irfftReal x := irfftT .valueError (x.map Complex.ofReal)
  solve := solveNumpy numpy2
  inv := invMat
  diag := diagIndices
  toLast x dim := x.moveaxis dim (-1)
  fromLast x dim := x.moveaxis (-1) dim

end FBE
