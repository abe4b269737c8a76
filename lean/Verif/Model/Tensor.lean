import Verif.Model.Linalg
import Verif.Model.Fft
import Mathlib.Algebra.BigOperators.Group.Finset.Basic

/-!
# Arrays with axes

The rest of the model treats an array as a function of typed indices, so that the operations that only move
axes leave no trace.  Here arrays have a shape, axes are addressed by (negative) numbers as in the code, and
operations fail on unsuitable shapes.

The axes of `shape`, and the components of an index, are listed **from the last axis to the first**, since
the code counts its axes from the end: an array of shape `(..., c, n)` has `shape = n :: c :: b`.
-/

namespace FBE

open Classical Matrix

/-- An array (`numpy.ndarray`, `torch.Tensor`).  Only the values of `get` at indices in range matter; the
operations below return zero elsewhere (`tab`).
The arrays of numpy/metrics.py:37-677, torch/metrics.py:32-674. -/
structure Tensor (α : Type) where
  shape : List ℕ
  get : List ℕ → α

/-- The index `i` is in the range of the shape.  For `Tensor`: numpy/metrics.py:37-677. -/
def InRange : List ℕ → List ℕ → Prop
  | [], [] => True
  | n :: s, t :: i => t < n ∧ InRange s i
  | _, _ => False

namespace Tensor

variable {α β γ : Type} [Zero α] [Zero β] [Zero γ]

/-- The array with given shape and entries.  All operations, for instance numpy/helpers.py:93. -/
noncomputable def tab (s : List ℕ) (f : List ℕ → α) : Tensor α :=
  ⟨s, fun i => if InRange s i then f i else 0⟩

/-- The position (counted from the last axis) of axis `dim` of an array with `rank` axes.
The axes given by negative numbers, for instance numpy/metrics.py:119, torch/metrics.py:114. -/
def axisPos (rank : ℕ) (dim : ℤ) : Except PyErr ℕ :=
  if -(rank : ℤ) ≤ dim ∧ dim < 0 then .ok (-dim - 1).toNat
  else if 0 ≤ dim ∧ dim < rank then .ok (rank - 1 - dim.toNat)
  else .error .indexError

/-- `x.shape[dim]`.  numpy/metrics.py:114-117, torch/metrics.py:109-112. -/
def size (x : Tensor α) (dim : ℤ) : Except PyErr ℕ :=
  match axisPos x.shape.length dim with
  | .error err => .error err
  | .ok p => .ok (x.shape.getD p 0)

/-- The entries along the axis at position `p`, other components of the index as in `i`.
numpy/metrics.py:119, numpy/linalg.py:36. -/
def fibre (x : Tensor α) (p : ℕ) (i : List ℕ) : List α :=
  (List.range (x.shape.getD p 0)).map fun t => x.get (i.set p t)

/-- An operation along one axis (slice, flip, transform, …), given by its effect on lists.  (The length of
the result only depends on the length of the list for all operations used.)
numpy/metrics.py:119-134, 169-180. -/
noncomputable def along (f : List α → List β) (dim : ℤ) (x : Tensor α) : Except PyErr (Tensor β) :=
  match axisPos x.shape.length dim with
  | .error err => .error err
  | .ok p => .ok (tab (x.shape.set p (f (x.fibre p [])).length) fun i => (f (x.fibre p i)).getD (i.getD p 0) 0)

/-- `x[..., start:stop, :, …, :]` with the slice at axis `dim`.
numpy/metrics.py:129, 134, 175, 180, torch/metrics.py:125, 130, 171, 176. -/
noncomputable def slice (x : Tensor α) (dim : ℤ) (start stop : Option ℤ) : Except PyErr (Tensor α) :=
  x.along (fun l => pySlice l start stop) dim

/-- An elementwise operation.  numpy/metrics.py:63, 123, torch/metrics.py:58, 118. -/
noncomputable def map (f : α → β) (x : Tensor α) : Tensor β := tab x.shape fun i => f (x.get i)

/-- Two components exchanged.  numpy/metrics.py:533, 537, torch/metrics.py:528, 532. -/
def swapPos (p q : ℕ) (l : List ℕ) : List ℕ := (l.set p (l.getD q 0)).set q (l.getD p 0)

/-- `x.transpose(dim0, dim1)` (torch), `x.swapaxes(dim0, dim1)` (numpy).
numpy/metrics.py:533, 537, 564, torch/metrics.py:528, 532, 561, torch/compatibility.py:53, 65. -/
noncomputable def transpose (x : Tensor α) (dim0 dim1 : ℤ) : Except PyErr (Tensor α) :=
  match axisPos x.shape.length dim0 with
  | .error err => .error err
  | .ok p => match axisPos x.shape.length dim1 with
    | .error err => .error err
    | .ok q => .ok (tab (swapPos p q x.shape) fun i => x.get (swapPos p q i))

/-- `numpy.moveaxis(x, src, dst)`.  numpy/cgd.py:60, 75. -/
noncomputable def moveaxis (x : Tensor α) (src dst : ℤ) : Except PyErr (Tensor α) :=
  match axisPos x.shape.length src with
  | .error err => .error err
  | .ok p => match axisPos x.shape.length dst with
    | .error err => .error err
    | .ok q => .ok (tab ((x.shape.eraseIdx p).insertIdx q (x.shape.getD p 0)) fun i =>
        x.get ((i.eraseIdx q).insertIdx p (i.getD q 0)))

/-- `x[..., None, :, …, :]` with `p` axes after the new one.
numpy/metrics.py:73, 572, numpy/cgd.py:107, 150, 311. -/
noncomputable def unsqueeze (x : Tensor α) (p : ℕ) : Tensor α :=
  tab (x.shape.insertIdx p 1) fun i => x.get (i.eraseIdx p)

/-- `x[..., k, :, …, :]` with `p` axes after the index.
numpy/metrics.py:264, numpy/cgd.py:358, torch/compatibility.py:63, 123. -/
noncomputable def select (x : Tensor α) (p k : ℕ) : Except PyErr (Tensor α) :=
  if k < x.shape.getD p 0 then .ok (tab (x.shape.eraseIdx p) fun i => x.get (i.insertIdx p k))
  else .error .indexError

/-- `torch.cat((x, y), dim)`, `numpy.concatenate((x, y), axis)`; `err` is raised if other axes differ.
numpy/metrics.py:175, numpy/linalg.py:36, 55, numpy/cgd.py:39, 72, 129, 231, torch/metrics.py:171. -/
noncomputable def cat (err : PyErr) (x y : Tensor α) (dim : ℤ) : Except PyErr (Tensor α) :=
  match axisPos x.shape.length dim with
  | .error e => .error e
  | .ok p =>
    if x.shape.set p 0 = y.shape.set p 0 then
      .ok (tab (x.shape.set p (x.shape.getD p 0 + y.shape.getD p 0)) fun i =>
        if i.getD p 0 < x.shape.getD p 0 then x.get i else y.get (i.set p (i.getD p 0 - x.shape.getD p 0)))
    else .error err

/-- Zeros in the shape of `x`, with size `k` along axis `dim`.
numpy/cgd.py:130, 235, torch/cgd.py:138, 243. -/
noncomputable def zeros (x : Tensor α) (dim : ℤ) (k : ℕ) : Except PyErr (Tensor α) :=
  match axisPos x.shape.length dim with
  | .error err => .error err
  | .ok p => .ok (tab (x.shape.set p k) fun _ => 0)

/-- `torch.stack((x, y), dim=-1)`.  torch/compatibility.py:73, 75. -/
noncomputable def stack (err : PyErr) (x y : Tensor α) : Except PyErr (Tensor α) :=
  if x.shape = y.shape then
    .ok (tab (2 :: x.shape) fun i => if i.getD 0 0 = 0 then x.get (i.drop 1) else y.get (i.drop 1))
  else .error err

/-- `torch.nn.functional.pad(x, (0, k))`: zeros after the last axis.  torch/compatibility.py:57, 86. -/
noncomputable def padLast (x : Tensor α) (k : ℕ) : Except PyErr (Tensor α) :=
  x.along (fun l => l ++ List.replicate k 0) (-1)

/-- `torch.diagonal(x, dim1=-2, dim2=-1)`: the diagonal becomes the last axis.
torch/metrics.py:523, 527, 534. -/
noncomputable def diagonal (x : Tensor α) : Except PyErr (Tensor α) :=
  match x.shape with
  | n :: m :: s => .ok (tab (min n m :: s) fun i => x.get (i.getD 0 0 :: i))
  | _ => .error .indexError

/-- `x[..., idx, idx]` with `idx = list(range(c))` (numpy).  numpy/metrics.py:529, 532, 539. -/
noncomputable def diagIndices (c : ℕ) (x : Tensor α) : Except PyErr (Tensor α) :=
  match x.shape with
  | n :: m :: s =>
    if c ≤ n ∧ c ≤ m then .ok (tab (c :: s) fun i => x.get (i.getD 0 0 :: i)) else .error .indexError
  | _ => .error .indexError

/-! ### reshape -/

/-- Position of an index in row-major order.  For `reshape`: numpy/linalg.py:59, numpy/metrics.py:557. -/
def ravel : List ℕ → List ℕ → ℕ
  | n :: s, t :: i => t + n * ravel s i
  | _, _ => 0

/-- The index at a position in row-major order.  For `reshape`: numpy/linalg.py:59, numpy/metrics.py:557. -/
def unravel : List ℕ → ℕ → List ℕ
  | [], _ => []
  | n :: s, k => k % n :: unravel s (k / n)

/-- The shape meant by a shape with at most one `-1` (`none`) for an array of `total` elements; fails if the
unknown size is not determined, or does not exist.
numpy/metrics.py:557, 565, numpy/cgd.py:199, 203, 268, 277. -/
def inferShape (err : PyErr) (total : ℕ) (s : List (Option ℕ)) : Except PyErr (List ℕ) :=
  if none ∈ s then
    let known := (s.filterMap id).prod
    if known = 0 ∨ total % known ≠ 0 then .error err else .ok (s.map fun d => d.getD (total / known))
  else
    let t := s.filterMap id
    if t.prod = total then .ok t else .error err

/-- `x.reshape(s)`.  numpy/linalg.py:59, numpy/metrics.py:557, 565, numpy/cgd.py:199, 203, 268, 277. -/
noncomputable def reshape (err : PyErr) (x : Tensor α) (s : List (Option ℕ)) : Except PyErr (Tensor α) :=
  match inferShape err x.shape.prod s with
  | .error e => .error e
  | .ok t => .ok (tab t fun i => x.get (unravel x.shape (ravel t i)))

/-! ### broadcasting -/

/-- The shape two arrays are broadcast to.
numpy/metrics.py:73, 132, 572, 584, numpy/cgd.py:107, 150, 338-339. -/
def bcShape : List ℕ → List ℕ → Option (List ℕ)
  | [], t => some t
  | s, [] => some s
  | a :: s, b :: t =>
    match bcShape s t with
    | none => none
    | some u => if a = b then some (a :: u) else if a = 1 then some (b :: u) else if b = 1 then some (a :: u) else none

/-- The index of the entry of an array of the given shape that is read at an index of the broadcast array.
numpy/metrics.py:73, 132, 572, 584, numpy/cgd.py:107, 150, 338-339. -/
def bcIdx : List ℕ → List ℕ → List ℕ
  | [], _ => []
  | n :: s, i => (if n = 1 then 0 else i.getD 0 0) :: bcIdx s (i.drop 1)

/-- An elementwise operation on two arrays.  numpy/metrics.py:68, 132, 584, numpy/cgd.py:107, 150, 338-339. -/
noncomputable def zip (err : PyErr) (f : α → β → γ) (x : Tensor α) (y : Tensor β) : Except PyErr (Tensor γ) :=
  match bcShape x.shape y.shape with
  | none => .error err
  | some s => .ok (tab s fun i => f (x.get (bcIdx x.shape i)) (y.get (bcIdx y.shape i)))

/-- `x` broadcast to the shape `s` (assignment to an array of this shape, `broadcast_tensors`).
numpy/metrics.py:73, 572, torch/metrics.py:68, 569, numpy/linalg.py:57. -/
noncomputable def expand (err : PyErr) (x : Tensor α) (s : List ℕ) : Except PyErr (Tensor α) :=
  if bcShape x.shape s = some s then .ok (tab s fun i => x.get (bcIdx x.shape i)) else .error err

/-! ### einsum -/

/-- The size of the axis with a label.  For `einsum`: numpy/metrics.py:57, 127. -/
def labelSize (l : Char) (labels : List Char) (s : List ℕ) : Option ℕ := (labels.zip s).lookup l

/-- The size of a label after broadcasting; `none` if the sizes do not fit.
For `einsum`: numpy/metrics.py:57, 127. -/
def labelBc (la lb : List Char) (sa sb : List ℕ) (l : Char) : Option ℕ :=
  match labelSize l la sa, labelSize l lb sb with
  | some a, some b => if a = b then some a else if a = 1 then some b else if b = 1 then some a else none
  | some a, none => some a
  | none, some b => some b
  | none, none => none

/-- Sum over all values of the labels.  For `einsum`: numpy/metrics.py:57, 127. -/
noncomputable def sumLabels {α : Type} [AddCommMonoid α] (size : Char → ℕ) : List Char → (Char → ℕ) →
    ((Char → ℕ) → α) → α
  | [], env, f => f env
  | l :: ls, env, f => ∑ t ∈ Finset.range (size l), sumLabels size ls (fun c => if c = l then t else env c) f

/-- `einsum("...la,...lb->...lo", x, y)` of torch and numpy (external): batch axes are broadcast, labels not
in the output are summed.  Labels are given in the order of the expression.
numpy/metrics.py:57, 62, 66, 70, 127, 173, 178, 277, 279, 569, numpy/cgd.py:201, 270, 288, torch/compatibility.py:147-148. -/
noncomputable def einsum {α : Type} [Semiring α] (err : PyErr) (la lb lo : List Char) (x y : Tensor α) :
    Except PyErr (Tensor α) :=
  let ra := la.reverse
  let rb := lb.reverse
  let ro := lo.reverse
  let all := (ra ++ rb).dedup
  let size := labelBc ra rb x.shape y.shape
  if x.shape.length < ra.length ∨ y.shape.length < rb.length then .error err
  else if ∃ l ∈ all, size l = none then .error err
  else match bcShape (x.shape.drop ra.length) (y.shape.drop rb.length) with
  | none => .error err
  | some s => .ok (tab (ro.map (fun l => (size l).getD 0) ++ s) fun i =>
      sumLabels (fun l => (size l).getD 0) (all.filter (· ∉ ro))
        (fun l => i.getD (ro.idxOf l) 0) fun env =>
          x.get (bcIdx x.shape (ra.map env ++ i.drop ro.length)) *
            y.get (bcIdx y.shape (rb.map env ++ i.drop ro.length)))

/-! ### linear algebra -/

/-- The matrix `A[i, :, :]`.  For `solveMat` and `invMat`: numpy/metrics.py:69, numpy/cgd.py:176. -/
def matrixAt {α : Type} (A : Tensor α) (n : ℕ) (i : List ℕ) : Matrix (Fin n) (Fin n) α :=
  fun r c => A.get (c.val :: r.val :: i)

/-- The exception of `linalg.solve` for matrices that are not square.
numpy/metrics.py:560, torch/metrics.py:557. -/
def squareErr (err : PyErr) : PyErr := if err = .runtimeError then .runtimeError else .linAlgError

/-- `linalg.solve(A, b)` for stacks of matrices (external, exact arithmetic), with broadcasting: `LinAlgError`
if a matrix of the broadcast stack is singular.
numpy/metrics.py:69, 270, 545, 560, torch/compatibility.py:120, 141-142. -/
noncomputable def solveMat (err : PyErr) (A b : Tensor ℝ) : Except PyErr (Tensor ℝ) :=
  match A.shape, b.shape with
  | n' :: n :: sa, k :: m :: sb =>
    if n' ≠ n then .error (squareErr err)
    else if m ≠ n then .error err
    else match bcShape sa sb with
    | none => .error err
    | some s =>
      if ∃ i, InRange s i ∧ (matrixAt A n (bcIdx sa i)).det = 0 then .error .linAlgError
      else .ok (tab (k :: n :: s) fun i => if h : i.getD 1 0 < n then
        ((matrixAt A n (bcIdx sa (i.drop 2)))⁻¹ *ᵥ fun q => b.get (i.getD 0 0 :: q.val :: bcIdx sb (i.drop 2))) ⟨_, h⟩
        else 0)
  | _, _ => .error (squareErr err)

/-- `linalg.solve(A, b)` where `b` is read as a stack of vectors.
numpy/metrics.py:270, 545, torch/compatibility.py:116-123, 141-142. -/
noncomputable def solveVec (err : PyErr) (A b : Tensor ℝ) : Except PyErr (Tensor ℝ) :=
  match solveMat err A (b.unsqueeze 0) with
  | .error e => .error e
  | .ok x => x.select 0 0

/-- `linalg.inv(C)` for stacks of complex matrices (external, exact arithmetic).
numpy/cgd.py:176, torch/compatibility.py:127-131, 144-145. -/
noncomputable def invMat (C : Tensor ℂ) : Except PyErr (Tensor ℂ) :=
  match C.shape with
  | n' :: n :: s =>
    if n' ≠ n then .error .linAlgError
    else if ∃ i, InRange s i ∧ (matrixAt C n i).det = 0 then .error .linAlgError
    else .ok (tab (n :: n :: s) fun i => if h : i.getD 1 0 < n ∧ i.getD 0 0 < n then
      (matrixAt C n (i.drop 2))⁻¹ ⟨_, h.1⟩ ⟨_, h.2⟩ else 0)
  | _ => .error .linAlgError

/-! ### transforms -/

/-- `rfft(x, n, dim)` (`scipy.fft`, `numpy.fft`, `torch.fft`; external): `n` is the size of the axis if not
given; transforms of size zero fail.
numpy/metrics.py:119-120, 169-170, numpy/cgd.py:87, 107, 132, 149, 173, 200, 240, 269, torch/compatibility.py:101-102. -/
noncomputable def rfftT (err : PyErr) (x : Tensor ℝ) (n : Option ℕ) (dim : ℤ) : Except PyErr (Tensor ℂ) :=
  match x.size dim with
  | .error e => .error e
  | .ok m => if n.getD m = 0 then .error err else x.along (fun l => rfft (n.getD m) l) dim

/-- `irfft(X, n, dim)` (external): `n` is twice the number of frequencies minus two if not given.
numpy/metrics.py:123, 128, 133, 174, 179, numpy/cgd.py:106, 150, 202, 271, torch/compatibility.py:104-109. -/
noncomputable def irfftT (err : PyErr) (X : Tensor ℂ) (n : Option ℕ) (dim : ℤ) : Except PyErr (Tensor ℝ) :=
  match X.size dim with
  | .error e => .error e
  | .ok m => if n.getD (2 * (m - 1)) = 0 then .error err else X.along (fun l => irfft (n.getD (2 * (m - 1))) l) dim

end Tensor

end FBE
