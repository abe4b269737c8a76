import Verif.Model.Arrays

/-!
# `conjugate_gradient` as a function of its own: all its arguments

`Model/Arrays.lean` has the function as the metrics call it.  Here: a matrix given as an array, no preconditioner or
one given as an array, the known solution `x_true`, `verbose`.  Real arrays only (`conj` is the identity).
-/

namespace FBE

namespace Arrays

open Tensor

/-- `x @ y` for two arrays (`numpy.matmul`, `torch.matmul`), numpy/cgd.py:324, 325, 336, 341, 344,
torch/cgd.py:332, 333, 344, 349, 352.  The contracted axes are not broadcast.  Arrays without axes are refused. -/
noncomputable def matmul (A : Api) (x y : Tensor ℝ) : Except PyErr (Tensor ℝ) :=
  match x.shape, y.shape with
  | [c], [c'] => if c = c' then einsum A.err ['c'] ['c'] [] x y else .error A.err
  | [c], _ :: c' :: _ => if c = c' then einsum A.err ['c'] ['c', 'm'] ['m'] x y else .error A.err
  | c :: _ :: _, [c'] => if c = c' then einsum A.err ['r', 'c'] ['c'] ['r'] x y else .error A.err
  | c :: _ :: _, _ :: c' :: _ => if c = c' then einsum A.err ['r', 'c'] ['c', 'm'] ['r', 'm'] x y else .error A.err
  | _, _ => .error A.err

/-- An array given as `A` or `precond`, numpy/cgd.py:292-302, torch/cgd.py:300-310. -/
noncomputable def denseOp (A : Api) (T : Tensor ℝ) : Op := ⟨T.shape, matmul A T⟩

/-- `IdentityOperator`, numpy/cgd.py:282-284, torch/cgd.py:290-292; it has no shape. -/
def identityOp : Op := ⟨[], .ok⟩

/-- `x.mean()`, `np.mean(x)`, `torch.mean(x)`: nan for an array without entries.
numpy/cgd.py:333, 348, 355, torch/cgd.py:341, 356, 363. -/
noncomputable def mean (x : Tensor ℝ) : XR :=
  if (indices x.shape).length = 0 then .nan
  else .fin (((indices x.shape).map x.get).sum / (indices x.shape).length)

/-- `np.mean(np.linalg.norm(x - x_true, axis=-2))`, numpy/cgd.py:333, 355, torch/cgd.py:341, 363.  (The axis of the
norm is kept with size one; the mean does not depend on it.) -/
noncomputable def meanError (A : Api) (x xTrue : Tensor ℝ) : Except PyErr XR := do
  let d ← Tensor.zip A.err (· - ·) x xTrue
  let nrm ← d.along (fun l => [Real.sqrt (l.map (· ^ 2)).sum]) (-2)
  .ok (mean nrm)

/-- `errors.append(…)` if `x_true` is given, numpy/cgd.py:330-333, 354-355, torch/cgd.py:338-341, 362-363. -/
noncomputable def appendError (A : Api) (xTrue : Option (Tensor ℝ)) (x : Tensor ℝ) (errors : List XR) :
    Except PyErr (List XR) :=
  match xTrue with
  | none => .ok errors
  | some t =>
    match meanError A x t with
    | .error err => .error err
    | .ok e => .ok (errors ++ [e])

/-- The variables of the loop, the list `errors` and what has been printed.
numpy/cgd.py:330-355, torch/cgd.py:338-363. -/
structure CgTrace where
  vars : CgVars
  errors : List XR
  printed : List XR

/-- numpy/cgd.py:335-355, torch/cgd.py:343-363: body of the loop.  (`rsold` is `rsnew` at the end of the body.) -/
noncomputable def cgTraceBody (A : Api) (F P : Op) (b : Tensor ℝ) (xTrue : Option (Tensor ℝ)) (verbose : Bool)
    (s : CgTrace) (epoch : ℕ) : Except PyErr CgTrace := do
  let v ← cgBody A F P b s.vars epoch
  let errors ← appendError A xTrue v.x s.errors
  .ok ⟨v, errors, if verbose then s.printed ++ [mean v.rsold] else s.printed⟩

/-- What `conjugate_gradient` returns (`errors` if `x_true` is given) and prints, numpy/cgd.py:347-363,
torch/cgd.py:355-371. -/
structure CgOut where
  x : Tensor ℝ
  errors : Option (List XR)
  printed : List XR

/-- numpy/cgd.py:291-363, torch/cgd.py:299-371, `conjugate_gradient`. -/
noncomputable def cgCall (A : Api) (F : Op) (b : Tensor ℝ) (x : Option (Tensor ℝ)) (nIter : Option ℤ) (precond : Option Op)
    (verbose : Bool) (xTrue : Option (Tensor ℝ)) : Except PyErr CgOut := do
  let addAxis : Bool := decide (F.shape.length = b.shape.length + 1)
  let b := if addAxis then b.unsqueeze 0 else b
  if F.shape.length ≠ b.shape.length then .error .assertionError else do
  -- `A.shape[-1]` exists if `b.shape[-2]` does
  let m ← b.size (-2)
  if F.shape.getD 0 0 ≠ m then .error .assertionError else do
  let x := x.getD (b.map fun _ => 0)
  let e ← b.size (-1)
  let P := precond.getD identityOp
  let v ← cgInit A F P b x
  let xTrue := if addAxis then xTrue.map (·.unsqueeze 0) else xTrue
  let errors ← appendError A xTrue v.x []
  let s ← (List.range (nIter.getD e).toNat).foldlM (cgTraceBody A F P b xTrue verbose) ⟨v, errors, []⟩
  let x ← if addAxis then s.vars.x.select 0 0 else .ok s.vars.x
  .ok ⟨x, xTrue.map fun _ => s.errors, s.printed⟩

end Arrays

end FBE
