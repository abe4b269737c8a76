import Verif.Model.Compat
import Verif.Model.Metrics

/-!
# Model of `helpers.py`, `linalg.py`, `cgd.py` and `metrics.py` on arrays with axes

The same code as in `Model/Metrics.lean` and the files it builds on, statement by statement on arrays with
shapes: every axis number, transposition, broadcast, reshape and shape check of the code is here.  Line numbers
are those of the numpy package; the torch package has the same statements in the same order, and the points
where the two differ are the fields of `Api`.

Arrays are listed from the last axis to the first (see `Model/Tensor.lean`).
-/

namespace FBE

namespace Arrays

open Classical Tensor

/-- Optional arguments of the metrics, as the caller gives them.
numpy/metrics.py:185-194, 369-379, 593-602, torch/metrics.py:181-190, 365-375, 590-599. -/
structure AOpts where
  filterLength : Option ℤ := some 512
  useCgIter : Option ℤ := none
  zeroMean : Bool := false
  clampDb : Option ℝ := none
  loadDiag : Option ℝ := none

/-! ### `helpers.py` -/

/-- numpy/helpers.py:38-39, torch/helpers.py:30-31, `_remove_mean`. -/
noncomputable def removeMean (A : Api) (x : Tensor ℝ) (dim : ℤ) : Except PyErr (Tensor ℝ) := do
  let m ← x.along (fun l : List ℝ => [l.sum / (l.length : ℝ)]) dim
  Tensor.zip A.err (· - ·) x m

/-- numpy/helpers.py:42-46, torch/helpers.py:34-38, `_normalize` (with `eps=1e-6`). -/
noncomputable def normalize (A : Api) (x : Tensor ℝ) (dim : ℤ) : Except PyErr (Tensor ℝ) := do
  let m ← x.along (fun l : List ℝ => [max (√(l.map (· ^ 2)).sum) 1e-6]) dim
  Tensor.zip A.err (· / ·) x m

/-- numpy/metrics.py:49-54, 250-256, 511-517: preprocessing of one array. -/
noncomputable def prepare (A : Api) (zeroMean : Bool) (x : Tensor ℝ) : Except PyErr (Tensor ℝ) := do
  let x ← if zeroMean then removeMean A x (-1) else .ok x
  normalize A x (-1)

/-! ### `linalg.py` -/

/-- numpy/linalg.py:24-29, torch/linalg.py:24-30, `hankel_view`: a view with negative size is an error. -/
noncomputable def hankelView (err : PyErr) (x : Tensor ℝ) (nRows : ℕ) : Except PyErr (Tensor ℝ) :=
  match x.shape with
  | m :: s =>
    if m + 1 < nRows then .error err
    else .ok (tab ((m + 1 - nRows) :: nRows :: s) fun i => x.get ((i.getD 1 0 + i.getD 0 0) :: i.drop 2))
  | [] => .error .indexError

/-- numpy/linalg.py:32-39, torch/linalg.py:33-40, `toeplitz`. -/
noncomputable def toeplitz (A : Api) (x : Tensor ℝ) : Except PyErr (Tensor ℝ) := do
  let t ← x.along A.B.revTail (-1)
  let twoX ← Tensor.cat A.err t x (-1)
  let n ← x.size (-1)
  let H ← hankelView A.err twoX n
  H.along List.reverse (-2)

/-- `out[..., :, r, :, c] = T`, numpy/linalg.py:57, torch/linalg.py:58, for `out` with at least four axes. -/
noncomputable def setBlock (err : PyErr) (out : Tensor ℝ) (r c : ℕ) (T : Tensor ℝ) : Except PyErr (Tensor ℝ) :=
  match out.shape with
  | nc :: n' :: nr :: n :: s => do
    let T ← T.expand err (n' :: n :: s)
    .ok (tab (nc :: n' :: nr :: n :: s) fun i =>
      if i.getD 0 0 = c ∧ i.getD 2 0 = r then T.get (i.getD 1 0 :: i.getD 3 0 :: i.drop 4) else out.get i)
  | _ => .error .indexError

/-- The body of the loops in numpy/linalg.py:53-57, torch/linalg.py:54-58. -/
noncomputable def blockBody (A : Api) (n : ℕ) (x out : Tensor ℝ) (rc : ℕ × ℕ) : Except PyErr (Tensor ℝ) := do
  let y ← x.select 0 rc.2
  let y ← y.select 0 rc.1
  let a ← y.slice (-1) (some (-(n : ℤ) + 1)) none
  let b ← y.slice (-1) none (some n)
  let vec ← Tensor.cat A.err a b (-1)
  let H ← hankelView A.err vec n
  let T ← H.along List.reverse (-2)
  setBlock A.err out rc.1 rc.2 T

/-- numpy/linalg.py:42-61, torch/linalg.py:43-62, `block_toeplitz` (without `n`). -/
noncomputable def blockToeplitz (A : Api) (x : Tensor ℝ) : Except PyErr (Tensor ℝ) :=
  match x.shape with
  | cols :: rows :: top :: s => do
    let n := top / 2
    let out ← ((List.range rows).flatMap fun r => (List.range cols).map fun c => (r, c)).foldlM
      (blockBody A n x) (tab (cols :: n :: rows :: n :: s) fun _ => 0)
    out.reshape A.err (some (n * cols) :: some (n * rows) :: s.map some)
  | _ => .error .valueError

/-! ### `cgd.py` -/

/-- A linear operator: an array-like object with a shape and `@`.  numpy/cgd.py:80-279, torch/cgd.py:83-287. -/
structure Op where
  shape : List ℕ
  mul : Tensor ℝ → Except PyErr (Tensor ℝ)

/-- numpy/cgd.py:37, 65, torch/cgd.py:38, 66: `np.arange(1, n) / n`. -/
noncomputable def ramp (n : ℕ) : Tensor ℝ := tab [n - 1] fun i => ((i.getD 0 0 : ℝ) + 1) / n

/-- numpy/cgd.py:28-40, torch/cgd.py:29-41, `optimal_symmetric_circulant_precond_column`. -/
noncomputable def symPrecondCol (A : Api) (col : Tensor ℝ) : Except PyErr (Tensor ℝ) := do
  let n ← col.size (-1)
  let b ← (ramp n).along List.reverse (-1)
  let t ← col.slice (-1) (some 1) none
  let w ← Tensor.zip A.err (· * ·) t b
  let wr ← w.along List.reverse (-1)
  let w ← Tensor.zip A.err (· + ·) w wr
  let h ← col.slice (-1) none (some 1)
  Tensor.cat A.err h w (-1)

/-- numpy/cgd.py:43-77, torch/cgd.py:44-80, `optimal_nonsymmetric_circulant_precond_column` (without `n`). -/
noncomputable def nonsymPrecondCol (A : Api) (r : Tensor ℝ) (dim : ℤ) : Except PyErr (Tensor ℝ) := do
  let r ← A.toLast r dim
  let m ← r.size (-1)
  let n := (m + 1) / 2
  let s1 ← r.along (A.B.revMid n) (-1)
  let s2 ← r.along (A.B.revLast n) (-1)
  let w1 ← Tensor.zip A.err (· * ·) (ramp n) s1
  let w2 ← Tensor.zip A.err (· * ·) ((ramp n).map fun b => 1 - b) s2
  let w ← Tensor.zip A.err (· + ·) w1 w2
  let h ← r.slice (-1) none (some 1)
  let c ← Tensor.cat A.err h w (-1)
  A.fromLast c dim

/-- numpy/cgd.py:80-116, torch/cgd.py:83-124, `CirculantPreconditionerOperator`. -/
noncomputable def circPrecond (A : Api) (col : Tensor ℝ) : Except PyErr Op := do
  let colPrecond ← symPrecondCol A col
  let C ← A.rfft colPrecond none (-1)
  let C := C.map A.B.specInv
  let n ← colPrecond.size (-1)
  let shape := n :: n :: colPrecond.shape.drop 1
  .ok { shape := shape
        mul := fun lhs =>
          if lhs.shape.length = shape.length then do
            let m ← lhs.size (-2)
            if m ≠ n then .error .assertionError else do
            let L ← A.rfft lhs (some n) (-2)
            let P ← Tensor.zip A.err (· * ·) (C.unsqueeze 0) L
            A.irfft P (some n) (-2)
          else .error .valueError }

/-- numpy/cgd.py:119-157, torch/cgd.py:127-165, `SymmetricToeplitzOperator`. -/
noncomputable def symToeplitzOp (A : Api) (col : Tensor ℝ) : Except PyErr Op := do
  let nCol ← col.size (-1)
  let nFft := 2 * nCol
  let pad ← col.zeros (-1) (nFft - 2 * nCol + 1)
  let c ← Tensor.cat A.err col pad (-1)
  let t ← col.along A.B.revTail (-1)
  let circCol ← Tensor.cat A.err c t (-1)
  let Cforward ← A.rfft circCol none (-1)
  let shape := nCol :: col.shape
  .ok { shape := shape
        mul := fun lhs =>
          if lhs.shape.length = shape.length then do
            let m ← lhs.size (-2)
            if m ≠ nCol then .error .assertionError else do
            let Y ← A.rfft lhs (some nFft) (-2)
            let P ← Tensor.zip A.err (· * ·) Y (Cforward.unsqueeze 0)
            let y ← A.irfft P (some nFft) (-2)
            y.slice (-2) none (some nCol)
          else .error .valueError }

/-- numpy/cgd.py:199-202, 268-271, torch/cgd.py:207-210, 276-279:
`lhs.reshape(lhs.shape[:-2] + (-1, c) + lhs.shape[-1:])`. -/
noncomputable def splitRows (err : PyErr) (x : Tensor ℝ) (c : ℕ) : Except PyErr (Tensor ℝ) :=
  match x.shape with
  | e :: _ :: s => x.reshape err (some e :: some c :: none :: s.map some)
  | _ => .error .indexError

/-- numpy/cgd.py:203, 277, numpy/metrics.py:557, 565, torch/cgd.py:211, 285, torch/metrics.py:554, 562:
`y.reshape(y.shape[:-3] + (-1,) + y.shape[-1:])`. -/
noncomputable def mergeRows (err : PyErr) (x : Tensor ℝ) : Except PyErr (Tensor ℝ) :=
  match x.shape with
  | e :: _ :: _ :: s => x.reshape err (some e :: none :: s.map some)
  | _ => .error .indexError

/-- numpy/cgd.py:160-205, torch/cgd.py:168-213, `BlockCirculantPreconditionerOperator`.  (In the last reshape
`lhs.shape[:-3]` and `lhs.shape[-1:]` are those of the transform; they are the ones of `y`.) -/
noncomputable def blockPrecond (A : Api) (col : Tensor ℝ) : Except PyErr Op := do
  let colPrecond ← nonsymPrecondCol A col (-3)
  let C ← A.rfft colPrecond none (-3)
  let C ← A.inv C
  let n ← colPrecond.size (-3)
  let c1 ← C.size (-1)
  let c2 ← C.size (-2)
  .ok { shape := (n * c1) :: (n * c2) :: colPrecond.shape.drop 1
        mul := fun lhs => do
          let m ← lhs.size (-2)
          if m ≠ n * c1 then .error .assertionError else do
          let l ← splitRows A.err lhs c1
          let L ← A.rfft l (some n) (-3)
          let P ← Tensor.einsum A.err ['r', 'c'] ['c', 'm'] ['r', 'm'] C L
          let y ← A.irfft P (some n) (-3)
          mergeRows A.err y }

/-- numpy/cgd.py:208-279, torch/cgd.py:216-287, `BlockToeplitzOperator`. -/
noncomputable def blockToeplitzOp (A : Api) (col : Tensor ℝ) : Except PyErr Op := do
  let top ← col.size (-3)
  let nCol := top / 2
  if nCol = 0 then .error .valueError else do
  let nFft := blockNfft nCol
  let h ← col.slice (-3) none (some 1)
  let l ← col.along (A.B.revLast nCol) (-3)
  let pad ← col.zeros (-3) (nFft - 2 * nCol + 1)
  let m ← col.along (A.B.revMid nCol) (-3)
  let c ← Tensor.cat A.err h l (-3)
  let c ← Tensor.cat A.err c pad (-3)
  let circCol ← Tensor.cat A.err c m (-3)
  let Cforward ← A.rfft circCol none (-3)
  let rows ← col.size (-2)
  let cols ← col.size (-1)
  .ok { shape := (cols * nCol) :: (rows * nCol) :: col.shape.drop 3
        mul := fun lhs => do
          let m ← lhs.size (-2)
          if m ≠ cols * nCol then .error .assertionError else do
          let l ← splitRows A.err lhs cols
          let Y ← A.rfft l (some nFft) (-3)
          let P ← Tensor.einsum A.err ['r', 'c'] ['c', 'm'] ['r', 'm'] Cforward Y
          let y ← A.irfft P (some nFft) (-3)
          let y ← y.slice (-3) none (some nCol)
          mergeRows A.err y }

/-- numpy/cgd.py:287-288, torch/cgd.py:295-296, `inner_prod`. -/
noncomputable def innerProd (A : Api) (a b : Tensor ℝ) : Except PyErr (Tensor ℝ) :=
  Tensor.einsum A.err ['c', 'd'] ['c', 'd'] ['d'] a b

/-- `x + alpha[..., None, :] * p` and the like, numpy/cgd.py:339, 343, 351. -/
noncomputable def axpy (A : Api) (x : Tensor ℝ) (f : ℝ → ℝ → ℝ) (alpha p : Tensor ℝ) : Except PyErr (Tensor ℝ) := do
  let ap ← Tensor.zip A.err (· * ·) (alpha.unsqueeze 1) p
  Tensor.zip A.err f x ap

/-- The variables of the loop in numpy/cgd.py:324-352. -/
structure CgVars where
  x : Tensor ℝ
  r : Tensor ℝ
  p : Tensor ℝ
  rsold : Tensor ℝ

/-- numpy/cgd.py:324-328, torch/cgd.py:332-336: initialisation. -/
noncomputable def cgInit (A : Api) (F P : Op) (b x : Tensor ℝ) : Except PyErr CgVars := do
  let Ax ← F.mul x
  let r ← Tensor.zip A.err (· - ·) b Ax
  let z ← P.mul r
  let rs ← innerProd A r z
  .ok ⟨x, r, z, rs⟩

/-- numpy/cgd.py:335-352, torch/cgd.py:343-360: body of the loop.
`epoch + 1 % 5 == 0` parses as `epoch + (1 % 5) == 0`. -/
noncomputable def cgBody (A : Api) (F P : Op) (b : Tensor ℝ) (v : CgVars) (epoch : ℕ) : Except PyErr CgVars := do
  let Ap ← F.mul v.p
  let pAp ← innerProd A v.p Ap
  let alpha ← Tensor.zip A.err (· / ·) v.rsold (pAp.map fun a => max a 1e-6)
  let x ← axpy A v.x (· + ·) alpha v.p
  let r ← if epoch + 1 % 5 = 0 then do
      let Ax ← F.mul x
      Tensor.zip A.err (· - ·) b Ax
    else axpy A v.r (· - ·) alpha Ap
  let z ← P.mul r
  let rsnew ← innerProd A r z
  let beta ← Tensor.zip A.err (· / ·) rsnew (v.rsold.map fun a => max a 1e-6)
  let p ← axpy A z (· + ·) beta v.p
  .ok ⟨x, r, p, rsnew⟩

/-- numpy/cgd.py:291-363, torch/cgd.py:299-371, `conjugate_gradient` with a preconditioner and without `x_true`. -/
noncomputable def conjugateGradient (A : Api) (F P : Op) (b : Tensor ℝ) (x : Option (Tensor ℝ)) (nIter : Option ℤ) :
    Except PyErr (Tensor ℝ) := do
  let addAxis : Bool := decide (F.shape.length = b.shape.length + 1)
  let b := if addAxis then b.unsqueeze 0 else b
  if F.shape.length ≠ b.shape.length then .error .assertionError else do
  -- `A.shape[-1]` exists if `b.shape[-2]` does
  let m ← b.size (-2)
  if F.shape.getD 0 0 ≠ m then .error .assertionError else do
  let x := x.getD (b.map fun _ => 0)
  let e ← b.size (-1)
  let v ← cgInit A F P b x
  let v ← (List.range (nIter.getD e).toNat).foldlM (cgBody A F P b) v
  if addAxis then v.x.select 0 0 else .ok v.x

/-- numpy/cgd.py:366-383, torch/cgd.py:374-391, `toeplitz_conjugate_gradient`. -/
noncomputable def toeplitzCg (A : Api) (acf xcorr : Tensor ℝ) (nIter : Option ℤ) : Except PyErr (Tensor ℝ) := do
  let P ← circPrecond A acf
  let F ← symToeplitzOp A acf
  conjugateGradient A F P xcorr none nIter

/-- numpy/cgd.py:386-404, torch/cgd.py:394-411, `block_toeplitz_conjugate_gradient`. -/
noncomputable def blockCg (A : Api) (acf xcorr : Tensor ℝ) (x : Option (Tensor ℝ)) (nIter : Option ℤ) :
    Except PyErr (Tensor ℝ) := do
  let P ← blockPrecond A acf
  let F ← blockToeplitzOp A acf
  conjugateGradient A F P xcorr x nIter

/-! ### `metrics.py` -/

/-- numpy/metrics.py:37-78, torch/metrics.py:32-73, `square_cosine_metrics_length_one_filter` without
`coh_sar`, after the preprocessing. -/
noncomputable def lengthOneSdr (A : Api) (pairwise : Bool) (ref est : Tensor ℝ) : Except PyErr (Tensor ℝ) := do
  let cohSdr ← if pairwise then Tensor.einsum A.err ['c', 'n'] ['d', 'n'] ['c', 'd'] ref est
    else Tensor.einsum A.err ['n'] ['n'] [] ref est
  .ok (cohSdr.map (· ^ 2))

/-- The same with `coh_sar`.  numpy/metrics.py:65-75, torch/metrics.py:60-70. -/
noncomputable def lengthOneBoth (A : Api) (pairwise : Bool) (loadDiag : Option ℝ) (ref est : Tensor ℝ) :
    Except PyErr (Tensor ℝ × Tensor ℝ) := do
  let xcorr ← Tensor.einsum A.err ['c', 'n'] ['d', 'n'] ['c', 'd'] ref est
  let cohSdr ← lengthOneSdr A pairwise ref est
  let acm ← Tensor.einsum A.err ['c', 'n'] ['d', 'n'] ['c', 'd'] ref ref
  let acm ← match loadDiag with
    | none => .ok acm
    | some d => do
      let c ← acm.size (-1)
      Tensor.zip A.err (· + ·) acm (tab [c, c] fun i => if i.getD 0 0 = i.getD 1 0 then d else 0)
  let sol ← A.solve acm xcorr
  let cohSar ← Tensor.einsum A.err ['l', 'c'] ['l', 'c'] ['c'] xcorr sol
  if pairwise then do
    let a ← Tensor.zip A.err (fun a _ => a) cohSdr (cohSar.unsqueeze 1)
    let b ← Tensor.zip A.err (fun _ b => b) cohSdr (cohSar.unsqueeze 1)
    .ok (a, b)
  else .ok (cohSdr, cohSar)

/-- numpy/metrics.py:81-134, torch/metrics.py:76-130, `compute_stats`. -/
noncomputable def computeStats (A : Api) (x y : Tensor ℝ) (length : Option ℤ) (pairwise : Bool) :
    Except PyErr (Tensor ℝ × Tensor ℝ) := do
  let nx ← x.size (-1)
  let ny ← y.size (-1)
  let length : ℤ := length.getD nx
  let n ← nFft nx ny
  let X ← A.rfft x (some n) (-1)
  let Y ← A.rfft y (some n) (-1)
  let acf ← A.irfftReal (X.map fun z => z.re ^ 2 + z.im ^ 2) (some n) (-1)
  let Xc := X.map (starRingEnd ℂ)
  if pairwise then do
    let XY ← Tensor.einsum A.err ['c', 'n'] ['d', 'n'] ['c', 'n', 'd'] Xc Y
    let xcorr ← A.irfft XY (some n) (-2)
    let a ← acf.slice (-1) none (some length)
    let b ← xcorr.slice (-2) none (some length)
    .ok (a, b)
  else do
    let XY ← Tensor.zip A.err (· * ·) Xc Y
    let xcorr ← A.irfft XY (some n) (-1)
    let a ← acf.slice (-1) none (some length)
    let b ← xcorr.slice (-1) none (some length)
    .ok (a, b)

/-- numpy/metrics.py:137-182, torch/metrics.py:133-178, `compute_stats_2`. -/
noncomputable def computeStats2 (A : Api) (x y : Tensor ℝ) (length : Option ℤ) :
    Except PyErr (Tensor ℝ × Tensor ℝ) := do
  let nx ← x.size (-1)
  let ny ← y.size (-1)
  let length : ℤ := length.getD nx
  let n ← nFft nx ny
  let X ← A.rfft x (some n) (-1)
  let Y ← A.rfft y (some n) (-1)
  let prod ← Tensor.einsum A.err ['c', 'n'] ['d', 'n'] ['n', 'c', 'd'] X (X.map (starRingEnd ℂ))
  let acf ← A.irfft prod (some n) (-3)
  let a ← acf.slice (-3) none (some length)
  let b ← acf.slice (-3) (some (-length)) none
  let acf ← Tensor.cat A.err a b (-3)
  let XY ← Tensor.einsum A.err ['c', 'n'] ['d', 'n'] ['n', 'c', 'd'] (X.map (starRingEnd ℂ)) Y
  let xcorr ← A.irfft XY (some n) (-3)
  let xcorr ← xcorr.slice (-3) none (some length)
  .ok (acf, xcorr)

/-- numpy/metrics.py:264, torch/metrics.py:260: `acf[..., 0] += load_diag`. -/
noncomputable def loadFirst (loadDiag : Option ℝ) (acf : Tensor ℝ) : Except PyErr (Tensor ℝ) :=
  match loadDiag with
  | none => .ok acf
  | some d => do
    let n ← acf.size (-1)
    if n = 0 then .error .indexError
    else .ok (tab acf.shape fun i => if i.getD 0 0 = 0 then acf.get i + d else acf.get i)

/-- numpy/metrics.py:276-279, torch/metrics.py:272-275: `einsum("...lc,...lc->...c")` or `einsum("...l,...l->...")`. -/
noncomputable def coherence (A : Api) (pairwise : Bool) (xcorr sol : Tensor ℝ) : Except PyErr (Tensor ℝ) :=
  if pairwise then Tensor.einsum A.err ['l', 'c'] ['l', 'c'] ['c'] xcorr sol
  else Tensor.einsum A.err ['l'] ['l'] [] xcorr sol

/-- numpy/metrics.py:267-273, 542-548, torch/metrics.py:263-269, 537-543: the filters for one reference, by either solver. -/
noncomputable def solveOne (A : Api) (useCgIter : Option ℤ) (acf xcorr : Tensor ℝ) : Except PyErr (Tensor ℝ) :=
  match useCgIter with
  | none => do
    let R ← toeplitz A acf
    A.solve R xcorr
  | some it => toeplitzCg A acf xcorr (some it)

/-- numpy/metrics.py:185-284, torch/metrics.py:181-280, `sdr_loss`. -/
noncomputable def sdrLoss (A : Api) (o : AOpts) (pairwise : Bool) (est ref : Tensor ℝ) :
    Except PyErr (Tensor XR) := do
  let coh ← if o.filterLength = some 1 then do
      let ref ← prepare A o.zeroMean ref
      let est ← prepare A o.zeroMean est
      lengthOneSdr A pairwise ref est
    else do
      let est ← prepare A o.zeroMean est
      let ref ← prepare A o.zeroMean ref
      let (acf, xcorr) ← computeStats A ref est o.filterLength pairwise
      let acf ← loadFirst o.loadDiag acf
      let sol ← solveOne A o.useCgIter acf xcorr
      coherence A pairwise xcorr sol
  .ok (coh.map fun c => coherenceToNegSdr o.clampDb (.fin c))

/-- `acf[..., 0, diag_indices, diag_indices] += load_diag`, numpy/metrics.py:529, torch/metrics.py:523-524. -/
noncomputable def loadDiagonal (loadDiag : Option ℝ) (acf : Tensor ℝ) : Except PyErr (Tensor ℝ) :=
  match loadDiag with
  | none => .ok acf
  | some d => do
    let n ← acf.size (-3)
    if n = 0 then .error .indexError
    else .ok (tab acf.shape fun i =>
      if i.getD 2 0 = 0 ∧ i.getD 0 0 = i.getD 1 0 then acf.get i + d else acf.get i)

/-- numpy/metrics.py:557-569, torch/metrics.py:554-566: `coh_sar`; `sol` is the solution for the single
references, the initial value of the iterative solver in the pairwise case. -/
noncomputable def cohSar (A : Api) (useCgIter : Option ℤ) (pairwise : Bool) (acf xcorr sol : Tensor ℝ) :
    Except PyErr (Tensor ℝ) := do
  let xcorr ← mergeRows A.err xcorr
  let sol ← match useCgIter with
    | none => do
      let R ← blockToeplitz A acf
      A.solve R xcorr
    | some it =>
      if pairwise then do
        let x0 ← sol.transpose (-3) (-2)
        let x0 ← mergeRows A.err x0
        blockCg A acf xcorr (some x0) (some it)
      else blockCg A acf xcorr none (some it)
  Tensor.einsum A.err ['l', 'c'] ['l', 'c'] ['c'] xcorr sol

/-- numpy/metrics.py:450-574, torch/metrics.py:446-571, `square_cosine_metrics`. -/
noncomputable def squareCosine (A : Api) (o : AOpts) (pairwise : Bool) (ref est : Tensor ℝ) :
    Except PyErr (Tensor ℝ × Tensor ℝ) :=
  if o.filterLength = some 1 then do
    let ref ← prepare A o.zeroMean ref
    let est ← prepare A o.zeroMean est
    lengthOneBoth A pairwise o.loadDiag ref est
  else do
    let est ← prepare A o.zeroMean est
    let ref ← prepare A o.zeroMean ref
    let (acf, xcorr) ← computeStats2 A ref est o.filterLength
    let c ← ref.size (-2)
    let acf ← loadDiagonal o.loadDiag acf
    let acfSdr ← A.diag c acf
    let acfSdr ← acfSdr.transpose (-2) (-1)
    let acfSdr ← acfSdr.slice (-1) none o.filterLength
    let xcorrSdr ← if pairwise then xcorr.transpose (-3) (-2) else do
      let d ← A.diag c xcorr
      d.transpose (-2) (-1)
    let sol ← solveOne A o.useCgIter acfSdr xcorrSdr
    let cohSdr ← coherence A pairwise xcorrSdr sol
    let cohSar ← cohSar A o.useCgIter pairwise acf xcorr sol
    if pairwise then do
      let a ← Tensor.zip A.err (fun a _ => a) cohSdr (cohSar.unsqueeze 1)
      let b ← Tensor.zip A.err (fun _ b => b) cohSdr (cohSar.unsqueeze 1)
      .ok (a, b)
    else .ok (cohSdr, cohSar)

/-- All indices of a shape in row-major order, `numpy.ndindex(b_shape)`.
numpy/helpers.py:97, torch/helpers.py:91. -/
def indices : List ℕ → List (List ℕ)
  | [] => [[]]
  | n :: s => (indices s).flatMap fun i => (List.range n).map fun t => t :: i

/-- The arrays built by `_solve_permutation`: `loss_out`, `args_out`, `p_opts`.
numpy/helpers.py:93-96, torch/helpers.py:87-90. -/
structure PermArrays where
  loss : Tensor XR
  args : List (Tensor XR)
  perm : Tensor ℕ

/-- `out[m] = v` for a vector `v`.  numpy/helpers.py:101-104, torch/helpers.py:95-98. -/
noncomputable def setRow {α : Type} [Zero α] (out : Tensor α) (m : List ℕ) (v : List α) : Tensor α :=
  tab out.shape fun i => if i.drop 1 = m then v.getD (i.getD 0 0) 0 else out.get i

/-- Body of the loop in numpy/helpers.py:97-104, torch/helpers.py:91-98, for matrices with `a` rows and `b`
columns. -/
noncomputable def permBody (A : Api) (a b nOut : ℕ) (loss : Tensor XR) (args : List (Tensor XR)) (out : PermArrays)
    (m : List ℕ) : Except PyErr PermArrays :=
  match lsaWithInf A.B (fun (i : Fin a) (j : Fin b) => loss.get (j.val :: i.val :: m)) with
  | .error e => .error e
  | .ok l =>
    if l.length = nOut then
      let at' (x : Tensor XR) := l.map fun p => x.get (p.2.val :: p.1.val :: m)
      .ok { loss := setRow out.loss m (at' loss)
            args := List.zipWith (fun o x => setRow o m (at' x)) out.args args
            perm := setRow out.perm m (l.map fun p => p.2.val) }
    else .error .valueError

/-- numpy/helpers.py:72-112, torch/helpers.py:66-106, `_solve_permutation(..., return_perm=True)`. -/
noncomputable def solvePermutation (A : Api) (loss : Tensor XR) (args : List (Tensor XR)) :
    Except PyErr PermArrays :=
  match loss.shape with
  | e :: r :: s => do
    let nOut := min r e
    let (a, b, loss, args) ← if e < r then do
        let loss ← loss.transpose (-2) (-1)
        let args ← args.mapM fun x => x.transpose (-2) (-1)
        .ok (e, r, loss, args)
      else .ok (r, e, loss, args)
    (indices s).foldlM (permBody A a b nOut loss args)
      { loss := tab (nOut :: s) fun _ => 0
        args := args.map fun _ => tab (nOut :: s) fun _ => 0
        perm := tab (nOut :: s) fun _ => 0 }
  | _ => .error .valueError

/-- numpy/metrics.py:369-447, torch/metrics.py:365-443, `sdr`. -/
noncomputable def sdr (A : Api) (o : AOpts) (returnPerm changeSign : Bool) (ref est : Tensor ℝ) :
    Except PyErr (Tensor XR × Option (Tensor ℕ)) := do
  let negSdr ← sdrLoss A o true est ref
  let out ← solvePermutation A negSdr []
  .ok (if changeSign then out.loss else out.loss.map XR.neg, if returnPerm then some out.perm else none)

/-- The arrays returned by `bss_eval_sources`.  numpy/metrics.py:675-677, torch/metrics.py:672-674. -/
structure BssArrays where
  sdr : Tensor XR
  sir : Tensor XR
  sar : Tensor XR
  perm : Option (Tensor ℕ)

/-- numpy/metrics.py:577-590, torch/metrics.py:574-587, `_base_metrics_bss_eval`. -/
noncomputable def baseMetrics (A : Api) (clampDb : Option ℝ) (cohSdr cohSar : Tensor ℝ) :
    Except PyErr (Tensor XR × Tensor XR × Tensor XR) := do
  let cohSir ← Tensor.zip A.err (fun a b => XR.div (.fin a) (.fin b)) cohSdr cohSar
  .ok (cohSdr.map fun c => coherenceToNegSdr clampDb (.fin c), cohSir.map (coherenceToNegSdr clampDb),
    cohSar.map fun c => coherenceToNegSdr clampDb (.fin c))

/-- numpy/metrics.py:593-677, torch/metrics.py:590-674, `bss_eval_sources`. -/
noncomputable def bssEvalSources (A : Api) (o : AOpts) (computePermutation : Bool) (ref est : Tensor ℝ) :
    Except PyErr BssArrays := do
  let r ← if computePermutation then .ok 0 else ref.size (-2)
  let e ← if computePermutation then .ok 0 else est.size (-2)
  if r ≠ e then .error .assertionError else do
  let (cohSdr, cohSar) ← squareCosine A o computePermutation ref est
  let (negSdr, negSir, negSar) ← baseMetrics A o.clampDb cohSdr cohSar
  if computePermutation then do
    let out ← solvePermutation A negSir [negSdr, negSar]
    match out.args with
    | [negSdr, negSar] =>
      .ok ⟨negSdr.map XR.neg, out.loss.map XR.neg, negSar.map XR.neg, some out.perm⟩
    | _ => .error .valueError
  else .ok ⟨negSdr.map XR.neg, negSir.map XR.neg, negSar.map XR.neg, none⟩

end Arrays

end FBE
