import Verif.Model.Basic

/-!
# Data types and devices

The functions of the two packages once more, on the data type and the device of each array instead of
its entries.  Every function lists, in order, the operations that create an array; `.error` stands for
an exception that is due to data types or devices (other exceptions are the subject of the other
models).  Operations that keep both (slices, transpositions, `reshape`, `flip`, `conj`, indexing,
`as_strided`, `zeros_like`, `new_zeros`, comparisons with Python numbers) are left out, as is the
code for torch < 1.8.  Arrays have at least two axes (numpy < 2 has other rules for scalars).
The rules of the libraries are the definitions of the first section.
-/

namespace FBE.Tags

/-- The data types that occur; `int` is the 64 bit integer.  numpy/helpers.py:96, torch/helpers.py:90. -/
inductive DType
  | int
  | f16
  | f32
  | f64
  | c64
  | c128
  deriving DecidableEq

/-- Devices.  torch/cgd.py:38, 66. -/
inductive Device
  | cpu
  | other (n : ℕ)
  deriving DecidableEq

/-- Data type and device of an array.  torch/metrics.py:32-39. -/
structure Tag where
  dev : Device
  dt : DType
  deriving DecidableEq

/-- The library: torch with its default device and default data type (`torch.set_default_device`,
`torch.set_default_dtype`), or numpy, which keeps 32 bit numbers in `np.fft` from version 2 on.
torch/metrics.py:63, numpy/cgd.py:87. -/
inductive Lib
  | torch (defDev : Device) (defDt : DType)
  | numpy (numpy2 : Bool)

/-! ### The libraries -/

/-- The data type of an operation on two arrays.  Integers: torch takes the other type, numpy at least
64 bit.  numpy/helpers.py:39, torch/helpers.py:31, numpy/cgd.py:38, torch/cgd.py:39. -/
def promote (L : Lib) : DType → DType → DType
  | .int, .int => .int
  | .int, d | d, .int =>
    match L, d with
    | .torch _ _, d => d
    | .numpy _, .c64 => .c128
    | .numpy _, .c128 => .c128
    | .numpy _, _ => .f64
  | .f16, d | d, .f16 => d
  | .f32, d | d, .f32 => d
  | .c128, _ | _, .c128 => .c128
  | .c64, .c64 => .c64
  | .c64, .f64 | .f64, .c64 => .c128
  | .f64, .f64 => .f64

/-- `a + b`, `a - b`, `a * b`, `a / b` for arrays, also `cat`/`concatenate`; torch rejects tensors on
different devices.  numpy/helpers.py:39, torch/helpers.py:31, torch/metrics.py:63. -/
def binop (L : Lib) (a b : Tag) : Except PyErr Tag :=
  if a.dev = b.dev then .ok ⟨a.dev, promote L a.dt b.dt⟩ else .error .runtimeError

/-- An operation with a Python float, also `log10`, `clamp`, `maximum`, `minimum`.
numpy/helpers.py:64-69, torch/helpers.py:58-63. -/
def scal (L : Lib) (a : Tag) : Tag :=
  match a.dt, L with
  | .int, .torch _ d => ⟨a.dev, d⟩
  | .int, .numpy _ => ⟨a.dev, .f64⟩
  | _, _ => a

/-- `x.mean(...)`; torch rejects integers.  numpy/helpers.py:39, torch/helpers.py:31. -/
def mean (L : Lib) (a : Tag) : Except PyErr Tag :=
  match a.dt, L with
  | .int, .torch _ _ => .error .runtimeError
  | .int, .numpy _ => .ok ⟨a.dev, .f64⟩
  | _, _ => .ok a

/-- The real type of a complex type.  numpy/metrics.py:123, torch/metrics.py:118. -/
def realOf : DType → DType
  | .c64 => .f32
  | .c128 => .f64
  | d => d

/-- `x.norm(...)`, `np.linalg.norm(x, ...)`; torch rejects integers.  numpy/helpers.py:45,
torch/helpers.py:37. -/
def norm (L : Lib) (a : Tag) : Except PyErr Tag :=
  match a.dt, L with
  | .int, .torch _ _ => .error .runtimeError
  | .int, .numpy _ => .ok ⟨a.dev, .f64⟩
  | d, _ => .ok ⟨a.dev, realOf d⟩

/-- `rfft` of the file `metrics.py`: `scipy.fft.rfft`, `torch.fft.rfft`.  Half precision in torch (device
dependent) is not modelled.  numpy/metrics.py:119-120, torch/metrics.py:114-115. -/
def rfft (L : Lib) (a : Tag) : Except PyErr Tag :=
  match a.dt, L with
  | .int, .numpy _ => .ok ⟨a.dev, .c128⟩
  | .int, .torch _ .f64 => .ok ⟨a.dev, .c128⟩
  | .int, .torch _ _ => .ok ⟨a.dev, .c64⟩
  | .f16, .numpy _ => .ok ⟨a.dev, .c64⟩
  | .f16, .torch _ _ => .error .unmodelled
  | .f32, _ => .ok ⟨a.dev, .c64⟩
  | .f64, _ => .ok ⟨a.dev, .c128⟩
  | _, .numpy _ => .error .typeError
  | _, .torch _ _ => .error .runtimeError

/-- `irfft` of the file `metrics.py` (also of real arrays).  numpy/metrics.py:123, 128,
torch/metrics.py:119, 124, torch/compatibility.py:104-109. -/
def irfft (L : Lib) (a : Tag) : Except PyErr Tag :=
  match a.dt, L with
  | .int, _ => .error .unmodelled
  | .f16, .torch _ _ => .error .unmodelled
  | .f16, .numpy _ => .ok ⟨a.dev, .f32⟩
  | d, _ => .ok ⟨a.dev, realOf d⟩

/-- `rfft` of the file `cgd.py`: `np.fft.rfft` (64 bit before version 2), `torch.fft.rfft`.
numpy/cgd.py:87, 107, torch/cgd.py:91, 115. -/
def rfftCg (L : Lib) (a : Tag) : Except PyErr Tag :=
  match L, a.dt with
  | .torch _ _, _ => rfft L a
  | .numpy _, .f64 => .ok ⟨a.dev, .c128⟩
  | .numpy false, .f32 => .ok ⟨a.dev, .c128⟩
  | .numpy true, .f32 => .ok ⟨a.dev, .c64⟩
  | .numpy _, _ => .error .unmodelled

/-- `irfft` of the file `cgd.py`.  numpy/cgd.py:106, 150, torch/cgd.py:114, 158. -/
def irfftCg (L : Lib) (a : Tag) : Except PyErr Tag :=
  match L, a.dt with
  | .torch _ _, _ => irfft L a
  | .numpy _, .c128 => .ok ⟨a.dev, .f64⟩
  | .numpy false, .c64 => .ok ⟨a.dev, .f64⟩
  | .numpy true, .c64 => .ok ⟨a.dev, .f32⟩
  | .numpy _, _ => .error .unmodelled

/-- `einsum` of two arrays.  torch with two different data types is not modelled.
numpy/metrics.py:57, torch/metrics.py:52. -/
def einsum (L : Lib) (a b : Tag) : Except PyErr Tag :=
  match L with
  | .torch _ _ =>
    if a.dev ≠ b.dev then .error .runtimeError
    else if a.dt ≠ b.dt then .error .unmodelled
    else .ok a
  | .numpy _ => binop L a b

/-- `linalg.solve(a, b)`: torch wants equal data types and devices; numpy does not have half
precision, and turns integers into 64 bit numbers.  numpy/metrics.py:69, torch/metrics.py:64. -/
def solve (L : Lib) (a b : Tag) : Except PyErr Tag :=
  match L with
  | .torch _ _ => if a = b then .ok a else .error .runtimeError
  | .numpy _ =>
    if a.dt = .f16 ∨ b.dt = .f16 then .error .typeError
    else match binop L a b with
      | .ok ⟨d, .int⟩ => .ok ⟨d, .f64⟩
      | r => r

/-- `linalg.inv`.  numpy/cgd.py:176, torch/cgd.py:184. -/
def inv (L : Lib) (a : Tag) : Except PyErr Tag := solve L a a

/-- `eye(n)`: default type and device.  numpy/metrics.py:68, torch/metrics.py:63. -/
def eye : Lib → Tag
  | .torch d t => ⟨d, t⟩
  | .numpy _ => ⟨.cpu, .f64⟩

/-- `arange(1, n, device=dev) / float(n)`, `np.arange(1, n) / n`.  numpy/cgd.py:37, torch/cgd.py:38. -/
def fractions (L : Lib) (dev : Device) : Tag :=
  match L with
  | .torch _ t => ⟨dev, t⟩
  | .numpy _ => ⟨.cpu, .f64⟩

/-! ### The functions -/

/-- The options.  `clamp_db` has no effect on types.  numpy/metrics.py:185-194. -/
structure Opt where
  filterLength : ℕ
  useCgIter : Option ℕ
  zeroMean : Bool
  loadDiag : Bool

/-- numpy/helpers.py:38-39, torch/helpers.py:30-31. -/
def removeMean (L : Lib) (x : Tag) : Except PyErr Tag := do
  let m ← mean L x
  binop L x m

/-- numpy/helpers.py:42-46, torch/helpers.py:34-38. -/
def normalize (L : Lib) (x : Tag) : Except PyErr Tag := do
  let n ← norm L x
  binop L x (scal L n)

/-- numpy/helpers.py:55-69, torch/helpers.py:47-63. -/
def cohToNegSdr (L : Lib) (coh : Tag) : Except PyErr Tag := do
  let coh := scal L coh
  let ratio ← binop L (scal L coh) coh
  return scal L ratio

/-- numpy/metrics.py:48-53, 243-249, torch/metrics.py:44-49, 248-254. -/
def prepare (L : Lib) (zeroMean : Bool) (x : Tag) : Except PyErr Tag := do
  let x ← if zeroMean then removeMean L x else pure x
  normalize L x

/-- numpy/metrics.py:37-78, torch/metrics.py:32-73; the second result is there if `withSar`.  `xcorr` is
computed also where the code leaves it out (neither `pairwise` nor `withSar`); the call that replaces it there
has the same arguments. -/
def lengthOne (L : Lib) (zeroMean pairwise loadDiag withSar : Bool) (ref est : Tag) :
    Except PyErr (Tag × Option Tag) := do
  let ref ← prepare L zeroMean ref
  let est ← prepare L zeroMean est
  let xcorr ← einsum L ref est
  let coh ← if pairwise then pure xcorr else einsum L ref est
  let coh := scal L coh
  if withSar then
    let acm ← einsum L ref ref
    let acm ← if loadDiag then binop L acm (scal L (eye L)) else pure acm
    let sol ← solve L acm xcorr
    let sar ← einsum L xcorr sol
    return (coh, some sar)
  else
    return (coh, none)

/-- numpy/metrics.py:81-136, torch/metrics.py:76-131. -/
def computeStats (L : Lib) (pairwise : Bool) (x y : Tag) : Except PyErr (Tag × Tag) := do
  let X ← rfft L x
  let Y ← rfft L y
  let mag : Tag := ⟨X.dev, realOf X.dt⟩
  let mag ← binop L mag mag
  let acf ← irfft L mag
  let XY ← if pairwise then einsum L X Y else binop L X Y
  let xcorr ← irfft L XY
  return (acf, xcorr)

/-- numpy/metrics.py:139-182, torch/metrics.py:134-178. -/
def computeStats2 (L : Lib) (x y : Tag) : Except PyErr (Tag × Tag) := do
  let X ← rfft L x
  let Y ← rfft L y
  let prod ← einsum L X X
  let acf ← irfft L prod
  let acf ← binop L acf acf
  let XY ← einsum L X Y
  let xcorr ← irfft L XY
  return (acf, xcorr)

/-- numpy/linalg.py:32-39, torch/linalg.py:33-40. -/
def toeplitz (L : Lib) (x : Tag) : Except PyErr Tag := binop L x x

/-- numpy/linalg.py:42-61, torch/linalg.py:43-62: an array like `x`, filled with pieces of `x`. -/
def blockToeplitz (L : Lib) (x : Tag) : Except PyErr Tag := do
  let _ ← binop L x x
  return x

/-- numpy/cgd.py:28-40, torch/cgd.py:29-41. -/
def symPrecond (L : Lib) (col : Tag) : Except PyErr Tag := do
  let b := fractions L col.dev
  let w ← binop L col b
  let w ← binop L w w
  binop L col w

/-- numpy/cgd.py:43-77, torch/cgd.py:44-80. -/
def nonsymPrecond (L : Lib) (r : Tag) : Except PyErr Tag := do
  let b := fractions L r.dev
  let w1 ← binop L b r
  let w2 ← binop L (scal L b) r
  let w ← binop L w1 w2
  binop L r w

/-- numpy/cgd.py:85-92, torch/cgd.py:88-99. -/
def circInit (L : Lib) (col : Tag) : Except PyErr Tag := do
  let c ← symPrecond L col
  let C ← rfftCg L c
  let mag : Tag := ⟨C.dev, realOf C.dt⟩
  let mag ← binop L mag mag
  binop L C (scal L mag)

/-- numpy/cgd.py:102-110, 146-151, torch/cgd.py:109-118, 154-159: product with a transformed array. -/
def fftMatmul (L : Lib) (C lhs : Tag) : Except PyErr Tag := do
  let Y ← rfftCg L lhs
  let p ← binop L C Y
  irfftCg L p

/-- numpy/cgd.py:120-136, torch/cgd.py:128-144. -/
def symToepInit (L : Lib) (col : Tag) : Except PyErr Tag := do
  let c ← binop L col col
  rfftCg L c

/-- numpy/cgd.py:165-182, torch/cgd.py:173-190. -/
def blockCircInit (L : Lib) (col : Tag) : Except PyErr Tag := do
  let c ← nonsymPrecond L col
  let C ← rfftCg L c
  inv L C

/-- numpy/cgd.py:192-205, 262-279, torch/cgd.py:200-213, 270-287: product of blocks with a transformed
array. -/
def fftBlockMatmul (L : Lib) (C lhs : Tag) : Except PyErr Tag := do
  let Y ← rfftCg L lhs
  let p ← einsum L C Y
  irfftCg L p

/-- The loop of numpy/cgd.py:334-357, torch/cgd.py:342-365. -/
def cgLoop (L : Lib) (matA matP : Tag → Except PyErr Tag) :
    ℕ → (x r p rsold : Tag) → Except PyErr Tag
  | 0, x, _, _, _ => .ok x
  | n + 1, x, r, p, rsold => do
    let Ap ← matA p
    let pAp ← einsum L p Ap
    let alpha ← binop L rsold (scal L pAp)
    let s ← binop L alpha p
    let x ← binop L x s
    let t ← binop L alpha Ap
    let r ← binop L r t
    let z ← matP r
    let rsnew ← einsum L r z
    let beta ← binop L rsnew (scal L rsold)
    let q ← binop L beta p
    let p ← binop L z q
    cgLoop L matA matP n x r p rsnew

/-- numpy/cgd.py:291-363, torch/cgd.py:299-371; `x` is the initial value (zeros like `b` if there is
none). -/
def conjugateGradient (L : Lib) (matA matP : Tag → Except PyErr Tag) (n : ℕ) (b x : Tag) :
    Except PyErr Tag := do
  let Ax ← matA x
  let r ← binop L b Ax
  let z ← matP r
  let rsold ← einsum L r z
  cgLoop L matA matP n x r z rsold

/-- numpy/cgd.py:366-383, torch/cgd.py:374-391. -/
def toeplitzCg (L : Lib) (n : ℕ) (acf xcorr : Tag) : Except PyErr Tag := do
  let P ← circInit L acf
  let A ← symToepInit L acf
  conjugateGradient L (fftMatmul L A) (fftMatmul L P) n xcorr xcorr

/-- numpy/cgd.py:386-404, torch/cgd.py:394-411; the initial value `x0` if there is one. -/
def blockToeplitzCg (L : Lib) (n : ℕ) (acf xcorr : Tag) (x0 : Option Tag) : Except PyErr Tag := do
  let P ← blockCircInit L acf
  let A ← symToepInit L acf
  conjugateGradient L (fftBlockMatmul L A) (fftBlockMatmul L P) n xcorr (x0.getD xcorr)

/-- `acf[..., 0] += load_diag` keeps the type of real arrays.  numpy/metrics.py:264,
torch/metrics.py:259. -/
def addDiag (acf : Tag) : Tag := acf

/-- The solution of the equations, direct or iterative.  numpy/metrics.py:267-274, 542-549,
torch/metrics.py:262-269, 530-537. -/
def solveOne (L : Lib) (o : Opt) (acf xcorr : Tag) : Except PyErr Tag :=
  match o.useCgIter with
  | none => do
    let R ← toeplitz L acf
    solve L R xcorr
  | some n => toeplitzCg L n acf xcorr

/-- The same for all references together; `x0` is the initial value of the iterations.
numpy/metrics.py:558-568, torch/metrics.py:549-559. -/
def solveBlock (L : Lib) (o : Opt) (acf xcorr : Tag) (x0 : Option Tag) : Except PyErr Tag :=
  match o.useCgIter with
  | none => do
    let R ← blockToeplitz L acf
    solve L R xcorr
  | some n => blockToeplitzCg L n acf xcorr x0

/-- numpy/metrics.py:185-284, torch/metrics.py:181-280. -/
def sdrLoss (L : Lib) (o : Opt) (pairwise : Bool) (est ref : Tag) : Except PyErr Tag := do
  if o.filterLength = 1 then
    let r ← lengthOne L o.zeroMean pairwise false false ref est
    cohToNegSdr L r.1
  else
    let est ← prepare L o.zeroMean est
    let ref ← prepare L o.zeroMean ref
    let st ← computeStats L pairwise ref est
    let acf := addDiag st.1
    let xcorr := st.2
    let sol ← solveOne L o acf xcorr
    let coh ← einsum L xcorr sol
    cohToNegSdr L coh

/-- numpy/metrics.py:450-574, torch/metrics.py:447-571. -/
def squareCosine (L : Lib) (o : Opt) (pairwise : Bool) (ref est : Tag) : Except PyErr (Tag × Tag) := do
  if o.filterLength = 1 then
    let r ← lengthOne L o.zeroMean pairwise o.loadDiag true ref est
    return (r.1, r.2.getD r.1)
  else
    let est ← prepare L o.zeroMean est
    let ref ← prepare L o.zeroMean ref
    let st ← computeStats2 L ref est
    let acf := addDiag st.1
    let xcorr := st.2
    let sol ← solveOne L o acf xcorr
    let cohSdr ← einsum L xcorr sol
    let sol ← solveBlock L o acf xcorr (if pairwise then some sol else none)
    let cohSar ← einsum L xcorr sol
    return (cohSdr, cohSar)

/-- The index arrays of the assignment, as indices and as the result `perm`: `np.zeros(..., dtype=np.int64)`
and `target_loss_matrix.new_zeros(..., dtype=torch.int64)`.  Indexing and assigning with index arrays on the
CPU is accepted on every device; all arrays of torch/hungarian.py are made from the cost matrix by
`clone`, `new_ones`, `new_zeros`.  numpy/helpers.py:96-104, torch/helpers.py:90-98. -/
def permTag (loss : Tag) : Tag := ⟨loss.dev, .int⟩

/-- numpy/metrics.py:369-447, torch/metrics.py:365-444: the metric and the permutation. -/
def sdr (L : Lib) (o : Opt) (ref est : Tag) : Except PyErr (Tag × Tag) := do
  let neg ← sdrLoss L o true est ref
  return (neg, permTag neg)

/-- The results of `bss_eval_sources`.  numpy/metrics.py:671-677. -/
structure BssTags where
  sdr : Tag
  sir : Tag
  sar : Tag
  perm : Option Tag
  deriving DecidableEq

/-- numpy/metrics.py:577-677, torch/metrics.py:574-674, with `_base_metrics_bss_eval`. -/
def bssEval (L : Lib) (o : Opt) (computePermutation : Bool) (ref est : Tag) :
    Except PyErr BssTags := do
  let c ← squareCosine L o computePermutation ref est
  let cohSir ← binop L c.1 c.2
  let negSdr ← cohToNegSdr L c.1
  let negSir ← cohToNegSdr L cohSir
  let negSar ← cohToNegSdr L c.2
  return { sdr := negSdr, sir := negSir, sar := negSar,
           perm := if computePermutation then some (permTag negSir) else none }

end FBE.Tags
