import Verif.Model.Basic
import Verif.Model.XR
import Verif.Model.Batch
import Verif.Model.Hungarian
import Verif.Model.PySlice
import Mathlib.Data.Complex.Basic
import Mathlib.Data.Complex.BigOperators

/-!
# Model of `numpy/helpers.py` and `torch/helpers.py` (decibels and permutation solving)

The numpy and the torch package agree line by line except for the points collected in `Backend`.
-/

namespace FBE

open Classical XR

/-- numpy/helpers.py:27-35 `clamp`, with both bounds given; `torch.clamp` in torch/helpers.py:58. -/
noncomputable def clamp (x lo hi : XR) : XR := min2 (max2 x lo) hi

/-- numpy/helpers.py:49-52, torch/helpers.py:41-44, `_db_clamp_eps`. -/
noncomputable def dbClampEps (dbMax : ℝ) : ℝ :=
  let e := (10 : ℝ) ^ (-dbMax / 10)
  e / (1 + e)

/-- numpy/helpers.py:55-69, torch/helpers.py:47-63, `_coherence_to_neg_sdr` (one element). -/
noncomputable def coherenceToNegSdr (clampDb : Option ℝ) (coh : XR) : XR :=
  let eps : ℝ := match clampDb with
    | some d => dbClampEps d
    | none => 0
  let coh := clamp coh (fin eps) (fin (1 - eps))
  let ratio := div (sub (fin 1) coh) coh
  mul (fin 10) (log10 ratio)

/-- A linear sum assignment routine: returns the list of `(row_ind, col_ind)` pairs.
numpy/helpers.py:149, torch/helpers.py:155. -/
abbrev Lsa := ∀ {r c : ℕ}, (Fin r → Fin c → XR) → Except PyErr (List (Fin r × Fin c))

/-- The points where the two implementations of the helpers differ.
numpy/helpers.py:23-24, torch/helpers.py:23-27, numpy/linalg.py:21, torch/linalg.py:21. -/
structure Backend where
  /-- `scipy.optimize.linear_sum_assignment` (numpy/helpers.py:24) or
  `torch/hungarian.py` (torch/helpers.py:27) -/
  lsa : Lsa
  /-- torch/helpers.py:122-123: empty matrices return empty index arrays before anything else -/
  emptyShortcut : Bool
  /-- `RuntimeError` instead of `ValueError` for arrays of unsuitable sizes (`values.min()` of an empty
  array, `einsum` and `linalg.solve` of arrays that do not fit) -/
  runtime : Bool
  /-- numpy/linalg.py:36, numpy/cgd.py:130 `x[..., :0:-1]`; torch/linalg.py:37, torch/cgd.py:138
  `x[..., 1:].flip(dims=(-1,))` -/
  revTail : List ℝ → List ℝ
  /-- numpy/cgd.py:67,236 `r[..., n - 1 : 0 : -1]`; torch/cgd.py:70,244 `r[..., 1:n].flip(...)` -/
  revMid : ℕ → List ℝ → List ℝ
  /-- numpy/cgd.py:68,234 `r[..., :-n:-1]`; torch/cgd.py:71,242 `r[..., -n + 1 :].flip(...)` -/
  revLast : ℕ → List ℝ → List ℝ
  /-- numpy/cgd.py:89 `C.conj() / clamp(|C|**2, min=1e-6)`; torch/cgd.py:94-95
  `(C / clamp(|C|**2, min=1e-6)).conj()` -/
  specInv : ℂ → ℂ
  /-- whether `linalg.solve` accepts a stack of vectors of shape `a.shape[:-1]`
  (`numpy.linalg.solve` for numpy < 2 and `torch.linalg.solve` do; numpy >= 2 reads it as a stack
  of matrices) -/
  stackedVectors : Bool

/-- The exception for arrays of unsuitable sizes: `ValueError` in numpy, `RuntimeError` in torch.
For instance numpy/linalg.py:57, torch/linalg.py:58. -/
def Backend.shapeErr (B : Backend) : PyErr := if B.runtime then .runtimeError else .valueError

/-- `values.min()` of numpy/helpers.py:136, torch/helpers.py:142 (NaN propagates). -/
noncomputable def xMin (emptyMin : PyErr) : List XR → Except PyErr XR
  | [] => .error emptyMin
  | a :: l => .ok (l.foldl min2 a)

/-- `values.max()` of numpy/helpers.py:137, torch/helpers.py:143 (NaN propagates). -/
noncomputable def xMax (emptyMin : PyErr) : List XR → Except PyErr XR
  | [] => .error emptyMin
  | a :: l => .ok (l.foldl max2 a)

/-- `x.any()` of an elementwise predicate on a 2-D array.
numpy/helpers.py:128-129, torch/helpers.py:128-129. -/
def anyEntry {β : Type*} {r c : ℕ} (p : β → Bool) (x : Fin r → Fin c → β) : Bool :=
  (List.finRange r).any fun i => (List.finRange c).any fun j => p (x i j)

/-- `cost_matrix[~isinf(cost_matrix)]`, row-major (numpy/helpers.py:135). -/
def nonInfValues {r c : ℕ} (cost : Fin r → Fin c → XR) : List XR :=
  (nonzero2 fun i j => !(cost i j).isInf).map fun p => cost p.1 p.2

/-- numpy/helpers.py:115-149, torch/helpers.py:109-157, `_linear_sum_assignment_with_inf`. -/
noncomputable def lsaWithInf (B : Backend) {r c : ℕ} (cost : Fin r → Fin c → XR) :
    Except PyErr (List (Fin r × Fin c)) :=
  if B.emptyShortcut && (r == 0 || c == 0) then .ok [] else
  let minInf := anyEntry isNegInf cost
  let maxInf := anyEntry isPosInf cost
  if minInf && maxInf then .error .valueError else
  if minInf || maxInf then
    match xMin B.shapeErr (nonInfValues cost) with
    | .error e => .error e
    | .ok m =>
      match xMax B.shapeErr (nonInfValues cost) with
      | .error e => .error e
      | .ok M =>
        let n : ℕ := min r c
        let nn : XR := fin n
        let n1 : XR := fin ((n : ℝ) - 1)
        -- n * (M - m + np.abs(M) + np.abs(m) + 1)
        let positive := mul nn (add (add (add (sub M m) (abs M)) (abs m)) (fin 1))
        let ph := if maxInf then add (add M (mul n1 (sub M m))) positive else XR.nan
        let ph := if minInf then sub (add m (mul n1 (sub m M))) positive else ph
        B.lsa fun i j => if (cost i j).isInf then ph else cost i j
  else B.lsa cost

/-- The arrays built by `_solve_permutation`: `loss_out`, `args_out`, `p_opts`.
numpy/helpers.py:93-96, torch/helpers.py:87-90. -/
structure PermOut (s : List ℕ) (nArgs nOut : ℕ) where
  loss : BIdx s → Fin nOut → XR
  args : Fin nArgs → BIdx s → Fin nOut → XR
  perm : BIdx s → Fin nOut → ℕ

/-- `x[(dum, p_opt)]`: gather the entries at the index pairs.
numpy/helpers.py:101-103, torch/helpers.py:95-97. -/
def gather {β : Type*} {a b nOut : ℕ} (l : List (Fin a × Fin b)) (h : l.length = nOut)
    (x : Fin a → Fin b → β) : Fin nOut → β :=
  fun k => x (l[k.val]'(h ▸ k.isLt)).1 (l[k.val]'(h ▸ k.isLt)).2

/-- Body of the `for m in np.ndindex(b_shape)` loop, numpy/helpers.py:97-104,
torch/helpers.py:91-98.  Writing a vector of the wrong length into the output row is an error
(numpy would broadcast a vector of length 1; this cannot happen, see `C13`). -/
noncomputable def permBody (B : Backend) {s : List ℕ} {nArgs a b nOut : ℕ}
    (loss : BIdx s → Fin a → Fin b → XR) (args : Fin nArgs → BIdx s → Fin a → Fin b → XR)
    (out : PermOut s nArgs nOut) (m : BIdx s) : Except PyErr (PermOut s nArgs nOut) :=
  match lsaWithInf B (loss m) with
  | .error e => .error e
  | .ok l =>
    if h : l.length = nOut then
      .ok { loss := Function.update out.loss m (gather l h (loss m))
            args := fun i => Function.update (out.args i) m (gather l h (args i m))
            perm := Function.update out.perm m (gather l h fun _ j => j.val) }
    else .error .valueError

/-- The loop over the batch, after the optional transposition.
numpy/helpers.py:93-104, torch/helpers.py:87-98. -/
noncomputable def permLoop (B : Backend) {s : List ℕ} {nArgs a b : ℕ} (nOut : ℕ)
    (loss : BIdx s → Fin a → Fin b → XR) (args : Fin nArgs → BIdx s → Fin a → Fin b → XR) :
    Except PyErr (PermOut s nArgs nOut) :=
  (ndindex s).foldlM (permBody B loss args)
    { loss := fun _ _ => 0, args := fun _ _ _ => 0, perm := fun _ _ => 0 }

/-- numpy/helpers.py:72-112, torch/helpers.py:66-106, `_solve_permutation(..., return_perm=True)`.
(With `return_perm=False` the same arrays without `p_opts` are returned.) -/
noncomputable def solvePermutation (B : Backend) {s : List ℕ} {nArgs r e : ℕ}
    (loss : BIdx s → Fin r → Fin e → XR) (args : Fin nArgs → BIdx s → Fin r → Fin e → XR) :
    Except PyErr (PermOut s nArgs (min r e)) :=
  if e < r then
    permLoop B (min r e) (fun m j i => loss m i j) (fun k m j i => args k m i j)
  else permLoop B (min r e) loss args

/-- torch/hungarian.py:14-113 `linear_sum_assignment` on extended numbers: the NaN check
(lines 82-83), then the state machine on finite numbers.  Infinite entries are not modelled;
`_linear_sum_assignment_with_inf` has removed them (proved in `lsaWithInf_finite`). -/
noncomputable def torchLsa : Lsa := fun {r c} cost =>
  if anyEntry isNan cost then .error .valueError
  else if anyEntry isInf cost then .error .unmodelled
  else Hungarian.linearSumAssignment (3 * (min r c + 2) ^ 2) fun i j => ((cost i j).toReal?).getD 0

/-- The torch back end (torch/helpers.py:30-157, torch/hungarian.py:14-281, torch/linalg.py:24-62, torch/cgd.py:29-411). -/
noncomputable def torchBackend : Backend where
  lsa := torchLsa
  emptyShortcut := true
  runtime := true
  revTail x := (pySlice x (some 1) none).reverse
  revMid n x := (pySlice x (some 1) (some n)).reverse
  revLast n x := (pySlice x (some (-(n : ℤ) + 1)) none).reverse
  specInv c := (starRingEnd ℂ) (c / ((max (c.re ^ 2 + c.im ^ 2) 1e-6 : ℝ) : ℂ))
  stackedVectors := true

/-- The numpy back end for a given `scipy.optimize.linear_sum_assignment`; `numpy2` tells whether
numpy >= 2 is installed.
numpy/helpers.py:27-149, numpy/linalg.py:24-61, numpy/cgd.py:28-404. -/
noncomputable def numpyBackend (scipyLsa : Lsa) (numpy2 : Bool) : Backend where
  lsa := scipyLsa
  emptyShortcut := false
  runtime := false
  revTail x := pySliceRev x none (some 0)
  revMid n x := pySliceRev x (some ((n : ℤ) - 1)) (some 0)
  revLast n x := pySliceRev x none (some (-(n : ℤ)))
  specInv c := (starRingEnd ℂ) c / ((max (c.re ^ 2 + c.im ^ 2) 1e-6 : ℝ) : ℂ)
  stackedVectors := !numpy2

end FBE
