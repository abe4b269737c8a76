import Verif.Model.BackwardFir

/-!
# The backward pass of torch through the permutation

`sdr(...).backward(v)` and `sdr_pit_loss(...).backward(v)`: torch/metrics.py:424-443 and
torch/helpers.py:66-106 in reverse order.  The assignment itself is solved without gradients
(torch/helpers.py:126); only the selection of the losses is differentiated.
-/

namespace FBE.Backward

open Classical XR

variable {s : List ℕ} {r e N M : ℕ}

/-- The derivative of `loss_out[m] = loss_mat[m + (dum, p_opt)]`, torch/helpers.py:92-95 in reverse: the
gradients are added into a matrix of zeros at the selected positions, transposed back if the matrix was
transposed (torch/helpers.py:81-82).  `dum` is `0, 1, ...`: every row of the matrix, which has at
least as many columns, is assigned. -/
noncomputable def permGrad (perm : BIdx s → Fin (min r e) → ℕ) (v : BIdx s → Fin (min r e) → ℝ) :
    BIdx s → Fin r → Fin e → ℝ :=
  fun m k j => ∑ i, if (if e < r then perm m i = k.val ∧ i.val = j.val else i.val = k.val ∧ perm m i = j.val)
    then v m i else 0

/-- The gradients of the loss matrix for gradients `v` of the result of `sdr`: torch/metrics.py:436-438 in
reverse, after the forward pass torch/metrics.py:424-436. -/
noncomputable def pitWeights (o : Opts) (changeSign : Bool) (ref : Sig s r N) (est : Sig s e M)
    (v : BIdx s → Fin (min r e) → ℝ) : Except PyErr (BIdx s → Fin r → Fin e → ℝ) :=
  match sdrLossPair torchBackend o est ref with
  | .error err => .error err
  | .ok negSdr =>
    match solvePermutation torchBackend negSdr (nArgs := 0) (fun i => i.elim0) with
    | .error err => .error err
    | .ok out => .ok (permGrad out.perm fun m i => if changeSign then v m i else -v m i)

/-- The gradients of the estimates of `sdr` (`sdr_pit_loss` with `changeSign`) with `filter_length=1`,
torch/metrics.py:424-443. -/
noncomputable def gradEstPit (o : Opts) (changeSign : Bool) (ref : Sig s r N) (est : Sig s e N)
    (v : BIdx s → Fin (min r e) → ℝ) : Except PyErr (BIdx s → Fin e → Fin N → XR) :=
  match pitWeights o changeSign ref est v with
  | .error err => .error err
  | .ok w => .ok (gradEst o ref est w)

/-- The gradients of the references with `filter_length=1`, torch/metrics.py:424-443. -/
noncomputable def gradRefPit (o : Opts) (changeSign : Bool) (ref : Sig s r N) (est : Sig s e N)
    (v : BIdx s → Fin (min r e) → ℝ) : Except PyErr (BIdx s → Fin r → Fin N → XR) :=
  match pitWeights o changeSign ref est v with
  | .error err => .error err
  | .ok w => .ok (gradRef o ref est w)

/-- The gradients of the estimates with `filter_length >= 2` and the direct solver,
torch/metrics.py:424-443. -/
noncomputable def gradEstFirPit (o : Opts) (changeSign : Bool) (ref : Sig s r N) (est : Sig s e M)
    (v : BIdx s → Fin (min r e) → ℝ) : Except PyErr (BIdx s → Fin e → Fin M → XR) :=
  match pitWeights o changeSign ref est v with
  | .error err => .error err
  | .ok w => gradEstFir o ref est w

/-- The gradients of the references with `filter_length >= 2` and the direct solver,
torch/metrics.py:424-443. -/
noncomputable def gradRefFirPit (o : Opts) (changeSign : Bool) (ref : Sig s r N) (est : Sig s e M)
    (v : BIdx s → Fin (min r e) → ℝ) : Except PyErr (BIdx s → Fin r → Fin N → XR) :=
  match pitWeights o changeSign ref est v with
  | .error err => .error err
  | .ok w => gradRefFir o ref est w

end FBE.Backward
