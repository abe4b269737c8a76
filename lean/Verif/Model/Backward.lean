import Verif.Model.Metrics

/-!
# The backward pass of torch for `filter_length=1`

`sdr_loss` is documented as a training objective: `loss.backward()` makes torch run the derivative
formulas of the operations of torch/metrics.py:52-60 and torch/helpers.py:30-63 in reverse order.  This
file runs the same formulas (`derivatives.yaml` of torch: `sub`, `mean`, `div`, `norm`, `clamp`, `pow`,
`mul`, `einsum`, `log10`).  The gradients are extended numbers (`XR`): they become infinite or NaN by the
IEEE rules.  Simplifications: those of `XR`; the samples, norms and inner products are exact reals.
-/

namespace FBE.Backward

open Classical XR

variable {s : List ℕ} {r e c N : ℕ}

/-- The sum over one axis of a tensor of gradients: the backward pass of the broadcast at
torch/helpers.py:31, 37 and of the contractions at torch/metrics.py:53, 58. -/
noncomputable def xsum {n : ℕ} (f : Fin n → XR) : XR := (List.ofFn f).foldl add (fin 0)

/-- The derivative of `torch.clamp(x, min=lo, max=hi)` (torch/helpers.py:58), as run by torch:
`where(x >= lo & x <= hi, g, 0)`. -/
noncomputable def clampGrad (lo hi x : ℝ) (g : XR) : XR := if lo ≤ x ∧ x ≤ hi then g else fin 0

/-- torch/helpers.py:51-63 in reverse: from the gradient `g` of `neg_sdr` to that of `coh`.
`mul` by 10, `log10` (`g / (x * ln 10)`), `div` (`g / y` and `-g * ((x / y) / y)`), `1 - coh`, `clamp`. -/
noncomputable def decibelGrad (clampDb : Option ℝ) (coh : ℝ) (g : XR) : XR :=
  let eps : ℝ := match clampDb with
    | some d => dbClampEps d
    | none => 0
  let cc := clamp (fin coh) (fin eps) (fin (1 - eps))
  let num := sub (fin 1) cc
  let ratio := div num cc
  let gLog := mul g (fin 10)
  let gRatio := div gLog (mul ratio (fin (Real.log 10)))
  let gNum := div gRatio cc
  let gDen := mul (neg gRatio) (div ratio cc)
  clampGrad eps (1 - eps) coh (add (neg gNum) gDen)

/-- torch/helpers.py:37 in reverse, from the gradient of `x / clamp(x.norm(), min=1e-6)` to that of `x`:
`div`, sum over the broadcast axis, `clamp`, `norm` (`g * x / norm`, zero where the norm is zero). -/
noncomputable def normalizeGrad (x : Fin N → ℝ) (g : Fin N → XR) : Fin N → XR :=
  let norm := √(∑ u, x u ^ 2)
  let den := max norm 1e-6
  let gDen := xsum fun t => mul (neg (g t)) (fin (x t / den / den))
  let gNorm := if 1e-6 ≤ norm then gDen else fin 0
  fun t => add (div (g t) (fin den)) (mul gNorm (fin (if norm = 0 then 0 else x t / norm)))

/-- torch/helpers.py:31 in reverse: `x - x.mean()`. -/
noncomputable def meanGrad (g : Fin N → XR) : Fin N → XR :=
  fun t => add (g t) (div (xsum fun u => neg (g u)) (fin N))

/-- torch/metrics.py:45-50 in reverse: mean removal and normalisation. -/
noncomputable def preprocessGrad (zeroMean : Bool) (x : Fin N → ℝ) (g : Fin N → XR) : Fin N → XR :=
  if zeroMean then meanGrad (normalizeGrad (removeMean x) g) else normalizeGrad x g

/-- torch/metrics.py:53-60 in reverse, with `pairwise=True`: from the gradients `w` of the loss matrix to
those of the matrix of inner products (`x ** 2`: `g * (2 * x)`). -/
noncomputable def innerGrad (o : Opts) (ref : Sig s r N) (est : Sig s e N) (w : BIdx s → Fin r → Fin e → ℝ) :
    BIdx s → Fin r → Fin e → XR :=
  fun m k j =>
    let u := dot (prep o ref m k) (prep o est m j)
    mul (decibelGrad o.clampDb (u ^ 2) (fin (w m k j))) (fin (2 * u))

/-- The gradient of the estimates: torch/metrics.py:45-60, torch/helpers.py:47-63 for
`sdr_loss(est, ref, filter_length=1, pairwise=True)`, when the matrix of losses is used with weights `w`
(the gradients arriving at `neg_sdr`). -/
noncomputable def gradEst (o : Opts) (ref : Sig s r N) (est : Sig s e N) (w : BIdx s → Fin r → Fin e → ℝ) :
    BIdx s → Fin e → Fin N → XR :=
  fun m j => preprocessGrad o.zeroMean (est m j) fun t =>
    xsum fun k => mul (innerGrad o ref est w m k j) (fin (prep o ref m k t))

/-- The gradient of the references: torch/metrics.py:45-60, torch/helpers.py:47-63. -/
noncomputable def gradRef (o : Opts) (ref : Sig s r N) (est : Sig s e N) (w : BIdx s → Fin r → Fin e → ℝ) :
    BIdx s → Fin r → Fin N → XR :=
  fun m k => preprocessGrad o.zeroMean (ref m k) fun t =>
    xsum fun j => mul (innerGrad o ref est w m k j) (fin (prep o est m j t))

/-- torch/metrics.py:58-60 in reverse, with `pairwise=False`. -/
noncomputable def innerGradDiag (o : Opts) (ref est : Sig s c N) (w : BIdx s → Fin c → ℝ) :
    BIdx s → Fin c → XR :=
  fun m k =>
    let u := dot (prep o ref m k) (prep o est m k)
    mul (decibelGrad o.clampDb (u ^ 2) (fin (w m k))) (fin (2 * u))

/-- The gradient of the estimates for `pairwise=False`: torch/metrics.py:45-60, torch/helpers.py:47-63. -/
noncomputable def gradEstDiag (o : Opts) (ref est : Sig s c N) (w : BIdx s → Fin c → ℝ) :
    BIdx s → Fin c → Fin N → XR :=
  fun m k => preprocessGrad o.zeroMean (est m k) fun t =>
    mul (innerGradDiag o ref est w m k) (fin (prep o ref m k t))

/-- The gradient of the references for `pairwise=False`: torch/metrics.py:45-60, torch/helpers.py:47-63. -/
noncomputable def gradRefDiag (o : Opts) (ref est : Sig s c N) (w : BIdx s → Fin c → ℝ) :
    BIdx s → Fin c → Fin N → XR :=
  fun m k => preprocessGrad o.zeroMean (ref m k) fun t =>
    mul (innerGradDiag o ref est w m k) (fin (prep o est m k t))

end FBE.Backward
