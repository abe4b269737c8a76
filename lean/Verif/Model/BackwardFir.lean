import Verif.Model.Backward

/-!
# The backward pass of torch for filters of several taps (direct solver)

`loss.backward()` on `sdr_loss(..., use_cg_iter=None)`: the derivative formulas of torch for the operations
of torch/metrics.py:107-130 and 244-280 and torch/linalg.py:24-40, in reverse order.  Between the coherences and the
normalised signals all formulas are linear in the arriving gradients; as the transforms mix all
samples, a gradient that is not finite makes all samples NaN (`lift`).  Otherwise the gradients there are exact
reals and complex numbers.
-/

namespace FBE.Backward

open Classical XR Complex Matrix

variable {s : List ℕ} {r e c N M : ℕ}

/-- The formula `f` applied to the gradients `g` of the coherences, NaN if some gradient is not finite.
torch/metrics.py:107-130, 244-280 in reverse. -/
noncomputable def lift {κ : Type} (g : κ → XR) (f : (κ → ℝ) → Fin N → ℝ) : Fin N → XR :=
  if ∀ k, (g k).toReal?.isSome then fun t => fin (f (fun k => (g k).toReal?.getD 0) t) else fun _ => nan

/-- The derivative of `irfft(Z, n)[..., :K]` (torch/metrics.py:119, 124-125, 129-130), as run by torch: the
gradient is padded to `n` lags, transformed with `rfft`, divided by `n`, and the frequencies that stand for
two are doubled. -/
noncomputable def irfftGrad (n K : ℕ) (g : Fin K → ℝ) : ℕ → ℂ :=
  fun f => (if 1 ≤ f ∧ f ≤ n - (n / 2 + 1) then 2 else 1) *
    ((∑ l : Fin K, (g l : ℂ) * (starRingEnd ℂ) (tw n f l)) / n)

/-- The derivative of `rfft(x, n)` (torch/metrics.py:114-115), as run by torch: the gradient is extended by
zeros to `n` frequencies, transformed back without scaling, and the real part is taken. -/
noncomputable def rfftGrad (n : ℕ) (G : ℕ → ℂ) : ℕ → ℝ :=
  fun t => (∑ f ∈ Finset.range (n / 2 + 1), G f * tw n f t).re

/-- The frequency `f` of `rfft(x, n)`, torch/metrics.py:114-115. -/
noncomputable def spectrum (n : ℕ) (x : Fin N → ℝ) (f : ℕ) : ℂ := (rfft n (List.ofFn x)).getD f 0

/-- The gradient of `xcorr` (torch/metrics.py:266, 273-275 in reverse): from the product with `sol`, and
from `solve(R_mat, xcorr)` (`solve(R_matᵀ, g)`). -/
noncomputable def xcorrGrad {K : ℕ} (R : Matrix (Fin K) (Fin K) ℝ) (xc sol : Fin K → ℝ) (g : ℝ) : Fin K → ℝ :=
  fun l => g * sol l + (Rᵀ⁻¹ *ᵥ fun i => g * xc i) l

/-- The gradient of `R_mat` (torch/metrics.py:266 in reverse): `-solve(R_matᵀ, g) solᵀ`, summed over the
right-hand sides. -/
noncomputable def matGrad {K : ℕ} (R : Matrix (Fin K) (Fin K) ℝ) (xc sol : Fin e → Fin K → ℝ) (g : Fin e → ℝ) :
    Matrix (Fin K) (Fin K) ℝ :=
  fun a b => -∑ j, (Rᵀ⁻¹ *ᵥ fun i => g j * xc j i) a * sol j b

/-- torch/linalg.py:24-40 in reverse, the gradient of element `i` of `two_x`: the sum of the gradients of
the entries of the matrix that show it. -/
noncomputable def twoGrad {K : ℕ} (gR : Matrix (Fin K) (Fin K) ℝ) (i : ℕ) : ℝ :=
  ∑ a : Fin K, ∑ b : Fin K, if K - 1 - a.val + b.val = i then gR a b else 0

/-- torch/linalg.py:37 in reverse: `cat((x[1:].flip(), x))`. -/
noncomputable def toeplitzGrad {K : ℕ} (gR : Matrix (Fin K) (Fin K) ℝ) : Fin K → ℝ :=
  fun l => twoGrad gR (K - 1 + l) + if 1 ≤ l.val then twoGrad gR (K - 1 - l) else 0

/-- The gradient of the normalised estimate: torch/metrics.py:115, 123, 128 in reverse
(product: `g * conj(conj(X))`), summed over the references. -/
noncomputable def estBack (n : ℕ) {K : ℕ} (x : Fin r → Fin N → ℝ) (gxc : Fin r → Fin K → ℝ) : Fin M → ℝ :=
  fun t => rfftGrad n (fun f => ∑ k, irfftGrad n K (gxc k) f * spectrum n (x k) f) t

/-- The gradient of the normalised reference: torch/metrics.py:114, 118, 123, 128 in reverse.  Product:
`conj(g * conj(Y))`; squares of real and imaginary part: `2 g X`, with the real part of `g`. -/
noncomputable def refBack (n : ℕ) {K : ℕ} (x : Fin N → ℝ) (y : Fin e → Fin M → ℝ) (gxc : Fin e → Fin K → ℝ)
    (gacf : Fin K → ℝ) : Fin N → ℝ :=
  fun t => rfftGrad n (fun f =>
    ∑ j, (starRingEnd ℂ) (irfftGrad n K (gxc j) f * (starRingEnd ℂ) (spectrum n (y j) f)) +
      ((2 * (irfftGrad n K gacf f).re : ℝ) : ℂ) * spectrum n x f) t

/-- The quantities of the forward pass, torch/metrics.py:252-275. -/
structure Forward (s : List ℕ) (r e : ℕ) where
  n : ℕ
  K : ℕ
  R : BIdx s → Fin r → Matrix (Fin K) (Fin K) ℝ
  xc : BIdx s → Fin r → Fin e → Fin K → ℝ
  sol : BIdx s → Fin r → Fin e → Fin K → ℝ

/-- The coherences, torch/metrics.py:273-275. -/
noncomputable def Forward.coh (F : Forward s r e) (m : BIdx s) (k : Fin r) (j : Fin e) : ℝ :=
  ∑ l, F.xc m k j l * F.sol m k j l

/-- torch/metrics.py:252-275 with `use_cg_iter=None` and `pairwise=True`. -/
noncomputable def forward (o : Opts) (ref : Sig s r N) (est : Sig s e M) : Except PyErr (Forward s r e) :=
  match nFft N M with
  | .error err => .error err
  | .ok n =>
    let R : BIdx s → Fin r → Matrix _ _ ℝ := fun m k => toeplitz torchBackend (min o.filterLength n) (sdrAcf o n ref m k)
    let xc := fun m k j => vec (min o.filterLength n) (sdrXcorr o n ref est m k j)
    match solveStack (fun i : BIdx s × Fin r => R i.1 i.2) (fun i j => xc i.1 i.2 j) with
    | .error err => .error err
    | .ok sol => .ok ⟨n, min o.filterLength n, R, xc, fun m k j => sol (m, k) j⟩

/-- The gradient of the estimates for `pairwise=True`, when the losses are used with weights `w`:
torch/metrics.py:244-280 in reverse. -/
noncomputable def gradEstFir (o : Opts) (ref : Sig s r N) (est : Sig s e M) (w : BIdx s → Fin r → Fin e → ℝ) :
    Except PyErr (BIdx s → Fin e → Fin M → XR) :=
  match forward o ref est with
  | .error err => .error err
  | .ok F => .ok fun m j => preprocessGrad o.zeroMean (est m j) <|
      lift (fun k => decibelGrad o.clampDb (F.coh m k j) (fin (w m k j))) fun g =>
        estBack F.n (prep o ref m) fun k => xcorrGrad (F.R m k) (F.xc m k j) (F.sol m k j) (g k)

/-- The gradient of the references for `pairwise=True`: torch/metrics.py:244-280 in reverse. -/
noncomputable def gradRefFir (o : Opts) (ref : Sig s r N) (est : Sig s e M) (w : BIdx s → Fin r → Fin e → ℝ) :
    Except PyErr (BIdx s → Fin r → Fin N → XR) :=
  match forward o ref est with
  | .error err => .error err
  | .ok F => .ok fun m k => preprocessGrad o.zeroMean (ref m k) <|
      lift (fun j => decibelGrad o.clampDb (F.coh m k j) (fin (w m k j))) fun g =>
        refBack F.n (prep o ref m k) (prep o est m) (fun j => xcorrGrad (F.R m k) (F.xc m k j) (F.sol m k j) (g j))
          (toeplitzGrad (matGrad (F.R m k) (F.xc m k) (F.sol m k) g))

/-- torch/metrics.py:252-275 with `use_cg_iter=None` and `pairwise=False`: one right-hand side for every
matrix. -/
noncomputable def forwardDiag (o : Opts) (ref : Sig s c N) (est : Sig s c M) : Except PyErr (Forward s c 1) :=
  match nFft N M with
  | .error err => .error err
  | .ok n =>
    let R : BIdx s → Fin c → Matrix _ _ ℝ := fun m k => toeplitz torchBackend (min o.filterLength n) (sdrAcf o n ref m k)
    let xc := fun m k (_ : Fin 1) => vec (min o.filterLength n) (sdrXcorr o n ref est m k k)
    match solveStack (fun i : BIdx s × Fin c => R i.1 i.2) (fun i j => xc i.1 i.2 j) with
    | .error err => .error err
    | .ok sol => .ok ⟨n, min o.filterLength n, R, xc, fun m k j => sol (m, k) j⟩

/-- The gradient of the estimates for `pairwise=False`: torch/metrics.py:244-280 in reverse. -/
noncomputable def gradEstFirDiag (o : Opts) (ref : Sig s c N) (est : Sig s c M) (w : BIdx s → Fin c → ℝ) :
    Except PyErr (BIdx s → Fin c → Fin M → XR) :=
  match forwardDiag o ref est with
  | .error err => .error err
  | .ok F => .ok fun m k => preprocessGrad o.zeroMean (est m k) <|
      lift (fun j : Fin 1 => decibelGrad o.clampDb (F.coh m k j) (fin (w m k))) fun g =>
        estBack F.n (fun _ : Fin 1 => prep o ref m k) fun j => xcorrGrad (F.R m k) (F.xc m k j) (F.sol m k j) (g j)

/-- The gradient of the references for `pairwise=False`: torch/metrics.py:244-280 in reverse. -/
noncomputable def gradRefFirDiag (o : Opts) (ref : Sig s c N) (est : Sig s c M) (w : BIdx s → Fin c → ℝ) :
    Except PyErr (BIdx s → Fin c → Fin N → XR) :=
  match forwardDiag o ref est with
  | .error err => .error err
  | .ok F => .ok fun m k => preprocessGrad o.zeroMean (ref m k) <|
      lift (fun j : Fin 1 => decibelGrad o.clampDb (F.coh m k j) (fin (w m k))) fun g =>
        refBack F.n (prep o ref m k) (fun _ : Fin 1 => prep o est m k)
          (fun j => xcorrGrad (F.R m k) (F.xc m k j) (F.sol m k j) (g j))
          (toeplitzGrad (matGrad (F.R m k) (F.xc m k) (F.sol m k) g))

end FBE.Backward
