import Verif.Model.BackwardBss
import Verif.Model.BackwardCg

/-!
# The backward pass of torch through `bss_eval_sources` with `use_cg_iter`

`loss.backward()` on the values of `bss_eval_sources(..., use_cg_iter=n)`, `filter_length >= 2`: the derivative formulas of torch for the
operations of torch/metrics.py:508-566 and torch/cgd.py:44-80, 168-287, 295-371, 394-411, in reverse order.  One column of the right-hand
sides is treated at a time; what the columns share (the spectra of the operators) receives the sum of their gradients.  For
`pairwise=True` the iterations for the SAR start from the solutions for the SDR, which receive a gradient as well.
All quantities between the coherences and the normalised signals are exact reals and complex numbers, a gradient that is not finite
makes all samples NaN (`lift`).
-/

namespace FBE.Backward

open Classical XR Complex Matrix

variable {s : List ℕ} {r e c N M K : ℕ}

/-! ### the iterations -/

/-- An operator of torch/cgd.py with `__matmul__` (168-287): `op @ v`, and in reverse, for a gradient `g` of the product, the gradient
`arg g` of `v` and the gradient `par v g` of the spectra held by the operator. -/
structure RevOp (J S : Type) where
  mul : (J → ℝ) → (J → ℝ)
  arg : (J → ℝ) → (J → ℝ)
  par : (J → ℝ) → (J → ℝ) → S

/-- The gradients of the variables of the loop of torch/cgd.py:343-360 and, accumulated, those of the spectra of the operator and of the
preconditioner. -/
structure RunGrad (J S : Type) where
  x : J → ℝ
  r : J → ℝ
  p : J → ℝ
  rsold : ℝ
  A : S
  P : S

section run

variable {J S : Type} [Fintype J] [Add S]

/-- torch/cgd.py:343-360 in reverse, as `cgBodyGrad`, for any operators. -/
noncomputable def stepGrad (A P : RevOp J S) (st : CgState J) (g : RunGrad J S) : RunGrad J S :=
  -- the forward pass
  let Ap := A.mul st.p
  let pAp := innerProd st.p Ap
  let alpha := st.rsold / max pAp 1e-6
  let r := st.r - alpha • Ap
  let z := P.mul r
  let rsnew := innerProd r z
  let beta := rsnew / max st.rsold 1e-6
  -- p = z + beta * p
  let gz := g.p
  let gBeta := innerProd g.p st.p
  let gp := beta • g.p
  -- beta = rsnew / clamp(rsold)
  let gRsnew := g.rsold + gBeta / max st.rsold 1e-6
  let gRs := minGrad st.rsold (denGrad rsnew (max st.rsold 1e-6) gBeta)
  -- rsnew = inner_prod(r, z)
  let gr := g.r + gRsnew • z
  let gz := gz + gRsnew • r
  -- z = precond @ r
  let gr := gr + P.arg gz
  let gP := g.P + P.par r gz
  -- r = r - alpha * Ap
  let gAlpha := -innerProd gr Ap
  let gAp := -(alpha • gr)
  -- x = x + alpha * p
  let gAlpha := gAlpha + innerProd g.x st.p
  let gp := gp + alpha • g.x
  -- alpha = rsold / clamp(pAp)
  let gRs := gRs + gAlpha / max pAp 1e-6
  let gPap := minGrad pAp (denGrad st.rsold (max pAp 1e-6) gAlpha)
  -- pAp = inner_prod(p, Ap)
  let gp := gp + gPap • Ap
  let gAp := gAp + gPap • st.p
  -- Ap = A @ p
  let gp := gp + A.arg gAp
  let gA := g.A + A.par st.p gAp
  ⟨g.x, gr, gp, gRs, gA, gP⟩

/-- The loop of torch/cgd.py:343-360 in reverse. -/
noncomputable def loopGrad (A P : RevOp J S) (b x0 : J → ℝ) : ℕ → RunGrad J S → RunGrad J S
  | 0, g => g
  | i + 1, g => loopGrad A P b x0 i (stepGrad A P (cgRun A.mul P.mul b x0 i) g)

/-- The gradients of the right-hand side, of the initial value and of the spectra. -/
structure StartGrad (J S : Type) where
  b : J → ℝ
  x0 : J → ℝ
  A : S
  P : S

/-- torch/cgd.py:332-336 in reverse. -/
noncomputable def startGrad (A P : RevOp J S) (b x0 : J → ℝ) (g : RunGrad J S) : StartGrad J S :=
  let r := b - A.mul x0
  let z := P.mul r
  -- rsold = inner_prod(r, z), p = z
  let gr := g.r + g.rsold • z
  let gz := g.p + g.rsold • r
  -- z = precond @ r
  let gr := gr + P.arg gz
  let gP := g.P + P.par r gz
  -- r = b - A @ x
  ⟨gr, g.x + A.arg (-gr), g.A + A.par x0 (-gr), gP⟩

/-- From the gradient `g` of the solution to those of the right-hand side, of the initial value and of the spectra: torch/cgd.py:332-371 in
reverse. -/
noncomputable def runGrad [Zero S] (A P : RevOp J S) (b x0 : J → ℝ) (nIter : ℕ) (g : J → ℝ) : StartGrad J S :=
  startGrad A P b x0 (loopGrad A P b x0 nIter ⟨g, 0, 0, 0, 0, 0⟩)

end run

/-! ### the block operators -/

/-- The spectra of a block operator: a matrix for every frequency. -/
abbrev BlkSpec (r : ℕ) : Type := ℕ → Matrix (Fin r) (Fin r) ℂ

/-- The gradient of `v` in `irfft(einsum(C, rfft(v, n)), n)[:K]`: torch/cgd.py:207-211, 276-285 in reverse (`einsum`: the product with
the conjugate of `C`, summed over the rows). -/
noncomputable def blkArg (n : ℕ) (C : BlkSpec r) (g : Fin K × Fin r → ℝ) : Fin K × Fin r → ℝ :=
  fun p => rfftGrad n (fun f => ∑ a, irfftGrad n K (fun l => g (l, a)) f * (starRingEnd ℂ) (C f a p.2)) p.1

/-- The gradient of `C` in `irfft(einsum(C, rfft(v, n)), n)[:K]`: torch/cgd.py:207-211, 276-285 in reverse (`einsum`: the product with
the conjugate of the spectrum of `v`). -/
noncomputable def blkPar (n : ℕ) (v g : Fin K × Fin r → ℝ) : BlkSpec r :=
  fun f => Matrix.of fun a d => irfftGrad n K (fun l => g (l, a)) f * (starRingEnd ℂ) (spectrum n (fun l => v (l, d)) f)

/-- `Cforward` of torch/cgd.py:237-248 at frequency `f`. -/
noncomputable def blkToepSpec (K : ℕ) (acf : Fin r → Fin r → List ℝ) : BlkSpec r :=
  fun f => Matrix.of fun k l => (rfft (blockCircCol torchBackend K (acf k l)).length (blockCircCol torchBackend K (acf k l))).getD f 0

/-- torch/cgd.py:216-287, `BlockToeplitzOperator(acf)`, and its reverse. -/
noncomputable def blkToep (K : ℕ) (acf : Fin r → Fin r → List ℝ) : RevOp (Fin K × Fin r) (BlkSpec r) where
  mul := blockToeplitzOp torchBackend K acf
  arg := blkArg (blockNfft K) (blkToepSpec K acf)
  par := blkPar (blockNfft K)

/-- torch/cgd.py:168-213, `BlockCirculantPreconditionerOperator(acf)`, and its reverse. -/
noncomputable def blkPrec (K : ℕ) (acf : Fin r → Fin r → List ℝ) : RevOp (Fin K × Fin r) (BlkSpec r) where
  mul := blockPrecond torchBackend K acf
  arg := blkArg K fun f => (blockPrecondSpec torchBackend acf f)⁻¹
  par := blkPar K

/-- torch/cgd.py:237-248 in reverse, one pair of channels: from the gradient `g` of `Cforward` to that of lag `p` of the `2 K` lags of `col`. -/
noncomputable def blkToepCol (K : ℕ) (g : ℕ → ℂ) (p : ℕ) : ℝ :=
  let gCirc := rfftGrad (blockNfft K) g
  if p = 0 then gCirc 0 else if p < K then gCirc (blockNfft K - p) else if p = K then 0 else gCirc (2 * K - p)

/-- torch/cgd.py:66-75, 181 in reverse, one pair of channels: from the gradient `g` of `C` to that of lag `p` of the `2 K` lags. -/
noncomputable def blkPrecCol (K : ℕ) (g : ℕ → ℂ) (p : ℕ) : ℝ :=
  let gCirc := rfftGrad K g
  if p = 0 then gCirc 0 else if p < K then ((K - p : ℕ) : ℝ) / K * gCirc (K - p)
  else if p = K then 0 else (1 - ((2 * K - p : ℕ) : ℝ) / K) * gCirc (2 * K - p)

/-- The derivative of `torch.linalg.inv` at `C` as run by torch, `-C⁻ᴴ g C⁻ᴴ`.  torch/cgd.py:184. -/
noncomputable def invGrad (C g : Matrix (Fin r) (Fin r) ℂ) : Matrix (Fin r) (Fin r) ℂ := -(C⁻¹ᴴ * g * C⁻¹ᴴ)

/-- From the gradients of the two spectra to that of lag `p` of `acf` for the references `k`, `l`: torch/cgd.py:403-406 in reverse. -/
noncomputable def blkAcfGrad (K : ℕ) (acf : Fin r → Fin r → List ℝ) (gA gP : BlkSpec r) (k l : Fin r) (p : ℕ) : ℝ :=
  blkToepCol K (fun f => gA f k l) p + blkPrecCol K (fun f => invGrad (blockPrecondSpec torchBackend acf f) (gP f) k l) p

/-! ### the coherences -/

/-- The initial value of the iterations for the SAR, torch/metrics.py:559-564: the solutions for the SDR with `pairwise=True`
(`warm`), zeros with `pairwise=False`. -/
def startOf (warm : Bool) (sol : Fin r → Fin e → Fin K → ℝ) (j : Fin e) : Fin K × Fin r → ℝ := if warm then fun p => sol p.2 j p.1 else 0

/-- The gradient of the solutions for the SDR: `g * xcorr` from the coherence, and the gradient of the initial value `gx0`
of the iterations for the SAR.  torch/metrics.py:546-551, 559-562 in reverse. -/
noncomputable def solGrad (warm : Bool) (xc : Fin K → ℝ) (g : ℝ) (gx0 : Fin K → ℝ) : Fin K → ℝ := g • xc + if warm then gx0 else 0

/-- The gradients of the `2 K` lags of `acf` of the references `k` and `l`: from the iterations for the SAR, and for `k = l` from those for
the SDR.  torch/metrics.py:527-529, 565 in reverse. -/
noncomputable def acfGradCg (gS : Fin r → Fin K → ℝ) (gB : Fin r → Fin r → ℕ → ℝ) (k l : Fin r) (p : ℕ) : ℝ :=
  gB k l p + if h : p < K ∧ k = l then gS k ⟨p, h.1⟩ else 0

/-- torch/metrics.py:526-566 for one item of the batch with `use_cg_iter=it` (`filter_length >= 2`, the singular matrices
of torch/cgd.py:184 excluded) and its reverse: coherences, gradients of `xcorr` and `acf`.  `acfS` are the lags of single references. -/
structure CgPass (r e K : ℕ) where
  cohSdr : Fin r → Fin e → ℝ
  cohSar : Fin e → ℝ
  xcorr : (Fin r → Fin e → ℝ) → (Fin e → ℝ) → Fin r → Fin e → Fin K → ℝ
  acf : (Fin r → Fin e → ℝ) → (Fin e → ℝ) → Fin r → Fin r → ℕ → ℝ

/-- See `CgPass`. -/
noncomputable def cgPass (warm : Bool) (K it : ℕ) (acfS : Fin r → List ℝ) (acf : Fin r → Fin r → List ℝ) (xc : Fin r → Fin e → Fin K → ℝ) :
    CgPass r e K :=
  let sol := fun k j => toeplitzCg torchBackend K (acfS k) (xc k j) it
  let xb : Fin e → Fin K × Fin r → ℝ := fun j p => xc p.2 j p.1
  let x0 := startOf warm sol
  let solB := fun j => conjugateGradient (blkToep K acf).mul (blkPrec K acf).mul (xb j) (x0 j) it
  -- coh_sar = einsum(xcorr, sol), `xcorr` is used twice
  let GB := fun (h : Fin e → ℝ) j => runGrad (blkToep K acf) (blkPrec K acf) (xb j) (x0 j) it (h j • xb j)
  -- coh_sdr = einsum(xcorr, sol)
  let GS := fun (g : Fin r → Fin e → ℝ) (h : Fin e → ℝ) k j =>
    cgGrad K (acfS k) (xc k j) it (solGrad warm (xc k j) (g k j) fun l => (GB h j).x0 (l, k))
  { cohSdr := fun k j => ∑ l, xc k j l * sol k j l
    cohSar := fun j => ∑ p, xb j p * solB j p
    xcorr := fun g h k j l => g k j * sol k j l + (GS g h k j).b l + (h j * solB j (l, k) + (GB h j).b (l, k))
    acf := fun g h => acfGradCg
      (fun k => acfCgGrad K (acfS k) (fun f => ∑ j, (GS g h k j).A f) (fun f => ∑ j, (GS g h k j).P f))
      (blkAcfGrad K acf (∑ j, (GB h j).A) (∑ j, (GB h j).P)) }

/-- torch/metrics.py:508-566 with `use_cg_iter=it` (`filter_length >= 2`) and its reverse; the gradient of an estimate depends on
the gradients of its own coherences. -/
noncomputable def passCg (warm : Bool) (o : Opts) (it : ℕ) (ref : Sig s r N) (est : Sig s e M) : Except PyErr (BssPass s r e N M) :=
  match nFft N M with
  | .error err => .error err
  | .ok n =>
    let K := min o.filterLength n
    if min o.filterLength (K + K) ≠ K then .error .assertionError else
    if ∃ m, ∃ f ≤ K / 2, (blockPrecondSpec torchBackend (bssAcf o n ref m) f).det = 0 then .error .linAlgError else
    let P : BIdx s → CgPass r e K := fun m => cgPass warm K it (bssAcfSdr o n ref m) (bssAcf o n ref m)
      fun k j => vec K (sdrXcorr o n ref est m k j)
    .ok
      { cohSdr := fun m => (P m).cohSdr
        cohSar := fun m => (P m).cohSar
        est := fun m j g h => estBack n (prep o ref m) fun k => (P m).xcorr (fun k _ => g k) (fun _ => h) k j
        ref := fun m g h => refBackAll n (prep o ref m) (prep o est m) ((P m).xcorr g h) ((P m).acf g h) }

/-! ### the whole pass -/

/-- The gradients of the estimates and references, `bss_eval_sources(..., compute_permutation=True, use_cg_iter=it)`, as `bssBackward`:
torch/metrics.py:650-672 in reverse. -/
noncomputable def bssBackwardCg (o : Opts) (it : ℕ) (ref : Sig s r N) (est : Sig s e M) (v : BssWeights (BIdx s × Fin (min r e))) :
    Except PyErr ((BIdx s → Fin e → Fin M → XR) × (BIdx s → Fin r → Fin N → XR)) :=
  match passCg true o it ref est with
  | .error err => .error err
  | .ok P =>
    let base := fun m k j => baseMetrics o.clampDb (P.cohSdr m k j) (P.cohSar m j)
    match solvePermutation torchBackend (fun m k j => (base m k j).2.1) (nArgs := 2)
      ![fun m k j => (base m k j).1, fun m k j => (base m k j).2.2] with
    | .error err => .error err
    | .ok out => .ok (gradEstBss o P est (permWeights out.perm v), gradRefBss o P ref (permWeights out.perm v))

/-- The gradients of the estimates and references, `bss_eval_sources(..., compute_permutation=False, use_cg_iter=it)`, as `bssBackwardDiag`:
torch/metrics.py:643-666, 674 in reverse. -/
noncomputable def bssBackwardCgDiag (o : Opts) (it : ℕ) (ref : Sig s c N) (est : Sig s c M) (v : BssWeights (BIdx s × Fin c)) :
    Except PyErr ((BIdx s → Fin c → Fin M → XR) × (BIdx s → Fin c → Fin N → XR)) :=
  match passCg false o it ref est with
  | .error err => .error err
  | .ok P => .ok (gradEstBssDiag o P est (negWeights v), gradRefBssDiag o P ref (negWeights v))

end FBE.Backward
