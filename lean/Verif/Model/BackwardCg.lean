import Verif.Model.BackwardPit
import Verif.Model.Cgd

/-!
# The backward pass of torch through the conjugate gradient iterations

`loss.backward()` on `sdr_loss(..., use_cg_iter=n)`: the derivative formulas of torch for the operations of
torch/cgd.py:29-41, 83-165, 295-371 (called from torch/metrics.py:268-270), in reverse order.  One column of the right-hand
sides is treated at a time; what the columns share (the spectra of the operators) receives the sum of their gradients.
All quantities between the coherences and the normalised signals are exact reals and complex numbers, a gradient that is
not finite makes all samples NaN (`lift`).
-/

namespace FBE.Backward

open Classical XR Complex Matrix

variable {s : List ℕ} {r e c N M : ℕ}

/-- `Cforward` of torch/cgd.py:137-140 at frequency `f`. -/
noncomputable def toepSpec (K : ℕ) (col : List ℝ) (f : ℕ) : ℂ :=
  (rfft (symCircCol torchBackend K col).length (symCircCol torchBackend K col)).getD f 0

/-- `C` of torch/cgd.py:91 at frequency `f`. -/
noncomputable def circSpec (K : ℕ) (col : List ℝ) (f : ℕ) : ℂ := (rfft K (symPrecondCol col)).getD f 0

/-- `self.C` of torch/cgd.py:94-95 at frequency `f`. -/
noncomputable def precSpec (K : ℕ) (col : List ℝ) (f : ℕ) : ℂ := torchBackend.specInv (circSpec K col f)

/-- The gradient of `v` in `irfft(C * rfft(v, n), n)[:K]`: torch/cgd.py:114-118, 157-159 in reverse
(product: `g * conj(C)`). -/
noncomputable def opGrad (n : ℕ) {K : ℕ} (C : ℕ → ℂ) (g : Fin K → ℝ) : Fin K → ℝ :=
  fun t => rfftGrad n (fun f => irfftGrad n K g f * (starRingEnd ℂ) (C f)) t

/-- The gradient of `C` in `irfft(C * rfft(v, n), n)[:K]`: torch/cgd.py:114-118, 157-159 in reverse
(product: `g * conj(rfft(v))`). -/
noncomputable def opSpecGrad (n : ℕ) {K : ℕ} (v g : Fin K → ℝ) : ℕ → ℂ :=
  fun f => irfftGrad n K g f * (starRingEnd ℂ) (spectrum n v f)

/-- The gradients of the variables of the loop of torch/cgd.py:343-360 and, accumulated, those of
the spectra of the operator and of the preconditioner. -/
structure CgGrad (K : ℕ) where
  x : Fin K → ℝ
  r : Fin K → ℝ
  p : Fin K → ℝ
  rsold : ℝ
  A : ℕ → ℂ
  P : ℕ → ℂ

/-- The derivative of `torch.clamp(x, min=1e-6)` (torch/cgd.py:94, 346, 358): `where(x >= min, g, 0)`. -/
noncomputable def minGrad (x g : ℝ) : ℝ := if 1e-6 ≤ x then g else 0

/-- The gradient of `y` in `x / y`, as run by torch: `-g * ((x / y) / y)`.  torch/cgd.py:346, 358. -/
noncomputable def denGrad (x y g : ℝ) : ℝ := -g * (x / y / y)

/-- torch/cgd.py:343-360 in reverse: from the gradients of the variables after one iteration to those before it.
The branch at torch/cgd.py:348-349 is never taken (`epoch + 1 % 5 == 0` means `epoch + 1 == 0`). -/
noncomputable def cgBodyGrad (K : ℕ) (col : List ℝ) (st : CgState (Fin K)) (g : CgGrad K) : CgGrad K :=
  -- the forward pass
  let Ap := symToeplitzOp torchBackend K col st.p
  let pAp := innerProd st.p Ap
  let alpha := st.rsold / max pAp 1e-6
  let r := st.r - alpha • Ap
  let z := circPrecond torchBackend K col r
  let rsnew := innerProd r z
  let beta := rsnew / max st.rsold 1e-6
  -- p = z + beta * p
  let gz := g.p
  let gBeta := innerProd g.p st.p
  let gp := beta • g.p
  -- beta = rsnew / clamp(rsold)
  let gRsnew := g.rsold + gBeta / max st.rsold 1e-6
  let gRs := minGrad st.rsold (denGrad rsnew (max st.rsold 1e-6) gBeta)
  -- rsnew = inner_prod(r, z)
  let gr := g.r + gRsnew • z
  let gz := gz + gRsnew • r
  -- z = precond @ r
  let gr := gr + opGrad K (precSpec K col) gz
  let gP := fun f => g.P f + opSpecGrad K r gz f
  -- r = r - alpha * Ap
  let gAlpha := -innerProd gr Ap
  let gAp := -(alpha • gr)
  -- x = x + alpha * p
  let gAlpha := gAlpha + innerProd g.x st.p
  let gp := gp + alpha • g.x
  -- alpha = rsold / clamp(pAp)
  let gRs := gRs + gAlpha / max pAp 1e-6
  let gPap := minGrad pAp (denGrad st.rsold (max pAp 1e-6) gAlpha)
  -- pAp = inner_prod(p, Ap)
  let gp := gp + gPap • Ap
  let gAp := gAp + gPap • st.p
  -- Ap = A @ p
  let gp := gp + opGrad (2 * K) (toepSpec K col) gAp
  let gA := fun f => g.A f + opSpecGrad (2 * K) st.p gAp f
  ⟨g.x, gr, gp, gRs, gA, gP⟩

/-- The state before iteration `i`.  torch/cgd.py:332-360. -/
noncomputable def cgState (K : ℕ) (col : List ℝ) (b : Fin K → ℝ) (i : ℕ) : CgState (Fin K) :=
  cgRun (symToeplitzOp torchBackend K col) (circPrecond torchBackend K col) b (fun _ => 0) i

/-- The loop of torch/cgd.py:343-360 in reverse. -/
noncomputable def cgLoopGrad (K : ℕ) (col : List ℝ) (b : Fin K → ℝ) : ℕ → CgGrad K → CgGrad K
  | 0, g => g
  | i + 1, g => cgLoopGrad K col b i (cgBodyGrad K col (cgState K col b i) g)

/-- The gradients of the right-hand side and of the two spectra. -/
structure SolveGrad (K : ℕ) where
  b : Fin K → ℝ
  A : ℕ → ℂ
  P : ℕ → ℂ

/-- torch/cgd.py:332-336 in reverse, with `x` the array of zeros of torch/cgd.py:321. -/
noncomputable def cgInitGrad (K : ℕ) (col : List ℝ) (b : Fin K → ℝ) (g : CgGrad K) : SolveGrad K :=
  let r := b - symToeplitzOp torchBackend K col fun _ => 0
  let z := circPrecond torchBackend K col r
  -- rsold = inner_prod(r, z), p = z
  let gr := g.r + g.rsold • z
  let gz := g.p + g.rsold • r
  -- z = precond @ r
  let gr := gr + opGrad K (precSpec K col) gz
  let gP := fun f => g.P f + opSpecGrad K r gz f
  -- r = b - A @ x
  ⟨gr, fun f => g.A f + opSpecGrad (2 * K) (fun _ : Fin K => 0) (-gr) f, gP⟩

/-- From the gradient `g` of the solution to those of the right-hand side and of the spectra:
torch/cgd.py:332-371 in reverse. -/
noncomputable def cgGrad (K : ℕ) (col : List ℝ) (b : Fin K → ℝ) (nIter : ℕ) (g : Fin K → ℝ) : SolveGrad K :=
  cgInitGrad K col b (cgLoopGrad K col b nIter ⟨g, 0, 0, 0, fun _ => 0, fun _ => 0⟩)

/-- From the gradient of the coherence to those of `xcorr` and of the spectra: torch/metrics.py:270-275
in reverse.  `xcorr` is used twice. -/
noncomputable def cohCgGrad (K : ℕ) (col : List ℝ) (b : Fin K → ℝ) (nIter : ℕ) (g : ℝ) : SolveGrad K :=
  let G := cgGrad K col b nIter (g • b)
  ⟨g • toeplitzCg torchBackend K col b nIter + G.b, G.A, G.P⟩

/-- torch/cgd.py:137-140 in reverse: from the gradient of `Cforward` to that of `col`. -/
noncomputable def toepColGrad (K : ℕ) (G : ℕ → ℂ) : Fin K → ℝ :=
  let gCirc := rfftGrad (2 * K) G
  fun l => gCirc l + if 1 ≤ l.val then gCirc (2 * K - l) else 0

/-- torch/cgd.py:94-95 in reverse, for one frequency `c` of `C`: `conj`, then `div` of a complex number by a
real one (`g / y` and the real part of `-g * conj((x / y) / y)`), `clamp`, and the squares of real and
imaginary part. -/
noncomputable def specInvGrad (c g : ℂ) : ℂ :=
  let sq := c.re ^ 2 + c.im ^ 2
  let den : ℂ := ((max sq 1e-6 : ℝ) : ℂ)
  let g := (starRingEnd ℂ) g
  let gDen := (-g * (starRingEnd ℂ) (c / den / den)).re
  let gSq := minGrad sq gDen
  g / den + ((2 * gSq : ℝ) : ℂ) * c

/-- torch/cgd.py:37-40, 91 in reverse: from the gradient of `C` to that of the column. -/
noncomputable def circColGrad (K : ℕ) (G : ℕ → ℂ) : Fin K → ℝ :=
  let gCirc := rfftGrad K G
  fun l => if l.val = 0 then gCirc 0 else (gCirc l + gCirc (K - l)) * (((K - l.val : ℕ) : ℝ) / K)

/-- From the gradients of the two spectra to that of `acf`: torch/cgd.py:383-386 in reverse. -/
noncomputable def acfCgGrad (K : ℕ) (col : List ℝ) (gA gP : ℕ → ℂ) : Fin K → ℝ :=
  toepColGrad K gA + circColGrad K fun f => specInvGrad (circSpec K col f) (gP f)

/-- The gradient of the estimates for `pairwise=True` and `use_cg_iter=nIter`:
torch/metrics.py:244-280 in reverse. -/
noncomputable def gradEstCg (o : Opts) (nIter : ℕ) (ref : Sig s r N) (est : Sig s e M) (w : BIdx s → Fin r → Fin e → ℝ) :
    Except PyErr (BIdx s → Fin e → Fin M → XR) :=
  match nFft N M with
  | .error err => .error err
  | .ok n =>
    let K := min o.filterLength n
    let acf := sdrAcf o n ref
    let xc := fun m k j => vec K (sdrXcorr o n ref est m k j)
    let coh := fun m k j => innerProd (xc m k j) (toeplitzCg torchBackend K (acf m k) (xc m k j) nIter)
    .ok fun m j => preprocessGrad o.zeroMean (est m j) <|
      lift (fun k => decibelGrad o.clampDb (coh m k j) (fin (w m k j))) fun g =>
        estBack n (prep o ref m) fun k => (cohCgGrad K (acf m k) (xc m k j) nIter (g k)).b

/-- The gradient of the references for `pairwise=True` and `use_cg_iter=nIter`:
torch/metrics.py:244-280 in reverse. -/
noncomputable def gradRefCg (o : Opts) (nIter : ℕ) (ref : Sig s r N) (est : Sig s e M) (w : BIdx s → Fin r → Fin e → ℝ) :
    Except PyErr (BIdx s → Fin r → Fin N → XR) :=
  match nFft N M with
  | .error err => .error err
  | .ok n =>
    let K := min o.filterLength n
    let acf := sdrAcf o n ref
    let xc := fun m k j => vec K (sdrXcorr o n ref est m k j)
    let coh := fun m k j => innerProd (xc m k j) (toeplitzCg torchBackend K (acf m k) (xc m k j) nIter)
    .ok fun m k => preprocessGrad o.zeroMean (ref m k) <|
      lift (fun j => decibelGrad o.clampDb (coh m k j) (fin (w m k j))) fun g =>
        let G := fun j => cohCgGrad K (acf m k) (xc m k j) nIter (g j)
        refBack n (prep o ref m k) (prep o est m) (fun j => (G j).b)
          (acfCgGrad K (acf m k) (fun f => ∑ j, (G j).A f) (fun f => ∑ j, (G j).P f))

/-- The gradient of the estimates for `pairwise=False` and `use_cg_iter=nIter`:
torch/metrics.py:244-280 in reverse. -/
noncomputable def gradEstCgDiag (o : Opts) (nIter : ℕ) (ref : Sig s c N) (est : Sig s c M) (w : BIdx s → Fin c → ℝ) :
    Except PyErr (BIdx s → Fin c → Fin M → XR) :=
  match nFft N M with
  | .error err => .error err
  | .ok n =>
    let K := min o.filterLength n
    let acf := sdrAcf o n ref
    let xc := fun m k => vec K (sdrXcorr o n ref est m k k)
    let coh := fun m k => innerProd (xc m k) (toeplitzCg torchBackend K (acf m k) (xc m k) nIter)
    .ok fun m k => preprocessGrad o.zeroMean (est m k) <|
      lift (fun _ : Fin 1 => decibelGrad o.clampDb (coh m k) (fin (w m k))) fun g =>
        estBack n (fun _ : Fin 1 => prep o ref m k) fun j => (cohCgGrad K (acf m k) (xc m k) nIter (g j)).b

/-- The gradient of the references for `pairwise=False` and `use_cg_iter=nIter`:
torch/metrics.py:244-280 in reverse. -/
noncomputable def gradRefCgDiag (o : Opts) (nIter : ℕ) (ref : Sig s c N) (est : Sig s c M) (w : BIdx s → Fin c → ℝ) :
    Except PyErr (BIdx s → Fin c → Fin N → XR) :=
  match nFft N M with
  | .error err => .error err
  | .ok n =>
    let K := min o.filterLength n
    let acf := sdrAcf o n ref
    let xc := fun m k => vec K (sdrXcorr o n ref est m k k)
    let coh := fun m k => innerProd (xc m k) (toeplitzCg torchBackend K (acf m k) (xc m k) nIter)
    .ok fun m k => preprocessGrad o.zeroMean (ref m k) <|
      lift (fun _ : Fin 1 => decibelGrad o.clampDb (coh m k) (fin (w m k))) fun g =>
        let G := fun j : Fin 1 => cohCgGrad K (acf m k) (xc m k) nIter (g j)
        refBack n (prep o ref m k) (fun _ : Fin 1 => prep o est m k) (fun j => (G j).b)
          (acfCgGrad K (acf m k) (fun f => ∑ j, (G j).A f) (fun f => ∑ j, (G j).P f))

/-- The gradients of the estimates of `sdr` (`sdr_pit_loss` with `changeSign`) with `use_cg_iter=nIter`,
torch/metrics.py:424-443. -/
noncomputable def gradEstCgPit (o : Opts) (nIter : ℕ) (changeSign : Bool) (ref : Sig s r N) (est : Sig s e M)
    (v : BIdx s → Fin (min r e) → ℝ) : Except PyErr (BIdx s → Fin e → Fin M → XR) :=
  match pitWeights o changeSign ref est v with
  | .error err => .error err
  | .ok w => gradEstCg o nIter ref est w

/-- The gradients of the references of `sdr` with `use_cg_iter=nIter`, torch/metrics.py:424-443. -/
noncomputable def gradRefCgPit (o : Opts) (nIter : ℕ) (changeSign : Bool) (ref : Sig s r N) (est : Sig s e M)
    (v : BIdx s → Fin (min r e) → ℝ) : Except PyErr (BIdx s → Fin r → Fin N → XR) :=
  match pitWeights o changeSign ref est v with
  | .error err => .error err
  | .ok w => gradRefCg o nIter ref est w

end FBE.Backward
