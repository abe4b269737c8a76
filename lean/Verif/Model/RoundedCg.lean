import Verif.Model.RoundedBss
import Verif.Model.Cgd

/-!
# The iterative solver in floating point arithmetic

`sdr_loss` and `bss_eval_sources` with `use_cg_iter=it`: all roundings from the samples to the decibel values.  The operations of the
solver have a relative error of at most `u`, which covers mixed precision (numpy computes the weights of the preconditioner, and with
them the rest of the solver, in double precision; torch computes the weights in single precision).

Simplifications: those of `Model/RoundedFir.lean` and `Model/RoundedBss.lean`; a singular matrix of the block preconditioner raises
an exception, and the relations describe the calls that return.
-/

namespace FBE.Rounded

open XR Matrix

/-- One operation: the computed number `c` has a relative error of at most `u`.  All operations of numpy/cgd.py:324-352,
torch/cgd.py:332-360. -/
def Op (u c exact : ℝ) : Prop := |c - exact| ≤ u * |exact|

variable {p p' N K r e : ℕ}

/-! ### the preconditioner and the operator of one filter -/

/-- numpy/cgd.py:37, 66, torch/cgd.py:38, 68: `b = arange(1, n) / n`, of which the entry `t / n` is called `w t`, and `1.0 - b` called
`w' t` (line 71, torch 75).  The error is one unit of the precision in which the weights are computed, not that of the signals. -/
def IsWeights (ω : ℝ) (K : ℕ) (w w' : ℕ → ℝ) : Prop :=
  ∀ t, 0 < t → t < K → |w t - t / K| ≤ ω ∧ |w' t - (1 - t / K)| ≤ ω

/-- numpy/cgd.py:28-40, torch/cgd.py:29-41, `optimal_symmetric_circulant_precond_column`. -/
def IsSymColumn (u : ℝ) (K : ℕ) (w : ℕ → ℝ) (col : ℕ → ℝ) (c : Fin K → ℝ) : Prop :=
  ∃ m : ℕ → ℝ, (∀ i < K - 1, Op u (m i) (col (i + 1) * w (K - 1 - i))) ∧
    ∀ t : Fin K, if t.val = 0 then c t = col 0 else Op u (c t) (m (t - 1) + m (K - 1 - t))

/-- numpy/cgd.py:87-89, torch/cgd.py:91-95, the constructor of `CirculantPreconditionerOperator`:
`C.conj() / clamp(C.real**2 + C.imag**2, min=1e-6)`.  The division of a complex by a real number has an error of at most four units. -/
def IsSpecInv (u : ℝ) (C P : ℕ → ℂ) : Prop :=
  ∀ f, ∃ s m : ℝ, |s - ((C f).re ^ 2 + (C f).im ^ 2)| ≤ 4 * u * ((C f).re ^ 2 + (C f).im ^ 2) ∧ Op u m 1e-6 ∧
    ‖P f - (starRingEnd ℂ) (C f) / (max s m : ℝ)‖ ≤ 4 * u * (‖C f‖ / max s m)

/-- The products of two spectra, numpy/cgd.py:106, 150, torch/cgd.py:114, 158. -/
def IsMul (u : ℝ) (X Y Z : ℕ → ℂ) : Prop := ∀ f, ‖Z f - X f * Y f‖ ≤ 4 * u * (‖X f‖ * ‖Y f‖)

/-- numpy/cgd.py:102-110, torch/cgd.py:109-118, `CirculantPreconditionerOperator @ v` with the inverted spectrum `P`. -/
def IsCircPrecond (u : ℝ) (A : Accuracy) (K : ℕ) (P : ℕ → ℂ) (v z : Fin K → ℝ) : Prop :=
  ∃ (Y Z : ℕ → ℂ) (y : ℕ → ℝ), IsRfft A K v Y ∧ IsMul u P Y Z ∧ IsIrfft A K Z y ∧ ∀ i : Fin K, z i = y i

/-- `circ_col` of numpy/cgd.py:129-131, torch/cgd.py:137-139: entries are copied. -/
def flSymCirc (K : ℕ) (col : ℕ → ℝ) (t : Fin (2 * K)) : ℝ :=
  if t.val < K then col t else if t.val = K then 0 else col (2 * K - t)

/-- numpy/cgd.py:146-151, torch/cgd.py:154-159, `SymmetricToeplitzOperator @ v` with the spectrum `C` of `circ_col`. -/
def IsSymForward (u : ℝ) (A : Accuracy) (K : ℕ) (C : ℕ → ℂ) (v z : Fin K → ℝ) : Prop :=
  ∃ (Y Z : ℕ → ℂ) (y : ℕ → ℝ), IsRfft A (2 * K) v Y ∧ IsMul u Y C Z ∧ IsIrfft A (2 * K) Z y ∧ ∀ i : Fin K, z i = y i

/-! ### the loop -/

section loop

variable {J : Type} {n : ℕ}

/-- numpy/cgd.py:287-288, torch/cgd.py:295-296, `inner_prod`; `σ` numbers the entries of the vectors. -/
def IsInner (u : ℝ) (k : ℕ) (σ : Fin n ≃ J) (a b : J → ℝ) (c : ℝ) : Prop :=
  IsDot u (fun i => a (σ i)) (fun i => b (σ i)) k Finset.univ c

/-- numpy/cgd.py:324-328, torch/cgd.py:332-336: initialisation.  `fwd v z` and `pre v z` say that `z` is a possible result of `A @ v` and
`precond @ v`. -/
def IsCgInit (u : ℝ) (k : ℕ) (σ : Fin n ≃ J) (fwd pre : (J → ℝ) → (J → ℝ) → Prop) (b x0 : J → ℝ) (st : CgState J) : Prop :=
  st.x = x0 ∧ (∃ a, fwd x0 a ∧ ∀ i, Op u (st.r i) (b i - a i)) ∧ pre st.r st.p ∧ IsInner u k σ st.r st.p st.rsold

/-- numpy/cgd.py:335-352, torch/cgd.py:343-360: the body of the loop leads from `st` to `st'`.  `epoch + 1 % 5 == 0` parses as
`epoch + (1 % 5) == 0`. -/
def IsCgBody (u : ℝ) (k : ℕ) (σ : Fin n ≃ J) (fwd pre : (J → ℝ) → (J → ℝ) → Prop) (b : J → ℝ) (epoch : ℕ) (st st' : CgState J) :
    Prop :=
  ∃ (Ap : J → ℝ) (pAp m alpha : ℝ) (z : J → ℝ) (m' beta : ℝ), fwd st.p Ap ∧ IsInner u k σ st.p Ap pAp ∧ Op u m 1e-6 ∧
    Op u alpha (st.rsold / max pAp m) ∧
    (∀ i, ∃ q, Op u q (alpha * st.p i) ∧ Op u (st'.x i) (st.x i + q)) ∧
    (if epoch + 1 % 5 = 0 then ∃ a, fwd st'.x a ∧ ∀ i, Op u (st'.r i) (b i - a i)
      else ∀ i, ∃ q, Op u q (alpha * Ap i) ∧ Op u (st'.r i) (st.r i - q)) ∧
    pre st'.r z ∧ IsInner u k σ st'.r z st'.rsold ∧ Op u m' 1e-6 ∧ Op u beta (st'.rsold / max st.rsold m') ∧
    ∀ i, ∃ q, Op u q (beta * st.p i) ∧ Op u (st'.p i) (z i + q)

/-- numpy/cgd.py:291-363, torch/cgd.py:299-371, `conjugate_gradient(A, b, x=x0, n_iter=it, precond=precond)`. -/
def IsCg (u : ℝ) (k : ℕ) (σ : Fin n ≃ J) (fwd pre : (J → ℝ) → (J → ℝ) → Prop) (b x0 : J → ℝ) (it : ℕ) (x : J → ℝ) : Prop :=
  ∃ st : ℕ → CgState J, IsCgInit u k σ fwd pre b x0 (st 0) ∧
    (∀ epoch < it, IsCgBody u k σ fwd pre b epoch (st epoch) (st (epoch + 1))) ∧ x = (st it).x

end loop

/-- numpy/cgd.py:366-383, torch/cgd.py:374-391, `toeplitz_conjugate_gradient(acf, xcorr, n_iter=it)`. -/
def IsToeplitzCg (u : ℝ) (A : Accuracy) (ω : ℝ) (K : ℕ) (col : ℕ → ℝ) (b : Fin K → ℝ) (it : ℕ) (x : Fin K → ℝ) : Prop :=
  ∃ (w w' : ℕ → ℝ) (c : Fin K → ℝ) (S P C : ℕ → ℂ), IsWeights ω K w w' ∧ IsSymColumn u K w col c ∧ IsRfft A K c S ∧ IsSpecInv u S P ∧
    IsRfft A (2 * K) (flSymCirc K col) C ∧
    IsCg u A.k (Equiv.refl (Fin K)) (IsSymForward u A K C) (IsCircPrecond u A K P) b (fun _ => 0) it x

/-! ### `sdr_loss` -/

/-- numpy/metrics.py:250-279, torch/metrics.py:244-276 with `use_cg_iter=it`: the coherence of `sdr_loss` for the preprocessed
reference `x` and estimate `y`, filters of `K ≥ 2` taps. -/
def IsCgCoherence (E : Machine p) (A : Accuracy) (ω : ℝ) (K : ℕ) (load : Option ℝ) (it : ℕ) (x y : Fin N → ℝ) (coh : ℝ) : Prop :=
  ∃ (acf xcorr : ℕ → ℝ) (s : Fin K → ℝ), IsStats p A (fftSize N) x y acf xcorr ∧
    IsToeplitzCg (2 ^ (-p : ℤ)) A ω K (loaded E load acf) (fun i => xcorr i) it s ∧
    IsDot (2 ^ (-p : ℤ)) (fun i : Fin K => xcorr i) s A.k Finset.univ coh

/-- numpy/metrics.py:238-279, torch/metrics.py:232-276 with `use_cg_iter=it`. -/
def IsSdrCoherenceCg (E : Machine p) (A : Accuracy) (ω : ℝ) (K : ℕ) (zeroMean : Bool) (load : Option ℝ) (it : ℕ) (x y : Fin N → ℝ)
    (coh : ℝ) : Prop :=
  ∃ xc yc x' y', IsCentred E A.k zeroMean x xc ∧ IsCentred E A.k zeroMean y yc ∧
    IsNormalized E A.k xc x' ∧ IsNormalized E A.k yc y' ∧
    if K = 1 then IsOneTapCoherence E A x' y' coh else IsCgCoherence E A ω K load it x' y' coh

/-- numpy/metrics.py:185-284, torch/metrics.py:180-281, `sdr_loss(y, x, filter_length=K, use_cg_iter=it, ...)`: `v` is a possible
result for the estimate `y` of the reference `x`.  `E'` is the arithmetic of the decibel stage, which in numpy may be more precise than
the signals. -/
def IsSdrLossCg (E : Machine p) (E' : Machine p') (A : Accuracy) (ω : ℝ) (K : ℕ) (zeroMean : Bool) (load clampDb : Option ℝ) (it : ℕ)
    (y x : Fin N → ℝ) (v : XR) : Prop :=
  ∃ coh, IsSdrCoherenceCg E A ω K zeroMean load it x y coh ∧ v = coherenceToNegSdr E' clampDb (fin coh)

/-! ### the block system -/

/-- numpy/cgd.py:43-77, torch/cgd.py:44-80, `optimal_nonsymmetric_circulant_precond_column` for one pair of channels; `col` has all the
`n` lags of the correlation, of which the last are the negative ones. -/
def IsNonsymColumn (u : ℝ) (n K : ℕ) (w w' : ℕ → ℝ) (col : ℕ → ℝ) (c : Fin K → ℝ) : Prop :=
  ∀ t : Fin K, if t.val = 0 then c t = col 0
    else ∃ a b, Op u a (w t * col (K - t)) ∧ Op u b (w' t * col (n - t)) ∧ Op u (c t) (a + b)

/-- numpy/cgd.py:176, torch/cgd.py:184, `inv` of a matrix: every column solves exactly a system whose entries differ little from the
given ones, compared with the largest. -/
def IsInverse (A : Accuracy) (M R : Matrix (Fin r) (Fin r) ℂ) : Prop :=
  ∀ j, ∃ D : Matrix (Fin r) (Fin r) ℂ, (M + D) *ᵥ (fun i => R i j) = Pi.single j 1 ∧
    ∀ B, (∀ a b, ‖M a b‖ ≤ B) → ∀ a b, ‖D a b‖ ≤ A.solve * B

/-- `einsum("...rc,...cm->...rm")` of numpy/cgd.py:201, 270, torch/cgd.py:209, 278: a sum of products for every frequency. -/
def IsMatMul (u : ℝ) (k : ℕ) (P : Fin r → Fin r → ℕ → ℂ) (Y Z : Fin r → ℕ → ℂ) : Prop :=
  ∀ c f, ‖Z c f - ∑ d, P c d f * Y d f‖ ≤ 8 * (k + 4) * u * ∑ d, ‖P c d f‖ * ‖Y d f‖

/-- numpy/cgd.py:192-205, 262-279, torch/cgd.py:200-213, 270-287: `@ v` of `BlockCirculantPreconditionerOperator` and
`BlockToeplitzOperator`, transforms of size `n`, spectra `P`. -/
def IsBlockApply (u : ℝ) (A : Accuracy) (n K : ℕ) (P : Fin r → Fin r → ℕ → ℂ) (v z : Fin K × Fin r → ℝ) : Prop :=
  ∃ (Y Z : Fin r → ℕ → ℂ) (y : Fin r → ℕ → ℝ), (∀ d, IsRfft A n (fun l => v (l, d)) (Y d)) ∧ IsMatMul u A.k P Y Z ∧
    (∀ c, IsIrfft A n (Z c) (y c)) ∧ ∀ a, z a = y a.2 a.1

/-- `circ_col` of numpy/cgd.py:229-239, torch/cgd.py:237-247 for one pair of channels: entries are copied. -/
def flBlockCirc (n K : ℕ) (col : ℕ → ℝ) (t : Fin (blockNfft K)) : ℝ :=
  if t.val = 0 then col 0 else if t.val < K then col (n - t) else if t.val ≤ blockNfft K - K then 0 else col (blockNfft K - t)

/-- numpy/cgd.py:386-404, torch/cgd.py:394-411, `block_toeplitz_conjugate_gradient(acf, xcorr, n_iter=it, x=x0)`, one right-hand
side. -/
def IsBlockCg (u : ℝ) (A : Accuracy) (ω : ℝ) (n K : ℕ) (acf : Fin r → Fin r → ℕ → ℝ) (b x0 : Fin K × Fin r → ℝ) (it : ℕ)
    (x : Fin K × Fin r → ℝ) : Prop :=
  ∃ (w w' : ℕ → ℝ) (col : Fin r → Fin r → Fin K → ℝ) (S P C : Fin r → Fin r → ℕ → ℂ), IsWeights ω K w w' ∧
    (∀ c d, IsNonsymColumn u n K w w' (acf c d) (col c d)) ∧ (∀ c d, IsRfft A K (col c d) (S c d)) ∧
    (∀ f ≤ K / 2, IsInverse A (fun c d => S c d f) fun c d => P c d f) ∧
    (∀ c d, IsRfft A (blockNfft K) (flBlockCirc n K (acf c d)) (C c d)) ∧
    IsCg u A.k (finProdFinEquiv.symm : Fin (K * r) ≃ Fin K × Fin r) (IsBlockApply u A (blockNfft K) K C) (IsBlockApply u A K K P)
      b x0 it x

/-! ### `bss_eval_sources` -/

/-- numpy/metrics.py:522-574, torch/metrics.py:518-571 with `use_cg_iter=it`: the coherences for the preprocessed references `x` and
estimates `y`, filters of `K ≥ 2` taps.  With `pairwise=True` the block system starts from the filters of the single references, else
from zero. -/
def IsCgCoherences (E : Machine p) (A : Accuracy) (ω : ℝ) (K : ℕ) (pairwise : Bool) (load : Option ℝ) (it : ℕ) (x : Fin r → Fin N → ℝ)
    (y : Fin e → Fin N → ℝ) (cohSdr : Fin r → Fin e → ℝ) (cohSar : Fin e → ℝ) : Prop :=
  ∃ (acf : Fin r → Fin r → ℕ → ℝ) (xcorr : Fin r → Fin e → ℕ → ℝ) (s : Fin r → Fin e → Fin K → ℝ)
    (s' : Fin e → Fin K × Fin r → ℝ), IsStats2 p A (fftSize N) x y acf xcorr ∧
    (∀ c j, IsToeplitzCg (2 ^ (-p : ℤ)) A ω K (loadedDiag E load acf c c) (fun i => xcorr c j i) it (s c j)) ∧
    (∀ c j, IsDot (2 ^ (-p : ℤ)) (fun i : Fin K => xcorr c j i) (s c j) A.k Finset.univ (cohSdr c j)) ∧
    (∀ j, IsBlockCg (2 ^ (-p : ℤ)) A ω (fftSize N) K (loadedDiag E load acf) (fun a => xcorr a.2 j a.1)
      (fun a => if pairwise then s a.2 j a.1 else 0) it (s' j)) ∧
    ∀ j, IsDot (2 ^ (-p : ℤ)) (fun a : Fin (K * r) => xcorr (finProdFinEquiv.symm a).2 j (finProdFinEquiv.symm a).1)
      (fun a => s' j (finProdFinEquiv.symm a)) A.k Finset.univ (cohSar j)

/-- numpy/metrics.py:450-574, torch/metrics.py:446-571, `square_cosine_metrics(..., use_cg_iter=it)`. -/
def IsCoherencesCg (E : Machine p) (A : Accuracy) (ω : ℝ) (K : ℕ) (pairwise zeroMean : Bool) (load : Option ℝ) (it : ℕ)
    (ref : Fin r → Fin N → ℝ) (est : Fin e → Fin N → ℝ) (cohSdr : Fin r → Fin e → ℝ) (cohSar : Fin e → ℝ) : Prop :=
  ∃ (xc : Fin r → Fin N → ℝ) (yc : Fin e → Fin N → ℝ) (x' : Fin r → Fin N → ℝ) (y' : Fin e → Fin N → ℝ),
    (∀ c, IsCentred E A.k zeroMean (ref c) (xc c)) ∧ (∀ j, IsCentred E A.k zeroMean (est j) (yc j)) ∧
    (∀ c, IsNormalized E A.k (xc c) (x' c)) ∧ (∀ j, IsNormalized E A.k (yc j) (y' j)) ∧
    if K = 1 then load = none ∧ IsOneTapCoherences E A x' y' cohSdr cohSar
    else IsCgCoherences E A ω K pairwise load it x' y' cohSdr cohSar

/-- numpy/metrics.py:577-590, torch/metrics.py:574-587, `_base_metrics_bss_eval` applied to possible coherences: negative SDR, SIR and
SAR. -/
def IsBssLossesCg (E : Machine p) (E' : Machine p') (A : Accuracy) (ω : ℝ) (K : ℕ) (pairwise zeroMean : Bool)
    (load clampDb : Option ℝ) (it : ℕ) (ref : Fin r → Fin N → ℝ) (est : Fin e → Fin N → ℝ) (sdr sir sar : Fin r → Fin e → XR) : Prop :=
  ∃ cohSdr cohSar, IsCoherencesCg E A ω K pairwise zeroMean load it ref est cohSdr cohSar ∧
    (∀ c j, sdr c j = coherenceToNegSdr E' clampDb (fin (cohSdr c j))) ∧
    (∀ c j, sir c j = coherenceToNegSdr E' clampDb (flDiv E' (cohSdr c j) (cohSar j))) ∧
    ∀ c j, sar c j = coherenceToNegSdr E' clampDb (fin (cohSar j))

/-! ### with the permutation -/

/-- torch/metrics.py:365-443, `sdr(ref, est, filter_length=K, use_cg_iter=it, ..., return_perm=True)` for one element of the batch:
`res` is a possible outcome. -/
def IsSdrCg (E : Machine p) (E' : Machine p') (A : Accuracy) (ω : ℝ) (K : ℕ) (zeroMean : Bool) (load clampDb : Option ℝ) (it : ℕ)
    (ref : Fin r → Fin N → ℝ) (est : Fin e → Fin N → ℝ) (res : Except PyErr ((Fin (min r e) → XR) × (Fin (min r e) → ℕ))) : Prop :=
  ∃ v : Fin r → Fin e → XR, (∀ i j, IsSdrLossCg E E' A ω K zeroMean load clampDb it (est j) (ref i) (v i j)) ∧
    res = match flSolvePermutation E'.fl_nearest v with
      | .error err => .error err
      | .ok (loss, perm) => .ok (fun c => (loss c).neg, perm)

/-- torch/metrics.py:590-674, `bss_eval_sources(ref, est, filter_length=K, use_cg_iter=it, ...)` for one element of the batch: `res` is a
possible outcome. -/
def IsBssEvalCg (E : Machine p) (E' : Machine p') (A : Accuracy) (ω : ℝ) (K : ℕ) (zeroMean : Bool) (load clampDb : Option ℝ) (it : ℕ)
    (ref : Fin r → Fin N → ℝ) (est : Fin e → Fin N → ℝ)
    (res : Except PyErr ((Fin (min r e) → XR) × (Fin (min r e) → XR) × (Fin (min r e) → XR) × (Fin (min r e) → ℕ))) : Prop :=
  ∃ sdr sir sar, IsBssLossesCg E E' A ω K true zeroMean load clampDb it ref est sdr sir sar ∧
    res = match flSolvePermutation₃ E'.fl_nearest sir sdr sar with
      | .error err => .error err
      | .ok (i, d, a, perm) => .ok (fun c => (d c).neg, fun c => (i c).neg, fun c => (a c).neg, perm)

end FBE.Rounded
