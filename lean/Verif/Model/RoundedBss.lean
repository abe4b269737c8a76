import Verif.Model.RoundedFir
import Mathlib.Logic.Equiv.Fin.Basic

/-!
# `bss_eval_sources` in floating point arithmetic

All roundings from the samples to SDR, SIR, SAR and (torch back end) the permutation, with the direct solver, for one element of
the batch.

Simplifications: those of `Model/RoundedFir.lean` and `Model/RoundedPerm.lean`; `load_diag` together with `filter_length=1` is left
out.
-/

namespace FBE.Rounded

open XR Matrix

variable {p N r e : ℕ}

/-- numpy/metrics.py:137-182, torch/metrics.py:133-178, `compute_stats_2` for the references `x` and the estimates `y` and transforms of
size `n`; all the `n` lags of the correlations, of which the first and the last are used. -/
def IsStats2 (p : ℕ) (A : Accuracy) (n : ℕ) (x : Fin r → Fin N → ℝ) (y : Fin e → Fin N → ℝ) (acf : Fin r → Fin r → ℕ → ℝ)
    (xcorr : Fin r → Fin e → ℕ → ℝ) : Prop :=
  ∃ (X : Fin r → ℕ → ℂ) (Y : Fin e → ℕ → ℂ), (∀ c, IsRfft A n (x c) (X c)) ∧ (∀ j, IsRfft A n (y j) (Y j)) ∧
    (∀ c d, ∃ Z, IsProducts (2 ^ (-p : ℤ)) (X d) (X c) Z ∧ IsIrfft A n Z (acf c d)) ∧
    ∀ c j, ∃ Z, IsProducts (2 ^ (-p : ℤ)) (X c) (Y j) Z ∧ IsIrfft A n Z (xcorr c j)

/-- numpy/metrics.py:526-529, torch/metrics.py:520-524: `load_diag` is added to lag zero of the autocorrelations. -/
noncomputable def loadedDiag (E : Machine p) (load : Option ℝ) (acf : Fin r → Fin r → ℕ → ℝ) (c d : Fin r) : ℕ → ℝ :=
  if c = d then loaded E load (acf c d) else acf c d

/-- numpy/linalg.py:42-61, torch/linalg.py:43-62, `block_toeplitz`: entries are copied, the last lags below the diagonal. -/
def flBlockToeplitz (n K : ℕ) (acf : Fin r → Fin r → ℕ → ℝ) : Matrix (Fin K × Fin r) (Fin K × Fin r) ℝ :=
  fun a b => if a.1 ≤ b.1 then acf a.2 b.2 (b.1 - a.1) else acf a.2 b.2 (n - (a.1 - b.1))

/-- numpy/metrics.py:522-574, torch/metrics.py:518-571: the coherences for the preprocessed references `x` and estimates `y`, filters of
`K ≥ 2` taps. -/
def IsFirCoherences (E : Machine p) (A : Accuracy) (K : ℕ) (load : Option ℝ) (x : Fin r → Fin N → ℝ) (y : Fin e → Fin N → ℝ)
    (cohSdr : Fin r → Fin e → ℝ) (cohSar : Fin e → ℝ) : Prop :=
  ∃ acf xcorr, IsStats2 p A (fftSize N) x y acf xcorr ∧
    (∀ c j, ∃ s : Fin K → ℝ, IsSolve A (flToeplitz K (loadedDiag E load acf c c)) (fun i => xcorr c j i) s ∧
      IsDot (2 ^ (-p : ℤ)) (fun i : Fin K => xcorr c j i) s A.k Finset.univ (cohSdr c j)) ∧
    ∀ j, ∃ s : Fin K × Fin r → ℝ,
      IsSolve A (flBlockToeplitz (fftSize N) K (loadedDiag E load acf)) (fun a => xcorr a.2 j a.1) s ∧
      IsDot (2 ^ (-p : ℤ)) (fun a : Fin (K * r) => xcorr (finProdFinEquiv.symm a).2 j (finProdFinEquiv.symm a).1)
        (fun a => s (finProdFinEquiv.symm a)) A.k Finset.univ (cohSar j)

/-- numpy/metrics.py:37-75, torch/metrics.py:32-70: the coherences for filters of one tap, without `load_diag`. -/
def IsOneTapCoherences (E : Machine p) (A : Accuracy) (x : Fin r → Fin N → ℝ) (y : Fin e → Fin N → ℝ)
    (cohSdr : Fin r → Fin e → ℝ) (cohSar : Fin e → ℝ) : Prop :=
  (∀ c j, IsOneTapCoherence E A (x c) (y j) (cohSdr c j)) ∧
    ∃ (acm : Matrix (Fin r) (Fin r) ℝ) (xcorr : Fin r → Fin e → ℝ),
      (∀ c d, IsDot (2 ^ (-p : ℤ)) (x c) (x d) A.k Finset.univ (acm c d)) ∧
      (∀ c j, IsDot (2 ^ (-p : ℤ)) (x c) (y j) A.k Finset.univ (xcorr c j)) ∧
      ∀ j, ∃ s : Fin r → ℝ, IsSolve A acm (fun c => xcorr c j) s ∧
        IsDot (2 ^ (-p : ℤ)) (fun c => xcorr c j) s A.k Finset.univ (cohSar j)

/-- numpy/metrics.py:450-574, torch/metrics.py:446-571, `square_cosine_metrics(..., use_cg_iter=None)`.  With `pairwise=False` the
entries for `c = j` are computed. -/
def IsCoherences (E : Machine p) (A : Accuracy) (K : ℕ) (zeroMean : Bool) (load : Option ℝ) (ref : Fin r → Fin N → ℝ)
    (est : Fin e → Fin N → ℝ) (cohSdr : Fin r → Fin e → ℝ) (cohSar : Fin e → ℝ) : Prop :=
  ∃ (xc : Fin r → Fin N → ℝ) (yc : Fin e → Fin N → ℝ) (x' : Fin r → Fin N → ℝ) (y' : Fin e → Fin N → ℝ),
    (∀ c, IsCentred E A.k zeroMean (ref c) (xc c)) ∧ (∀ j, IsCentred E A.k zeroMean (est j) (yc j)) ∧
    (∀ c, IsNormalized E A.k (xc c) (x' c)) ∧ (∀ j, IsNormalized E A.k (yc j) (y' j)) ∧
    if K = 1 then load = none ∧ IsOneTapCoherences E A x' y' cohSdr cohSar
    else IsFirCoherences E A K load x' y' cohSdr cohSar

/-- numpy/metrics.py:584, torch/metrics.py:581: `coh_sdr / coh_sar`. -/
noncomputable def flDiv (E : Machine p) (a b : ℝ) : XR := if b = 0 then XR.div (fin a) (fin b) else fin (E.fl (a / b))

/-- numpy/metrics.py:577-590, torch/metrics.py:574-587, `_base_metrics_bss_eval` applied to possible coherences: negative SDR, SIR and
SAR. -/
def IsBssLosses (E : Machine p) (A : Accuracy) (K : ℕ) (zeroMean : Bool) (load clampDb : Option ℝ) (ref : Fin r → Fin N → ℝ)
    (est : Fin e → Fin N → ℝ) (sdr sir sar : Fin r → Fin e → XR) : Prop :=
  ∃ cohSdr cohSar, IsCoherences E A K zeroMean load ref est cohSdr cohSar ∧
    (∀ c j, sdr c j = coherenceToNegSdr E clampDb (fin (cohSdr c j))) ∧
    (∀ c j, sir c j = coherenceToNegSdr E clampDb (flDiv E (cohSdr c j) (cohSar j))) ∧
    ∀ c j, sar c j = coherenceToNegSdr E clampDb (fin (cohSar j))

/-- Body of the loop over the batch with two further arguments, torch/helpers.py:91-98. -/
noncomputable def flPermItem₃ {fl : ℝ → ℝ} (h : IsNearest p fl) (nOut : ℕ) {a b : ℕ} (loss m₁ m₂ : Fin a → Fin b → XR) :
    Except PyErr ((Fin nOut → XR) × (Fin nOut → XR) × (Fin nOut → XR) × (Fin nOut → ℕ)) :=
  match flLsaWithInf h loss with
  | .error err => .error err
  | .ok l =>
    if hl : l.length = nOut then .ok (gather l hl loss, gather l hl m₁, gather l hl m₂, gather l hl fun _ j => j.val)
    else .error .valueError

/-- torch/helpers.py:66-106, `_solve_permutation(loss, m₁, m₂, return_perm=True)`, one element of the batch. -/
noncomputable def flSolvePermutation₃ {fl : ℝ → ℝ} (h : IsNearest p fl) (loss m₁ m₂ : Fin r → Fin e → XR) :
    Except PyErr ((Fin (min r e) → XR) × (Fin (min r e) → XR) × (Fin (min r e) → XR) × (Fin (min r e) → ℕ)) :=
  if e < r then flPermItem₃ h (min r e) (fun j i => loss i j) (fun j i => m₁ i j) fun j i => m₂ i j
  else flPermItem₃ h (min r e) loss m₁ m₂

/-- torch/metrics.py:590-674, `bss_eval_sources(ref, est, filter_length=K, use_cg_iter=None, ...)`: `res` is a possible outcome (SDR,
SIR, SAR, permutation).  Changes of the sign are exact. -/
def IsBssEval (E : Machine p) (A : Accuracy) (K : ℕ) (zeroMean : Bool) (load clampDb : Option ℝ) (ref : Fin r → Fin N → ℝ)
    (est : Fin e → Fin N → ℝ)
    (res : Except PyErr ((Fin (min r e) → XR) × (Fin (min r e) → XR) × (Fin (min r e) → XR) × (Fin (min r e) → ℕ))) : Prop :=
  ∃ sdr sir sar, IsBssLosses E A K zeroMean load clampDb ref est sdr sir sar ∧
    res = match flSolvePermutation₃ E.fl_nearest sir sdr sar with
      | .error err => .error err
      | .ok (i, d, a, perm) => .ok (fun c => (d c).neg, fun c => (i c).neg, fun c => (a c).neg, perm)

end FBE.Rounded
