import Verif.Model.RoundedPerm
import Verif.Model.Fft
import Mathlib.LinearAlgebra.Matrix.Notation

/-!
# `sdr_loss` in floating point arithmetic, filters of any length

All roundings from the samples to the decibel value, with the direct solver.  The FFT and `linalg.solve` are library
functions; what is assumed about them are error bounds of the kind proved in textbooks for all common algorithms
(`IsRfft`, `IsIrfft`, `IsSolve`).  Everything else is rounded operation by operation.  As in `Model/RoundedSi.lean`
the computations are relations.

Simplifications: those of `Model/RoundedSi.lean`; references and estimates have the same number of samples.
-/

namespace FBE.Rounded

open XR Matrix

/-- How accurate the libraries are.  No sample passes through more than `k` operations of a sum; `fft` bounds the relative
error of the transforms (about `log2 n` units in the last place) and `solve` the relative backward error of the linear
solver.  numpy/metrics.py:119-133, 270, torch/metrics.py:114-128, 266. -/
structure Accuracy where
  k : ℕ
  fft : ℝ
  solve : ℝ
  fft_nonneg : 0 ≤ fft
  solve_nonneg : 0 ≤ solve

variable {p N : ℕ}

/-- numpy/helpers.py:38-39, torch/helpers.py:30-31, `_remove_mean`, if `zero_mean`: the sum in any order, a division by the
number of samples (which is perhaps rounded, too) and a subtraction. -/
def IsCentred (E : Machine p) (k : ℕ) (zeroMean : Bool) (x x' : Fin N → ℝ) : Prop :=
  if zeroMean then
    ∃ q m, IsDot (2 ^ (-p : ℤ)) x (fun _ => 1) k Finset.univ q ∧ |m - q / N| ≤ 2 * 2 ^ (-p : ℤ) * |q / N| ∧
      ∀ t, x' t = E.fl (x t - m)
  else x' = x

/-- All `n` frequencies of the spectrum of a real signal, from the frequencies `0 … n/2` returned by `rfft`.
numpy/metrics.py:119-120, torch/metrics.py:114-115. -/
noncomputable def allFreqs (n : ℕ) (X : ℕ → ℂ) (f : ℕ) : ℂ :=
  if f ≤ n / 2 then X f else (starRingEnd ℂ) (X (n - f))

/-- numpy/metrics.py:119-120, torch/metrics.py:114-115, `rfft(x, n)`: the error is small compared with the spectrum, in the
Euclidean norm (the energy of the exact spectrum is `n` times the energy of the signal). -/
def IsRfft (A : Accuracy) (n : ℕ) (x : Fin N → ℝ) (X : ℕ → ℂ) : Prop :=
  ∑ f ∈ Finset.range n, ‖allFreqs n X f - allFreqs n (fun f => (rfft n (List.ofFn x)).getD f 0) f‖ ^ 2 ≤
    A.fft ^ 2 * (n * ∑ t, x t ^ 2)

/-- numpy/metrics.py:123, 128, 133, torch/metrics.py:119, 124, 129, `irfft(Z, n)`: every sample is a mean of the frequencies
times phases, and its error is small compared with the mean of their magnitudes. -/
def IsIrfft (A : Accuracy) (n : ℕ) (Z : ℕ → ℂ) (z : ℕ → ℝ) : Prop :=
  ∀ t < n, |z t - (irfft n ((List.range (n / 2 + 1)).map Z)).getD t 0| ≤
    A.fft * ((∑ f ∈ Finset.range n, ‖allFreqs n Z f‖) / n)

/-- numpy/metrics.py:123, 127, 132, torch/metrics.py:118, 123, 128: the products `conj(X) * Y`, and
`X.real**2 + X.imag**2` for `Y = X`.  With separate roundings of the real and the imaginary part the error of a product is at
most four units (`product_plain`). -/
def IsProducts (u : ℝ) (X Y Z : ℕ → ℂ) : Prop :=
  ∀ f, ‖Z f - (starRingEnd ℂ) (X f) * Y f‖ ≤ 4 * u * (‖X f‖ * ‖Y f‖)

/-- numpy/metrics.py:78-134, torch/metrics.py:76-130, `compute_stats` for one reference `x` and one estimate `y` and transforms
of size `n`. -/
def IsStats (p : ℕ) (A : Accuracy) (n : ℕ) (x y : Fin N → ℝ) (acf xcorr : ℕ → ℝ) : Prop :=
  ∃ X Y, IsRfft A n x X ∧ IsRfft A n y Y ∧
    (∃ Z, IsProducts (2 ^ (-p : ℤ)) X X Z ∧ IsIrfft A n Z acf) ∧
    ∃ Z, IsProducts (2 ^ (-p : ℤ)) X Y Z ∧ IsIrfft A n Z xcorr

/-- numpy/metrics.py:261-264, torch/metrics.py:257-260: `acf[..., 0] += load_diag`. -/
noncomputable def loaded (E : Machine p) : Option ℝ → (ℕ → ℝ) → ℕ → ℝ
  | none, acf => acf
  | some d, acf => fun t => if t = 0 then E.fl (acf 0 + E.fl d) else acf t

/-- numpy/linalg.py:32-39, torch/linalg.py:33-40, `toeplitz`: entries are copied. -/
def flToeplitz (K : ℕ) (acf : ℕ → ℝ) : Matrix (Fin K) (Fin K) ℝ :=
  fun i j => if i ≤ j then acf (j - i) else acf (i - j)

/-- numpy/metrics.py:270, torch/metrics.py:266, `linalg.solve`: the result solves exactly a system whose entries differ little
from the given ones, compared with the largest. -/
def IsSolve (A : Accuracy) {J : Type} [Fintype J] (M : Matrix J J ℝ) (b s : J → ℝ) : Prop :=
  ∃ D : Matrix J J ℝ, (M + D) *ᵥ s = b ∧
    ∀ B, (∀ i j, |M i j| ≤ B) → ∀ i j, |D i j| ≤ A.solve * B

/-- The size of the transforms for `N` samples, numpy/metrics.py:116-117, torch/metrics.py:111-112. -/
def fftSize (N : ℕ) : ℕ := 2 ^ Nat.clog 2 (2 * N - 1)

/-- numpy/metrics.py:250-279, torch/metrics.py:244-276: the coherence of `sdr_loss` for the preprocessed reference `x` and
estimate `y`, filters of `K ≥ 2` taps. -/
def IsFirCoherence (E : Machine p) (A : Accuracy) (K : ℕ) (load : Option ℝ) (x y : Fin N → ℝ) (coh : ℝ) : Prop :=
  ∃ (acf xcorr : ℕ → ℝ) (s : Fin K → ℝ), IsStats p A (fftSize N) x y acf xcorr ∧
    IsSolve A (flToeplitz K (loaded E load acf)) (fun i => xcorr i) s ∧
    IsDot (2 ^ (-p : ℤ)) (fun i : Fin K => xcorr i) s A.k Finset.univ coh

/-- numpy/metrics.py:56-63, torch/metrics.py:51-58: the coherence for filters of one tap. -/
def IsOneTapCoherence (E : Machine p) (A : Accuracy) (x y : Fin N → ℝ) (coh : ℝ) : Prop :=
  ∃ c, IsDot (2 ^ (-p : ℤ)) x y A.k Finset.univ c ∧ coh = E.fl (c * c)

/-- numpy/metrics.py:238-279, torch/metrics.py:232-276: the coherence of `sdr_loss` for the reference `x` and the
estimate `y`. -/
def IsSdrCoherence (E : Machine p) (A : Accuracy) (K : ℕ) (zeroMean : Bool) (load : Option ℝ) (x y : Fin N → ℝ)
    (coh : ℝ) : Prop :=
  ∃ xc yc x' y', IsCentred E A.k zeroMean x xc ∧ IsCentred E A.k zeroMean y yc ∧
    IsNormalized E A.k xc x' ∧ IsNormalized E A.k yc y' ∧
    if K = 1 then IsOneTapCoherence E A x' y' coh else IsFirCoherence E A K load x' y' coh

/-- numpy/metrics.py:185-284, torch/metrics.py:180-281, `sdr_loss(y, x, filter_length=K, use_cg_iter=None, ...)`: `v` is a possible
result for the estimate `y` of the reference `x`. -/
def IsSdrLoss (E : Machine p) (A : Accuracy) (K : ℕ) (zeroMean : Bool) (load clampDb : Option ℝ) (y x : Fin N → ℝ)
    (v : XR) : Prop :=
  ∃ coh, IsSdrCoherence E A K zeroMean load x y coh ∧ v = coherenceToNegSdr E clampDb (fin coh)

/-- torch/metrics.py:365-443, `sdr(ref, est, filter_length=K, use_cg_iter=None, ..., return_perm=True)`: `res` is a possible
outcome.  A change of the sign is exact. -/
def IsSdr {r e : ℕ} (E : Machine p) (A : Accuracy) (K : ℕ) (zeroMean : Bool) (load clampDb : Option ℝ) (ref : Fin r → Fin N → ℝ)
    (est : Fin e → Fin N → ℝ) (res : Except PyErr ((Fin (min r e) → XR) × (Fin (min r e) → ℕ))) : Prop :=
  ∃ v : Fin r → Fin e → XR, (∀ i j, IsSdrLoss E A K zeroMean load clampDb (est j) (ref i) (v i j)) ∧
    res = match flSolvePermutation E.fl_nearest v with
      | .error err => .error err
      | .ok (loss, perm) => .ok (fun c => (loss c).neg, perm)

end FBE.Rounded
