import Verif.Model.Signal
import Mathlib.Analysis.SpecialFunctions.Complex.Circle
import Mathlib.Analysis.SpecialFunctions.Exp
import Mathlib.Data.Nat.Log

/-!
# The real FFT and the correlation statistics

`rfft` and `irfft` (scipy.fft, numpy.fft, torch.fft) are external; they are modelled by their
defining sums.
-/

namespace FBE

open Complex

/-- `exp(2πi k t / n)`.  The factors of the transforms at numpy/metrics.py:119-128. -/
noncomputable def tw (n k t : ℕ) : ℂ := Complex.exp (2 * Real.pi * I * (k * t) / n)

/-- `rfft(x, n)`: the input is zero-padded or truncated to length `n`, frequencies `0 … n/2`.
numpy/metrics.py:119-120, 169-170, numpy/cgd.py:87, 132, 173, 240, torch/compatibility.py:101-102. -/
noncomputable def rfft (n : ℕ) (x : List ℝ) : List ℂ :=
  (List.range (n / 2 + 1)).map fun k =>
    ∑ t ∈ Finset.range n, (x.getD t 0 : ℂ) * (starRingEnd ℂ) (tw n k t)

/-- `irfft(X, n)`: the Hermitian extension of the first `n/2 + 1` frequencies (missing ones are
zero) is transformed back; imaginary parts of the self-conjugate frequencies are ignored.
numpy/metrics.py:123, 128, 133, 174, 179, numpy/cgd.py:106, 150, 202, 271, torch/compatibility.py:104-109. -/
noncomputable def irfft (n : ℕ) (X : List ℂ) : List ℝ :=
  (List.range n).map fun t =>
    (∑ k ∈ Finset.range n,
      ((if k ≤ n / 2 then X.getD k 0 else (starRingEnd ℂ) (X.getD (n - k) 0)) * tw n k t).re) / n

/-- numpy/metrics.py:116-117, 166-167, torch/metrics.py:111-112, 162-163, for references of length `N`
and estimates of length `M`: `2 ** ceil(log2(N + max(N, M) - 1))`; `math.log2` of zero or of a negative
number is a `ValueError`.  The rounding of `math.log2` is in `Model/Log2.lean` (C86). -/
def nFft (N : ℕ) (M : ℕ := N) : Except PyErr ℕ :=
  if N + max N M ≤ 1 then .error .valueError else .ok (2 ^ Nat.clog 2 (N + max N M - 1))

/-- numpy/metrics.py:123, 129: `irfft(|X|²)[..., :length]` for one channel. -/
noncomputable def acf1 (n L : ℕ) (x : List ℝ) : List ℝ :=
  pySlice (irfft n ((rfft n x).map fun z => ((z.re ^ 2 + z.im ^ 2 : ℝ) : ℂ))) none (some L)

/-- numpy/metrics.py:127-129, 132-134, 178-180: `irfft(conj(X) * Y)[..., :length]`. -/
noncomputable def xcorr1 (n L : ℕ) (x y : List ℝ) : List ℝ :=
  pySlice (irfft n (List.zipWith (fun a b => (starRingEnd ℂ) a * b) (rfft n x) (rfft n y)))
    none (some L)

/-- numpy/metrics.py:173-175: `irfft(X_c * conj(X_d))`, first `length` and last `length` lags. -/
noncomputable def acf2 (n L : ℕ) (x y : List ℝ) : List ℝ :=
  let a := irfft n (List.zipWith (fun a b => a * (starRingEnd ℂ) b) (rfft n x) (rfft n y))
  pySlice a none (some L) ++ pySlice a (some (-(L : ℤ))) none

/-- `acf[..., 0] += load_diag` (numpy/metrics.py:261-264, 526-529). -/
def addHead : Option ℝ → List ℝ → List ℝ
  | some d, a :: l => (a + d) :: l
  | _, l => l

end FBE
