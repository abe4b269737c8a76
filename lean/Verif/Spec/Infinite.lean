import Verif.Spec.Filter
import Verif.Spec.LeastSquares
import Verif.Spec.Options

/-!
# Specification: which signals have infinite metrics

Plain sums over the samples.
-/

namespace FBE.Spec

open XR

variable {N r : ℕ}

/-- The estimate `y` does not correlate with the reference `x` delayed by less than `L` samples: `∑ x[u] y[u + l] = 0`. -/
def Uncorrelated (L : ℕ) (x y : Fin N → ℝ) : Prop := ∀ l < L, corr x y l = 0

/-- `y` is a sum of the references passed through FIR filters of `L` taps, with nothing cut off at the end. -/
def IsRemix (L : ℕ) (x : Fin r → Fin N → ℝ) (y : Fin N → ℝ) : Prop :=
  ∃ h : Fin r → Fin L → ℝ, ∀ t : ℕ, zpad y t = ∑ k, filtered (h k) (x k) t

/-- Some filter for reference `k` alone leaves no more of `y` than any filters for all references. -/
def TargetOnly (L : ℕ) (x : Fin r → Fin N → ℝ) (k : Fin r) (y : Fin N → ℝ) : Prop :=
  ∃ f : Fin L → ℝ, ∀ g : Fin r → Fin L → ℝ, residualOne f (x k) y ≤ residualAll g x y

/-- A perfect estimate of `x`: not too quiet, and a filtered copy. -/
def Perfect (L : ℕ) (x y : Fin N → ℝ) : Prop := Audible y ∧ IsFiltered L x y

/-- The metrics of estimate `y` for reference `k` are infinite or NaN exactly where the signals say so. -/
structure InfiniteExactly (L : ℕ) (x : Fin r → Fin N → ℝ) (k : Fin r) (y : Fin N → ℝ) (sdr sir sar : XR) : Prop where
  sdr_pinf : sdr = pinf ↔ Perfect L (x k) y
  sdr_ninf : sdr = ninf ↔ Uncorrelated L (x k) y
  sdr_nan : sdr ≠ nan
  sir_pinf : sir = pinf ↔ ¬ Uncorrelated L (x k) y ∧ TargetOnly L x k y
  sir_ninf : sir = ninf ↔ Uncorrelated L (x k) y ∧ ∃ k', ¬ Uncorrelated L (x k') y
  sir_nan : sir = nan ↔ ∀ k', Uncorrelated L (x k') y
  sar_pinf : sar = pinf ↔ Audible y ∧ IsRemix L x y
  sar_ninf : sar = ninf ↔ ∀ k', Uncorrelated L (x k') y
  sar_nan : sar ≠ nan

/-- Not both a pair of the first kind and one of the second, and some pair of neither kind if there is one of either. -/
structure Mixable {e : ℕ} (P U : Fin r → Fin e → Prop) : Prop where
  one_sign : ¬ ((∃ k j, P k j) ∧ ∃ k j, U k j)
  some_finite : (∃ k j, P k j ∨ U k j) → ∃ k j, ¬ P k j ∧ ¬ U k j

end FBE.Spec
