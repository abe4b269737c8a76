import Verif.Spec.Signal

/-!
# Specification: filtered signals
-/

namespace FBE.Spec

/-- `y` is `x` passed through some FIR filter with `L` taps, with nothing cut off at the end:
`y[t] = ∑ h[l] x[t - l]` at all times, both signals being silent outside of their samples. -/
def IsFiltered {N : ℕ} (L : ℕ) (x y : Fin N → ℝ) : Prop :=
  ∃ h : Fin L → ℝ, ∀ t : ℕ, zpad y t = ∑ l : Fin L, h l * (if l.val ≤ t then zpad x (t - l) else 0)

/-- The first `N` samples of the convolution with the filter `h`. -/
def convolve {N L : ℕ} (h : Fin L → ℝ) (x : Fin N → ℝ) : Fin N → ℝ :=
  fun t => ∑ l : Fin L, h l * (if l.val ≤ t.val then zpad x (t.val - l) else 0)

end FBE.Spec
