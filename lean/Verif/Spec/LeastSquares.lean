import Verif.Spec.Signal

/-!
# Specification: filters fitted by least squares

Plain sums over the samples; no projections, no spaces.
-/

namespace FBE.Spec

/-- Sample `t` of `x` passed through the FIR filter `h`: `∑ h[l] x[t - l]`, with `x` silent outside of its
samples. -/
def filtered {N L : ℕ} (h : Fin L → ℝ) (x : Fin N → ℝ) (t : ℕ) : ℝ :=
  ∑ l : Fin L, h l * (if l.val ≤ t then zpad x (t - l) else 0)

/-- Energy of a signal: the sum of the squares of its samples. -/
def power {N : ℕ} (y : Fin N → ℝ) : ℝ := ∑ t, y t ^ 2

/-- Energy of what remains of `y` if the reference `x` passed through `h` is subtracted, over all the
`N + L - 1` samples where one of them can be nonzero. -/
def residualOne {N L : ℕ} (h : Fin L → ℝ) (x y : Fin N → ℝ) : ℝ :=
  ∑ t ∈ Finset.range (N + L - 1), (zpad y t - filtered h x t) ^ 2

/-- The same with a filter for each of the references. -/
def residualAll {N L r : ℕ} (h : Fin r → Fin L → ℝ) (x : Fin r → Fin N → ℝ) (y : Fin N → ℝ) : ℝ :=
  ∑ t ∈ Finset.range (N + L - 1), (zpad y t - ∑ k, filtered (h k) (x k) t) ^ 2

/-- No filter of this length leaves less. -/
def IsBestFilter {N L : ℕ} (h : Fin L → ℝ) (x y : Fin N → ℝ) : Prop :=
  ∀ h' : Fin L → ℝ, residualOne h x y ≤ residualOne h' x y

/-- No filters of this length leave less. -/
def AreBestFilters {N L r : ℕ} (h : Fin r → Fin L → ℝ) (x : Fin r → Fin N → ℝ) (y : Fin N → ℝ) : Prop :=
  ∀ h' : Fin r → Fin L → ℝ, residualAll h x y ≤ residualAll h' x y

end FBE.Spec
