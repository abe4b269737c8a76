import Verif.Spec.LeastSquares

/-!
# Estimates made of known parts

Signals after filtering are longer than `N` samples; they are given as functions on all times `0, 1, …`.  Everything here is plain
sums over samples.
-/

namespace FBE.Spec

variable {N L r : ℕ}

/-- Energy of the samples before time `D`. -/
def energyTo (D : ℕ) (v : ℕ → ℝ) : ℝ := ∑ t ∈ Finset.range D, v t ^ 2

/-- The signal `v` does not correlate with `x` delayed by less than `L` samples: `∑ x[u] v[u + l] = 0`. -/
def UncorrelatedTo (L : ℕ) (x : Fin N → ℝ) (v : ℕ → ℝ) : Prop := ∀ l < L, ∑ u : Fin N, x u * v (u + l) = 0

/-- The estimate `y` is the sum of a target (reference `k` passed through some filter), an interference (a sum of filtered references,
without correlation to reference `k`) and an artefact (without correlation to any reference). -/
structure Parts (L : ℕ) (x : Fin r → Fin N → ℝ) (k : Fin r) (y : Fin N → ℝ) (target interf artif : ℕ → ℝ) : Prop where
  total : ∀ t, zpad y t = target t + interf t + artif t
  target_filtered : ∃ h : Fin L → ℝ, ∀ t, target t = filtered h (x k) t
  interf_filtered : ∃ h : Fin r → Fin L → ℝ, ∀ t, interf t = ∑ k', filtered (h k') (x k') t
  interf_uncorrelated : UncorrelatedTo L (x k) interf
  artif_uncorrelated : ∀ k', UncorrelatedTo L (x k') artif

/-- No two references correlate, not even if one of them is delayed by less than `L` samples. -/
def UncorrelatedSources (L : ℕ) (x : Fin r → Fin N → ℝ) : Prop :=
  ∀ k k', k ≠ k' → UncorrelatedTo L (x k) (zpad (x k'))

end FBE.Spec
