import Verif.Model.Metrics
import Verif.Spec.Signal

/-!
# Specification: signals with the same correlations, samples in another order, repeated recordings
-/

namespace FBE.Spec

variable {s : List ℕ} {r e c N N' : ℕ}

/-- Two pairs of references and estimates have (after the removal of the means, if asked for) the same
correlations at the lags `0, …, L - 1`, between references and between references and estimates, and the
estimates have the same energies. -/
structure SameCorrelations (zeroMean : Bool) (L : ℕ) (ref : Sig s r N) (est : Sig s e N) (ref' : Sig s r N')
    (est' : Sig s e N') : Prop where
  refs : ∀ m k l τ, τ < L → corr (centred zeroMean (ref' m k)) (centred zeroMean (ref' m l)) τ =
    corr (centred zeroMean (ref m k)) (centred zeroMean (ref m l)) τ
  ests : ∀ m k j τ, τ < L → corr (centred zeroMean (ref' m k)) (centred zeroMean (est' m j)) τ =
    corr (centred zeroMean (ref m k)) (centred zeroMean (est m j)) τ
  energies : ∀ m j, ∑ t, centred zeroMean (est' m j) t ^ 2 = ∑ t, centred zeroMean (est m j) t ^ 2

/-- The samples of all channels taken in the order `π`. -/
def reordered (π : Fin N ≃ Fin N) (x : Sig s c N) : Sig s c N := fun m k t => x m k (π t)

/-- A matrix applied to the samples of every channel. -/
def transformed (A : Fin N' → Fin N → ℝ) (x : Sig s c N) : Sig s c N' := fun m k t => ∑ u, A t u * x m k u

/-- The columns of the matrix are orthonormal. -/
def Orthonormal (A : Fin N' → Fin N → ℝ) : Prop := ∀ u v, ∑ t, A t u * A t v = if u = v then 1 else 0

/-- The recording, `z` zeros, and the recording again. -/
noncomputable def playedTwice (z : ℕ) (x : Sig s c N) : Sig s c (N + z + N) :=
  fun m k t => zpad (x m k) t + if N + z ≤ (t : ℕ) then zpad (x m k) (t - (N + z)) else 0

end FBE.Spec
