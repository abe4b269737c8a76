import Verif.Spec.Signal

/-!
# Channels with special samples
-/

namespace FBE.Spec

open XR

variable {n : ℕ}

/-- All samples of the channel are numbers. -/
def FiniteSamples (x : Fin n → XR) : Prop := ∀ t, ∃ a, x t = fin a

/-- `v` stands for the channel `x`: if all samples are numbers, it is the channel itself, or silence when the energy (without the
mean, if asked for) exceeds the range `Ω` of the data type.  For other channels `v` is arbitrary. -/
def StandsFor (Ω : ℝ) (zeroMean : Bool) (x : Fin n → XR) (v : Fin n → ℝ) : Prop :=
  ∀ u : Fin n → ℝ, (∀ t, x t = fin (u t)) →
    (∑ t, centred zeroMean u t ^ 2 ≤ Ω → v = u) ∧ (Ω < ∑ t, centred zeroMean u t ^ 2 → v = 0)

end FBE.Spec
