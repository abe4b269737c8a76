import Verif.Model.Metrics

/-!
# Specification: one step of training

The samples of the estimates are the parameters, or the output of a network.  A loss is a relation between the estimates and the
number that is computed of them (it need not be defined everywhere).
-/

namespace FBE.Spec

variable {s : List ℕ} {c N : ℕ}

/-- The gradients `g` are the finite numbers `γ`. -/
def FiniteValues (g : BIdx s → Fin c → Fin N → XR) (γ : Sig s c N) : Prop := ∀ m j t, g m j t = .fin (γ m j t)

/-- The estimates after a step of gradient descent with the learning rate `η`. -/
noncomputable def descend (η : ℝ) (γ est : Sig s c N) : Sig s c N := fun m j t => est m j t - η * γ m j t

/-- A step with any learning rate that is small enough lowers the loss, by at least the fraction `a` of what the gradient
promises, for every `a < 1`. -/
def Lowers (loss : Sig s c N → ℝ → Prop) (γ est : Sig s c N) : Prop :=
  ∃ y, loss est y ∧ ∀ a < 1, ∃ η₀ > 0, ∀ η, 0 < η → η < η₀ →
    ∃ y', loss (descend η γ est) y' ∧ y' ≤ y - a * η * ∑ m, ∑ j, ∑ t, γ m j t ^ 2

/-- No step, of whatever size, makes the estimate `j` quieter: its energy grows by the energy of the step. -/
def GrowsLouder (γ est : Sig s c N) (m : BIdx s) (j : Fin c) : Prop :=
  ∀ η, ∑ t, descend η γ est m j t ^ 2 = ∑ t, est m j t ^ 2 + ∑ t, (η * γ m j t) ^ 2

/-- No step changes the mean of the estimate `j`. -/
def KeepsMean (γ est : Sig s c N) (m : BIdx s) (j : Fin c) : Prop := ∀ η, ∑ t, descend η γ est m j t = ∑ t, est m j t

/-- What holds for a step against the gradients `g` computed for the estimates `est`.  (`quiet m j`: the channel is at most as
loud as the threshold of the normalisation.) -/
def GoodStep (zeroMean : Bool) (quiet : BIdx s → Fin c → Prop) (loss : Sig s c N → ℝ → Prop) (g : BIdx s → Fin c → Fin N → XR)
    (est : Sig s c N) : Prop :=
  ∃ γ, FiniteValues g γ ∧ Lowers loss γ est ∧ (∀ m j, ¬ quiet m j → GrowsLouder γ est m j) ∧
    (zeroMean = true → ∀ m j, KeepsMean γ est m j)

end FBE.Spec
