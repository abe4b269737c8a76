import Verif.Spec.Training
import Verif.Spec.Signal

/-!
# Specification: many steps of training
-/

namespace FBE.Spec

variable {s : List ℕ} {c N : ℕ}

/-- `K` steps of gradient descent: `est i` are the estimates after `i` steps, `η i` the learning rate and `grad i` the computation of the
gradients of the next step (the loss may change from step to step).  The gradients are finite numbers: the run ends before a step for
which this is not so. -/
def Run (grad : ℕ → Sig s c N → Except PyErr (BIdx s → Fin c → Fin N → XR)) (η : ℕ → ℝ) (K : ℕ) (est : ℕ → Sig s c N) : Prop :=
  ∀ i < K, ∃ g γ, grad i (est i) = .ok g ∧ FiniteValues g γ ∧ est (i + 1) = descend (η i) γ (est i)

/-- During the run the channel never becomes quieter, and with `zero_mean` its mean stays. -/
def NeverQuieter (zeroMean : Bool) (K : ℕ) (est : ℕ → Sig s c N) (m : BIdx s) (j : Fin c) : Prop :=
  (∀ i < K, sigNorm (centred zeroMean (est i m j)) ≤ sigNorm (centred zeroMean (est (i + 1) m j))) ∧
    (zeroMean = true → ∀ i ≤ K, ∑ t, est i m j t = ∑ t, est 0 m j t)

/-- The loudness of a signal of norm `n`, after steps of learning rates `η` with gradients of the size `a` over the norm: its fourth
power is at most this. -/
noncomputable def loudnessBound (n a : ℝ) (η : ℕ → ℝ) (K : ℕ) : ℝ :=
  n ^ 4 + ∑ i ∈ Finset.range K, (2 * (η i * a) ^ 2 + (η i * a) ^ 4 / n ^ 4)

end FBE.Spec
