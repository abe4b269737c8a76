import Verif.Spec.Arrays

/-!
# What the outputs of `conjugate_gradient` mean
-/

namespace FBE.Spec

/-- The mean of one number for every right-hand side of every item of a batch; nan if there is none. -/
noncomputable def batchMean {s : List ℕ} {e : ℕ} (f : BIdx s → Fin e → ℝ) : XR :=
  if Fintype.card (BIdx s × Fin e) = 0 then .nan
  else .fin ((∑ p : BIdx s × Fin e, f p.1 p.2) / Fintype.card (BIdx s × Fin e))

/-- The mean of the Euclidean distances of the columns of `X` and `Z`. -/
noncomputable def meanDistance {s : List ℕ} {n e : ℕ} (X Z : BIdx s → Matrix (Fin n) (Fin e) ℝ) : XR :=
  batchMean fun m j => Real.sqrt (∑ t, (X m t j - Z m t j) ^ 2)

/-- The argument `precond`: an array of matrices, or nothing, which means the identity. -/
def HoldsPrecond {s : List ℕ} {n : ℕ} : Option (Tensor ℝ) → (BIdx s → Matrix (Fin n) (Fin n) ℝ) → Prop
  | none, Q => ∀ m, Q m = 1
  | some U, Q => Holds2 U Q

/-- The argument `x`: an array of columns, or nothing, which means zero. -/
def HoldsStart {s : List ℕ} {n e : ℕ} : Option (Tensor ℝ) → (BIdx s → Matrix (Fin n) (Fin e) ℝ) → Prop
  | none, X => ∀ m, X m = 0
  | some T, X => Holds2 T X

end FBE.Spec
