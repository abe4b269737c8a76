import Verif.Spec.Perm

/-!
# Specification: best assignments up to a tolerance

Independent of the code.
-/

namespace FBE.Spec

variable {r c : ℕ}

/-- Best up to `tol`: as few `+inf` as possible and as many `-inf` as possible, both exactly, and among the assignments
with these numbers of infinities at most `tol` above the least finite rest. -/
structure IsNearBest (tol : ℝ) (cost : Fin r → Fin c → XR) (l : List (Fin r × Fin c)) : Prop where
  isAssignment : IsAssignment l
  pos : ∀ l', IsAssignment l' → countPos cost l ≤ countPos cost l'
  neg : ∀ l', IsAssignment l' → countNeg cost l' ≤ countNeg cost l
  fin : ∀ l', IsAssignment l' → countPos cost l' = countPos cost l →
    countNeg cost l' = countNeg cost l → finTotal cost l ≤ finTotal cost l' + tol

end FBE.Spec
