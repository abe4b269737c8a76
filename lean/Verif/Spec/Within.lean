import Verif.Spec.BssError

/-!
# Specification: values inside a range of decibels

Independent of the code.
-/

namespace FBE.Spec

/-- Neither of the energies `A` and `B` exceeds the other by more than `d` decibels. -/
def WithinDb (d A B : ℝ) : Prop := A ≤ (10 : ℝ) ^ (d / 10) * B ∧ B ≤ (10 : ℝ) ^ (d / 10) * A

end FBE.Spec
