import Verif.Model.Helpers
import Verif.Spec.Perm

/-!
# The back ends covered by the theorems

The torch package, and the numpy package with any assignment routine that behaves as
`scipy.optimize.linear_sum_assignment` is documented to.
-/

namespace FBE.Spec

/-- torch, or numpy (older or newer than 2) with a correct `scipy.optimize.linear_sum_assignment`. -/
def Covered (B : Backend) : Prop :=
  B = torchBackend ∨ ∃ (lsa : Lsa) (numpy2 : Bool), LsaCorrect @lsa ∧ B = numpyBackend @lsa numpy2

end FBE.Spec
