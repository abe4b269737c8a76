import Verif.Spec.Perm

/-!
# Specification: what a returned permutation means
-/

namespace FBE.Spec

variable {r e : ℕ}

/-- The array `perm` describes the pairing `P`: if there are at most as many references as
estimates, output channel `k` is reference `k` and `perm[k]` is its estimate; otherwise output
channel `k` is estimate `k` and `perm[k]` is its reference. -/
structure Describes (perm : Fin (min r e) → ℕ) (P : Pairing r e) : Prop where
  est : r ≤ e → ∀ k, (P.ref k).val = k.val ∧ perm k = (P.est k).val
  ref : e < r → ∀ k, (P.est k).val = k.val ∧ perm k = (P.ref k).val

end FBE.Spec
