import Verif.Spec.Perm

/-!
# Specification: unique best pairings
-/

namespace FBE.Spec

variable {r e : ℕ}

/-- Two pairings join the same channels. -/
def SamePairs (P P' : Pairing r e) : Prop := ∀ k j, (∃ i, P.ref i = k ∧ P.est i = j) ↔ ∃ i, P'.ref i = k ∧ P'.est i = j

/-- All best pairings join the same channels. -/
def UniqueBest (M : Fin r → Fin e → XR) : Prop := ∀ P P' : Pairing r e, BestPairing M P → BestPairing M P' → SamePairs P P'

end FBE.Spec
