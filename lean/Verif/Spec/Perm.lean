import Verif.Spec.Assignment
import Verif.Model.XR
import Verif.Model.Basic
import Mathlib.Data.EReal.Operations
import Mathlib.Algebra.BigOperators.Group.Finset.Basic
import Mathlib.Data.Fintype.Card

/-!
# Specification: best assignments for loss matrices with infinities

Independent of the code of `_linear_sum_assignment_with_inf`.
-/

namespace FBE.Spec

variable {r c : ℕ}

/-- Number of `+inf` losses selected. -/
def countPos (cost : Fin r → Fin c → XR) (l : List (Fin r × Fin c)) : ℕ :=
  l.countP fun p => (cost p.1 p.2).isPosInf

/-- Number of `-inf` losses selected. -/
def countNeg (cost : Fin r → Fin c → XR) (l : List (Fin r × Fin c)) : ℕ :=
  l.countP fun p => (cost p.1 p.2).isNegInf

/-- Sum of the finite losses selected. -/
noncomputable def finTotal (cost : Fin r → Fin c → XR) (l : List (Fin r × Fin c)) : ℝ :=
  (l.map fun p => ((cost p.1 p.2).toReal?).getD 0).sum

/-- A best assignment: as few `+inf` as possible, as many `-inf` as possible, and the least finite
rest among the assignments selecting the same numbers of infinities. -/
structure IsBest (cost : Fin r → Fin c → XR) (l : List (Fin r × Fin c)) : Prop where
  isAssignment : IsAssignment l
  pos : ∀ l', IsAssignment l' → countPos cost l ≤ countPos cost l'
  neg : ∀ l', IsAssignment l' → countNeg cost l' ≤ countNeg cost l
  fin : ∀ l', IsAssignment l' → countPos cost l' = countPos cost l →
    countNeg cost l' = countNeg cost l → finTotal cost l ≤ finTotal cost l'

/-- The loss matrices on which permutation solving is possible: no NaN, not both infinities, and
not only infinities. -/
structure Solvable (cost : Fin r → Fin c → XR) : Prop where
  no_nan : ∀ i j, cost i j ≠ .nan
  one_sign : ¬ ((∃ i j, cost i j = .pinf) ∧ ∃ i j, cost i j = .ninf)
  some_finite : (∃ i j, cost i j = .pinf ∨ cost i j = .ninf) → ∃ i j x, cost i j = .fin x

/-- The behaviour assumed of `scipy.optimize.linear_sum_assignment` (external code): it rejects
NaN with `ValueError` and is optimal on finite matrices, rows sorted. -/
structure LsaCorrect
    (lsa : ∀ {r c : ℕ}, (Fin r → Fin c → XR) → Except PyErr (List (Fin r × Fin c))) : Prop where
  nan : ∀ {r c : ℕ} (cost : Fin r → Fin c → XR), (∃ i j, cost i j = .nan) →
    lsa cost = .error .valueError
  finite : ∀ {r c : ℕ} (x : Fin r → Fin c → ℝ),
    ∃ l, lsa (fun i j => .fin (x i j)) = .ok l ∧ IsOptimal x l

/-- A pairing of references with estimates, as large as possible: `min r e` pairs, no reference
and no estimate used twice. -/
structure Pairing (r e : ℕ) where
  ref : Fin (min r e) → Fin r
  est : Fin (min r e) → Fin e
  ref_inj : Function.Injective ref
  est_inj : Function.Injective est

/-- The entries of a matrix selected by a pairing. -/
def Pairing.values {β : Type*} {r e : ℕ} (P : Pairing r e) (M : Fin r → Fin e → β) :
    Fin (min r e) → β := fun k => M (P.ref k) (P.est k)

/-- Number of `+inf` in a vector. -/
def nPos {n : ℕ} (v : Fin n → XR) : ℕ := (Finset.univ.filter fun k => (v k).isPosInf = true).card

/-- Number of `-inf` in a vector. -/
def nNeg {n : ℕ} (v : Fin n → XR) : ℕ := (Finset.univ.filter fun k => (v k).isNegInf = true).card

/-- Sum of the finite entries of a vector. -/
noncomputable def finSum {n : ℕ} (v : Fin n → XR) : ℝ := ∑ k, ((v k).toReal?).getD 0

/-- Best pairing for a matrix of losses: as few `+inf` as possible, as many `-inf` as possible, and
the least finite rest among the pairings with these numbers of infinities. -/
structure BestPairing {r e : ℕ} (M : Fin r → Fin e → XR) (P : Pairing r e) : Prop where
  pos : ∀ P' : Pairing r e, nPos (P.values M) ≤ nPos (P'.values M)
  neg : ∀ P' : Pairing r e, nNeg (P'.values M) ≤ nNeg (P.values M)
  fin : ∀ P' : Pairing r e, nPos (P'.values M) = nPos (P.values M) →
    nNeg (P'.values M) = nNeg (P.values M) → finSum (P.values M) ≤ finSum (P'.values M)

/-- Extended real value of a loss (`nan` has none; the value `0` given here is never used, all
statements are about NaN-free matrices). -/
noncomputable def toEReal : XR → EReal
  | .fin x => (x : EReal)
  | .pinf => ⊤
  | .ninf => ⊥
  | .nan => 0

/-- Total of a vector of losses as an extended real. -/
noncomputable def eTotal {n : ℕ} (v : Fin n → XR) : EReal := ∑ k, toEReal (v k)

end FBE.Spec
