import Mathlib.Data.List.FinRange
import Mathlib.Algebra.Order.Group.Defs
import Mathlib.Algebra.BigOperators.Group.List.Basic

/-!
# Specification: complete assignments and optimal assignments

Independent of the code.  An assignment for an `r × c` matrix is a list of `(row, column)`
pairs, rows increasing, with no column used twice, matching as many rows/columns as possible.
-/

namespace FBE.Spec

/-- A complete assignment: `min r c` pairs, strictly increasing rows, pairwise distinct columns. -/
structure IsAssignment {r c : ℕ} (l : List (Fin r × Fin c)) : Prop where
  length_eq : l.length = min r c
  rows_sorted : (l.map Prod.fst).Pairwise (· < ·)
  cols_nodup : (l.map Prod.snd).Nodup

/-- Total cost of an assignment, `cost_matrix[row_ind, col_ind].sum()`. -/
def total {α : Type*} [AddCommMonoid α] {r c : ℕ} (cost : Fin r → Fin c → α)
    (l : List (Fin r × Fin c)) : α :=
  (l.map fun p => cost p.1 p.2).sum

/-- An assignment of minimal total cost. -/
structure IsOptimal {α : Type*} [AddCommMonoid α] [LE α] {r c : ℕ} (cost : Fin r → Fin c → α)
    (l : List (Fin r × Fin c)) : Prop where
  isAssignment : IsAssignment l
  le : ∀ l', IsAssignment l' → total cost l ≤ total cost l'

end FBE.Spec
