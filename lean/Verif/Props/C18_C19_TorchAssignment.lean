import Verif.Proofs.HungarianFuel

/-!
# C18, C19 — the assignment solver of the torch back end (`torch/hungarian.py`)

The specification (`Verif/Spec/Assignment.lean`) mentions neither stars, primes nor covers.
-/

namespace FBE.Props

open Hungarian Spec

/-- **C18.** For every matrix of every shape, over any linearly ordered number type whose `+` and
`-` may be arbitrarily rounded as long as `a - a = 0`, the solver stops after at most
`fuelBound (min r c)` turns, raises nothing, and returns a complete assignment with sorted rows;
running it longer changes nothing. -/
theorem C18_torch_assignment_terminates {α : Type*} [LinearOrder α] [Zero α] [Add α] [Sub α]
    (hsub : ∀ a : α, a - a = 0) {r c : ℕ} (cost : Fin r → Fin c → α) :
    ∃ l, IsAssignment l ∧
      ∀ fuel, fuelBound (min r c) ≤ fuel → linearSumAssignment fuel cost = .ok l := by
  obtain ⟨l, h1, h2⟩ := lsa_valid hsub cost _ le_rfl
  exact ⟨l, h2, fun fuel hf => linearSumAssignment_mono cost _ _ hf h1⟩

/-- **C19.** In exact arithmetic (any linearly ordered abelian group) the assignment is optimal
among all complete assignments, for square, wide and tall matrices. -/
theorem C19_torch_assignment_optimal {α : Type*} [AddCommGroup α] [LinearOrder α]
    [IsOrderedAddMonoid α] {r c : ℕ} (cost : Fin r → Fin c → α) :
    ∃ l, IsOptimal cost l ∧
      ∀ fuel, fuelBound (min r c) ≤ fuel → linearSumAssignment fuel cost = .ok l := by
  obtain ⟨l, h1, h2⟩ := lsa_optimal cost _ le_rfl
  exact ⟨l, h2, fun fuel hf => linearSumAssignment_mono cost _ _ hf h1⟩

/-! ### the hypotheses are satisfiable -/

/-- Saturating integers: an arithmetic that is *not* a group but meets `a - a = 0`. -/
structure Sat where
  val : ℤ
  deriving DecidableEq

instance : LinearOrder Sat := LinearOrder.lift' Sat.val (fun a b h => by cases a; cases b; simp_all)
instance : Zero Sat := ⟨⟨0⟩⟩
instance : Add Sat := ⟨fun a b => ⟨max (-9) (min 9 (a.val + b.val))⟩⟩
instance : Sub Sat := ⟨fun a b => ⟨max (-9) (min 9 (a.val - b.val))⟩⟩

theorem Sat.sub_self' (a : Sat) : a - a = 0 := by
  show (⟨max (-9) (min 9 (a.val - a.val))⟩ : Sat) = ⟨0⟩
  simp

-- this arithmetic really rounds
example : ((⟨9⟩ : Sat) + ⟨9⟩) - ⟨9⟩ ≠ ⟨9⟩ := by decide

example : ∃ l, IsAssignment l ∧ ∀ fuel, fuelBound 2 ≤ fuel →
    linearSumAssignment fuel (![![⟨9⟩, ⟨-9⟩, ⟨3⟩], ![⟨2⟩, ⟨-9⟩, ⟨5⟩]] : Fin 2 → Fin 3 → Sat) = .ok l :=
  C18_torch_assignment_terminates Sat.sub_self' _

example : ∃ l, IsOptimal (![![4, 1, 3], ![2, 0, 5], ![3, 2, 2]] : Fin 3 → Fin 3 → ℤ) l ∧
    ∀ fuel, fuelBound 3 ≤ fuel → linearSumAssignment fuel
      (![![4, 1, 3], ![2, 0, 5], ![3, 2, 2]] : Fin 3 → Fin 3 → ℤ) = .ok l :=
  C19_torch_assignment_optimal _

-- the specification is not trivial: `[(0,0),(1,1)]` is an assignment but not an optimal one
example : IsAssignment ([(0, 0), (1, 1)] : List (Fin 2 × Fin 2)) ∧
    ¬ IsOptimal (![![1, 0], ![0, 1]] : Fin 2 → Fin 2 → ℤ) [(0, 0), (1, 1)] := by
  refine ⟨⟨by decide, by decide, by decide⟩, fun h => ?_⟩
  have := h.le [(0, 1), (1, 0)] ⟨by decide, by decide, by decide⟩
  revert this
  decide

end FBE.Props
