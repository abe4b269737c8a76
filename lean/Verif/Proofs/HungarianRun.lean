import Verif.Proofs.HungarianStep5
import Verif.Spec.Assignment
import Mathlib.Data.Fintype.EquivFin

/-! `_step6`, one turn of the machine, and termination of the whole run. -/

set_option linter.unusedSectionVars false

namespace FBE.Hungarian

variable {α : Type*} [LinearOrder α] [Zero α] [Add α] [Sub α] {n m : ℕ}

theorem listMin_ok {l : List α} (h : l ≠ []) :
    ∃ a, listMin l = .ok a ∧ a ∈ l ∧ ∀ b ∈ l, a ≤ b := by
  unfold listMin
  cases hm : l.min? with
  | none => rw [List.min?_eq_none_iff] at hm; exact absurd hm h
  | some a =>
    rw [List.min?_eq_some_iff] at hm
    exact ⟨a, rfl, hm.1, hm.2⟩

/-- `minval` of `_step6` is the minimum over the uncovered cells. -/
theorem minval_ok {ru : Fin n → Bool} {cu : Fin m → Bool} (C : Fin n → Fin m → α)
    (hr : ∃ i, ru i = true) (hc : ∃ j, cu j = true) :
    ∃ colMins minval, (nonzero1 cu).mapM
        (fun j => listMin ((nonzero1 ru).map fun i => C i j)) = .ok colMins ∧
      listMin colMins = .ok minval ∧
      (∃ i j, ru i = true ∧ cu j = true ∧ C i j = minval) ∧
      ∀ i j, ru i = true → cu j = true → minval ≤ C i j := by
  obtain ⟨i0, hi0⟩ := hr
  obtain ⟨j0, hj0⟩ := hc
  have hne : ∀ j, ((nonzero1 ru).map fun i => C i j) ≠ [] := by
    intro j h
    have : i0 ∈ nonzero1 ru := by simpa using hi0
    rw [List.map_eq_nil_iff] at h
    rw [h] at this
    simp at this
  choose f hf hfm hfl using fun j => listMin_ok (hne j)
  have hmap : ∀ l : List (Fin m), l.mapM
      (fun j => listMin ((nonzero1 ru).map fun i => C i j)) = .ok (l.map f) := by
    intro l
    induction l with
    | nil => rfl
    | cons a l ih =>
      rw [List.mapM_cons, hf, ih]
      rfl
  have hne2 : (nonzero1 cu).map f ≠ [] := by
    intro h
    have : j0 ∈ nonzero1 cu := by simpa using hj0
    rw [List.map_eq_nil_iff] at h
    rw [h] at this
    simp at this
  obtain ⟨a, ha, ham, hal⟩ := listMin_ok hne2
  refine ⟨_, a, hmap _, ha, ?_, ?_⟩
  · rw [List.mem_map] at ham
    obtain ⟨j, hj, hfj⟩ := ham
    have := hfm j
    rw [List.mem_map] at this
    obtain ⟨i, hi, hij⟩ := this
    exact ⟨i, j, by simpa using hi, by simpa using hj, by rw [hij, hfj]⟩
  · intro i j hi hj
    have h1 := hal (f j) (List.mem_map.2 ⟨j, by simpa using hj, rfl⟩)
    have h2 := hfl j (C i j) (List.mem_map.2 ⟨i, by simpa using hi, rfl⟩)
    exact h1.trans h2

/-- Under `Inv4`, some row and some column are uncovered. -/
theorem Inv4.uncovered {st : State α n m} (h : Inv4 st) (hnm : n ≤ m) :
    (∃ i, st.rowUncovered i = true) ∧ ∃ j, st.colUncovered j = true := by
  obtain ⟨i, hi⟩ := h.free
  constructor
  · refine ⟨i, ?_⟩
    by_contra hc
    obtain ⟨j, hj⟩ := h.cov_star (by simpa using hc)
    exact hi j hj
  · by_contra hc
    simp only [not_exists, Bool.not_eq_true] at hc
    -- every column is starred: injection of the columns into the rows, missing row `i`
    have hst : ∀ j, ∃ k, st.marked k j = 1 := by
      intro j
      by_contra hcon
      simp only [not_exists] at hcon
      have := h.free_col hcon
      rw [hc] at this
      simp at this
    choose f hf using hst
    have hinj : Function.Injective f := by
      intro a b hab
      have h1 := hf a
      have h2 := hf b
      rw [hab] at h1
      exact h.matching.row h1 h2
    have hcard := Fintype.card_le_of_injective f hinj
    simp only [Fintype.card_fin] at hcard
    obtain rfl : n = m := by omega
    obtain ⟨j, hj⟩ := Finite.injective_iff_surjective.1 hinj i
    exact hi j (hj ▸ hf j)

/-- What `_step6` guarantees. -/
structure Post6 (st : State α n m) (res : State α n m × Next) (minval : α) : Prop where
  next : res.2 = .step4
  marked : res.1.marked = st.marked
  row : res.1.rowUncovered = st.rowUncovered
  col : res.1.colUncovered = st.colUncovered
  attained : ∃ i j, st.rowUncovered i = true ∧ st.colUncovered j = true ∧ st.C i j = minval
  lower : ∀ i j, st.rowUncovered i = true → st.colUncovered j = true → minval ≤ st.C i j
  C_eq : ∀ i j, res.1.C i j =
    if st.colUncovered j then (if st.rowUncovered i then st.C i j else st.C i j + minval) - minval
    else (if st.rowUncovered i then st.C i j else st.C i j + minval)

theorem step6_spec (st : State α n m) (h : Inv4 st) (hnm : n ≤ m) :
    ∃ res minval, step6 st = .ok res ∧ Post6 st res minval := by
  obtain ⟨hr, hc⟩ := h.uncovered hnm
  obtain ⟨colMins, minval, h1, h2, h3, h4⟩ := minval_ok st.C hr hc
  unfold step6
  rw [if_pos]
  · rw [h1]
    dsimp only
    rw [h2]
    refine ⟨_, minval, rfl, rfl, rfl, rfl, rfl, h3, h4, ?_⟩
    intro i j
    rfl
  · simp only [Bool.and_eq_true, List.any_eq_true, List.mem_finRange, true_and]
    exact ⟨hr, hc⟩

theorem Inv4.congr {st st' : State α n m} (h : Inv4 st) (h1 : st'.marked = st.marked)
    (h2 : st'.rowUncovered = st.rowUncovered) (h3 : st'.colUncovered = st.colUncovered) :
    Inv4 st' := by
  cases st; cases st'
  dsimp only at h1 h2 h3
  subst h1 h2 h3
  exact ⟨h.matching, h.free, h.star_cov, h.free_col, h.cov_star, h.cov_prime, h.unc_prime,
    h.prime_unique, h.rank⟩

/-- One turn of the machine keeps the invariant and decreases the measure. -/
theorem stepFn_ok (hsub : ∀ a : α, a - a = 0) (fuel : ℕ) (nx : Next) (st : State α n m)
    (hnx : nx ≠ .done) (h : Inv nx st) (hnm : n ≤ m) (hf : n < fuel) :
    ∃ res, stepFn fuel nx st = .ok res ∧ Inv res.2 res.1 ∧ μ res.2 res.1 < μ nx st := by
  cases nx with
  | step1 =>
    refine ⟨_, rfl, step1_inv h, ?_⟩
    have := U_le (step1 st).1.marked
    have h2 : U (step1 st).1.marked * (3 * n + 5) ≤ n * (3 * n + 5) := Nat.mul_le_mul_right _ this
    show μ .step3 _ < _
    simp only [μ]
    omega
  | step3 =>
    obtain ⟨h1, h2, _⟩ := step3_inv h
    exact ⟨_, rfl, h1, h2⟩
  | step4 =>
    obtain ⟨res, hres, hp⟩ := step4_spec fuel st h hf
    refine ⟨res, hres, ?_⟩
    have hU := U_congr hp.stars
    rcases hp.next with ⟨h1, h2, h3, h4⟩ | ⟨h1, h2⟩
    · rw [h1]
      refine ⟨h2, ?_⟩
      simp only [μ, hU]
      split
      · rename_i hz; have := h4 hz; omega
      · omega
    · rw [h1]
      refine ⟨h2, ?_⟩
      simp only [μ, hU]
      split <;> omega
  | step5 =>
    obtain ⟨res, hres, hp⟩ := step5_spec st h
    refine ⟨res, hres, ?_⟩
    rw [hp.next]
    refine ⟨hp.inv, ?_⟩
    simp only [μ]
    have := hp.U_lt
    have h2 : (U res.1.marked + 1) * (3 * n + 5) ≤ U st.marked * (3 * n + 5) :=
      Nat.mul_le_mul_right _ this
    rw [Nat.add_mul] at h2
    omega
  | step6 =>
    obtain ⟨res, minval, hres, hp⟩ := step6_spec st h hnm
    refine ⟨res, hres, ?_⟩
    rw [hp.next]
    refine ⟨Inv4.congr h hp.marked hp.row hp.col, ?_⟩
    have hz : HasZero res.1 := by
      obtain ⟨i, j, h1, h2, h3⟩ := hp.attained
      refine ⟨i, j, by rw [hp.row]; exact h1, by rw [hp.col]; exact h2, ?_⟩
      rw [hp.C_eq, if_pos h2, if_pos h1, h3, hsub]
    have hV : V res.1 = V st := by unfold V; rw [hp.row]
    simp only [μ, hp.marked, hz, if_true, hV]
    omega
  | done => exact absurd rfl hnx

theorem run_ok (hsub : ∀ a : α, a - a = 0) (inner : ℕ) (hnm : n ≤ m) (hf : n < inner)
    (fuel : ℕ) (nx : Next) (st : State α n m) (h : Inv nx st) (hfuel : μ nx st ≤ fuel) :
    ∃ st', run inner fuel nx st = .ok st' ∧ Inv .done st' := by
  induction fuel generalizing nx st with
  | zero =>
    by_cases hnx : nx = .done
    · subst hnx; exact ⟨st, rfl, h⟩
    · obtain ⟨res, _, _, h3⟩ := stepFn_ok hsub inner nx st hnx h hnm hf
      omega
  | succ fuel ih =>
    by_cases hnx : nx = .done
    · subst hnx; exact ⟨st, rfl, h⟩
    · obtain ⟨res, h1, h2, h3⟩ := stepFn_ok hsub inner nx st hnx h hnm hf
      have hr : run inner (fuel + 1) nx st = run inner fuel res.2 res.1 := by
        cases nx <;> first | exact absurd rfl hnx | (simp only [run]; rw [h1])
      rw [hr]
      exact ih _ _ h2 (by omega)

/-- Fuel that always suffices. -/
def fuelBound (n : ℕ) : ℕ := n * (3 * n + 5) + 3 * n + 5

theorem solveMarked_ok (hsub : ∀ a : α, a - a = 0) (hnm : n ≤ m) (cost : Fin n → Fin m → α)
    (fuel : ℕ) (hf : fuelBound n ≤ fuel) :
    ∃ mk, solveMarked fuel cost = .ok mk ∧ Matching mk ∧ ∀ i, ∃ j, mk i j = 1 := by
  unfold solveMarked
  dsimp only
  by_cases h0 : n = 0 ∨ m = 0
  · rw [if_pos h0]
    have hn : n = 0 := by omega
    subst hn
    refine ⟨fun _ _ => 0, ?_, ⟨?_, ?_⟩, fun i => i.elim0⟩
    · cases fuel <;> rfl
    · intro i; exact i.elim0
    · intro i; exact i.elim0
  · rw [if_neg h0]
    have hI : Inv .step1 (initState cost) :=
      ⟨fun _ _ => rfl, fun _ => rfl, fun _ => rfl, by omega⟩
    obtain ⟨st', h1, h2⟩ := run_ok hsub fuel hnm (by unfold fuelBound at hf; omega) fuel .step1 _ hI
      (by simpa [μ, fuelBound] using hf)
    rw [h1]
    exact ⟨_, rfl, h2.1, h2.2⟩

end FBE.Hungarian
