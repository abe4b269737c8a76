import Verif.Spec.Remix
import Verif.Proofs.Success
import Mathlib.LinearAlgebra.Matrix.NonsingularInverse
import Mathlib.LinearAlgebra.Matrix.ToLinearEquiv
import Mathlib.LinearAlgebra.FiniteDimensional.Lemmas

/-!
# Remixed references span the same space
-/

namespace FBE

open Spec XR

variable {s : List ℕ} {N L r e D : ℕ}

theorem centred_mixed (zm : Bool) (A : Matrix (Fin r) (Fin r) ℝ) (x : Fin r → Fin N → ℝ) (k : Fin r) :
    centred zm (mixed A x k) = mixed A (fun l => centred zm (x l)) k := by
  funext t
  unfold centred mixed
  cases zm with
  | false => rfl
  | true =>
    simp only [if_true]
    rw [Finset.sum_comm, Finset.sum_div, ← Finset.sum_sub_distrib]
    refine Finset.sum_congr rfl fun l _ => ?_
    rw [← Finset.mul_sum, mul_sub, mul_div_assoc]

theorem shift_mixed (A : Matrix (Fin r) (Fin r) ℝ) (x : Fin r → Fin N → ℝ) (k : Fin r) (i : ℕ) :
    shift D (mixed A x k) i = ∑ l, A k l • shift D (x l) i := by
  ext t
  have : (∑ l, A k l • shift D (x l) i) t = ∑ l, A k l * shift D (x l) i t := by simp
  rw [this]
  simp only [shift_apply]
  split
  · unfold zpad mixed
    split
    · rfl
    · simp
  · simp

theorem spanAll_mixed_le (A : Matrix (Fin r) (Fin r) ℝ) (x : Fin r → Fin N → ℝ) : spanAll D L (mixed A x) ≤ spanAll D L x := by
  unfold spanAll
  rw [Submodule.span_le]
  rintro v ⟨⟨i, k⟩, rfl⟩
  show shift D (mixed A x k) i ∈ _
  rw [shift_mixed]
  exact Submodule.sum_mem _ fun l _ => Submodule.smul_mem _ _ (Submodule.subset_span ⟨(i, l), rfl⟩)

theorem mixed_mixed (A C : Matrix (Fin r) (Fin r) ℝ) (x : Fin r → Fin N → ℝ) : mixed A (mixed C x) = mixed (A * C) x := by
  funext k t
  unfold mixed
  simp only [Matrix.mul_apply, Finset.mul_sum, Finset.sum_mul]
  rw [Finset.sum_comm]
  exact Finset.sum_congr rfl fun _ _ => Finset.sum_congr rfl fun _ _ => by ring

theorem mixed_one (x : Fin r → Fin N → ℝ) : mixed (1 : Matrix (Fin r) (Fin r) ℝ) x = x := by
  funext k t
  simp [mixed, Matrix.one_apply]

theorem spanAll_mixed {A : Matrix (Fin r) (Fin r) ℝ} (hA : A.det ≠ 0) (x : Fin r → Fin N → ℝ) : spanAll D L (mixed A x) = spanAll D L x := by
  refine le_antisymm (spanAll_mixed_le A x) ?_
  have h : mixed A⁻¹ (mixed A x) = x := by
    rw [mixed_mixed, Matrix.nonsing_inv_mul A (isUnit_iff_ne_zero.2 hA), mixed_one]
  conv_lhs => rw [← h]
  exact spanAll_mixed_le _ _

theorem not_independent_of_singular (hL : 1 ≤ L) {A : Matrix (Fin r) (Fin r) ℝ} (hA : A.det = 0) (x : Fin r → Fin N → ℝ) :
    ¬ IndependentShifts L (mixed A x) := by
  intro h
  obtain ⟨v, hv, hz⟩ := Matrix.exists_vecMul_eq_zero_iff.2 hA
  unfold IndependentShifts at h
  rw [Fintype.linearIndependent_iff] at h
  refine hv (funext fun k => ?_)
  have := h (fun p => if p.1 = ⟨0, hL⟩ then v p.2 else 0) (by
    rw [Fintype.sum_prod_type, Finset.sum_eq_single ⟨0, hL⟩]
    · simp only [if_true, shift_mixed, Finset.smul_sum, smul_smul]
      rw [Finset.sum_comm]
      refine Finset.sum_eq_zero fun l _ => ?_
      rw [← Finset.sum_smul]
      have := congrFun hz l
      unfold Matrix.vecMul dotProduct at this
      rw [this]
      exact zero_smul _ _
    · intro i _ hi
      simp [hi]
    · simp) (⟨0, hL⟩, k)
  simpa using this

theorem independent_mixed (hL : 1 ≤ L) (A : Matrix (Fin r) (Fin r) ℝ) (x : Fin r → Fin N → ℝ) :
    IndependentShifts L (mixed A x) ↔ IndependentShifts L x ∧ A.det ≠ 0 := by
  by_cases hA : A.det = 0
  · exact iff_of_false (not_independent_of_singular hL hA x) fun h => h.2 hA
  · rw [and_iff_left hA]
    have hs := spanAll_mixed (D := N + L - 1) (L := L) hA x
    unfold IndependentShifts
    unfold spanAll at hs
    rw [linearIndependent_iff_card_eq_finrank_span, linearIndependent_iff_card_eq_finrank_span, Set.finrank, Set.finrank, hs]

theorem cen_remixed (o : Opts) (A : BIdx s → Matrix (Fin r) (Fin r) ℝ) (ref : Sig s r N) (m : BIdx s) :
    cen o (remixed A ref) m = mixed (A m) (cen o ref m) :=
  funext fun k => centred_mixed o.zeroMean (A m) (ref m) k

end FBE
