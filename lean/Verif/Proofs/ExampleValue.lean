import Verif.Proofs.ExampleCg
import Verif.Spec.Unique

/-!
# The values of the concrete case
-/

set_option linter.unusedSectionVars false

namespace FBE.Ex

open Spec XR Matrix

theorem gain_est (m : BIdx []) (j : Fin 2) : gain (est m j) ^ 2 = 1 / 5 := by
  have : ∑ t, est m j t ^ 2 = 5 := by
    fin_cases j <;> simp [est, Fin.sum_univ_three] <;> norm_num
  unfold gain sigNorm
  rw [this, max_eq_left, inv_pow, Real.sq_sqrt (by norm_num)]
  · norm_num
  · have : (1 : ℝ) ≤ Real.sqrt 5 := Real.one_le_sqrt.2 (by norm_num)
    linarith

theorem coeff_value (m : BIdx []) (i k j : Fin 2) :
    inner ℝ (shift 4 (prep opts ref m k) i) (shift 4 (prep opts est m j) 0) =
      gain (est m j) * if i = 0 then (if k = j then 2 else 1) else 0 := by
  have hc : centred opts.zeroMean (est m j) = est m j := cen_eq est m j
  have he : prep opts est m j = fun t => gain (est m j) * est m j t := by
    rw [prep_eq, hc]
  rw [prep_ref, he, PiLp.inner_apply]
  simp only [Fin.sum_univ_succ, shift_apply]
  fin_cases i <;> fin_cases k <;> fin_cases j <;> simp [zpad, ref, est]

/-- The coherences of the concrete case. -/
theorem sqCosPair_value : sqCosPair torchBackend opts ref est =
    .ok (fun _ k j => if k = j then 4 / 5 else 1 / 5, fun _ _ => 1) := by
  rw [sqCosPair_direct (o := opts) nFft_three (by rfl) (by decide) fam8 (by decide) covered rfl, if_neg]
  · congr 2
    · funext m k j
      unfold quad
      rw [gram_one, inv_one, one_mulVec, dotProduct, Fin.sum_univ_two]
      show inner ℝ (shift 4 (prep opts ref m k) (0 : Fin 2)) (shift 4 (prep opts est m j) 0) *
        inner ℝ (shift 4 (prep opts ref m k) (0 : Fin 2)) (shift 4 (prep opts est m j) 0) +
        inner ℝ (shift 4 (prep opts ref m k) (1 : Fin 2)) (shift 4 (prep opts est m j) 0) *
        inner ℝ (shift 4 (prep opts ref m k) (1 : Fin 2)) (shift 4 (prep opts est m j) 0) = _
      rw [coeff_value, coeff_value, if_pos rfl, if_neg (show ¬ (1 : Fin 2) = 0 by decide)]
      have := gain_est m j
      split_ifs <;> nlinarith
    · funext m j
      unfold quad
      rw [gram_all, inv_one, one_mulVec, dotProduct]
      have e : ∀ p : Fin 2 × Fin 2, coeffs (allFam (fun x i => shift 4 x i) 2 (prep opts ref m))
          (shift 4 (prep opts est m j) 0) p = gain (est m j) * if p.1 = 0 then (if p.2 = j then 2 else 1) else 0 :=
        fun p => coeff_value m p.1 p.2 j
      simp only [e, Fintype.sum_prod_type, Fin.sum_univ_two]
      have h0 := gain_est m 0
      have h1 := gain_est m 1
      fin_cases j <;> simp <;> nlinarith
  · rintro (⟨i, h⟩ | ⟨m, h⟩)
    · unfold SingularOne at h
      rw [gram_one, det_one] at h
      norm_num at h
    · unfold SingularAll at h
      rw [gram_all, det_one] at h
      norm_num at h

theorem sdrCohPair_value : sdrCohPair torchBackend opts ref est = .ok fun _ k j => if k = j then 4 / 5 else 1 / 5 :=
  sqCosPair_sdr _ _ sqCosPair_value

/-- A matrix with smaller entries on the diagonal. -/
theorem best_diag {a b : ℝ} (h : a < b) : ∀ P : Pairing 2 2,
    BestPairing (fun k j : Fin 2 => fin (if k = j then a else b)) P → ∀ i, P.est i = P.ref i := by
  have key : ∀ f g : Fin 2 → Fin 2, Function.Injective f → Function.Injective g →
      (∀ i, g i = f i) ∨ ∀ i, f i ≠ g i := by decide
  intro P hP
  rcases key P.ref P.est P.ref_inj P.est_inj with h0 | h0
  · exact h0
  · exfalso
    have hp : ∀ P : Pairing 2 2, nPos (P.values fun k j : Fin 2 => fin (if k = j then a else b)) = 0 := fun P =>
      nPos_eq_zero_iff.2 fun k h => by cases h
    have hn : ∀ P : Pairing 2 2, nNeg (P.values fun k j : Fin 2 => fin (if k = j then a else b)) = 0 := fun P =>
      nNeg_eq_zero_iff.2 fun k h => by cases h
    have h := hP.fin ⟨id, id, fun _ _ h => h, fun _ _ h => h⟩ (by rw [hp, hp]) (by rw [hn, hn])
    have e1 : finSum (P.values fun k j : Fin 2 => fin (if k = j then a else b)) = b + b := by
      show ∑ k : Fin 2, _ = _
      rw [Fin.sum_univ_two]
      show (if P.ref (0 : Fin 2) = P.est (0 : Fin 2) then a else b) +
        (if P.ref (1 : Fin 2) = P.est (1 : Fin 2) then a else b) = _
      rw [if_neg (h0 0), if_neg (h0 1)]
    have e2 : finSum (Pairing.values (⟨id, id, fun _ _ h => h, fun _ _ h => h⟩ : Pairing 2 2)
        fun k j : Fin 2 => fin (if k = j then a else b)) = a + a := by
      show ∑ k : Fin 2, _ = _
      rw [Fin.sum_univ_two]
      show (if (0 : Fin 2) = 0 then a else b) + (if (1 : Fin 2) = 1 then a else b) = _
      rw [if_pos rfl, if_pos rfl]
    rw [e1, e2] at h
    linarith

theorem unique_diag {a b : ℝ} (h : a < b) : UniqueBest fun k j : Fin 2 => fin (if k = j then a else b) := by
  have hsurj : ∀ (P : Pairing 2 2) (k : Fin 2), ∃ i, P.ref i = k := fun P => Finite.surjective_of_injective (α := Fin 2) P.ref_inj
  intro P P' hP hP' k j
  have h1 := best_diag h P hP
  have h2 := best_diag h P' hP'
  constructor
  · rintro ⟨i, rfl, rfl⟩
    obtain ⟨i', hi'⟩ := hsurj P' (P.ref i)
    exact ⟨i', hi', by rw [h2, hi', h1]⟩
  · rintro ⟨i, rfl, rfl⟩
    obtain ⟨i', hi'⟩ := hsurj P (P'.ref i)
    exact ⟨i', hi', by rw [h1, hi', h2]⟩

end FBE.Ex
