import Verif.Proofs.Angle
import Verif.Proofs.Gradient
import Verif.Proofs.LeastSquares

/-!
# The documented metrics under small changes of the estimate
-/

namespace FBE

open Spec XR InnerProductGeometry

variable {N r L : ℕ}

theorem norm_shift_zero {D : ℕ} (hD : N ≤ D) (y : Fin N → ℝ) : ‖shift D y 0‖ ^ 2 = ∑ t, y t ^ 2 := by
  have := energy_shift D hD y
  rwa [sigNorm_sq] at this

theorem shift_sub_zero (D : ℕ) (y y' : Fin N → ℝ) : shift D y' 0 - shift D y 0 = shift D (fun t => y' t - y t) 0 := by
  have h := shift_add D y (fun t => y' t - y t) 0
  rw [show y + (fun t => y' t - y t) = y' from by funext t; simp] at h
  rw [h, add_sub_cancel_left]

theorem near_shift {D : ℕ} (hD : N ≤ D) {δ : ℝ} (hδ : 0 ≤ δ) {y y' : Fin N → ℝ} (h : Near δ y y') :
    ‖shift D y' 0 - shift D y 0‖ ≤ δ * ‖shift D y 0‖ := by
  refine le_of_sq_le_sq ?_ (by positivity)
  rw [shift_sub_zero, norm_shift_zero hD, mul_pow, norm_shift_zero hD]
  exact h

theorem shift_ne_zero {D : ℕ} (hD : N ≤ D) {y : Fin N → ℝ} (hy : Audible y) : shift D y 0 ≠ 0 := by
  intro h
  have h1 := energy_shift D hD y
  rw [h] at h1
  unfold energy at h1
  rw [norm_zero] at h1
  have h2 : (1e-6 : ℝ) ≤ sigNorm y := hy
  nlinarith

theorem dbRatio_ne_nan {a b : ℝ} (h : a + b ≠ 0) : dbRatio a b ≠ .nan := by
  unfold dbRatio
  split_ifs with h1 h2 <;> simp
  exact h (by rw [h1, h2, add_zero])

theorem dbRatio_proj_ne_nan {D : ℕ} (K : Submodule ℝ (Space D)) {u : Space D} (hu : u ≠ 0) :
    dbRatio (energy (K.starProjection u)) (energy (u - K.starProjection u)) ≠ .nan := by
  refine dbRatio_ne_nan ?_
  rw [energy_sub_proj, add_sub_cancel]
  unfold energy
  positivity

theorem docSdr_angle (hL : L ≠ 0) (x : Fin r → Fin N → ℝ) (k : Fin r) {y : Fin N → ℝ} (hy : Audible y) :
    dbAngle (docSdr L x k y) = subAngle (spanOne (N + L - 1) L (x k)) (shift (N + L - 1) y 0) ∧ docSdr L x k y ≠ .nan :=
  have h := shift_ne_zero (D := N + L - 1) (by omega) hy
  ⟨dbAngle_proj _ h, dbRatio_proj_ne_nan _ h⟩

theorem docSar_angle (hL : L ≠ 0) (x : Fin r → Fin N → ℝ) {y : Fin N → ℝ} (hy : Audible y) :
    dbAngle (docSar L x y) = subAngle (spanAll (N + L - 1) L x) (shift (N + L - 1) y 0) ∧ docSar L x y ≠ .nan :=
  have h := shift_ne_zero (D := N + L - 1) (by omega) hy
  ⟨dbAngle_proj _ h, dbRatio_proj_ne_nan _ h⟩

theorem proj_proj_le {D : ℕ} {K K' : Submodule ℝ (Space D)} (hK : K ≤ K') (u : Space D) :
    K.starProjection (K'.starProjection u) = K.starProjection u := by
  rw [← sub_eq_zero, ← map_sub]
  refine (Submodule.starProjection_apply_eq_zero_iff K).2 fun z hz => ?_
  rw [← neg_sub, inner_neg_right, real_inner_comm, K'.starProjection_inner_eq_zero u z (hK hz), neg_zero]

theorem docSir_angle (x : Fin r → Fin N → ℝ) (k : Fin r) {y : Fin N → ℝ}
    (hy : (spanAll (N + L - 1) L x).starProjection (shift (N + L - 1) y 0) ≠ 0) :
    dbAngle (docSir L x k y) = subAngle (spanOne (N + L - 1) L (x k))
      ((spanAll (N + L - 1) L x).starProjection (shift (N + L - 1) y 0)) ∧ docSir L x k y ≠ .nan := by
  have hK := proj_proj_le (spanOne_le_spanAll (N + L - 1) L x k) (shift (N + L - 1) y 0)
  have h1 := dbAngle_proj (spanOne (N + L - 1) L (x k)) hy
  have h2 := dbRatio_proj_ne_nan (spanOne (N + L - 1) L (x k)) hy
  rw [hK] at h1 h2
  exact ⟨h1, h2⟩

/-- SDR. -/
theorem docSdr_near (hL : L ≠ 0) {δ : ℝ} (h0 : 0 ≤ δ) (h1 : δ < 1) (x : Fin r → Fin N → ℝ) (k : Fin r) {y y' : Fin N → ℝ}
    (hy : Audible y) (hy' : Audible y') (h : Near δ y y') :
    |dbAngle (docSdr L x k y') - dbAngle (docSdr L x k y)| ≤ Real.arcsin δ := by
  rw [(docSdr_angle hL x k hy).1, (docSdr_angle hL x k hy').1]
  exact (abs_subAngle_sub _ _ _).trans
    (angle_le_arcsin h0 h1 (shift_ne_zero (by omega) hy) (near_shift (by omega) h0 h))

/-- SAR. -/
theorem docSar_near (hL : L ≠ 0) {δ : ℝ} (h0 : 0 ≤ δ) (h1 : δ < 1) (x : Fin r → Fin N → ℝ) {y y' : Fin N → ℝ}
    (hy : Audible y) (hy' : Audible y') (h : Near δ y y') :
    |dbAngle (docSar L x y') - dbAngle (docSar L x y)| ≤ Real.arcsin δ := by
  rw [(docSar_angle hL x hy).1, (docSar_angle hL x hy').1]
  exact (abs_subAngle_sub _ _ _).trans
    (angle_le_arcsin h0 h1 (shift_ne_zero (by omega) hy) (near_shift (by omega) h0 h))

/-- SIR: relative to the part of the estimate that is explained by all the references. -/
theorem docSir_near (hL : L ≠ 0) {δ : ℝ} (h0 : 0 ≤ δ) (x : Fin r → Fin N → ℝ) (k : Fin r) {y y' : Fin N → ℝ}
    (hy : Audible y) (h1 : δ < Real.cos (dbAngle (docSar L x y))) (h : Near δ y y') :
    |dbAngle (docSir L x k y') - dbAngle (docSir L x k y)| ≤ Real.arcsin (δ / Real.cos (dbAngle (docSar L x y))) ∧
      docSir L x k y ≠ .nan ∧ docSir L x k y' ≠ .nan := by
  obtain ⟨K, hK⟩ : ∃ K, spanAll (N + L - 1) L x = K := ⟨_, rfl⟩
  obtain ⟨u, hu⟩ : ∃ u, shift (N + L - 1) y 0 = u := ⟨_, rfl⟩
  obtain ⟨u', hu'⟩ : ∃ u, shift (N + L - 1) y' 0 = u := ⟨_, rfl⟩
  have hu0 : u ≠ 0 := hu ▸ shift_ne_zero (by omega) hy
  have hup : 0 < ‖u‖ := norm_pos_iff.2 hu0
  have hd : ‖u' - u‖ ≤ δ * ‖u‖ := by
    rw [← hu, ← hu']; exact near_shift (by omega) h0 h
  have hc : Real.cos (dbAngle (docSar L x y)) = ‖K.starProjection u‖ / ‖u‖ := by
    rw [(docSar_angle hL x hy).1, hK, hu]
    unfold subAngle
    refine Real.cos_arccos (by have : 0 ≤ ‖K.starProjection u‖ / ‖u‖ := by positivity
                               linarith) ?_
    rw [div_le_one hup]
    exact K.norm_starProjection_apply_le u
  rw [hc] at h1 ⊢
  rw [lt_div_iff₀ hup] at h1
  have hw : K.starProjection u ≠ 0 := by
    intro h; rw [h, norm_zero] at h1
    exact absurd h1 (not_lt.2 (by positivity))
  have hwp : 0 < ‖K.starProjection u‖ := norm_pos_iff.2 hw
  have hdw : ‖K.starProjection u' - K.starProjection u‖ ≤ δ / (‖K.starProjection u‖ / ‖u‖) * ‖K.starProjection u‖ := by
    rw [← map_sub]
    refine (K.norm_starProjection_apply_le _).trans (hd.trans_eq ?_)
    field_simp
  have hlt : δ / (‖K.starProjection u‖ / ‖u‖) < 1 := by
    rw [div_div_eq_mul_div, div_lt_one hwp]; exact h1
  have hw' : K.starProjection u' ≠ 0 := by
    intro h
    rw [h, zero_sub, norm_neg] at hdw
    nlinarith
  have e1 := docSir_angle (L := L) x k (y := y) (by rw [hK, hu]; exact hw)
  have e2 := docSir_angle (L := L) x k (y := y') (by rw [hK, hu']; exact hw')
  refine ⟨?_, e1.2, e2.2⟩
  rw [e1.1, e2.1, hK, hu, hu']
  exact (abs_subAngle_sub _ _ _).trans (angle_le_arcsin (by positivity) hlt hw hdw)

/-- The filter `f` for the changed reference. -/
theorem residualOne_reference (f : Fin L → ℝ) (x x' y : Fin N → ℝ) :
    √(residualOne f x' y) ≤ √(residualOne f x y) + (∑ l, |f l|) * sigNorm fun t => x' t - x t := by
  have hs : ∀ v : Space (N + L - 1), √(energy v) = ‖v‖ := fun v => Real.sqrt_sq (norm_nonneg v)
  rw [residualOne_eq, residualOne_eq, hs, hs]
  have h1 : shift (N + L - 1) y 0 - ∑ l : Fin L, f l • shift (N + L - 1) x' l =
      (shift (N + L - 1) y 0 - ∑ l : Fin L, f l • shift (N + L - 1) x l) -
        ∑ l : Fin L, f l • shift (N + L - 1) (fun t => x' t - x t) l := by
    rw [sub_sub, ← Finset.sum_add_distrib]
    congr 1
    refine Finset.sum_congr rfl fun l _ => ?_
    rw [← smul_add, ← shift_add]
    congr 2
    funext t
    simp
  rw [h1]
  refine (norm_sub_le _ _).trans (add_le_add_right ?_ _)
  refine (norm_sum_le _ _).trans ?_
  rw [Finset.sum_mul]
  refine Finset.sum_le_sum fun l _ => ?_
  rw [norm_smul, Real.norm_eq_abs]
  refine mul_le_mul_of_nonneg_left ?_ (abs_nonneg _)
  refine le_of_sq_le_sq ?_ (Real.sqrt_nonneg _)
  rw [norm_shift_sq _ _ _ (by omega), sigNorm_sq]

end FBE
