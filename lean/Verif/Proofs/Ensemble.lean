import Verif.Spec.Ensemble
import Verif.Proofs.Segments
import Verif.Proofs.Gradient

/-!
# Lemmas on weighted sums of estimates
-/

namespace FBE

open Spec XR

variable {L e N D : ℕ} {ι : Type*}

/-- Ratios of energies are compared by cross multiplication. -/
theorem report_ratio_le {cl : Option ℝ} (hcl : ∀ d, cl = some d → 0 ≤ d) {a b a' b' : ℝ} (ha : 0 ≤ a)
    (hb' : 0 ≤ b') (h : 0 < a + b) (h' : 0 < a' + b') (hle : a * b' ≤ a' * b) :
    toEReal (report cl (dbRatio a b)) ≤ toEReal (report cl (dbRatio a' b')) := by
  have hq : 0 < (a + b) / (a' + b') := by positivity
  have h1 : (a + b) / (a' + b') * b' ≤ b := by
    rw [div_mul_eq_mul_div, div_le_iff₀ h']
    linarith
  have h2 := report_residual_mono hcl h (a := (a + b) / (a' + b') * b') (b := b) (by positivity) h1 (by linarith)
  have h3 : a + b - (a + b) / (a' + b') * b' = (a + b) / (a' + b') * a' := by
    field_simp
    ring
  rw [h3, dbRatio_scale hq, add_sub_cancel_right] at h2
  exact h2

theorem energy_parts (K : Submodule ℝ (Space D)) (u : Space D) :
    energy u = energy (K.starProjection u) + energy (u - K.starProjection u) := by
  have := energy_sub_mem K u K.zero_mem
  rw [sub_zero, sub_zero] at this
  linarith

theorem energy_pos {u : Space D} (hu : u ≠ 0) : 0 < energy u := by
  unfold energy
  positivity

/-- A sum of vectors with parallel projections is at most as far away as one of them. -/
theorem ensemble_le {cl : Option ℝ} (hcl : ∀ d, cl = some d → 0 ≤ d) [Fintype ι] (K : Submodule ℝ (Space D))
    (Y : ι → Space D) (hY : ∀ j, Y j ≠ 0) (w g : ι → ℝ) (hw : ∀ j, 0 ≤ w j) (hg : ∀ j, 0 < g j) (F : Space D)
    (hP : ∀ j, K.starProjection (Y j) = g j • F) (hs : ∑ j, w j • Y j ≠ 0) :
    ∃ j, toEReal (report cl (dbRatio (energy (K.starProjection (Y j))) (energy (Y j - K.starProjection (Y j))))) ≤
      toEReal (report cl (dbRatio (energy (K.starProjection (∑ j, w j • Y j)))
        (energy (∑ j, w j • Y j - K.starProjection (∑ j, w j • Y j))))) := by
  have hne : Nonempty ι := by
    by_contra h
    rw [not_nonempty_iff] at h
    exact hs (Finset.sum_of_isEmpty _)
  obtain ⟨j0, hj0⟩ := Finite.exists_max fun j => ‖Y j - g j • F‖ / g j
  refine ⟨j0, ?_⟩
  have e1 := energy_parts K (∑ j, w j • Y j)
  have e2 := energy_parts K (Y j0)
  have hsum : K.starProjection (∑ j, w j • Y j) = (∑ j, w j * g j) • F := by
    rw [map_sum, Finset.sum_smul]
    exact Finset.sum_congr rfl fun j _ => by rw [map_smul, hP, smul_smul]
  have hp : 0 ≤ ∑ j, w j * g j := Finset.sum_nonneg fun j _ => mul_nonneg (hw j) (hg j).le
  refine report_ratio_le hcl (sq_nonneg _) (sq_nonneg _) (by rw [← e2]; exact energy_pos (hY j0))
    (by rw [← e1]; exact energy_pos hs) ?_
  rw [hsum, hP]
  have hd : ∑ j, w j • Y j - (∑ j, w j * g j) • F = ∑ j, w j • (Y j - g j • F) := by
    rw [Finset.sum_smul, ← Finset.sum_sub_distrib]
    exact Finset.sum_congr rfl fun j _ => by rw [smul_sub, smul_smul]
  have hle : g j0 * ‖∑ j, w j • (Y j - g j • F)‖ ≤ (∑ j, w j * g j) * ‖Y j0 - g j0 • F‖ := by
    refine (mul_le_mul_of_nonneg_left (norm_sum_le _ _) (hg j0).le).trans ?_
    rw [Finset.mul_sum, Finset.sum_mul]
    refine Finset.sum_le_sum fun j _ => ?_
    have := hj0 j
    rw [div_le_div_iff₀ (hg j) (hg j0)] at this
    rw [norm_smul, Real.norm_of_nonneg (hw j)]
    nlinarith [mul_le_mul_of_nonneg_left this (hw j)]
  unfold energy
  rw [hd, norm_smul, norm_smul, Real.norm_of_nonneg (hg j0).le, Real.norm_of_nonneg hp]
  have h2 : (g j0 * ‖∑ j, w j • (Y j - g j • F)‖) ^ 2 ≤ ((∑ j, w j * g j) * ‖Y j0 - g j0 • F‖) ^ 2 :=
    pow_le_pow_left₀ (mul_nonneg (hg j0).le (norm_nonneg _)) hle 2
  nlinarith [mul_le_mul_of_nonneg_left h2 (sq_nonneg ‖F‖)]

/-- The filtered reference as a vector. -/
theorem best_projection {f : Fin L → ℝ} {x y : Fin N → ℝ} (hb : IsBestFilter f x y) :
    (spanOne (N + L - 1) L x).starProjection (shift (N + L - 1) y 0) = ∑ l : Fin L, f l • shift (N + L - 1) x l := by
  have h1 := bestFilter_residual hb
  rw [residualOne_eq] at h1
  have hm : ∑ l : Fin L, f l • shift (N + L - 1) x l ∈ spanOne (N + L - 1) L x :=
    Submodule.sum_mem _ fun l _ => Submodule.smul_mem _ _ (Submodule.subset_span ⟨l, rfl⟩)
  have h2 := energy_sub_mem (spanOne (N + L - 1) L x) (shift (N + L - 1) y 0) hm
  rw [h1] at h2
  have h3 : energy ((spanOne (N + L - 1) L x).starProjection (shift (N + L - 1) y 0) -
      ∑ l : Fin L, f l • shift (N + L - 1) x l) = 0 := by linarith
  unfold energy at h3
  rw [sq_eq_zero_iff, norm_eq_zero, sub_eq_zero] at h3
  exact h3

theorem centred_sum (zm : Bool) (w : Fin e → ℝ) (y : Fin e → Fin N → ℝ) :
    centred zm (fun t => ∑ j, w j * y j t) = fun t => ∑ j, w j * centred zm (y j) t := by
  unfold centred
  cases zm
  · rfl
  · funext t
    simp only [if_true]
    rw [Finset.sum_comm]
    simp only [mul_sub, Finset.sum_sub_distrib, Finset.sum_div]
    congr 1
    refine Finset.sum_congr rfl fun j _ => ?_
    rw [Finset.mul_sum]
    exact Finset.sum_congr rfl fun i _ => mul_div_assoc _ _ _

theorem shift_sum (w : Fin e → ℝ) (y : Fin e → Fin N → ℝ) (l : ℕ) :
    shift D (fun t => ∑ j, w j * y j t) l = ∑ j, w j • shift D (y j) l := by
  ext t
  simp only [shift, WithLp.ofLp_sum, Finset.sum_apply, zpad, WithLp.ofLp_smul, Pi.smul_apply, smul_eq_mul]
  split
  · split
    · rfl
    · simp
  · simp

theorem leftOver_apply (f : Fin L → ℝ) (x y : Fin N → ℝ) (t : Fin (N + L - 1)) :
    (shift (N + L - 1) y 0 - ∑ l : Fin L, f l • shift (N + L - 1) x l) t = leftOver f x y t := by
  unfold leftOver filtered
  simp [shift]

end FBE
