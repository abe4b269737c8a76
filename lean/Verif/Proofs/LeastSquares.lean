import Verif.Proofs.Ratio
import Verif.Spec.LeastSquares

/-!
# Projections are least squares fits
-/

namespace FBE

open Spec XR

variable {N L r D : ℕ}

theorem energy_eq_sum (v : Space D) : energy v = ∑ t, v t ^ 2 := by
  unfold energy
  rw [EuclideanSpace.norm_sq_eq]
  exact Finset.sum_congr rfl fun t _ => by rw [Real.norm_eq_abs, sq_abs]

theorem residualOne_eq (h : Fin L → ℝ) (x y : Fin N → ℝ) :
    residualOne h x y = energy (shift (N + L - 1) y 0 - ∑ l : Fin L, h l • shift (N + L - 1) (x) l) := by
  rw [energy_eq_sum, residualOne, Finset.sum_range]
  refine Finset.sum_congr rfl fun t _ => ?_
  congr 1
  simp [shift_apply, filtered]

theorem residualAll_eq (h : Fin r → Fin L → ℝ) (x : Fin r → Fin N → ℝ) (y : Fin N → ℝ) :
    residualAll h x y = energy (shift (N + L - 1) y 0 -
      ∑ p : Fin L × Fin r, h p.2 p.1 • shift (N + L - 1) (x p.2) p.1) := by
  rw [energy_eq_sum, residualAll, Finset.sum_range]
  refine Finset.sum_congr rfl fun t _ => ?_
  congr 1
  rw [Fintype.sum_prod_type_right]
  simp [shift_apply, filtered]

/-- The distance to a point of the subspace, by Pythagoras. -/
theorem energy_sub_mem (K : Submodule ℝ (Space D)) (u : Space D) {v : Space D} (hv : v ∈ K) :
    energy (u - v) = energy (u - K.starProjection u) + energy (K.starProjection u - v) := by
  have h0 : inner ℝ (u - K.starProjection u) (K.starProjection u - v) = 0 :=
    K.starProjection_inner_eq_zero u _ (K.sub_mem (K.starProjection_apply_mem u) hv)
  have h := norm_add_sq_eq_norm_sq_add_norm_sq_of_inner_eq_zero (𝕜 := ℝ) _ _ h0
  rw [sub_add_sub_cancel] at h
  unfold energy
  simpa [sq] using h

/-- A best approximation from the span of a family leaves the residual of the projection. -/
theorem best_eq {ι : Type*} [Fintype ι] (f : ι → Space D) (u : Space D) (h : ι → ℝ)
    (hb : ∀ h' : ι → ℝ, energy (u - ∑ i, h i • f i) ≤ energy (u - ∑ i, h' i • f i)) :
    energy (u - ∑ i, h i • f i) = energy (u - (Submodule.span ℝ (Set.range f)).starProjection u) := by
  set K := Submodule.span ℝ (Set.range f)
  obtain ⟨g, hg⟩ := (Submodule.mem_span_range_iff_exists_fun ℝ).1 (K.starProjection_apply_mem u)
  refine le_antisymm ((hb g).trans_eq (by rw [hg])) ?_
  rw [energy_sub_mem K u ((Submodule.mem_span_range_iff_exists_fun ℝ).2 ⟨h, rfl⟩)]
  exact le_add_of_nonneg_right (energy_nonneg _)

theorem exists_best {ι : Type*} [Fintype ι] (f : ι → Space D) (u : Space D) :
    ∃ h : ι → ℝ, ∀ h' : ι → ℝ, energy (u - ∑ i, h i • f i) ≤ energy (u - ∑ i, h' i • f i) := by
  set K := Submodule.span ℝ (Set.range f)
  obtain ⟨g, hg⟩ := (Submodule.mem_span_range_iff_exists_fun ℝ).1 (K.starProjection_apply_mem u)
  refine ⟨g, fun h' => ?_⟩
  rw [hg, energy_sub_mem K u ((Submodule.mem_span_range_iff_exists_fun ℝ).2 ⟨h', rfl⟩)]
  exact le_add_of_nonneg_right (energy_nonneg _)

theorem exists_bestFilter (L : ℕ) (x y : Fin N → ℝ) : ∃ h : Fin L → ℝ, IsBestFilter h x y := by
  obtain ⟨h, hb⟩ := exists_best (fun l : Fin L => shift (N + L - 1) x l) (shift (N + L - 1) y 0)
  exact ⟨h, fun h' => by rw [residualOne_eq, residualOne_eq]; exact hb h'⟩

theorem exists_bestFilters (L : ℕ) (x : Fin r → Fin N → ℝ) (y : Fin N → ℝ) :
    ∃ h : Fin r → Fin L → ℝ, AreBestFilters h x y := by
  obtain ⟨h, hb⟩ := exists_best (fun p : Fin L × Fin r => shift (N + L - 1) (x p.2) p.1)
    (shift (N + L - 1) y 0)
  refine ⟨fun k l => h (l, k), fun h' => ?_⟩
  rw [residualAll_eq, residualAll_eq]
  exact hb fun p => h' p.2 p.1

theorem power_eq (hD : N ≤ D) (y : Fin N → ℝ) : power y = energy (shift D y 0) := by
  rw [energy_shift D hD, sigNorm_sq]
  rfl

theorem bestFilter_residual {h : Fin L → ℝ} {x y : Fin N → ℝ} (hb : IsBestFilter h x y) :
    residualOne h x y = energy (shift (N + L - 1) y 0 -
      (spanOne (N + L - 1) L x).starProjection (shift (N + L - 1) y 0)) := by
  rw [residualOne_eq]
  exact best_eq _ _ h fun h' => by rw [← residualOne_eq, ← residualOne_eq]; exact hb h'

theorem bestFilters_residual {h : Fin r → Fin L → ℝ} {x : Fin r → Fin N → ℝ} {y : Fin N → ℝ}
    (hb : AreBestFilters h x y) :
    residualAll h x y = energy (shift (N + L - 1) y 0 -
      (spanAll (N + L - 1) L x).starProjection (shift (N + L - 1) y 0)) := by
  rw [residualAll_eq]
  refine best_eq _ _ (fun p : Fin L × Fin r => h p.2 p.1) fun h' => ?_
  have := hb fun k l => h' (l, k)
  rwa [residualAll_eq, residualAll_eq] at this

/-- The documented ratios in terms of the residuals. -/
theorem docSdr_best (hL : L ≠ 0) {x : Fin r → Fin N → ℝ} {k : Fin r} {y : Fin N → ℝ} {h : Fin L → ℝ}
    (hb : IsBestFilter h (x k) y) :
    docSdr L x k y = dbRatio (power y - residualOne h (x k) y) (residualOne h (x k) y) := by
  rw [bestFilter_residual hb, power_eq (D := N + L - 1) (by omega), energy_sub_proj, sub_sub_cancel]
  unfold docSdr
  dsimp only
  rw [energy_sub_proj]

theorem docSar_best (hL : L ≠ 0) {x : Fin r → Fin N → ℝ} {y : Fin N → ℝ} {h : Fin r → Fin L → ℝ}
    (hb : AreBestFilters h x y) :
    docSar L x y = dbRatio (power y - residualAll h x y) (residualAll h x y) := by
  rw [bestFilters_residual hb, power_eq (D := N + L - 1) (by omega), energy_sub_proj, sub_sub_cancel]
  unfold docSar
  dsimp only
  rw [energy_sub_proj]

theorem docSir_best (hL : L ≠ 0) {x : Fin r → Fin N → ℝ} {k : Fin r} {y : Fin N → ℝ} {h : Fin L → ℝ}
    {g : Fin r → Fin L → ℝ} (hb : IsBestFilter h (x k) y) (hg : AreBestFilters g x y) :
    docSir L x k y = dbRatio (power y - residualOne h (x k) y) (residualOne h (x k) y - residualAll g x y) := by
  rw [bestFilter_residual hb, bestFilters_residual hg, power_eq (D := N + L - 1) (by omega), energy_sub_proj,
    energy_sub_proj, sub_sub_cancel, sub_sub_sub_cancel_left]
  unfold docSir
  dsimp only
  rw [energy_proj_sub_proj (spanOne_le_spanAll _ _ _ _)]

/-- Less residual, more decibels. -/
theorem report_residual_mono {cl : Option ℝ} (hcl : ∀ d, cl = some d → 0 ≤ d) {E a b : ℝ} (hE : 0 < E)
    (ha : 0 ≤ a) (hab : a ≤ b) (hb : b ≤ E) :
    toEReal (report cl (dbRatio (E - b) b)) ≤ toEReal (report cl (dbRatio (E - a) a)) := by
  have key : ∀ c, 0 ≤ c → c ≤ E →
      report cl (dbRatio (E - c) c) = (coherenceToNegSdr cl (fin (1 - c / E))).neg := fun c h0 h1 => by
    rw [loss_eq hcl hE (a := E - c) (b := c) (sub_nonneg.2 ((div_le_one hE).2 h1))
      (sub_le_self _ (by positivity)) (by field_simp) (by field_simp; ring), neg_neg']
  rw [key a ha (hab.trans hb), key b (ha.trans hab) hb]
  have hn : ∀ c : ℝ, coherenceToNegSdr cl (fin c) ≠ nan := fun c h => by
    cases coherenceToNegSdr_eq_nan.1 h
  rw [toEReal_neg (hn _), toEReal_neg (hn _), EReal.neg_le_neg_iff]
  exact coherenceToNegSdr_anti _ (by gcongr)

end FBE
