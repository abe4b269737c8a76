import Verif.Spec.Segments
import Verif.Proofs.LeastSquares

/-!
# Lemmas on segments
-/

namespace FBE

open Spec XR

variable {L r N M : ℕ}

theorem zpad_append_left (x : Fin N → ℝ) (y : Fin M → ℝ) {t : ℕ} (ht : t < N) :
    zpad (Fin.append x y) t = zpad x t := by
  unfold zpad
  rw [dif_pos ht, dif_pos (by omega)]
  have : (⟨t, by omega⟩ : Fin (N + M)) = Fin.castAdd M ⟨t, ht⟩ := rfl
  rw [this, Fin.append_left]

theorem zpad_append_right (x : Fin N → ℝ) (y : Fin M → ℝ) (t : ℕ) :
    zpad (Fin.append x y) (N + t) = zpad y t := by
  unfold zpad
  by_cases ht : t < M
  · rw [dif_pos ht, dif_pos (by omega)]
    have : (⟨N + t, by omega⟩ : Fin (N + M)) = Fin.natAdd N ⟨t, ht⟩ := rfl
    rw [this, Fin.append_right]
  · rw [dif_neg ht, dif_neg (by omega)]

theorem zpad_tail {x : Fin N → ℝ} (hx : TailSilent L x) {u : ℕ} (hu : N < u + L) : zpad x u = 0 := by
  unfold zpad
  split
  · exact hx _ hu
  · rfl

theorem filtered_left (h : Fin L → ℝ) (x : Fin N → ℝ) (y : Fin M → ℝ) {t : ℕ} (ht : t < N) :
    filtered h (Fin.append x y) t = filtered h x t := by
  unfold filtered
  refine Finset.sum_congr rfl fun l _ => ?_
  split
  · rw [zpad_append_left x y (by omega)]
  · rfl

theorem filtered_right (h : Fin L → ℝ) {x : Fin N → ℝ} (hx : TailSilent L x) (y : Fin M → ℝ) (t : ℕ) :
    filtered h (Fin.append x y) (N + t) = filtered h y t := by
  unfold filtered
  refine Finset.sum_congr rfl fun l _ => ?_
  have hl := l.2
  by_cases h1 : l.val ≤ t
  · rw [if_pos h1, if_pos (by omega), show N + t - l.val = N + (t - l) by omega, zpad_append_right]
  · rw [if_neg h1]
    by_cases h2 : l.val ≤ N + t
    · rw [if_pos h2, zpad_append_left x y (by omega), zpad_tail hx (by omega)]
    · rw [if_neg h2]

theorem filtered_after (h : Fin L → ℝ) {x : Fin N → ℝ} (hx : TailSilent L x) {t : ℕ} (ht : N ≤ t) :
    filtered h x t = 0 := by
  unfold filtered
  refine Finset.sum_eq_zero fun l _ => ?_
  have hl := l.2
  split
  · rw [zpad_tail hx (by omega), mul_zero]
  · rw [mul_zero]

/-- What the same filters leave of two segments. -/
theorem residualAll_append (hL : 0 < L) (h : Fin r → Fin L → ℝ) {x : Fin r → Fin N → ℝ} (hx : ∀ k, TailSilent L (x k))
    (x' : Fin r → Fin M → ℝ) (y : Fin N → ℝ) (y' : Fin M → ℝ) :
    residualAll h (fun k => Fin.append (x k) (x' k)) (Fin.append y y') = residualAll h x y + residualAll h x' y' := by
  unfold residualAll
  rw [show N + M + L - 1 = N + (M + L - 1) by omega, show N + L - 1 = N + (L - 1) by omega, Finset.sum_range_add,
    Finset.sum_range_add]
  have h1 : ∑ t ∈ Finset.range (L - 1), (zpad y (N + t) - ∑ k, filtered (h k) (x k) (N + t)) ^ 2 = 0 := by
    refine Finset.sum_eq_zero fun t _ => ?_
    rw [Finset.sum_eq_zero fun k _ => filtered_after (h k) (hx k) (by omega)]
    unfold zpad
    rw [dif_neg (by omega)]
    norm_num
  rw [h1, add_zero]
  congr 1
  · refine Finset.sum_congr rfl fun t ht => ?_
    have ht := Finset.mem_range.1 ht
    rw [zpad_append_left y y' ht, Finset.sum_congr rfl fun k _ => filtered_left (h k) (x k) (x' k) ht]
  · refine Finset.sum_congr rfl fun t ht => ?_
    rw [zpad_append_right y y', Finset.sum_congr rfl fun k _ => filtered_right (h k) (hx k) (x' k) t]

theorem residualOne_all (h : Fin L → ℝ) (x y : Fin N → ℝ) :
    residualOne h x y = residualAll (fun _ : Fin 1 => h) (fun _ => x) y := by
  unfold residualOne residualAll
  simp

theorem residualOne_append (hL : 0 < L) (h : Fin L → ℝ) {x : Fin N → ℝ} (hx : TailSilent L x)
    (x' : Fin M → ℝ) (y : Fin N → ℝ) (y' : Fin M → ℝ) :
    residualOne h (Fin.append x x') (Fin.append y y') = residualOne h x y + residualOne h x' y' := by
  rw [residualOne_all, residualOne_all, residualOne_all]
  exact residualAll_append hL _ (x := fun _ => x) (fun _ => hx) (fun _ => x') y y'

theorem power_append (y : Fin N → ℝ) (y' : Fin M → ℝ) : power (Fin.append y y') = power y + power y' := by
  unfold power
  rw [Fin.sum_univ_add]
  simp only [Fin.append_left, Fin.append_right]

theorem residual_nonneg (h : Fin r → Fin L → ℝ) (x : Fin r → Fin N → ℝ) (y : Fin N → ℝ) : 0 ≤ residualAll h x y :=
  Finset.sum_nonneg fun _ _ => sq_nonneg _

theorem best_residual_le (hL : 0 < L) {h : Fin r → Fin L → ℝ} {x : Fin r → Fin N → ℝ} {y : Fin N → ℝ}
    (hb : AreBestFilters h x y) : residualAll h x y ≤ power y := by
  refine (hb fun _ _ => 0).trans_eq ?_
  unfold residualAll power filtered
  rw [show N + L - 1 = N + (L - 1) by omega, Finset.sum_range_add, Finset.sum_range]
  have h1 : ∑ t ∈ Finset.range (L - 1), (zpad y (N + t) - ∑ k : Fin r, ∑ l : Fin L, (0 : ℝ) *
      (if l.val ≤ N + t then zpad (x k) (N + t - l) else 0)) ^ 2 = 0 := by
    refine Finset.sum_eq_zero fun t _ => ?_
    unfold zpad
    rw [dif_neg (by omega)]
    simp
  rw [h1, add_zero]
  refine Finset.sum_congr rfl fun t _ => ?_
  simp [zpad]

theorem bestOne_all {h : Fin L → ℝ} {x y : Fin N → ℝ} (hb : IsBestFilter h x y) :
    AreBestFilters (fun _ : Fin 1 => h) (fun _ => x) y := fun h' => by
  have := hb (h' 0)
  rw [residualOne_all, residualOne_all] at this
  refine this.trans_eq ?_
  congr 1
  funext k
  rw [Subsingleton.elim k 0]

theorem distortionShare_eq {P R : ℝ} (hP : 0 < P) (h0 : 0 ≤ R) (h1 : R ≤ P) :
    distortionShare (dbRatio (P - R) R) = R / P := by
  unfold dbRatio
  by_cases hR : R = 0
  · subst hR
    rw [if_pos rfl, if_neg (by linarith)]
    simp [distortionShare]
  · rw [if_neg hR]
    by_cases hPR : P - R = 0
    · rw [if_pos hPR]
      have : R = P := by linarith
      rw [this, div_self (ne_of_gt hP)]
      rfl
    · rw [if_neg hPR]
      have hR' : 0 < R := lt_of_le_of_ne h0 (Ne.symm hR)
      have hPR' : 0 < P - R := lt_of_le_of_ne (by linarith) (Ne.symm hPR)
      unfold distortionShare
      dsimp only
      rw [show (10 : ℝ) * Real.logb 10 ((P - R) / R) / 10 = Real.logb 10 ((P - R) / R) by ring,
        Real.rpow_logb (by norm_num) (by norm_num) (by positivity)]
      field_simp
      ring

theorem dbRatio_scale {q a b : ℝ} (hq : 0 < q) : dbRatio (q * a) (q * b) = dbRatio a b := by
  unfold dbRatio
  rw [mul_div_mul_left _ _ (ne_of_gt hq)]
  simp [ne_of_gt hq]

/-- The whole is not better than the better part. -/
theorem whole_le {cl : Option ℝ} (hcl : ∀ d, cl = some d → 0 ≤ d) {p q a b R : ℝ} (hp : 0 < p) (hq : 0 < q)
    (ha : 0 ≤ a) (hb : 0 ≤ b) (h : a + b ≤ R) (hR : R ≤ p + q) :
    toEReal (report cl (dbRatio (p + q - R) R)) ≤
      max (toEReal (report cl (dbRatio (p - a) a))) (toEReal (report cl (dbRatio (q - b) b))) := by
  have key : ∀ {p q a b : ℝ}, 0 < p → 0 < q → 0 ≤ a → 0 ≤ b → a + b ≤ R → R ≤ p + q → a / p ≤ b / q →
      toEReal (report cl (dbRatio (p + q - R) R)) ≤ toEReal (report cl (dbRatio (p - a) a)) := by
    intro p q a b hp hq ha hb h hR hab
    have h1 : (p + q) / p * a ≤ R := by
      refine le_trans ?_ h
      rw [div_le_div_iff₀ hp hq] at hab
      rw [div_mul_eq_mul_div, div_le_iff₀ hp]
      linarith
    have h2 := report_residual_mono hcl (E := p + q) (a := (p + q) / p * a) (b := R) (by linarith) (by positivity) h1 hR
    have h3 : p + q - (p + q) / p * a = (p + q) / p * (p - a) := by
      field_simp
    rw [h3, dbRatio_scale (q := (p + q) / p) (by positivity)] at h2
    exact h2
  rcases le_total (a / p) (b / q) with hab | hab
  · exact (key hp hq ha hb h hR hab).trans (le_max_left _ _)
  · refine le_trans ?_ (le_max_right _ _)
    have := key hq hp hb ha (by linarith) (by linarith) hab
    rwa [add_comm q p] at this

theorem independentShifts_iff (x : Fin r → Fin N → ℝ) :
    IndependentShifts L x ↔ ∀ h : Fin r → Fin L → ℝ, residualAll h x 0 = 0 → h = 0 := by
  have hz : shift (N + L - 1) (0 : Fin N → ℝ) 0 = 0 := by
    ext t
    simp [shift, zpad]
  unfold IndependentShifts
  rw [Fintype.linearIndependent_iff]
  constructor
  · intro hi h hh
    rw [residualAll_eq, hz, zero_sub, energy, norm_neg, sq_eq_zero_iff, norm_eq_zero] at hh
    funext k l
    exact hi (fun p => h p.2 p.1) hh (l, k)
  · intro hi g hg p
    have := hi (fun k l => g (l, k)) (by
      rw [residualAll_eq, hz, zero_sub, energy, norm_neg, sq_eq_zero_iff, norm_eq_zero]
      exact hg)
    exact congrFun (congrFun this p.2) p.1

/-- References independent in one of the segments are independent. -/
theorem independentShifts_append (hL : 0 < L) {x : Fin r → Fin N → ℝ} (hx : ∀ k, TailSilent L (x k))
    (x' : Fin r → Fin M → ℝ) (h : IndependentShifts L x ∨ IndependentShifts L x') :
    IndependentShifts L fun k => Fin.append (x k) (x' k) := by
  rw [independentShifts_iff] at h ⊢
  rw [independentShifts_iff] at h
  intro f hf
  have h0 : (Fin.append (0 : Fin N → ℝ) (0 : Fin M → ℝ)) = 0 := by
    funext t
    refine Fin.addCases (fun i => ?_) (fun i => ?_) t
    · rw [Fin.append_left]; rfl
    · rw [Fin.append_right]; rfl
  rw [← h0, residualAll_append hL f hx] at hf
  have a := residual_nonneg f x 0
  have b := residual_nonneg f x' 0
  rcases h with h | h
  · exact h f (by linarith)
  · exact h f (by linarith)

end FBE
