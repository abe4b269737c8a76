import Verif.Proofs.Rounded

/-!
# Error of the decibel stage
-/

namespace FBE.Rounded

open XR

variable {p : ℕ}

theorem log_ten_lower : (2.287 : ℝ) ≤ Real.log 10 := by
  have h : Real.log ((2 : ℝ) ^ 33) ≤ Real.log ((10 : ℝ) ^ 10) :=
    Real.log_le_log (by positivity) (by norm_num)
  rw [Real.log_pow, Real.log_pow] at h
  have := Real.log_two_gt_d9
  push_cast at h
  linarith

theorem log_ten_upper : Real.log 10 ≤ 2.32 := by
  have h : Real.log ((10 : ℝ) ^ 3) ≤ Real.log ((2 : ℝ) ^ 10) :=
    Real.log_le_log (by positivity) (by norm_num)
  rw [Real.log_pow, Real.log_pow] at h
  have := Real.log_two_lt_d9
  push_cast at h
  linarith

/-- The unit of the relative error. -/
noncomputable def unit (p : ℕ) : ℝ := 2 ^ (-p : ℤ)

theorem unit_pos : 0 < unit p := by unfold unit; positivity

theorem unit_le (hp : 11 ≤ p) : unit p ≤ 1 / 2048 := by
  unfold unit
  calc (2 : ℝ) ^ (-p : ℤ) ≤ 2 ^ (-11 : ℤ) := zpow_le_zpow_right₀ (by norm_num) (by omega)
    _ = 1 / 2048 := by norm_num

/-- The computed value for a coherence strictly between zero and one. -/
noncomputable def dbFl (E : Machine p) (c : ℝ) : ℝ := E.fl (10 * E.lg (E.fl (E.fl (1 - c) / c)))

theorem ratio_close (E : Machine p) (hp : 11 ≤ p) {c : ℝ} (h0 : 0 < c) (h1 : c < 1) :
    0 < E.fl (E.fl (1 - c) / c) ∧
    |Real.logb 10 (E.fl (E.fl (1 - c) / c)) - Real.logb 10 ((1 - c) / c)| ≤ unit p := by
  have hu := unit_le hp
  have hu0 := unit_pos (p := p)
  have hc : 0 < 1 - c := by linarith
  have hr1 := E.fl_nearest.pos (by omega) hc
  have hr := E.fl_nearest.pos (by omega) (div_pos hr1 h0)
  refine ⟨hr, ?_⟩
  have e1 := E.fl_nearest.rel (1 - c)
  have e2 := E.fl_nearest.rel (E.fl (1 - c) / c)
  rw [abs_of_pos hc, ← unit] at e1
  rw [abs_of_pos (div_pos hr1 h0), ← unit] at e2
  set a := E.fl (1 - c) with ha
  set r := E.fl (a / c) with hrd
  set u := unit p
  have hr0 : 0 < (1 - c) / c := div_pos hc h0
  rw [← Real.logb_div hr.ne' hr0.ne']
  obtain ⟨e1l, e1u⟩ := abs_le.1 e1
  obtain ⟨e2l, e2u⟩ := abs_le.1 e2
  have hl := log_ten_lower
  -- the quotient of the computed and of the exact ratio
  have q1 : r / ((1 - c) / c) ≤ (1 + u) * (1 + u) := by
    rw [div_le_iff₀ hr0]
    have h3 : r ≤ (1 + u) * (a / c) := by linarith
    have h4 : a / c ≤ (1 + u) * ((1 - c) / c) := by
      rw [← mul_div_assoc]
      exact div_le_div_of_nonneg_right (by linarith) h0.le
    nlinarith
  have q2 : (1 - u) * (1 - u) ≤ r / ((1 - c) / c) := by
    rw [le_div_iff₀ hr0]
    have h3 : (1 - u) * (a / c) ≤ r := by linarith
    have h4 : (1 - u) * ((1 - c) / c) ≤ a / c := by
      rw [← mul_div_assoc]
      exact div_le_div_of_nonneg_right (by linarith) h0.le
    nlinarith
  set q := r / ((1 - c) / c) with hq
  have hq0 : 0 < q := div_pos hr hr0
  have hlo : -(2.1 * u) ≤ Real.log q := by
    have := Real.one_sub_inv_le_log_of_pos hq0
    have h5 : q⁻¹ ≤ 1 + 2.1 * u := by
      rw [inv_le_comm₀ hq0 (by positivity)]
      refine le_trans ?_ q2
      rw [inv_le_iff_one_le_mul₀ (by positivity)]
      nlinarith [mul_pos hu0 hu0, mul_nonneg hu0.le (by linarith : 0 ≤ 1 / 2048 - u)]
    linarith
  have hhi : Real.log q ≤ 2.1 * u := by
    have := Real.log_le_sub_one_of_pos hq0
    nlinarith
  unfold Real.logb
  rw [abs_div, abs_of_pos (by linarith : 0 < Real.log 10), div_le_iff₀ (by linarith)]
  rw [abs_le]
  constructor <;> nlinarith

theorem dbFl_close (E : Machine p) (hp : 11 ≤ p) {c : ℝ} (h0 : 0 < c) (h1 : c < 1) :
    |dbFl E c - 10 * Real.logb 10 ((1 - c) / c)| ≤
      32 * unit p * (|10 * Real.logb 10 ((1 - c) / c)| + 1) := by
  have hu := unit_le hp
  have hu0 := unit_pos (p := p)
  obtain ⟨hr, hlog⟩ := ratio_close E hp h0 h1
  have h3 := E.lg_close _ hr
  have h4 := E.fl_nearest.rel (10 * E.lg (E.fl (E.fl (1 - c) / c)))
  unfold dbFl
  rw [← unit] at h3 h4
  set u := unit p
  set x := Real.logb 10 ((1 - c) / c)
  set y := Real.logb 10 (E.fl (E.fl (1 - c) / c))
  set g := E.lg (E.fl (E.fl (1 - c) / c))
  have hy : |y| ≤ |x| + u := by
    have := abs_sub_abs_le_abs_sub y x
    linarith
  have hg : |g| ≤ (1 + 16 * u) * |y| := by
    have := abs_sub_abs_le_abs_sub g y
    linarith
  rw [abs_mul, abs_of_pos (by norm_num : (0 : ℝ) < 10)] at h4 ⊢
  calc |E.fl (10 * g) - 10 * x| = |(E.fl (10 * g) - 10 * g) + 10 * (g - y) + 10 * (y - x)| := by ring_nf
    _ ≤ |E.fl (10 * g) - 10 * g| + |10 * (g - y)| + |10 * (y - x)| := abs_add_three _ _ _
    _ ≤ u * (10 * |g|) + 10 * (16 * u * |y|) + 10 * u := by
        rw [abs_mul, abs_mul, abs_of_pos (by norm_num : (0 : ℝ) < 10)]
        gcongr
    _ ≤ u * (10 * ((1 + 16 * u) * (|x| + u))) + 10 * (16 * u * (|x| + u)) + 10 * u := by
        have : (1 + 16 * u) * |y| ≤ (1 + 16 * u) * (|x| + u) := by gcongr
        gcongr
        linarith
    _ ≤ 32 * u * (10 * |x| + 1) := by
        have hx := abs_nonneg x
        have k1 : u * u ≤ u / 2048 := by nlinarith
        have k2 : u * u * u ≤ u / 2048 := by nlinarith [mul_pos hu0 hu0]
        have k3 : u * u * |x| ≤ u * |x| / 2048 := by nlinarith
        nlinarith [mul_nonneg hu0.le hx]

end FBE.Rounded
