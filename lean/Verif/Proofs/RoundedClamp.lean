import Verif.Proofs.RoundedDb

/-!
# The bounds of `clamp_db` in floating point arithmetic
-/

namespace FBE.Rounded

open XR

variable {p : ℕ}

theorem clamp_mem {x : XR} (hx : x ≠ nan) (lo hi : ℝ) :
    ∃ c, clamp x (fin lo) (fin hi) = fin c ∧ min lo hi ≤ c ∧ c ≤ hi := by
  unfold clamp
  cases x with
  | fin a => exact ⟨min (max a lo) hi, rfl, min_le_min_right _ (le_max_right _ _), min_le_right _ _⟩
  | pinf => exact ⟨hi, rfl, min_le_right _ _, le_rfl⟩
  | ninf => exact ⟨min lo hi, rfl, le_rfl, min_le_right _ _⟩
  | nan => exact absurd rfl hx

/-- Lower and upper bound used by the clamp. -/
noncomputable def epsOf (E : Machine p) : Option ℝ → ℝ
  | some d => dbClampEps E d
  | none => 0

noncomputable def lo (E : Machine p) (cd : Option ℝ) : ℝ := E.fl (epsOf E cd)

noncomputable def hi (E : Machine p) (cd : Option ℝ) : ℝ := E.fl (E.fl64 (1 - epsOf E cd))

theorem coherenceToNegSdr_of_clamp (E : Machine p) (hp : 1 ≤ p) {cd : Option ℝ} {x : XR} {c : ℝ}
    (hc : clamp x (fin (lo E cd)) (fin (hi E cd)) = fin c) (h0 : 0 < c) (h1 : c < 1) :
    coherenceToNegSdr E cd x = fin (dbFl E c) := by
  have e : coherenceToNegSdr E cd x =
      round1 E (mul (fin 10) (log10 E (round1 E (div (round1 E (sub (fin 1)
        (clamp x (fin (lo E cd)) (fin (hi E cd))))) (clamp x (fin (lo E cd)) (fin (hi E cd))))))) := by
    cases cd <;> rfl
  have hr1 : 0 < E.fl (1 - c) := E.fl_nearest.pos hp (by linarith)
  have hr : 0 < E.fl (E.fl (1 - c) / c) := E.fl_nearest.pos hp (div_pos hr1 h0)
  rw [e, hc]
  simp only [sub, XR.neg, add, round1, div, ← sub_eq_add_neg]
  rw [if_neg h0.ne']
  simp only [log10]
  rw [if_pos hr]
  rfl

theorem coherenceToNegSdr_one (E : Machine p) {cd : Option ℝ} {x : XR}
    (hc : clamp x (fin (lo E cd)) (fin (hi E cd)) = fin 1) : coherenceToNegSdr E cd x = ninf := by
  have e : coherenceToNegSdr E cd x =
      round1 E (mul (fin 10) (log10 E (round1 E (div (round1 E (sub (fin 1)
        (clamp x (fin (lo E cd)) (fin (hi E cd))))) (clamp x (fin (lo E cd)) (fin (hi E cd))))))) := by
    cases cd <;> rfl
  have h0 : E.fl 0 = 0 := E.fl_nearest.fix representable_zero
  rw [e, hc]
  simp only [sub, XR.neg, add, round1, div]
  rw [if_neg one_ne_zero, show (1 : ℝ) + -1 = 0 by ring, h0, zero_div]
  simp only [h0, log10]
  rw [if_neg (lt_irrefl _), if_pos trivial]
  simp [mul, signInf, XR.neg]

theorem coherenceToNegSdr_zero (E : Machine p) {cd : Option ℝ} {x : XR}
    (hc : clamp x (fin (lo E cd)) (fin (hi E cd)) = fin 0) : coherenceToNegSdr E cd x = pinf := by
  have e : coherenceToNegSdr E cd x =
      round1 E (mul (fin 10) (log10 E (round1 E (div (round1 E (sub (fin 1)
        (clamp x (fin (lo E cd)) (fin (hi E cd))))) (clamp x (fin (lo E cd)) (fin (hi E cd))))))) := by
    cases cd <;> rfl
  have h0 : E.fl 1 = 1 := E.fl_nearest.fix representable_one
  rw [e, hc]
  simp only [sub, XR.neg, add, round1, div]
  rw [if_pos trivial, show (1 : ℝ) + -0 = 1 by ring, h0]
  simp [log10, XR.log10, mul, signInf]


theorem pow_close {x y η : ℝ} (hη0 : 0 ≤ η) (hη : η ≤ 1 / 4) (h : |x - y| ≤ η / 2.32) :
    (1 - 2 * η) * (10 : ℝ) ^ y ≤ 10 ^ x ∧ (10 : ℝ) ^ x ≤ (1 + 2 * η) * 10 ^ y := by
  have hl := log_ten_upper
  have hl0 := log_ten_lower
  have e : (10 : ℝ) ^ x = Real.exp (Real.log 10 * (x - y)) * 10 ^ y := by
    have : (10 : ℝ) ^ x = 10 ^ (x - y) * 10 ^ y := by
      rw [← Real.rpow_add (by norm_num)]; ring_nf
    rw [this, Real.rpow_def_of_pos (by norm_num : (0 : ℝ) < 10) (x - y)]
  have hy : 0 < (10 : ℝ) ^ y := by positivity
  have ht : |Real.log 10 * (x - y)| ≤ η := by
    rw [abs_mul, abs_of_pos (by linarith)]
    calc Real.log 10 * |x - y| ≤ 2.32 * (η / 2.32) := by gcongr
      _ = η := by ring
  obtain ⟨t1, t2⟩ := abs_le.1 ht
  set t := Real.log 10 * (x - y)
  have h1 := Real.add_one_le_exp t
  have h2 := Real.add_one_le_exp (-t)
  rw [Real.exp_neg] at h2
  have hpos := Real.exp_pos t
  have h3 : Real.exp t ≤ 1 + 2 * η := by
    have h4 : (1 - η) ≤ (Real.exp t)⁻¹ := by linarith
    have h5 : (1 - η) * Real.exp t ≤ 1 := by
      calc (1 - η) * Real.exp t ≤ (Real.exp t)⁻¹ * Real.exp t := by gcongr
        _ = 1 := inv_mul_cancel₀ hpos.ne'
    nlinarith
  rw [e]
  constructor
  · exact mul_le_mul_of_nonneg_right (by linarith) hy.le
  · exact mul_le_mul_of_nonneg_right h3 hy.le

/-- The bound computed in Python is accurate. -/
theorem dbClampEps_close (E : Machine p) {d : ℝ} (hd : 0 ≤ d) (hd' : d ≤ 1000) :
    (1 - 2 ^ (-40 : ℤ)) * FBE.dbClampEps d ≤ dbClampEps E d ∧
      dbClampEps E d ≤ (1 + 2 ^ (-40 : ℤ)) * FBE.dbClampEps d := by
  set w : ℝ := 2 ^ (-53 : ℤ) with hw
  have hw0 : 0 < w := by positivity
  have hw1 : w = 1 / 9007199254740992 := by rw [hw]; norm_num
  have r1 := E.fl64_nearest.rel (-d / 10)
  have hx : |(-d / 10 : ℝ)| ≤ 100 := by
    rw [abs_le]; constructor <;> linarith
  have r1' : |E.fl64 (-d / 10) - -d / 10| ≤ (256 * w) / 2.32 := by
    refine r1.trans ?_
    calc (2 : ℝ) ^ (-(53 : ℕ) : ℤ) * |(-d / 10 : ℝ)| ≤ w * 100 := by
          refine mul_le_mul (le_of_eq ?_) hx (abs_nonneg _) hw0.le
          rw [hw]; norm_num
      _ ≤ (256 * w) / 2.32 := by
          rw [le_div_iff₀ (by norm_num)]; nlinarith
  obtain ⟨a1, a2⟩ := pow_close (by positivity) (by rw [hw1]; norm_num) r1'
  have r2 := E.pow_close (E.fl64 (-d / 10))
  set e0 : ℝ := 10 ^ (-d / 10) with he0
  set e1 : ℝ := 10 ^ (E.fl64 (-d / 10)) with he1
  set e2 := E.pow (E.fl64 (-d / 10)) with he2
  have p0 : 0 < e0 := by positivity
  have p1 : 0 < e1 := by positivity
  have b51 : (2 : ℝ) ^ (-51 : ℤ) = 4 * w := by rw [hw1]; norm_num
  rw [b51] at r2
  obtain ⟨b1, b2⟩ := abs_le.1 r2
  -- `e2` against `e0`
  have c1 : (1 - 520 * w) * e0 ≤ e2 := by
    have : (1 - 4 * w) * ((1 - 2 * (256 * w)) * e0) ≤ (1 - 4 * w) * e1 :=
      mul_le_mul_of_nonneg_left a1 (by rw [hw1]; norm_num)
    have h : (1 - 520 * w) * e0 ≤ (1 - 4 * w) * ((1 - 2 * (256 * w)) * e0) := by
      rw [← mul_assoc]
      exact mul_le_mul_of_nonneg_right (by rw [hw1]; norm_num) p0.le
    linarith
  have c2 : e2 ≤ (1 + 520 * w) * e0 := by
    have : (1 + 4 * w) * e1 ≤ (1 + 4 * w) * ((1 + 2 * (256 * w)) * e0) :=
      mul_le_mul_of_nonneg_left a2 (by positivity)
    have h : (1 + 4 * w) * ((1 + 2 * (256 * w)) * e0) ≤ (1 + 520 * w) * e0 := by
      rw [← mul_assoc]
      exact mul_le_mul_of_nonneg_right (by rw [hw1]; norm_num) p0.le
    linarith
  have p2 : 0 < e2 := lt_of_lt_of_le (mul_pos (by rw [hw1]; norm_num) p0) c1
  have r3 := E.fl64_nearest.rel (1 + e2)
  have r4 := E.fl64_nearest.rel (e2 / E.fl64 (1 + e2))
  have b53 : (2 : ℝ) ^ (-(53 : ℕ) : ℤ) = w := by rw [hw]; norm_num
  rw [b53, abs_of_pos (by linarith : 0 < 1 + e2)] at r3
  obtain ⟨d1, d2⟩ := abs_le.1 r3
  set s := E.fl64 (1 + e2) with hs
  have ps : 0 < s := E.fl64_nearest.pos (by norm_num) (by linarith)
  rw [b53, abs_of_pos (div_pos p2 ps)] at r4
  obtain ⟨f1, f2⟩ := abs_le.1 r4
  have hE : dbClampEps E d = E.fl64 (e2 / s) := rfl
  have hF : FBE.dbClampEps d = e0 / (1 + e0) := rfl
  have hs1 : 0 < 1 + e0 := by linarith
  -- the denominators
  have g1 : (1 - 600 * w) * (1 + e0) ≤ s := by
    have h1 : (1 - w) * (1 + e2) ≤ s := by linarith
    have h2 : (1 - 520 * w) * (1 + e0) ≤ 1 + e2 := by nlinarith
    have h3 : (1 - w) * ((1 - 520 * w) * (1 + e0)) ≤ (1 - w) * (1 + e2) :=
      mul_le_mul_of_nonneg_left h2 (by rw [hw1]; norm_num)
    have h4 : (1 - 600 * w) * (1 + e0) ≤ (1 - w) * ((1 - 520 * w) * (1 + e0)) := by
      rw [← mul_assoc]
      exact mul_le_mul_of_nonneg_right (by rw [hw1]; norm_num) hs1.le
    linarith
  have g2 : s ≤ (1 + 600 * w) * (1 + e0) := by
    have h1 : s ≤ (1 + w) * (1 + e2) := by linarith
    have h2 : 1 + e2 ≤ (1 + 520 * w) * (1 + e0) := by nlinarith
    have h3 : (1 + w) * (1 + e2) ≤ (1 + w) * ((1 + 520 * w) * (1 + e0)) :=
      mul_le_mul_of_nonneg_left h2 (by positivity)
    have h4 : (1 + w) * ((1 + 520 * w) * (1 + e0)) ≤ (1 + 600 * w) * (1 + e0) := by
      rw [← mul_assoc]
      exact mul_le_mul_of_nonneg_right (by rw [hw1]; norm_num) hs1.le
    linarith
  have b40 : (2 : ℝ) ^ (-40 : ℤ) = 8192 * w := by rw [hw1]; norm_num
  rw [hE, hF, b40]
  set z := e0 / (1 + e0) with hz
  have pz : 0 < z := div_pos p0 hs1
  have hz0 : e0 = z * (1 + e0) := by rw [hz]; field_simp
  -- the quotient
  have q1 : (1 - 2000 * w) * z ≤ e2 / s := by
    rw [le_div_iff₀ ps]
    refine le_trans ?_ c1
    have : (1 - 2000 * w) * z * s ≤ (1 - 2000 * w) * z * ((1 + 600 * w) * (1 + e0)) :=
      mul_le_mul_of_nonneg_left g2 (mul_nonneg (by rw [hw1]; norm_num) pz.le)
    refine this.trans ?_
    have : (1 - 2000 * w) * z * ((1 + 600 * w) * (1 + e0)) = ((1 - 2000 * w) * (1 + 600 * w)) * (z * (1 + e0)) := by
      ring
    rw [this, ← hz0]
    exact mul_le_mul_of_nonneg_right (by rw [hw1]; norm_num) p0.le
  have q2 : e2 / s ≤ (1 + 2000 * w) * z := by
    rw [div_le_iff₀ ps]
    refine c2.trans ?_
    have : (1 + 2000 * w) * z * ((1 - 600 * w) * (1 + e0)) ≤ (1 + 2000 * w) * z * s :=
      mul_le_mul_of_nonneg_left g1 (by positivity)
    refine le_trans ?_ this
    have : (1 + 2000 * w) * z * ((1 - 600 * w) * (1 + e0)) = ((1 + 2000 * w) * (1 - 600 * w)) * (z * (1 + e0)) := by
      ring
    rw [this, ← hz0]
    exact mul_le_mul_of_nonneg_right (by rw [hw1]; norm_num) p0.le
  constructor
  · have : (1 - w) * ((1 - 2000 * w) * z) ≤ (1 - w) * (e2 / s) :=
      mul_le_mul_of_nonneg_left q1 (by rw [hw1]; norm_num)
    have h : (1 - 8192 * w) * z ≤ (1 - w) * ((1 - 2000 * w) * z) := by
      rw [← mul_assoc]
      exact mul_le_mul_of_nonneg_right (by rw [hw1]; norm_num) pz.le
    linarith
  · have : (1 + w) * (e2 / s) ≤ (1 + w) * ((1 + 2000 * w) * z) :=
      mul_le_mul_of_nonneg_left q2 (by positivity)
    have h : (1 + w) * ((1 + 2000 * w) * z) ≤ (1 + 8192 * w) * z := by
      rw [← mul_assoc]
      exact mul_le_mul_of_nonneg_right (by rw [hw1]; norm_num) pz.le
    linarith

end FBE.Rounded
