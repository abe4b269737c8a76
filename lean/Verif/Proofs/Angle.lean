import Mathlib.Geometry.Euclidean.Angle.Unoriented.TriangleInequality
import Mathlib.Analysis.SpecialFunctions.Trigonometric.ArctanDeriv
import Mathlib.Analysis.SpecialFunctions.Pow.Deriv
import Mathlib.Analysis.Calculus.Deriv.MeanValue
import Mathlib.Analysis.SpecialFunctions.Trigonometric.DerivHyp
import Verif.Proofs.Ratio
import Verif.Spec.Angle

/-!
# Ratios of energies as angles
-/

namespace FBE

open Spec XR InnerProductGeometry

variable {D : ℕ}

/-- The angle between a vector and a subspace. -/
noncomputable def subAngle (K : Submodule ℝ (Space D)) (u : Space D) : ℝ := Real.arccos (‖K.starProjection u‖ / ‖u‖)

theorem subAngle_le_angle (K : Submodule ℝ (Space D)) {u z : Space D} (hz : z ∈ K) : subAngle K u ≤ angle u z := by
  unfold subAngle angle
  refine Real.arccos_le_arccos ?_
  rcases eq_or_ne z 0 with rfl | hz0
  · simp only [inner_zero_right, zero_div]
    positivity
  have h : inner ℝ u z = inner ℝ (K.starProjection u) z := by
    rw [← sub_eq_zero, ← inner_sub_left]
    exact K.starProjection_inner_eq_zero u z hz
  rw [h]
  have h1 := real_inner_le_norm (K.starProjection u) z
  have hzp : 0 < ‖z‖ := norm_pos_iff.2 hz0
  calc inner ℝ (K.starProjection u) z / (‖u‖ * ‖z‖) ≤ ‖K.starProjection u‖ * ‖z‖ / (‖u‖ * ‖z‖) := by gcongr
    _ = ‖K.starProjection u‖ / ‖u‖ := by field_simp

theorem angle_proj (K : Submodule ℝ (Space D)) (u : Space D) : angle u (K.starProjection u) = subAngle K u := by
  unfold subAngle angle
  have h := inner_proj_self K u
  unfold energy at h
  rw [real_inner_comm] at h
  congr 1
  rcases eq_or_ne (‖K.starProjection u‖) 0 with h0 | h0
  · rw [h0]; simp
  · rw [h]
    field_simp

theorem subAngle_le (K : Submodule ℝ (Space D)) (u u' : Space D) : subAngle K u' ≤ subAngle K u + angle u u' := by
  have h1 := subAngle_le_angle K (u := u') (K.starProjection_apply_mem u)
  have h2 := angle_le_angle_add_angle u' u (K.starProjection u)
  rw [angle_proj, angle_comm u' u] at h2
  linarith

theorem abs_subAngle_sub (K : Submodule ℝ (Space D)) (u u' : Space D) : |subAngle K u' - subAngle K u| ≤ angle u u' := by
  rw [abs_le]
  constructor
  · have := subAngle_le K u' u
    rw [angle_comm] at this
    linarith
  · linarith [subAngle_le K u u']

/-- A change by a fraction `δ < 1` turns a vector by at most `arcsin δ`. -/
theorem angle_le_arcsin {u u' : Space D} {δ : ℝ} (h0 : 0 ≤ δ) (h1 : δ < 1) (hu : u ≠ 0)
    (h : ‖u' - u‖ ≤ δ * ‖u‖) : angle u u' ≤ Real.arcsin δ := by
  rw [Real.arcsin_eq_arccos h0]
  unfold angle
  refine Real.arccos_le_arccos ?_
  have hup : 0 < ‖u‖ := norm_pos_iff.2 hu
  have hu' : u' ≠ 0 := by
    rintro rfl
    rw [zero_sub, norm_neg] at h
    nlinarith
  have hup' : 0 < ‖u'‖ := norm_pos_iff.2 hu'
  rw [le_div_iff₀ (by positivity)]
  have hs : ‖u' - u‖ ^ 2 ≤ δ ^ 2 * ‖u‖ ^ 2 := by
    rw [← mul_pow]; gcongr
  rw [norm_sub_sq_real, real_inner_comm] at hs
  have hq : √(1 - δ ^ 2) ^ 2 = 1 - δ ^ 2 := Real.sq_sqrt (by nlinarith)
  nlinarith [sq_nonneg (‖u'‖ - √(1 - δ ^ 2) * ‖u‖)]

/-- The decibels of a ratio of energies, as an angle. -/
theorem dbAngle_dbRatio {a b : ℝ} (ha : 0 ≤ a) (hb : 0 ≤ b) (hab : a + b ≠ 0) :
    dbAngle (dbRatio a b) = Real.arccos (√a / √(a + b)) := by
  unfold dbRatio
  have hs : 0 < a + b := lt_of_le_of_ne (by positivity) (Ne.symm hab)
  split_ifs with h1 h2 h2
  · exact absurd (by rw [h1, h2, add_zero]) hab
  · rw [h1, add_zero, div_self (by rw [Real.sqrt_ne_zero']; exact lt_of_le_of_ne ha (Ne.symm h2)), Real.arccos_one]
    rfl
  · rw [h2, Real.sqrt_zero, zero_div, Real.arccos_zero]
    rfl
  · have ha' : 0 < a := lt_of_le_of_ne ha (Ne.symm h2)
    have hb' : 0 < b := lt_of_le_of_ne hb (Ne.symm h1)
    rw [Real.arccos_eq_arctan (by positivity)]
    show Real.arctan _ = _
    congr 1
    have e1 : (1 : ℝ) - (√a / √(a + b)) ^ 2 = b / (a + b) := by
      rw [div_pow, Real.sq_sqrt ha, Real.sq_sqrt hs.le]
      field_simp
      ring
    rw [e1, Real.sqrt_div hb, show -(10 * Real.logb 10 (a / b)) / 20 = Real.logb 10 (a / b) * (-1 / 2) by ring,
      Real.rpow_mul (by norm_num), Real.rpow_logb (by norm_num) (by norm_num) (by positivity),
      show (-1 / 2 : ℝ) = -(1 / 2) by ring, Real.rpow_neg (by positivity), ← Real.sqrt_eq_rpow, Real.sqrt_div ha]
    have := Real.sqrt_pos.2 hs
    have := Real.sqrt_pos.2 ha'
    have := Real.sqrt_pos.2 hb'
    field_simp

/-- The ratio of what a projection keeps of `v` and what it takes away. -/
theorem dbAngle_proj (K : Submodule ℝ (Space D)) {u : Space D} (hu : u ≠ 0) :
    dbAngle (dbRatio (energy (K.starProjection u)) (energy (u - K.starProjection u))) = subAngle K u := by
  have he : energy (K.starProjection u) + energy (u - K.starProjection u) = energy u := by
    rw [energy_sub_proj]; ring
  rw [dbAngle_dbRatio (energy_nonneg _) (energy_nonneg _) (by rw [he]; unfold energy; positivity), he]
  unfold subAngle energy
  rw [Real.sqrt_sq (norm_nonneg _), Real.sqrt_sq (norm_nonneg _)]

/-! ### Decibels from angles -/

theorem dbPerAngle_pos (d : ℝ) : 0 < dbPerAngle d := by
  unfold dbPerAngle
  have := Real.log_pos (by norm_num : (1 : ℝ) < 10)
  positivity

theorem dbAngle_hasDerivAt (v : ℝ) : HasDerivAt (fun v => dbAngle (.fin v))
    (-(Real.log 10 / 20) / ((10 : ℝ) ^ (v / 20) + (10 : ℝ) ^ (-v / 20))) v := by
  have h1 : HasDerivAt (fun v : ℝ => -v / 20) (-1 / 20) v := ((hasDerivAt_id v).neg).div_const 20
  have h2 : HasDerivAt (fun v : ℝ => (10 : ℝ) ^ (-v / 20)) (Real.log 10 * (-1 / 20) * (10 : ℝ) ^ (-v / 20)) v := by
    have := h1.const_rpow (a := (10 : ℝ)) (by norm_num)
    exact this
  have h3 := h2.arctan
  refine h3.congr_deriv ?_
  have hp : (10 : ℝ) ^ (v / 20) = ((10 : ℝ) ^ (-v / 20))⁻¹ := by
    rw [← Real.rpow_neg (by norm_num)]; congr 1; ring
  rw [hp]
  have : 0 < (10 : ℝ) ^ (-v / 20) := by positivity
  field_simp

/-- Within the range from `-d` to `d`, the decibels change at most `dbPerAngle d` times as fast as the angle. -/
theorem sub_le_dbAngle {d v v' : ℝ} (h1 : -d ≤ v) (h2 : v ≤ v') (h3 : v' ≤ d) :
    v' - v ≤ dbPerAngle d * (dbAngle (.fin v) - dbAngle (.fin v')) := by
  have hpos := dbPerAngle_pos d
  have h := (convex_Icc (-d) d).mul_sub_le_image_sub_of_le_deriv (f := fun v => -dbAngle (.fin v)) (C := (dbPerAngle d)⁻¹)
    (fun v _ => (dbAngle_hasDerivAt v).neg.continuousAt.continuousWithinAt)
    (fun v _ => (dbAngle_hasDerivAt v).neg.differentiableAt.differentiableWithinAt) ?_ v ⟨h1, h2.trans h3⟩ v' ⟨h1.trans h2, h3⟩ h2
  · rw [inv_mul_le_iff₀ hpos] at h
    linarith
  · intro w hw
    rw [interior_Icc] at hw
    have hd : deriv (fun v => -dbAngle (.fin v)) w = _ := (dbAngle_hasDerivAt w).neg.deriv
    rw [hd]
    unfold dbPerAngle
    have hl := Real.log_pos (by norm_num : (1 : ℝ) < 10)
    have hq : (10 : ℝ) ^ (w / 20) + (10 : ℝ) ^ (-w / 20) ≤ (10 : ℝ) ^ (d / 20) + (10 : ℝ) ^ (-d / 20) := by
      have e : ∀ x : ℝ, (10 : ℝ) ^ (x / 20) + (10 : ℝ) ^ (-x / 20) = 2 * Real.cosh (Real.log 10 * (x / 20)) := fun x => by
        rw [Real.cosh_eq, Real.rpow_def_of_pos (by norm_num), Real.rpow_def_of_pos (by norm_num), neg_div, mul_neg]
        ring
      rw [e, e]
      have : |Real.log 10 * (w / 20)| ≤ |Real.log 10 * (d / 20)| := by
        rw [abs_mul, abs_mul]
        refine mul_le_mul_of_nonneg_left ?_ (abs_nonneg _)
        rw [abs_div, abs_div]
        have : |w| ≤ |d| := (abs_le.2 ⟨hw.1.le, hw.2.le⟩).trans (le_abs_self d)
        gcongr
      have := Real.cosh_le_cosh.2 this
      linarith
    have e2 : -(-(Real.log 10 / 20) / ((10 : ℝ) ^ (w / 20) + (10 : ℝ) ^ (-w / 20))) =
        (20 / Real.log 10 * ((10 : ℝ) ^ (w / 20) + (10 : ℝ) ^ (-w / 20)))⁻¹ := by
      field_simp
    rw [e2]
    refine inv_anti₀ (by positivity) ?_
    gcongr

/-- Larger values, smaller angles. -/
theorem dbAngle_anti {v w : XR} (hv : v ≠ .nan) (hw : w ≠ .nan) (h : toEReal v ≤ toEReal w) : dbAngle w ≤ dbAngle v := by
  have hpos : ∀ x : ℝ, 0 ≤ Real.arctan ((10 : ℝ) ^ (-x / 20)) := fun x => by
    rw [← Real.arctan_zero]; exact Real.arctan_mono (by positivity)
  have hlt : ∀ x : ℝ, Real.arctan ((10 : ℝ) ^ (-x / 20)) ≤ Real.pi / 2 := fun x => (Real.arctan_lt_pi_div_two _).le
  cases v with
  | nan => exact absurd rfl hv
  | pinf =>
    cases w with
    | nan => exact absurd rfl hw
    | pinf => exact le_rfl
    | ninf => simp [toEReal] at h
    | fin w => simp [toEReal] at h
  | ninf =>
    cases w with
    | nan => exact absurd rfl hw
    | pinf => show (0 : ℝ) ≤ Real.pi / 2; positivity
    | ninf => exact le_rfl
    | fin w => exact hlt w
  | fin v =>
    cases w with
    | nan => exact absurd rfl hw
    | pinf => exact hpos v
    | ninf => simp [toEReal] at h
    | fin w =>
      refine Real.arctan_mono ?_
      have : v ≤ w := by simpa [toEReal] using h
      refine Real.rpow_le_rpow_of_exponent_le (by norm_num) ?_
      linarith

/-- The clipped value, as a number. -/
noncomputable def clipped (d : ℝ) : XR → ℝ
  | .fin x => max (-d) (min d x)
  | .pinf => d
  | .ninf => -d
  | .nan => 0

theorem clip_eq {d : ℝ} {v : XR} (hv : v ≠ .nan) : clip d v = .fin (clipped d v) := by
  cases v <;> first | rfl | exact absurd rfl hv

theorem clipped_mem {d : ℝ} (hd : 0 ≤ d) {v : XR} (hv : v ≠ .nan) : -d ≤ clipped d v ∧ clipped d v ≤ d := by
  cases v with
  | nan => exact absurd rfl hv
  | pinf => exact ⟨by show -d ≤ d; linarith, le_rfl⟩
  | ninf => exact ⟨le_rfl, by show -d ≤ d; linarith⟩
  | fin x => exact ⟨le_max_left _ _, max_le (by linarith) (min_le_left _ _)⟩

theorem clipped_sub_le {d : ℝ} (hd : 0 ≤ d) {v w : XR} (hv : v ≠ .nan) (hw : w ≠ .nan) :
    clipped d w - clipped d v ≤ dbPerAngle d * |dbAngle v - dbAngle w| := by
  rcases le_or_gt (clipped d w) (clipped d v) with h | h
  · have := mul_nonneg (dbPerAngle_pos d).le (abs_nonneg (dbAngle v - dbAngle w))
    linarith
  · obtain ⟨a1, a2⟩ := clipped_mem hd hv
    obtain ⟨b1, b2⟩ := clipped_mem hd hw
    refine (sub_le_dbAngle a1 h.le b2).trans ?_
    refine mul_le_mul_of_nonneg_left (le_trans ?_ (le_abs_self _)) (dbPerAngle_pos d).le
    have h1 : dbAngle (.fin (clipped d v)) ≤ dbAngle v := by
      refine dbAngle_anti hv (by simp) ?_
      cases v with
      | nan => exact absurd rfl hv
      | pinf => exact absurd h (not_lt.2 b2)
      | ninf => exact bot_le
      | fin x =>
        simp only [toEReal, EReal.coe_le_coe_iff]
        show x ≤ max (-d) (min d x)
        have : min d x = x := by
          refine min_eq_right (le_of_not_gt fun hx => ?_)
          have : clipped d (.fin x) = d := by
            show max (-d) (min d x) = d
            rw [min_eq_left hx.le, max_eq_right (by linarith)]
          linarith
        rw [this]; exact le_max_right _ _
    have h2 : dbAngle w ≤ dbAngle (.fin (clipped d w)) := by
      refine dbAngle_anti (by simp) hw ?_
      cases w with
      | nan => exact absurd rfl hw
      | pinf => exact le_top
      | ninf => exact absurd h (not_lt.2 a1)
      | fin x =>
        simp only [toEReal, EReal.coe_le_coe_iff]
        show max (-d) (min d x) ≤ x
        have : -d ≤ x := by
          refine le_of_not_gt fun hx => ?_
          have : clipped d (.fin x) = -d := by
            show max (-d) (min d x) = -d
            rw [min_eq_right (by linarith), max_eq_left hx.le]
          linarith
        exact max_le this (min_le_right _ _)
    linarith

/-- Values that are limited to a range differ by at most `dbPerAngle d` times the angle. -/
theorem abs_clipped_sub {d : ℝ} (hd : 0 ≤ d) {v w : XR} (hv : v ≠ .nan) (hw : w ≠ .nan) :
    |clipped d w - clipped d v| ≤ dbPerAngle d * |dbAngle w - dbAngle v| := by
  rw [abs_le]
  constructor
  · have := clipped_sub_le hd hw hv
    linarith
  · have := clipped_sub_le hd hv hw
    rwa [abs_sub_comm] at this

end FBE
