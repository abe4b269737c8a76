import Verif.Proofs.RoundedSi
import Verif.Spec.ScaleInvariant
import Verif.Props.C65_Rounding

/-!
# C67 — the scale-invariant SDR in floating point arithmetic

All roundings from the samples to the decibels, for every order of the summations (`Model/RoundedSi.lean`).  `k` bounds the
number of operations a sample passes through in a sum: at most the number of samples (`C67_any_order`), about its logarithm
for pairwise summation.
-/

namespace FBE.Props

open Spec XR Rounded

variable {p n : ℕ}

theorem cohErr_pos (p k : ℕ) : 0 < cohErr p k := by unfold cohErr; positivity

theorem energies (x y : Fin n → ℝ) (hx : 0 < sigNorm x) (hy : 0 < sigNorm y) :
    alongEnergy x y = cosine x y ^ 2 * sigNorm y ^ 2 ∧ restEnergy x y = (1 - cosine x y ^ 2) * sigNorm y ^ 2 := by
  have hxx : ∑ t, x t ^ 2 = sigNorm x ^ 2 := (Real.sq_sqrt (Finset.sum_nonneg fun t _ => sq_nonneg _)).symm
  have hyy : ∑ t, y t ^ 2 = sigNorm y ^ 2 := (Real.sq_sqrt (Finset.sum_nonneg fun t _ => sq_nonneg _)).symm
  have hxy : ∑ t, y t * x t = cosine x y * (sigNorm x * sigNorm y) := by
    unfold cosine
    rw [Finset.sum_mul]
    exact Finset.sum_congr rfl fun t _ => by field_simp
  have ha : scaleOf x y * sigNorm x = cosine x y * sigNorm y := by
    unfold scaleOf
    rw [hxy, hxx]
    field_simp
  constructor
  · unfold alongEnergy
    simp only [mul_pow]
    rw [← Finset.mul_sum, hxx, ← mul_pow, ← mul_pow, ha]
  · unfold restEnergy
    have : ∀ t, (scaleOf x y * x t - y t) ^ 2 =
        scaleOf x y ^ 2 * x t ^ 2 - 2 * scaleOf x y * (y t * x t) + y t ^ 2 := fun t => by ring
    simp only [this]
    rw [Finset.sum_add_distrib, Finset.sum_sub_distrib, ← Finset.mul_sum, ← Finset.mul_sum, hxx, hyy, hxy]
    linear_combination (scaleOf x y * sigNorm x - cosine x y * sigNorm y) * ha

theorem coh_close {E : Machine p} {k : ℕ} (hp : 11 ≤ p) (hk : ((k + 2 : ℕ) : ℝ) * 2 ^ (-p : ℤ) ≤ 1 / 100)
    {x y : Fin n → ℝ} {coh : ℝ} (h : IsCoherence E k x y coh) (hx : 2e-6 ≤ sigNorm x) (hy : 2e-6 ≤ sigNorm y) :
    |coh - cosine x y ^ 2| ≤ cohErr p k :=
  h.close hp (by unfold unit; push_cast at hk; exact hk) hx hy

theorem log_close {a b δ : ℝ} (ha : 0 < a) (hb : |b - a| ≤ δ) (hδ : 2 * δ ≤ a) :
    0 < b ∧ |Real.log b - Real.log a| ≤ 2 * δ / a := by
  obtain ⟨h1, h2⟩ := abs_le.1 hb
  have hb0 : 0 < b := by linarith
  have hδ0 : 0 ≤ δ := (abs_nonneg _).trans hb
  refine ⟨hb0, ?_⟩
  rw [← Real.log_div hb0.ne' ha.ne', abs_le]
  constructor
  · have h3 := Real.log_le_sub_one_of_pos (div_pos ha hb0)
    rw [show a / b = (b / a)⁻¹ by rw [inv_div], Real.log_inv, inv_div] at h3
    have h4 : a / b - 1 ≤ 2 * δ / a := by
      rw [div_sub_one hb0.ne', div_le_div_iff₀ hb0 ha]
      nlinarith
    linarith
  · have h3 := Real.log_le_sub_one_of_pos (div_pos hb0 ha)
    have h4 : b / a - 1 ≤ 2 * δ / a := by
      rw [div_sub_one ha.ne']
      gcongr
      linarith
    linarith

/-- **C67.**  Accuracy.  Let the documented SI-SDR of the estimate `y` of the reference `x` be `10 log10 R`, with
`R = ‖a x‖² / ‖a x - y‖²`.  A value computed with `p` bits (without `clamp_db`, without mean removal) is off by at most
`10 δ (2 + R + 1/R) + 2^(5-p) (|10 log10 R| + 1)` dB, with `δ = 5 (k + 2) 2^-p`, as long as `δ` is at most half of
`1 / (1 + R)` and of `1 / (1 + 1/R)`. -/
theorem C67_accuracy (E : Machine p) (hp : 11 ≤ p) {k : ℕ} (hk : ((k + 2 : ℕ) : ℝ) * 2 ^ (-p : ℤ) ≤ 1 / 100)
    {x y : Fin n → ℝ} (hx : 2e-6 ≤ sigNorm x) (hy : 2e-6 ≤ sigNorm y) {R : ℝ} (hR0 : 0 < R)
    (hR : alongEnergy x y = R * restEnergy x y) (h1 : cohErr p k * (1 + R) ≤ 1 / 2)
    (h2 : cohErr p k * (1 + 1 / R) ≤ 1 / 2) {v : XR} (hv : IsSiSdrLoss E k none y x v) :
    ∃ w, v = fin w ∧ |w - -(10 * Real.logb 10 R)| ≤
      10 * cohErr p k * (2 + R + 1 / R) + 2 ^ (5 - p : ℤ) * (|10 * Real.logb 10 R| + 1) := by
  obtain ⟨coh, hcoh, rfl⟩ := hv
  have hc := coh_close hp hk hcoh hx hy
  have hSx : 0 < sigNorm x := lt_of_lt_of_le (by norm_num) hx
  have hSy : 0 < sigNorm y := lt_of_lt_of_le (by norm_num) hy
  obtain ⟨e1, e2⟩ := energies x y hSx hSy
  have hδ0 := cohErr_pos p k
  set δ := cohErr p k
  have hrho : cosine x y ^ 2 = R / (1 + R) := by
    rw [e1, e2] at hR
    have := mul_right_cancel₀ (pow_pos hSy 2).ne' (hR.trans (by ring : _ = R * (1 - cosine x y ^ 2) * sigNorm y ^ 2))
    field_simp
    linarith
  rw [hrho] at hc
  set r := R / (1 + R) with hr
  have hr0 : 0 < r := by positivity
  have hr1 : 1 - r = 1 / (1 + R) := by rw [hr]; field_simp; ring
  have i1 : 1 / r = 1 + 1 / R := by rw [hr]; field_simp; ring
  have i2 : 1 / (1 - r) = 1 + R := by rw [hr1]; field_simp
  have hr2 : 0 < 1 - r := by rw [hr1]; positivity
  have d1 : 2 * δ ≤ r := by
    rw [← i1, ← div_eq_mul_one_div, div_le_iff₀ hr0] at h2; linarith
  have d2 : 2 * δ ≤ 1 - r := by
    rw [← i2, ← div_eq_mul_one_div, div_le_iff₀ hr2] at h1; linarith
  obtain ⟨hc0, l1⟩ := log_close hr0 hc d1
  obtain ⟨hc1, l2⟩ := log_close (b := 1 - coh) hr2 (by rw [sub_sub_sub_cancel_left, abs_sub_comm]; exact hc) d2
  obtain ⟨w, X, hw, hX, hwX⟩ := C65_accuracy E hp hc0 (by linarith : coh < 1)
  refine ⟨w, hw, ?_⟩
  -- the exact value at the computed coherence
  have hXe : X = 10 * Real.logb 10 ((1 - coh) / coh) := by
    have : coherenceToNegSdr none (fin coh) = fin (10 * Real.logb 10 ((1 - coh) / coh)) := by
      rw [coherenceToNegSdr_fin, cclamp_none hc0.le (by linarith), negDb, if_neg hc0.ne', if_neg (by linarith)]
    rw [this] at hX
    cases hX
    rfl
  have hT : |X - -(10 * Real.logb 10 R)| ≤ 9 * δ * (2 + R + 1 / R) := by
    have hlog : 0 < Real.log 10 := Real.log_pos (by norm_num)
    have hRr : Real.log R = Real.log r - Real.log (1 - r) := by
      rw [← Real.log_div hr0.ne' hr2.ne', hr1, hr]
      congr 1
      field_simp
    have : X - -(10 * Real.logb 10 R) =
        10 / Real.log 10 * ((Real.log (1 - coh) - Real.log (1 - r)) - (Real.log coh - Real.log r)) := by
      rw [hXe, Real.logb, Real.logb, Real.log_div hc1.ne' hc0.ne', hRr]
      field_simp
      ring
    rw [this, abs_mul, abs_of_pos (by positivity)]
    have h3 : |(Real.log (1 - coh) - Real.log (1 - r)) - (Real.log coh - Real.log r)| ≤ 2 * δ * (2 + R + 1 / R) := by
      refine (abs_sub _ _).trans ((add_le_add l2 l1).trans_eq ?_)
      rw [div_eq_mul_one_div, i2, div_eq_mul_one_div (2 * δ) r, i1]
      ring
    have h4 : 10 / Real.log 10 ≤ 4.5 := by
      rw [div_le_iff₀ hlog]
      linarith [log_ten_lower]
    have h5 : 0 ≤ 2 * δ * (2 + R + 1 / R) := by positivity
    calc _ ≤ 4.5 * (2 * δ * (2 + R + 1 / R)) := mul_le_mul h4 h3 (abs_nonneg _) (by norm_num)
      _ = _ := by ring
  set S := 10 * Real.logb 10 R
  set η : ℝ := 2 ^ (5 - p : ℤ) with hη
  have hη0 : 0 < η := by positivity
  have hη1 : η ≤ 1 / 64 := by
    calc η ≤ (2 : ℝ) ^ (-6 : ℤ) := zpow_le_zpow_right₀ (by norm_num) (by omega)
      _ = 1 / 64 := by norm_num
  have h6 : |w - -S| ≤ |w - X| + |X - -S| := abs_sub_le _ _ _
  have h7 : |X| ≤ |X - -S| + |S| := by
    have := abs_add_le (X - -S) (-S)
    rwa [sub_add_cancel, abs_neg] at this
  have h8 : η * (|X| + 1) ≤ η * (9 * δ * (2 + R + 1 / R) + |S| + 1) :=
    mul_le_mul_of_nonneg_left (by linarith) hη0.le
  have h9 : η * (9 * δ * (2 + R + 1 / R)) ≤ 1 / 64 * (9 * δ * (2 + R + 1 / R)) :=
    mul_le_mul_of_nonneg_right hη1 (by positivity)
  have h10 : 0 ≤ δ * (2 + R + 1 / R) := by positivity
  linarith

theorem add_inv_le {A R : ℝ} (hA : 1 ≤ A) (h1 : 1 / A ≤ R) (h2 : R ≤ A) : 2 + R + 1 / R ≤ A + 3 := by
  have hA0 : 0 < A := by linarith
  have hR0 : 0 < R := lt_of_lt_of_le (by positivity) h1
  have h3 : 1 ≤ R * A := by rwa [div_le_iff₀ hA0] at h1
  have h4 : 1 / R ≤ A + 1 - R := by
    rw [div_le_iff₀ hR0]
    rcases le_total R 1 with h | h
    · nlinarith
    · nlinarith
  linarith

/-- **C67.**  `float64`, any order of the summations, at most `10^7` samples (ten minutes at 16 kHz), SI-SDR between -50 and
50 dB: accurate to a hundredth of a decibel. -/
theorem C67_float64 (E : Machine 53) (hn : n ≤ 10 ^ 7) {x y : Fin n → ℝ} (hx : 2e-6 ≤ sigNorm x) (hy : 2e-6 ≤ sigNorm y)
    {R : ℝ} (hR1 : 10 ^ (-5 : ℤ) ≤ R) (hR2 : R ≤ 10 ^ 5) (hR : alongEnergy x y = R * restEnergy x y)
    {v : XR} (hv : IsSiSdrLoss E n none y x v) :
    ∃ w, v = fin w ∧ |w - -(10 * Real.logb 10 R)| ≤ 0.01 := by
  have hR0 : 0 < R := lt_of_lt_of_le (by positivity) hR1
  have hnr : (n : ℝ) ≤ 10 ^ 7 := by exact_mod_cast hn
  have hδ : cohErr 53 n ≤ 6e-9 := by
    unfold cohErr
    calc 5 * (((n : ℝ) + 2) * 2 ^ (-(53 : ℕ) : ℤ)) ≤ 5 * ((10 ^ 7 + 2) * 2 ^ (-(53 : ℕ) : ℤ)) := by gcongr
      _ ≤ 6e-9 := by norm_num
  have hδ0 := cohErr_pos 53 n
  have hi : 1 / R ≤ 10 ^ 5 := by
    rw [div_le_iff₀ hR0]
    norm_num at hR1
    linarith
  have hi0 : 0 < 1 / R := by positivity
  have hlog : |10 * Real.logb 10 R| ≤ 50 := by
    have a1 : Real.logb 10 R ≤ 5 := by
      rw [Real.logb_le_iff_le_rpow (by norm_num) hR0]
      exact hR2.trans_eq (by norm_num)
    have a2 : -5 ≤ Real.logb 10 R := by
      rw [Real.le_logb_iff_rpow_le (by norm_num) hR0]
      refine le_trans (le_of_eq ?_) hR1
      rw [show (-5 : ℝ) = ((-5 : ℤ) : ℝ) by norm_num, Real.rpow_intCast]
    rw [abs_le]
    constructor <;> linarith
  have b1 : cohErr 53 n * (1 + R) ≤ 6e-9 * (1 + 10 ^ 5) := mul_le_mul hδ (by linarith) (by positivity) (by norm_num)
  have b2 : cohErr 53 n * (1 + 1 / R) ≤ 6e-9 * (1 + 10 ^ 5) := mul_le_mul hδ (by linarith) (by positivity) (by norm_num)
  obtain ⟨w, hw, h⟩ := C67_accuracy E (by norm_num) (k := n) (by
    calc ((n + 2 : ℕ) : ℝ) * 2 ^ (-(53 : ℕ) : ℤ) ≤ (10 ^ 7 + 2) * 2 ^ (-(53 : ℕ) : ℤ) := by push_cast; gcongr
      _ ≤ 1 / 100 := by norm_num) hx hy hR0 hR (b1.trans (by norm_num)) (b2.trans (by norm_num)) hv
  refine ⟨w, hw, h.trans ?_⟩
  have hs : cohErr 53 n * (2 + R + 1 / R) ≤ 6e-9 * (10 ^ 5 + 3) :=
    mul_le_mul hδ (add_inv_le (by norm_num) (le_of_eq_of_le (by norm_num) hR1) hR2) (by positivity) (by norm_num)
  have c2 : (2 : ℝ) ^ (5 - (53 : ℕ) : ℤ) * (|10 * Real.logb 10 R| + 1) ≤ 2 ^ (5 - (53 : ℕ) : ℤ) * (50 + 1) := by gcongr
  have c3 : (2 : ℝ) ^ (5 - (53 : ℕ) : ℤ) * (50 + 1) ≤ 0.0001 := by norm_num
  have c4 := hs.trans (by norm_num : _ ≤ (0.00061 : ℝ))
  linarith

/-- **C67.**  `float32`, sums in which no sample passes through more than 1000 operations (blocked or pairwise summation),
SI-SDR between -20 and 20 dB: accurate to half a decibel. -/
theorem C67_float32 (E : Machine 24) {k : ℕ} (hk : k ≤ 1000) {x y : Fin n → ℝ} (hx : 2e-6 ≤ sigNorm x)
    (hy : 2e-6 ≤ sigNorm y) {R : ℝ} (hR1 : 1 / 100 ≤ R) (hR2 : R ≤ 100)
    (hR : alongEnergy x y = R * restEnergy x y) {v : XR} (hv : IsSiSdrLoss E k none y x v) :
    ∃ w, v = fin w ∧ |w - -(10 * Real.logb 10 R)| ≤ 0.5 := by
  have hR0 : 0 < R := lt_of_lt_of_le (by norm_num) hR1
  have hnr : (k : ℝ) ≤ 1000 := by exact_mod_cast hk
  have hδ : cohErr 24 k ≤ 3e-4 := by
    unfold cohErr
    calc 5 * (((k : ℝ) + 2) * 2 ^ (-(24 : ℕ) : ℤ)) ≤ 5 * ((1000 + 2) * 2 ^ (-(24 : ℕ) : ℤ)) := by gcongr
      _ ≤ 3e-4 := by norm_num
  have hδ0 := cohErr_pos 24 k
  have hi : 1 / R ≤ 100 := by
    rw [div_le_iff₀ hR0]
    linarith
  have hi0 : 0 < 1 / R := by positivity
  have hlog : |10 * Real.logb 10 R| ≤ 20 := by
    have a1 : Real.logb 10 R ≤ 2 := by
      rw [Real.logb_le_iff_le_rpow (by norm_num) hR0]
      exact hR2.trans_eq (by norm_num)
    have a2 : -2 ≤ Real.logb 10 R := by
      rw [Real.le_logb_iff_rpow_le (by norm_num) hR0]
      refine le_trans (le_of_eq ?_) hR1
      rw [show (-2 : ℝ) = ((-2 : ℤ) : ℝ) by norm_num, Real.rpow_intCast]
      norm_num
    rw [abs_le]
    constructor <;> linarith
  have b1 : cohErr 24 k * (1 + R) ≤ 3e-4 * (1 + 100) := mul_le_mul hδ (by linarith) (by positivity) (by norm_num)
  have b2 : cohErr 24 k * (1 + 1 / R) ≤ 3e-4 * (1 + 100) := mul_le_mul hδ (by linarith) (by positivity) (by norm_num)
  obtain ⟨w, hw, h⟩ := C67_accuracy E (by norm_num) (k := k) (by
    calc ((k + 2 : ℕ) : ℝ) * 2 ^ (-(24 : ℕ) : ℤ) ≤ (1000 + 2) * 2 ^ (-(24 : ℕ) : ℤ) := by push_cast; gcongr
      _ ≤ 1 / 100 := by norm_num) hx hy hR0 hR (b1.trans (by norm_num)) (b2.trans (by norm_num)) hv
  refine ⟨w, hw, h.trans ?_⟩
  have hs : cohErr 24 k * (2 + R + 1 / R) ≤ 3e-4 * (100 + 3) :=
    mul_le_mul hδ (add_inv_le (by norm_num) hR1 hR2) (by positivity) (by norm_num)
  have c2 : (2 : ℝ) ^ (5 - (24 : ℕ) : ℤ) * (|10 * Real.logb 10 R| + 1) ≤ 2 ^ (5 - (24 : ℕ) : ℤ) * (20 + 1) := by gcongr
  have c3 : (2 : ℝ) ^ (5 - (24 : ℕ) : ℤ) * (20 + 1) ≤ 0.0001 := by norm_num
  have c4 := hs.trans (by norm_num : _ ≤ (0.04 : ℝ))
  linarith

/-- **C67.**  Ranking.  If the distortion of the estimate `y'` is a smaller fraction of its energy than that of `y`, by at
least `2 δ`, then `y'` is not ranked behind `y`, whatever the rounding, with and without `clamp_db` (if the `log10` of the
library is monotone). -/
theorem C67_ranking (E : Machine p) (hp : 11 ≤ p) (hlg : MonotoneOn E.lg (Set.Ioi 0)) {k : ℕ}
    (hk : ((k + 2 : ℕ) : ℝ) * 2 ^ (-p : ℤ) ≤ 1 / 100) {cd : Option ℝ} (hcd : ∀ d, cd = some d → 0 ≤ d ∧ d ≤ 1000)
    {x y y' : Fin n → ℝ} (hx : 2e-6 ≤ sigNorm x) (hy : 2e-6 ≤ sigNorm y) (hy' : 2e-6 ≤ sigNorm y')
    (h : restEnergy x y' / ∑ t, y' t ^ 2 + 2 * cohErr p k ≤ restEnergy x y / ∑ t, y t ^ 2) {v v' : XR}
    (hv : IsSiSdrLoss E k cd y x v) (hv' : IsSiSdrLoss E k cd y' x v') : toEReal v' ≤ toEReal v := by
  obtain ⟨coh, hcoh, rfl⟩ := hv
  obtain ⟨coh', hcoh', rfl⟩ := hv'
  have hSx : 0 < sigNorm x := lt_of_lt_of_le (by norm_num) hx
  have key : ∀ z : Fin n → ℝ, 2e-6 ≤ sigNorm z → restEnergy x z / ∑ t, z t ^ 2 = 1 - cosine x z ^ 2 := fun z hz => by
    have hSz : 0 < sigNorm z := lt_of_lt_of_le (by norm_num) hz
    have hzz : ∑ t, z t ^ 2 = sigNorm z ^ 2 := (Real.sq_sqrt (Finset.sum_nonneg fun t _ => sq_nonneg _)).symm
    rw [(energies x z hSx hSz).2, hzz]
    field_simp
  rw [key y hy, key y' hy'] at h
  have c1 := (abs_le.1 (coh_close hp hk hcoh hx hy)).2
  have c2 := (abs_le.1 (coh_close hp hk hcoh' hx hy')).1
  exact C65_ranking E (by omega) hlg hcd (by linarith)

/-- **C67.**  A perfect estimate (a multiple of the reference) is reported without `clamp_db` as `+inf`, or as at least
`10 log10((1 - δ) / δ)` up to the rounding of the decibel stage. -/
theorem C67_perfect (E : Machine p) (hp : 11 ≤ p) {k : ℕ} (hk : ((k + 2 : ℕ) : ℝ) * 2 ^ (-p : ℤ) ≤ 1 / 100)
    {x y : Fin n → ℝ} (hx : 2e-6 ≤ sigNorm x) (hy : 2e-6 ≤ sigNorm y) {b : ℝ} (hb : ∀ t, y t = b * x t) {v : XR}
    (hv : IsSiSdrLoss E k none y x v) :
    v = ninf ∨ ∃ w, v = fin w ∧
      w ≤ -(10 * Real.logb 10 ((1 - cohErr p k) / cohErr p k)) * (1 - 2 ^ (5 - p : ℤ)) + 2 ^ (5 - p : ℤ) := by
  obtain ⟨coh, hcoh, rfl⟩ := hv
  have hc := (abs_le.1 (coh_close hp hk hcoh hx hy)).1
  have hSx : 0 < sigNorm x := lt_of_lt_of_le (by norm_num) hx
  have hSy : 0 < sigNorm y := lt_of_lt_of_le (by norm_num) hy
  have hrest : restEnergy x y = 0 := by
    unfold restEnergy
    refine Finset.sum_eq_zero fun t _ => ?_
    have hxx : ∑ t, x t ^ 2 = sigNorm x ^ 2 := (Real.sq_sqrt (Finset.sum_nonneg fun t _ => sq_nonneg _)).symm
    have : scaleOf x y = b := by
      unfold scaleOf
      rw [show ∑ t, y t * x t = b * ∑ t, x t ^ 2 by
        rw [Finset.mul_sum]; exact Finset.sum_congr rfl fun t _ => by rw [hb t]; ring, hxx]
      field_simp
    rw [this, hb t]
    ring
  have hcos : cosine x y ^ 2 = 1 := by
    have := (energies x y hSx hSy).2
    rw [hrest] at this
    have h2 := (mul_eq_zero.1 this.symm).resolve_right (pow_pos hSy 2).ne'
    linarith
  rw [hcos] at hc
  have hδ0 := cohErr_pos p k
  have hδ1 : cohErr p k ≤ 1 / 20 := by
    unfold cohErr
    push_cast at hk
    linarith
  set δ := cohErr p k
  rcases le_or_gt 1 coh with h1 | h1
  · left
    obtain ⟨b1, b2⟩ := bounds_none E
    refine coherenceToNegSdr_one E ?_
    rw [b1, b2]
    unfold clamp max2 min2
    simp only
    rw [max_eq_left (by linarith), min_eq_right h1]
  · right
    have hc0 : 0 < coh := by linarith
    obtain ⟨w, X, hw, hX, hwX⟩ := C65_accuracy E hp hc0 h1
    refine ⟨w, hw, ?_⟩
    have hXe : X = 10 * Real.logb 10 ((1 - coh) / coh) := by
      have : coherenceToNegSdr none (fin coh) = fin (10 * Real.logb 10 ((1 - coh) / coh)) := by
        rw [coherenceToNegSdr_fin, cclamp_none hc0.le (by linarith), negDb, if_neg hc0.ne', if_neg (by linarith)]
      rw [this] at hX
      cases hX
      rfl
    have h2 : (1 - coh) / coh ≤ δ / (1 - δ) := by
      rw [div_le_div_iff₀ hc0 (by linarith)]
      nlinarith
    have h3 : X ≤ -(10 * Real.logb 10 ((1 - δ) / δ)) := by
      rw [hXe, ← mul_neg, ← Real.logb_inv, inv_div]
      exact mul_le_mul_of_nonneg_left (Real.logb_le_logb_of_le (by norm_num) (div_pos (by linarith) hc0) h2)
        (by norm_num)
    have h4 : 0 ≤ Real.logb 10 ((1 - δ) / δ) := by
      refine Real.logb_nonneg (by norm_num) ?_
      rw [le_div_iff₀ hδ0]
      linarith
    set η : ℝ := 2 ^ (5 - p : ℤ)
    have hη1 : η ≤ 1 / 64 := by
      calc η ≤ (2 : ℝ) ^ (-6 : ℤ) := zpow_le_zpow_right₀ (by norm_num) (by omega)
        _ = 1 / 64 := by norm_num
    have h5 := (abs_le.1 hwX).2
    rw [abs_of_nonpos (by linarith)] at h5
    have h6 : X * (1 - η) ≤ -(10 * Real.logb 10 ((1 - δ) / δ)) * (1 - η) :=
      mul_le_mul_of_nonneg_right h3 (by linarith)
    linarith

/-- **C67.**  The statements are not about nothing: there is always a result, already when the sums are computed from the
first to the last sample; the number of samples is enough as `k`. -/
theorem C67_any_order (E : Machine p) (hn : 0 < n) (cd : Option ℝ) (x y : Fin n → ℝ) : ∃ v, IsSiSdrLoss E n cd y x v := by
  have hne : (Finset.univ : Finset (Fin n)).Nonempty := ⟨⟨0, hn⟩, Finset.mem_univ _⟩
  have hdot : ∀ a b : Fin n → ℝ, ∃ c, IsDot (2 ^ (-p : ℤ)) a b n Finset.univ c := fun a b => by
    have := exists_isDot (u := 2 ^ (-p : ℤ)) (by positivity) a b Finset.univ hne
    rwa [Finset.card_univ, Fintype.card_fin] at this
  have hnorm : ∀ a : Fin n → ℝ, ∃ a', IsNormalized E n a a' := fun a => by
    obtain ⟨q, hq⟩ := hdot a a
    exact ⟨_, q, √q, hq, by rw [sub_self, abs_zero]; positivity, fun t => rfl⟩
  obtain ⟨x', hx'⟩ := hnorm x
  obtain ⟨y', hy'⟩ := hnorm y
  obtain ⟨c, hc⟩ := hdot x' y'
  exact ⟨_, _, ⟨x', y', c, hx', hy', hc, rfl⟩, rfl⟩

/-! ### the hypotheses can be met -/

/-- The estimate `(2, 1)` of `(1, 0)` in half precision. -/
example : ∃ (E : Machine 11) (v : XR), IsSiSdrLoss E 2 none ![2, 1] ![1, 0] v ∧ ∃ w, v = fin w ∧
    |w - -(10 * Real.logb 10 4)| ≤ 10 * cohErr 11 2 * (2 + 4 + 1 / 4) + 2 ^ (5 - (11 : ℕ) : ℤ) * (|10 * Real.logb 10 4| + 1) := by
  obtain ⟨E, -⟩ := exists_machine (p := 11) (by norm_num)
  obtain ⟨v, hv⟩ := C67_any_order E (by norm_num) none ![1, 0] ![2, 1]
  refine ⟨E, v, hv, C67_accuracy E le_rfl (by norm_num) ?_ ?_ (by norm_num) ?_ (by norm_num [cohErr]) (by norm_num [cohErr]) hv⟩
  · norm_num [sigNorm, Fin.sum_univ_two]
  · refine le_trans (by norm_num : (2e-6 : ℝ) ≤ 1) ?_
    rw [sigNorm, Real.one_le_sqrt]
    norm_num [Fin.sum_univ_two]
  · norm_num [alongEnergy, restEnergy, scaleOf, Fin.sum_univ_two]

/-- The reference `(1, 0)` and the estimate `(2, 1)`: SI-SDR `10 log10 4`. -/
example : ∃ (E : Machine 24) (v : XR), IsSiSdrLoss E 2 none ![2, 1] ![1, 0] v ∧
    ∃ w, v = fin w ∧ |w - -(10 * Real.logb 10 4)| ≤ 0.5 := by
  obtain ⟨E, -⟩ := exists_machine (p := 24) (by norm_num)
  obtain ⟨v, hv⟩ := C67_any_order E (by norm_num) none ![1, 0] ![2, 1]
  refine ⟨E, v, hv, C67_float32 E (by norm_num) ?_ ?_ (by norm_num) (by norm_num) ?_ hv⟩
  · norm_num [sigNorm, Fin.sum_univ_two]
  · refine le_trans (by norm_num : (2e-6 : ℝ) ≤ 1) ?_
    rw [sigNorm, Real.one_le_sqrt]
    norm_num [Fin.sum_univ_two]
  · norm_num [alongEnergy, restEnergy, scaleOf, Fin.sum_univ_two]

example : ∃ (E : Machine 53) (v : XR), IsSiSdrLoss E 2 none ![2, 1] ![1, 0] v ∧
    ∃ w, v = fin w ∧ |w - -(10 * Real.logb 10 4)| ≤ 0.01 := by
  obtain ⟨E, -⟩ := exists_machine (p := 53) (by norm_num)
  obtain ⟨v, hv⟩ := C67_any_order E (by norm_num) none ![1, 0] ![2, 1]
  refine ⟨E, v, hv, C67_float64 E (by norm_num) ?_ ?_ (by norm_num) (by norm_num) ?_ hv⟩
  · norm_num [sigNorm, Fin.sum_univ_two]
  · refine le_trans (by norm_num : (2e-6 : ℝ) ≤ 1) ?_
    rw [sigNorm, Real.one_le_sqrt]
    norm_num [Fin.sum_univ_two]
  · norm_num [alongEnergy, restEnergy, scaleOf, Fin.sum_univ_two]

/-- The estimate `(2, 1)` of `(1, 0)` is never ranked behind `(1, 1)`, in `float32` with `clamp_db=30`. -/
example : ∃ (E : Machine 24) (v v' : XR), IsSiSdrLoss E 2 (some 30) ![1, 1] ![1, 0] v ∧
    IsSiSdrLoss E 2 (some 30) ![2, 1] ![1, 0] v' ∧ toEReal v' ≤ toEReal v := by
  obtain ⟨E, hE⟩ := exists_machine (p := 24) (by norm_num)
  obtain ⟨v, hv⟩ := C67_any_order E (by norm_num) (some 30) ![1, 0] ![1, 1]
  obtain ⟨v', hv'⟩ := C67_any_order E (by norm_num) (some 30) ![1, 0] ![2, 1]
  refine ⟨E, v, v', hv, hv', C67_ranking E (by norm_num) ?_ (by norm_num) (fun d hd => by cases hd; norm_num)
    ?_ ?_ ?_ ?_ hv hv'⟩
  · intro a ha b hb hab
    rw [hE, hE]
    exact Real.logb_le_logb_of_le (by norm_num) ha hab
  · norm_num [sigNorm, Fin.sum_univ_two]
  · refine le_trans (by norm_num : (2e-6 : ℝ) ≤ 1) ?_
    rw [sigNorm, Real.one_le_sqrt]
    norm_num [Fin.sum_univ_two]
  · refine le_trans (by norm_num : (2e-6 : ℝ) ≤ 1) ?_
    rw [sigNorm, Real.one_le_sqrt]
    norm_num [Fin.sum_univ_two]
  · norm_num [restEnergy, scaleOf, cohErr, Fin.sum_univ_two]

/-- A perfect estimate in `float32`. -/
example : ∃ (E : Machine 24) (v : XR), IsSiSdrLoss E 2 none ![3, 0] ![1, 0] v ∧
    (v = ninf ∨ ∃ w, v = fin w ∧
      w ≤ -(10 * Real.logb 10 ((1 - cohErr 24 2) / cohErr 24 2)) * (1 - 2 ^ (5 - (24 : ℕ) : ℤ)) + 2 ^ (5 - (24 : ℕ) : ℤ)) := by
  obtain ⟨E, -⟩ := exists_machine (p := 24) (by norm_num)
  obtain ⟨v, hv⟩ := C67_any_order E (by norm_num) none ![1, 0] ![3, 0]
  refine ⟨E, v, hv, C67_perfect E (by norm_num) (by norm_num) ?_ ?_ (b := 3) ?_ hv⟩
  · norm_num [sigNorm, Fin.sum_univ_two]
  · refine le_trans (by norm_num : (2e-6 : ℝ) ≤ 1) ?_
    rw [sigNorm, Real.one_le_sqrt]
    norm_num [Fin.sum_univ_two]
  · intro t
    fin_cases t <;> norm_num

end FBE.Props
