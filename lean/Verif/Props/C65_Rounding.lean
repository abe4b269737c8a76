import Verif.Proofs.RoundedClamp

/-!
# C65 — `clamp_db` and the decibel stage in floating point arithmetic

`p` is the number of bits of the data type: 24 for `float32`, 53 for `float64`.  The coherence may be any number:
nothing is assumed about the rounding errors of the computations before this stage.
-/

namespace FBE.Props

open Spec XR Rounded

variable {p : ℕ}

/-! ### The clamp works below a limit -/

theorem eps_eq (d : ℝ) : dbClampEps d = 1 / ((10 : ℝ) ^ (d / 10) + 1) := by
  have h : (0 : ℝ) < 10 ^ (d / 10) := by positivity
  unfold dbClampEps
  simp only
  rw [neg_div, Real.rpow_neg (by norm_num)]
  field_simp

theorem logb_two : Real.logb 10 2 ≤ 0.3031 := by
  have h1 := log_ten_lower
  have h2 := Real.log_two_lt_d9
  unfold Real.logb
  rw [div_le_iff₀ (by linarith)]
  linarith

theorem db_le {d : ℝ} {k : ℕ} (h : (10 : ℝ) ^ (d / 10) ≤ 2 ^ k) : d ≤ 3.031 * k := by
  have h1 : Real.logb 10 ((10 : ℝ) ^ (d / 10)) ≤ Real.logb 10 (2 ^ k) :=
    Real.logb_le_logb_of_le (by norm_num) (by positivity) h
  rw [Real.logb_rpow (by norm_num) (by norm_num), Real.logb_pow] at h1
  have := mul_le_mul_of_nonneg_left logb_two (Nat.cast_nonneg k : (0 : ℝ) ≤ k)
  linarith

theorem unit_growth {p : ℕ} (hp : 11 ≤ p) : 32 * unit p * (3.031 * ((p - 4 : ℕ) : ℝ) + 1.602) ≤ 0.398 := by
  have key : ∀ k : ℕ, 3.031 * ((k + 7 : ℕ) : ℝ) + 1.602 ≤ 0.398 / 32 * 2 ^ (k + 11) := by
    intro k
    induction k with
    | zero => norm_num
    | succ k ih =>
      have : (2 : ℝ) ^ (k + 1 + 11) = 2 * 2 ^ (k + 11) := by ring
      rw [this]
      have h2 : (2 : ℝ) ^ 11 ≤ 2 ^ (k + 11) := pow_le_pow_right₀ (by norm_num) (by omega)
      push_cast at ih ⊢
      norm_num at h2 ⊢
      linarith
  obtain ⟨k, rfl⟩ := Nat.exists_eq_add_of_le hp
  have h := key k
  have hu : unit (11 + k) * 2 ^ (k + 11) = 1 := by
    unfold unit
    rw [zpow_neg, zpow_natCast, add_comm 11 k]
    exact inv_mul_cancel₀ (by positivity)
  rw [show 11 + k - 4 = k + 7 by omega]
  have hu0 := unit_pos (p := 11 + k)
  calc 32 * unit (11 + k) * (3.031 * ((k + 7 : ℕ) : ℝ) + 1.602)
      ≤ 32 * unit (11 + k) * (0.398 / 32 * 2 ^ (k + 11)) := by gcongr
    _ = 0.398 * (unit (11 + k) * 2 ^ (k + 11)) := by ring
    _ = 0.398 := by rw [hu]; ring

theorem dbClampEps_close' (E : Machine p) {d : ℝ} (hd : 0 ≤ d) (hd' : d ≤ 1000) :
    0.99999 * dbClampEps d ≤ Rounded.dbClampEps E d ∧ Rounded.dbClampEps E d ≤ 1.00001 * dbClampEps d := by
  obtain ⟨e1, e2⟩ := dbClampEps_close E hd hd'
  have h0 : 0 ≤ dbClampEps d := by rw [eps_eq]; positivity
  exact ⟨le_trans (mul_le_mul_of_nonneg_right (by norm_num) h0) e1,
    e2.trans (mul_le_mul_of_nonneg_right (by norm_num) h0)⟩

/-- Where the clamped coherence lies. -/
theorem clamped_range (E : Machine p) (hp : 11 ≤ p) (hp' : p ≤ 53) {d : ℝ} (hd : 0 ≤ d)
    (hlim : (10 : ℝ) ^ (d / 10) ≤ 2 ^ (p - 4)) :
    0.998 * dbClampEps d ≤ lo E (some d) ∧ 0.998 * dbClampEps d ≤ hi E (some d) ∧
      hi E (some d) ≤ 1 - 0.936 * dbClampEps d := by
  have hd1 : d ≤ 1000 := by
    have := db_le hlim
    have h2 : ((p - 4 : ℕ) : ℝ) ≤ 49 := by exact_mod_cast (by omega : p - 4 ≤ 49)
    linarith
  obtain ⟨hε1', hε2'⟩ := dbClampEps_close' E hd hd1
  have hu := unit_le hp
  have hu0 := unit_pos (p := p)
  have hR : (1 : ℝ) ≤ 10 ^ (d / 10) := Real.one_le_rpow (by norm_num) (by positivity)
  have heps := eps_eq d
  have hx : Rounded.epsOf E (some d) = Rounded.dbClampEps E d := rfl
  unfold lo hi
  rw [hx]
  set R : ℝ := 10 ^ (d / 10)
  set ε := dbClampEps d
  set ε' := Rounded.dbClampEps E d
  set u := unit p with hud
  have hε0 : 0 < ε := by rw [heps]; positivity
  have hε2 : ε ≤ 1 / 2 := by
    rw [heps, div_le_div_iff₀ (by linarith) (by norm_num)]; linarith
  -- the unit against the bound
  have huR : u * 2 ^ (p - 4) = 1 / 16 := by
    rw [hud]
    unfold unit
    rw [← zpow_natCast, ← zpow_add₀ (by norm_num), show -(p : ℤ) + ((p - 4 : ℕ) : ℤ) = -4 by omega]
    norm_num
  have huε : u ≤ 0.063 * ε := by
    rw [heps, ← div_eq_mul_one_div, le_div_iff₀ (by linarith)]
    have : u * R ≤ u * 2 ^ (p - 4) := by gcongr
    linarith
  -- lower bound
  have f1 := E.fl_nearest.rel ε'
  rw [abs_of_pos (by linarith : 0 < ε'), ← unit, ← hud] at f1
  have f1 := (abs_le.1 f1).1
  -- upper bound
  have g1 := E.fl64_nearest.abs_err (x := 1 - ε') (by rw [abs_le]; constructor <;> linarith)
  have hz1 : E.fl64 (1 - ε') ≤ 1 := by
    have := E.fl64_nearest.mono (by linarith : 1 - ε' ≤ 1)
    rwa [E.fl64_nearest.fix representable_one] at this
  have hz0 : 0 ≤ E.fl64 (1 - ε') := by
    have := E.fl64_nearest.mono (by linarith : 0 ≤ 1 - ε')
    rwa [E.fl64_nearest.fix representable_zero] at this
  have g2 := E.fl_nearest.abs_err (x := E.fl64 (1 - ε')) (by rw [abs_le]; constructor <;> linarith)
  have hhalf : (2 : ℝ) ^ (-p - 1 : ℤ) = u / 2 := by
    rw [hud]; unfold unit; rw [zpow_sub_one₀ (by norm_num)]; ring
  have h54 : (2 : ℝ) ^ (-(53 : ℕ) - 1 : ℤ) ≤ u / 2 := by
    rw [← hhalf]
    exact zpow_le_zpow_right₀ (by norm_num) (by push_cast; omega)
  rw [hhalf] at g2
  replace g1 := g1.trans h54
  obtain ⟨g1l, g1u⟩ := abs_le.1 g1
  obtain ⟨g2l, g2u⟩ := abs_le.1 g2
  have hue : u * ε' ≤ 1 / 2048 * ε' := mul_le_mul_of_nonneg_right hu (by linarith)
  refine ⟨by linarith, by linarith, by linarith⟩

/-- **C65.**  `clamp_db` keeps its promise up to one decibel, for every coherence, also infinite or outside of
`[0, 1]`, if `10^(clamp_db / 10) ≤ 2^(p - 4)`: up to 60.2 dB for `float32`, 147.5 dB for `float64`. -/
theorem C65_clamp_effective (E : Machine p) (hp : 11 ≤ p) (hp' : p ≤ 53) {d : ℝ} (hd : 0 ≤ d)
    (hlim : (10 : ℝ) ^ (d / 10) ≤ 2 ^ (p - 4)) {x : XR} (hx : x ≠ nan) :
    ∃ v, Rounded.coherenceToNegSdr E (some d) x = fin v ∧ -(d + 1) ≤ v ∧ v ≤ d + 1 := by
  obtain ⟨b1, b2, b3⟩ := clamped_range E hp hp' hd hlim
  obtain ⟨c, hc, c1, c2⟩ := clamp_mem hx (lo E (some d)) (hi E (some d))
  have hR : (1 : ℝ) ≤ 10 ^ (d / 10) := Real.one_le_rpow (by norm_num) (by positivity)
  have heps := eps_eq d
  have hlog : Real.logb 10 ((10 : ℝ) ^ (d / 10)) = d / 10 := Real.logb_rpow (by norm_num) (by norm_num)
  have hdb := db_le hlim
  set R : ℝ := 10 ^ (d / 10)
  set ε := dbClampEps d
  have hε0 : 0 < ε := by rw [heps]; positivity
  have hεR : ε * (R + 1) = 1 := by rw [heps]; field_simp
  have hcl : 0.998 * ε ≤ c := (le_min b1 b2).trans c1
  have hcu : c ≤ 1 - 0.936 * ε := c2.trans b3
  have hc0 : 0 < c := by linarith
  have hc1 : c < 1 := by linarith
  refine ⟨_, coherenceToNegSdr_of_clamp E (by omega) hc hc0 hc1, ?_⟩
  have hclose := dbFl_close E hp hc0 hc1
  have hl := log_ten_lower
  -- the exact value
  have r1 : (1 - c) / c ≤ 1.005 * R := by
    rw [div_le_iff₀ hc0]
    nlinarith
  have r2 : 0.879 * R⁻¹ ≤ (1 - c) / c := by
    rw [le_div_iff₀ hc0, ← div_eq_mul_inv, div_mul_eq_mul_div, div_le_iff₀ (by linarith)]
    nlinarith
  have hr0 : 0 < (1 - c) / c := div_pos (by linarith) hc0
  have l1 : Real.logb 10 ((1 - c) / c) ≤ d / 10 + 0.0602 := by
    have h1 := Real.logb_le_logb_of_le (b := 10) (by norm_num) hr0 r1
    rw [Real.logb_mul (by norm_num) (by positivity), hlog] at h1
    have h2 : Real.logb 10 1.005 ≤ 0.0602 := by
      unfold Real.logb
      rw [div_le_iff₀ (by linarith)]
      have := Real.log_le_sub_one_of_pos (by norm_num : (0 : ℝ) < 1.005)
      linarith
    linarith
  have l2 : -(d / 10) - 0.0602 ≤ Real.logb 10 ((1 - c) / c) := by
    have h1 := Real.logb_le_logb_of_le (b := 10) (by norm_num) (by positivity) r2
    rw [Real.logb_mul (by norm_num) (by positivity), Real.logb_inv, hlog] at h1
    have h2 : -0.0602 ≤ Real.logb 10 0.879 := by
      unfold Real.logb
      rw [le_div_iff₀ (by linarith)]
      have := Real.one_sub_inv_le_log_of_pos (by norm_num : (0 : ℝ) < 0.879)
      norm_num at this ⊢
      linarith
    linarith
  have hv : |10 * Real.logb 10 ((1 - c) / c)| ≤ d + 0.602 := by
    rw [abs_le]; constructor <;> linarith
  have hg := unit_growth hp
  have hu0 := unit_pos (p := p)
  have hfin : 32 * unit p * (|10 * Real.logb 10 ((1 - c) / c)| + 1) ≤ 0.398 := by
    exact le_trans (mul_le_mul_of_nonneg_left (by linarith) (by positivity)) hg
  obtain ⟨k1, k2⟩ := abs_le.1 hclose
  obtain ⟨k3, k4⟩ := abs_le.1 hv
  constructor <;> linarith

-- bfloat16 has too few bits, half precision has enough for 20 dB
example (E : Machine 11) : ∃ v, Rounded.coherenceToNegSdr E (some 20) pinf = fin v ∧ -(20 + 1) ≤ v ∧ v ≤ 20 + 1 :=
  C65_clamp_effective E le_rfl (by norm_num) (by norm_num) (by
    rw [show (20 / 10 : ℝ) = (2 : ℕ) by norm_num, Real.rpow_natCast]
    norm_num) (by simp)

/-- `float32`: up to 60 dB. -/
theorem C65_float32 (E : Machine 24) {d : ℝ} (hd : 0 ≤ d) (hd' : d ≤ 60) {x : XR} (hx : x ≠ nan) :
    ∃ v, Rounded.coherenceToNegSdr E (some d) x = fin v ∧ -(d + 1) ≤ v ∧ v ≤ d + 1 := by
  refine C65_clamp_effective E (by norm_num) (by norm_num) hd ?_ hx
  calc (10 : ℝ) ^ (d / 10) ≤ 10 ^ (6 : ℝ) := Real.rpow_le_rpow_of_exponent_le (by norm_num) (by linarith)
    _ = 1000000 := by norm_num
    _ ≤ 2 ^ (24 - 4) := by norm_num

/-- `float64`: up to 147 dB. -/
theorem C65_float64 (E : Machine 53) {d : ℝ} (hd : 0 ≤ d) (hd' : d ≤ 147) {x : XR} (hx : x ≠ nan) :
    ∃ v, Rounded.coherenceToNegSdr E (some d) x = fin v ∧ -(d + 1) ≤ v ∧ v ≤ d + 1 := by
  refine C65_clamp_effective E (by norm_num) (by norm_num) hd ?_ hx
  have h : ((10 : ℝ) ^ (147 / 10 : ℝ)) ^ (10 : ℕ) = 10 ^ 147 := by
    rw [← Real.rpow_natCast, ← Real.rpow_mul (by norm_num), ← Real.rpow_natCast]
    norm_num
  have h2 : ((10 : ℝ) ^ (147 / 10 : ℝ)) ^ (10 : ℕ) ≤ ((2 : ℝ) ^ (53 - 4)) ^ (10 : ℕ) := by
    rw [h]; norm_num
  calc (10 : ℝ) ^ (d / 10) ≤ 10 ^ (147 / 10 : ℝ) :=
        Real.rpow_le_rpow_of_exponent_le (by norm_num) (by linarith)
    _ ≤ 2 ^ (53 - 4) := le_of_pow_le_pow_left₀ (by norm_num) (by positivity) h2

example (E : Machine 53) : ∃ v, Rounded.coherenceToNegSdr E (some 100) (fin 1) = fin v ∧ -(100 + 1) ≤ v ∧ v ≤ 100 + 1 :=
  C65_float64 E (by norm_num) (by norm_num) (by simp)

/-! ### The clamp is lost above a limit -/

theorem hi_eq_one (E : Machine p) (hp : 1 ≤ p) (hp' : p ≤ 50 ∨ p = 53) {d : ℝ} (hd : 0 ≤ d) (hd' : d ≤ 1000)
    (hlim : (2 : ℝ) ^ (p + 2) ≤ 10 ^ (d / 10)) : hi E (some d) = 1 := by
  obtain ⟨e1, e2⟩ := dbClampEps_close' E hd hd'
  have heps := eps_eq d
  unfold hi
  show E.fl (E.fl64 (1 - Rounded.dbClampEps E d)) = 1
  set R : ℝ := 10 ^ (d / 10)
  set ε := dbClampEps d
  set ε' := Rounded.dbClampEps E d
  set v : ℝ := 2 ^ (-p - 3 : ℤ) with hv
  have hv0 : 0 < v := by positivity
  have hvp : (2 : ℝ) ^ (p + 2) * (2 * v) = 1 := by
    rw [hv, ← zpow_natCast, ← zpow_one_add₀ (by norm_num), ← zpow_add₀ (by norm_num)]
    rw [show ((p + 2 : ℕ) : ℤ) + (1 + (-p - 3)) = 0 by push_cast; ring]
    norm_num
  have hε0 : 0 < ε := by rw [heps]; positivity
  have hε : ε ≤ 2 * v := by
    rw [heps, div_le_iff₀ (by positivity)]
    nlinarith
  have hε2' : ε' ≤ 2.0001 * v := by linarith
  have hε1' : 0 ≤ ε' := by linarith
  have hp1 : (2 : ℝ) ^ (-p - 1 : ℤ) = 4 * v := by
    rw [hv, show (-p - 1 : ℤ) = (-p - 3) + 2 by ring, zpow_add₀ (by norm_num)]
    norm_num
    ring
  have hz1 : E.fl64 (1 - ε') ≤ 1 := by
    have := E.fl64_nearest.mono (by linarith : 1 - ε' ≤ 1)
    rwa [E.fl64_nearest.fix representable_one] at this
  rcases hp' with hp' | rfl
  · refine E.fl_nearest.eq_one hp ?_ hz1
    have hw : Representable 53 (1 - 3 * v) := by
      refine representable_of_le (m := 2 ^ (p + 3) - 3) (e := -p - 3) ?_ ?_
      · rw [← hv]
        push_cast
        rw [sub_mul, show (2 : ℝ) ^ (p + 3) * v = 1 by rw [← hvp]; ring]
      · push_cast
        have h1 : (2 : ℝ) ^ (p + 3) ≤ 2 ^ 53 := pow_le_pow_right₀ (by norm_num) (by omega)
        have h2 : (3 : ℝ) ≤ 2 ^ (p + 3) := by
          calc (3 : ℝ) ≤ 2 ^ 3 := by norm_num
            _ ≤ 2 ^ (p + 3) := pow_le_pow_right₀ (by norm_num) (by omega)
        rw [abs_of_nonneg (by linarith)]
        linarith
    have := E.fl64_nearest.mono (by linarith : 1 - 3 * v ≤ 1 - ε')
    rw [E.fl64_nearest.fix hw] at this
    rw [hp1]
    linarith
  · have h64 : E.fl64 (1 - ε') = 1 := by
      refine E.fl64_nearest.eq_one (by norm_num) ?_ (by linarith)
      rw [hp1]
      linarith
    rw [h64]
    exact E.fl_nearest.fix representable_one

/-- **C65.**  Above a limit `clamp_db` is lost: if `10^(clamp_db / 10) ≥ 2^(p + 2)` (from 78.3 dB on for `float32`,
from 165.6 dB on for `float64`), a coherence of one (or above one by rounding) still gives the loss `-inf`. -/
theorem C65_clamp_lost (E : Machine p) (hp : 1 ≤ p) (hp' : p ≤ 50 ∨ p = 53) {d : ℝ} (hd : 0 ≤ d) (hd' : d ≤ 1000)
    (hlim : (2 : ℝ) ^ (p + 2) ≤ 10 ^ (d / 10)) {x : ℝ} (hx : 1 ≤ x) :
    Rounded.coherenceToNegSdr E (some d) (fin x) = ninf := by
  refine coherenceToNegSdr_one E ?_
  rw [hi_eq_one E hp hp' hd hd' hlim]
  unfold clamp max2 min2
  simp only
  rw [min_eq_right (hx.trans (le_max_left _ _))]

/-! ### Accuracy and ranking -/

theorem bounds_none (E : Machine p) : lo E none = 0 ∧ hi E none = 1 := by
  constructor
  · exact E.fl_nearest.fix representable_zero
  · show E.fl (E.fl64 (1 - 0)) = 1
    rw [sub_zero, E.fl64_nearest.fix representable_one, E.fl_nearest.fix representable_one]

/-- **C65.**  Without `clamp_db`: the rounding of this stage changes a loss of `x` dB by at most
`2^(5 - p) (|x| + 1)`, for every coherence strictly between zero and one, however close to one. -/
theorem C65_accuracy (E : Machine p) (hp : 11 ≤ p) {c : ℝ} (h0 : 0 < c) (h1 : c < 1) :
    ∃ v x, Rounded.coherenceToNegSdr E none (fin c) = fin v ∧ coherenceToNegSdr none (fin c) = fin x ∧
      |v - x| ≤ 2 ^ (5 - p : ℤ) * (|x| + 1) := by
  obtain ⟨b1, b2⟩ := bounds_none E
  have hc : clamp (fin c) (fin (lo E none)) (fin (hi E none)) = fin c := by
    rw [b1, b2]
    unfold clamp max2 min2
    simp only
    rw [max_eq_left h0.le, min_eq_left h1.le]
  refine ⟨_, 10 * Real.logb 10 ((1 - c) / c), coherenceToNegSdr_of_clamp E (by omega) hc h0 h1, ?_, ?_⟩
  · unfold coherenceToNegSdr clamp max2 min2
    simp only
    rw [max_eq_left h0.le, sub_zero, min_eq_left h1.le]
    simp only [sub, XR.neg, add, div, ← sub_eq_add_neg]
    rw [if_neg h0.ne']
    simp only [XR.log10]
    rw [if_pos (div_pos (by linarith) h0)]
    rfl
  · have := dbFl_close E hp h0 h1
    rw [show (2 : ℝ) ^ (5 - p : ℤ) = 32 * Rounded.unit p by
      unfold Rounded.unit
      rw [sub_eq_add_neg, zpow_add₀ (by norm_num)]
      norm_num]
    exact this

theorem dbFl_anti (E : Machine p) (hp : 1 ≤ p) (hlg : MonotoneOn E.lg (Set.Ioi 0)) {c c' : ℝ} (h0 : 0 < c)
    (hcc : c ≤ c') (h1 : c' < 1) : dbFl E c' ≤ dbFl E c := by
  have k1 : E.fl (1 - c') ≤ E.fl (1 - c) := E.fl_nearest.mono (by linarith)
  have p1 : 0 < E.fl (1 - c') := E.fl_nearest.pos hp (by linarith)
  have k2 : E.fl (1 - c') / c' ≤ E.fl (1 - c) / c := div_le_div₀ (p1.le.trans k1) k1 h0 hcc
  have p2 : 0 < E.fl (E.fl (1 - c') / c') := E.fl_nearest.pos hp (div_pos p1 (h0.trans_le hcc))
  have k3 := E.fl_nearest.mono k2
  refine E.fl_nearest.mono ?_
  have := hlg p2 (p2.trans_le k3) k3
  linarith

theorem bounds_range (E : Machine p) {cd : Option ℝ} (hcd : ∀ d, cd = some d → 0 ≤ d ∧ d ≤ 1000) :
    0 ≤ lo E cd ∧ 0 ≤ hi E cd ∧ hi E cd ≤ 1 := by
  have he : 0 ≤ Rounded.epsOf E cd ∧ Rounded.epsOf E cd ≤ 1 := by
    cases cd with
    | none => exact ⟨le_rfl, zero_le_one⟩
    | some d =>
      obtain ⟨h0, h1⟩ := hcd d rfl
      obtain ⟨e1, e2⟩ := dbClampEps_close' E h0 h1
      have hR : (1 : ℝ) ≤ 10 ^ (d / 10) := Real.one_le_rpow (by norm_num) (by positivity)
      have hε0 : 0 ≤ dbClampEps d := by rw [eps_eq]; positivity
      have hε2 : dbClampEps d ≤ 1 / 2 := by
        rw [eps_eq, div_le_div_iff₀ (by linarith) (by norm_num)]; linarith
      show 0 ≤ Rounded.dbClampEps E d ∧ Rounded.dbClampEps E d ≤ 1
      constructor <;> linarith
  have f0 := E.fl_nearest.fix (representable_zero (p := p))
  have f1 := E.fl_nearest.fix (representable_one (p := p))
  have g0 := E.fl64_nearest.fix (representable_zero (p := 53))
  have g1 := E.fl64_nearest.fix (representable_one (p := 53))
  refine ⟨?_, ?_, ?_⟩
  · have := E.fl_nearest.mono he.1
    rwa [f0] at this
  · have := E.fl_nearest.mono (E.fl64_nearest.mono (by linarith [he.2] : 0 ≤ 1 - Rounded.epsOf E cd))
    rwa [g0, f0] at this
  · have := E.fl_nearest.mono (E.fl64_nearest.mono (by linarith [he.1] : 1 - Rounded.epsOf E cd ≤ 1))
    rwa [g1, f1] at this

/-- **C65.**  Rounding does not disturb the order: a larger coherence never gets a larger loss, if the `log10` of the
library is monotone. -/
theorem C65_ranking (E : Machine p) (hp : 1 ≤ p) (hlg : MonotoneOn E.lg (Set.Ioi 0)) {cd : Option ℝ}
    (hcd : ∀ d, cd = some d → 0 ≤ d ∧ d ≤ 1000) {a b : ℝ} (hab : a ≤ b) :
    toEReal (Rounded.coherenceToNegSdr E cd (fin b)) ≤ toEReal (Rounded.coherenceToNegSdr E cd (fin a)) := by
  obtain ⟨b1, b2, b3⟩ := bounds_range E hcd
  have hcl : ∀ x, clamp (fin x) (fin (lo E cd)) (fin (hi E cd)) = fin (min (max x (lo E cd)) (hi E cd)) :=
    fun x => rfl
  have hmn : ∀ x, 0 ≤ min (max x (lo E cd)) (hi E cd) ∧ min (max x (lo E cd)) (hi E cd) ≤ 1 := fun x =>
    ⟨le_min (b1.trans (le_max_right _ _)) b2, (min_le_right _ _).trans b3⟩
  have hle : min (max a (lo E cd)) (hi E cd) ≤ min (max b (lo E cd)) (hi E cd) :=
    min_le_min_right _ (max_le_max_right _ hab)
  have ha := hcl a
  have hb := hcl b
  obtain ⟨a0, a1⟩ := hmn a
  obtain ⟨c0, c1⟩ := hmn b
  set x := min (max a (lo E cd)) (hi E cd)
  set y := min (max b (lo E cd)) (hi E cd)
  rcases a0.eq_or_lt with hx | hx
  · rw [← hx] at ha
    rw [coherenceToNegSdr_zero E ha]
    exact le_top
  rcases c1.eq_or_lt with hy | hy
  · rw [hy] at hb
    rw [coherenceToNegSdr_one E hb]
    exact bot_le
  rw [coherenceToNegSdr_of_clamp E hp ha hx (hle.trans_lt hy),
    coherenceToNegSdr_of_clamp E hp hb (hx.trans_le hle) hy]
  exact EReal.coe_le_coe_iff.2 (dbFl_anti E hp hlg hx hle hy)

/-- NaN stays NaN. -/
theorem C65_nan (E : Machine p) (cd : Option ℝ) : Rounded.coherenceToNegSdr E cd nan = nan := by
  cases cd <;> rfl

/-! ### Cases -/

/-- A `float32` machine, an estimate with coherence one: 60 dB is kept, 80 dB is not. -/
example : ∃ E : Machine 24, (∃ v, Rounded.coherenceToNegSdr E (some 60) (fin 1) = fin v ∧ -61 ≤ v) ∧
    Rounded.coherenceToNegSdr E (some 80) (fin 1) = ninf := by
  obtain ⟨E, -⟩ := exists_machine (p := 24) (by norm_num)
  refine ⟨E, ?_, ?_⟩
  · obtain ⟨v, h, h1, -⟩ := C65_float32 E (d := 60) (by norm_num) le_rfl (x := fin 1) (by simp)
    exact ⟨v, h, by linarith⟩
  · refine C65_clamp_lost E (by norm_num) (by norm_num) (by norm_num) (by norm_num) ?_ le_rfl
    rw [show (80 / 10 : ℝ) = (8 : ℕ) by norm_num, Real.rpow_natCast]
    norm_num

/-- A coherence of one half is never ranked behind a quarter. -/
example : ∃ E : Machine 24, toEReal (Rounded.coherenceToNegSdr E (some 30) (fin (1 / 2))) ≤
    toEReal (Rounded.coherenceToNegSdr E (some 30) (fin (1 / 4))) := by
  obtain ⟨E, hE⟩ := exists_machine (p := 24) (by norm_num)
  refine ⟨E, C65_ranking E (by norm_num) (fun x hx y hy hxy => ?_) (fun d hd => by cases hd; norm_num) (by norm_num)⟩
  rw [hE, hE]
  exact Real.logb_le_logb_of_le (by norm_num) hx hxy

/-- A machine with a monotone logarithm; a coherence for the theorem on accuracy. -/
example : ∃ E : Machine 53, MonotoneOn E.lg (Set.Ioi 0) ∧ ∃ v x, Rounded.coherenceToNegSdr E none (fin (3 / 4)) = fin v ∧
    coherenceToNegSdr none (fin (3 / 4)) = fin x ∧ |v - x| ≤ 2 ^ (5 - 53 : ℤ) * (|x| + 1) := by
  obtain ⟨E, hE⟩ := exists_machine (p := 53) (by norm_num)
  refine ⟨E, fun x hx y hy hxy => ?_, C65_accuracy E (by norm_num) (by norm_num) (by norm_num)⟩
  rw [hE, hE]
  exact Real.logb_le_logb_of_le (by norm_num) hx hxy

end FBE.Props
