import Verif.Model.Log2
import Verif.Proofs.Rounded
import Mathlib.Analysis.Convex.SpecificFunctions.Basic
import Mathlib.Analysis.SpecialFunctions.Log.Deriv

/-!
# C86: the sizes of the transforms despite the rounding of `math.log2`
-/

namespace FBE.Props

open FBE.Rounded

/-- What is known about `math.log2`: exact for powers of two, and accurate to one unit in the last place of a `float`. -/
structure Log2 (lg : ℕ → ℝ) : Prop where
  pow : ∀ k : ℕ, k ≤ 1024 → lg (2 ^ k) = k
  close : ∀ n : ℕ, 1 ≤ n → |lg n - Real.logb 2 n| ≤ 2 ^ (-52 : ℤ) * Real.logb 2 n

theorem logb_one_add {t : ℝ} (h0 : 0 ≤ t) (h1 : t ≤ 1) : t ≤ Real.logb 2 (1 + t) := by
  rw [Real.le_logb_iff_rpow_le (by norm_num) (by linarith)]
  have := rpow_one_add_le_one_add_mul_self (s := (1 : ℝ)) (by norm_num) h0 h1
  norm_num at this
  linarith

theorem logb_one_sub {t : ℝ} (h0 : 0 ≤ t) (h1 : t < 1) : Real.logb 2 (1 - t) ≤ -t := by
  rw [Real.logb_le_iff_le_rpow (by norm_num) (by linarith), Real.rpow_def_of_pos (by norm_num)]
  have h2 := Real.add_one_le_exp (Real.log 2 * -t)
  have h3 : Real.log 2 ≤ 1 := by linarith [Real.log_two_lt_d9]
  nlinarith

theorem ceil_log2 {lg : ℕ → ℝ} (h : Log2 lg) {n : ℕ} (h1 : 1 ≤ n) (h2 : n ≤ 2 ^ 45) : ⌈lg n⌉ = (Nat.clog 2 n : ℤ) := by
  obtain rfl | hn := eq_or_lt_of_le h1
  · have := h.pow 0 (by norm_num)
    simp only [pow_zero, Nat.cast_zero] at this
    rw [this]
    simp
  obtain ⟨k, hk⟩ : ∃ k, Nat.clog 2 n = k + 1 := ⟨Nat.clog 2 n - 1, by have := Nat.clog_pos (b := 2) (by norm_num) hn; omega⟩
  have hlo : 2 ^ k < n := by
    have := Nat.pow_pred_clog_lt_self (b := 2) (by norm_num) hn
    rw [hk] at this
    exact this
  have hhi : n ≤ 2 ^ (k + 1) := by
    rw [← hk]
    exact Nat.le_pow_clog (by norm_num) n
  have hk44 : k ≤ 44 := by
    by_contra hc
    have : 2 ^ 45 ≤ 2 ^ k := Nat.pow_le_pow_right (by norm_num) (by omega)
    omega
  rw [hk]
  obtain he | hlt := eq_or_lt_of_le hhi
  · rw [he, h.pow _ (by omega)]
    exact Int.ceil_natCast _
  have hk0 : (0 : ℝ) < 2 ^ k := by positivity
  have hloR : (2 : ℝ) ^ k * (1 + (2 ^ k)⁻¹) ≤ n := by
    rw [mul_add, mul_one, mul_inv_cancel₀ hk0.ne']
    exact_mod_cast hlo
  have hhiR : (n : ℝ) ≤ 2 ^ (k + 1) * (1 - (2 ^ (k + 1))⁻¹) := by
    rw [mul_sub, mul_one, mul_inv_cancel₀ (by positivity)]
    have : (n : ℝ) + 1 ≤ 2 ^ (k + 1) := by exact_mod_cast hlt
    linarith
  have hinv : ((2 : ℝ) ^ k)⁻¹ ≤ 1 := inv_le_one_of_one_le₀ (one_le_pow₀ (by norm_num))
  have hinv' : ((2 : ℝ) ^ (k + 1))⁻¹ < 1 := inv_lt_one_of_one_lt₀ (one_lt_pow₀ (by norm_num) (by omega))
  have hn0 : (0 : ℝ) < n := by exact_mod_cast h1
  have l1 : k + (2 ^ k)⁻¹ ≤ Real.logb 2 n := by
    refine le_trans ?_ (Real.logb_le_logb_of_le (by norm_num) (by positivity) hloR)
    rw [Real.logb_mul hk0.ne' (by positivity), Real.logb_pow, Real.logb_self_eq_one (by norm_num), mul_one]
    exact add_le_add le_rfl (logb_one_add (by positivity) hinv)
  have l2 : Real.logb 2 n ≤ k + 1 - (2 ^ (k + 1))⁻¹ := by
    refine (Real.logb_le_logb_of_le (by norm_num) hn0 hhiR).trans ?_
    rw [Real.logb_mul (by positivity) (by linarith), Real.logb_pow, Real.logb_self_eq_one (by norm_num), mul_one]
    push_cast
    linarith [logb_one_sub (t := ((2 : ℝ) ^ (k + 1))⁻¹) (by positivity) hinv']
  have hk45 : (k : ℝ) + 1 ≤ 45 := by exact_mod_cast (by omega : k + 1 ≤ 45)
  have hs : ((2 : ℝ) ^ 45)⁻¹ ≤ (2 ^ (k + 1))⁻¹ := inv_anti₀ (by positivity) (pow_le_pow_right₀ (by norm_num) (by omega))
  have hs' : ((2 : ℝ) ^ (k + 1))⁻¹ ≤ (2 ^ k)⁻¹ := inv_anti₀ (by positivity) (pow_le_pow_right₀ (by norm_num) (by omega))
  have hp : (0 : ℝ) < (2 ^ (k + 1))⁻¹ := by positivity
  obtain ⟨herr, herr'⟩ := abs_le.1 (h.close n h1)
  have hb : (2 : ℝ) ^ (-52 : ℤ) * Real.logb 2 n < (2 ^ 45)⁻¹ := by
    have : Real.logb 2 n ≤ 45 := by linarith
    norm_num
    linarith
  rw [Int.ceil_eq_iff]
  push_cast
  generalize (2 : ℝ) ^ (-52 : ℤ) * Real.logb 2 n = ε at *
  generalize ((2 : ℝ) ^ 45)⁻¹ = a at *
  generalize ((2 : ℝ) ^ (k + 1))⁻¹ = b at *
  generalize ((2 : ℝ) ^ k)⁻¹ = c at *
  constructor <;> linarith

/-- **C86.**  The transform has the size of the least power of two that avoids the overlap of the correlations, although `math.log2`
is rounded.  For references of `N` and estimates of `M` samples, up to `2 ^ 45`. -/
theorem C86_transform_size {lg : ℕ → ℝ} (h : Log2 lg) {N M : ℕ} (h1 : 1 < N + max N M) (h2 : N + max N M - 1 ≤ 2 ^ 45) :
    ∃ n : ℕ, nFftLog lg N M = .ok n ∧ nFft N M = .ok n ∧ IsLeast {q | (∃ k, q = 2 ^ k) ∧ N + max N M - 1 ≤ q} n := by
  refine ⟨2 ^ Nat.clog 2 (N + max N M - 1), ?_, ?_, ⟨⟨_, rfl⟩, Nat.le_pow_clog (by norm_num) _⟩, ?_⟩
  · unfold nFftLog
    rw [if_neg (by omega), ceil_log2 h (by omega) h2]
    norm_num
  · unfold nFft
    rw [if_neg (by omega)]
  · rintro q ⟨⟨k, rfl⟩, hq⟩
    exact Nat.pow_le_pow_right (by norm_num) ((Nat.clog_le_iff_le_pow (by norm_num)).2 hq)

/-- **C86.**  The same for the products with the block Toeplitz matrix of filters of `n` taps. -/
theorem C86_block_size {lg : ℕ → ℝ} (h : Log2 lg) {n : ℕ} (h1 : 1 ≤ n) (h2 : 2 * n ≤ 2 ^ 45) :
    blockNfftLog lg n = blockNfft n ∧ IsLeast {q | (∃ k, q = 2 ^ k) ∧ 2 * n ≤ q} (blockNfft n) := by
  refine ⟨?_, ⟨⟨_, rfl⟩, Nat.le_pow_clog (by norm_num) _⟩, ?_⟩
  · unfold blockNfftLog blockNfft
    rw [ceil_log2 h (by omega) h2]
    norm_num
  · rintro q ⟨⟨k, rfl⟩, hq⟩
    exact Nat.pow_le_pow_right (by norm_num) ((Nat.clog_le_iff_le_pow (by norm_num)).2 hq)

/-- **C86.**  The correctly rounded logarithm has the two properties. -/
theorem C86_rounded_log2 {fl : ℝ → ℝ} (h : IsNearest 53 fl) {lg : ℕ → ℝ} (hlg : ∀ n, lg n = fl (Real.logb 2 n)) : Log2 lg := by
  refine ⟨fun k hk => ?_, fun n hn => ?_⟩
  · rw [hlg]
    push_cast
    rw [Real.logb_pow, Real.logb_self_eq_one (by norm_num), mul_one]
    refine h.fix ⟨k, 0, ?_, by simp⟩
    rw [Nat.abs_cast]
    have : (k : ℤ) ≤ 1024 := by exact_mod_cast hk
    norm_num
    linarith
  · rw [hlg]
    have h0 : 0 ≤ Real.logb 2 n := Real.logb_nonneg (by norm_num) (by exact_mod_cast hn)
    refine (h.rel _).trans ?_
    rw [abs_of_nonneg h0]
    refine mul_le_mul_of_nonneg_right ?_ h0
    norm_num

/-- The logarithm to base two of `2 ^ 49 + 1`, correctly rounded, is `49`. -/
theorem rounded_log2_ceil {fl : ℝ → ℝ} (h : IsNearest 53 fl) {x : ℝ} (hx : x = 2 ^ 49 + 1) : ⌈fl (Real.logb 2 x)⌉ ≤ 49 := by
  rw [Int.ceil_le]
  push_cast
  obtain ⟨⟨m, e, hm, he⟩, hy⟩ := h (Real.logb 2 x)
  have h49 : Representable 53 49 := ⟨49, 0, by norm_num, by norm_num⟩
  have hd : Real.logb 2 x < 49 + 2 ^ (-48 : ℤ) := by
    have h1 : Real.log (1 + (2 ^ 49)⁻¹) ≤ (2 ^ 49)⁻¹ := by
      have := Real.log_le_sub_one_of_pos (x := 1 + (2 ^ 49)⁻¹) (by norm_num)
      linarith
    have h2 : (1 : ℝ) / 2 < Real.log 2 := by linarith [Real.log_two_gt_d9]
    have h3 : Real.log (1 + (2 ^ 49)⁻¹) / Real.log 2 < 2 ^ (-48 : ℤ) := by
      rw [div_lt_iff₀ (by linarith)]
      norm_num at h1 ⊢
      linarith
    have hx' : x = 2 ^ 49 * (1 + (2 ^ 49)⁻¹) := by rw [hx]; norm_num
    rw [hx', Real.logb_mul (by norm_num) (by norm_num), Real.logb_pow, Real.logb_self_eq_one (by norm_num), ← Real.log_div_log]
    push_cast
    linarith
  have hg : (49 : ℝ) ≤ Real.logb 2 x := by
    rw [Real.le_logb_iff_rpow_le (by norm_num) (by rw [hx]; norm_num), hx]
    norm_num
  have hclose := hy 49 h49
  by_contra hlt
  push Not at hlt
  have hup : fl (Real.logb 2 x) < 49 + 2 ^ (-47 : ℤ) := by
    have h1 : |(49 : ℝ) - Real.logb 2 x| < 2 ^ (-48 : ℤ) := by
      rw [abs_lt]
      constructor <;> linarith
    have h2 : fl (Real.logb 2 x) - Real.logb 2 x < 2 ^ (-48 : ℤ) := by
      rw [abs_sub_comm] at hclose
      rw [abs_sub_comm] at h1
      exact lt_of_le_of_lt (le_trans (le_abs_self _) hclose) h1
    norm_num at h2 hd ⊢
    linarith
  rw [he] at hlt hup
  have he47 : -47 ≤ e := by
    by_contra hc
    have h1 : (2 : ℝ) ^ e ≤ 2 ^ (-48 : ℤ) := zpow_le_zpow_right₀ (by norm_num) (by omega)
    have h2 : (m : ℝ) ≤ 2 ^ 53 := by
      have := (abs_le.1 hm).2
      exact_mod_cast this
    have h3 : (m : ℝ) * 2 ^ e ≤ 2 ^ 53 * 2 ^ (-48 : ℤ) :=
      mul_le_mul h2 h1 (by positivity) (by positivity)
    norm_num at h3
    linarith
  obtain ⟨k, rfl⟩ : ∃ k : ℕ, e = -47 + k := ⟨(e + 47).toNat, by omega⟩
  rw [zpow_add₀ (by norm_num), zpow_natCast] at hlt hup
  have e1 : (49 : ℝ) * 2 ^ 47 < m * 2 ^ k := by
    norm_num at hlt ⊢
    linarith
  have e2 : (m : ℝ) * 2 ^ k < 49 * 2 ^ 47 + 1 := by
    norm_num at hup ⊢
    linarith
  have e1' : (49 : ℤ) * 2 ^ 47 < m * 2 ^ k := by exact_mod_cast e1
  have e2' : m * 2 ^ k < (49 : ℤ) * 2 ^ 47 + 1 := by exact_mod_cast e2
  omega

/-- **C86.**  For very long signals the rounding matters: with the correctly rounded logarithm the transform of two signals of
`2 ^ 48 + 1` samples is shorter than their correlation. -/
theorem C86_limit {fl : ℝ → ℝ} (h : IsNearest 53 fl) {lg : ℕ → ℝ} (hlg : ∀ n, lg n = fl (Real.logb 2 n)) :
    ∃ N n : ℕ, ∃ q : ℝ, nFftLog lg N N = .ok q ∧ nFft N N = .ok n ∧ q < (N + N - 1 : ℕ) ∧ N + N - 1 ≤ n := by
  refine ⟨2 ^ 48 + 1, _, _, by unfold nFftLog; rw [if_neg (by norm_num)], by unfold nFft; rw [if_neg (by norm_num)], ?_, ?_⟩
  · rw [hlg]
    refine lt_of_le_of_lt (zpow_le_zpow_right₀ (by norm_num) (rounded_log2_ceil h ?_)) ?_
    · rw [max_self]
      norm_num
    · norm_num
  · rw [max_self]
    exact Nat.le_pow_clog (by norm_num) _

/-- There is a correctly rounded logarithm. -/
example : ∃ lg : ℕ → ℝ, Log2 lg := by
  obtain ⟨fl, h⟩ := exists_nearest (p := 53) (by norm_num)
  exact ⟨fun n => fl (Real.logb 2 n), C86_rounded_log2 h fun _ => rfl⟩

/-- One hour at 48 kHz. -/
example {lg : ℕ → ℝ} (h : Log2 lg) : nFftLog lg 172800000 172800000 = .ok (2 ^ 29) := by
  obtain ⟨n, h1, h2, h3⟩ := C86_transform_size h (N := 172800000) (M := 172800000) (by norm_num) (by norm_num)
  rw [h1]
  have hn : n = 2 ^ 29 := by
    refine h3.unique ⟨⟨⟨29, rfl⟩, by norm_num⟩, ?_⟩
    rintro q ⟨⟨k, rfl⟩, hq⟩
    refine Nat.pow_le_pow_right (by norm_num) ?_
    by_contra hc
    have : 2 ^ k ≤ 2 ^ 28 := Nat.pow_le_pow_right (by norm_num) (by omega)
    norm_num at hq this
    omega
  rw [hn]
  norm_num

end FBE.Props
