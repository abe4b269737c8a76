import Verif.Model.Rounded
import Verif.Proofs.Decibel
import Mathlib.Analysis.Complex.ExponentialBounds

/-!
# Rounding: numbers of a format, error of one operation
-/

namespace FBE.Rounded

variable {p : ℕ} {fl : ℝ → ℝ}

theorem Representable.neg {x : ℝ} (h : Representable p x) : Representable p (-x) := by
  obtain ⟨m, e, h1, rfl⟩ := h
  exact ⟨-m, e, by rwa [abs_neg], by push_cast; ring⟩

theorem representable_one : Representable p 1 :=
  ⟨1, 0, by simpa using one_le_pow₀ (by norm_num : (1 : ℤ) ≤ 2), by simp⟩

theorem representable_zero : Representable p 0 := ⟨0, 0, by simp, by simp⟩

/-- An integer multiple of `2 ^ e` with at most `2 ^ p` steps. -/
theorem representable_of_le {x : ℝ} {m e : ℤ} (hx : x = m * 2 ^ e) (hm : |(m : ℝ)| ≤ 2 ^ p) : Representable p x :=
  ⟨m, e, by exact_mod_cast hm, hx⟩

theorem IsNearest.fix (h : IsNearest p fl) {x : ℝ} (hx : Representable p x) : fl x = x := by
  have := (h x).2 x hx
  rw [sub_self, abs_zero] at this
  have := abs_eq_zero.1 (le_antisymm this (abs_nonneg _))
  linarith

theorem IsNearest.mono (h : IsNearest p fl) : Monotone fl := by
  intro x y hxy
  by_contra hlt
  push Not at hlt
  rcases hxy.eq_or_lt with rfl | hxy
  · exact lt_irrefl _ hlt
  have h1 := (h x).2 _ (h y).1
  have h2 := (h y).2 _ (h x).1
  rw [← sq_le_sq] at h1 h2
  nlinarith

/-- The closest multiple of `2 ^ e`. -/
theorem round_mul (e : ℤ) (x : ℝ) : |x - round (x / 2 ^ e) * 2 ^ e| ≤ 2 ^ (e - 1) := by
  have h2 : (0 : ℝ) < 2 ^ e := by positivity
  have h := abs_sub_round (x / 2 ^ e)
  have : x - round (x / 2 ^ e) * 2 ^ e = (x / 2 ^ e - round (x / 2 ^ e)) * 2 ^ e := by
    field_simp
  rw [this, abs_mul, abs_of_pos h2, zpow_sub_one₀ (by norm_num)]
  nlinarith

theorem round_mono' : Monotone (round : ℝ → ℤ) := by
  intro x y h
  rw [round_eq, round_eq]
  exact Int.floor_mono (by linarith)

theorem abs_round_le {y : ℝ} {M : ℕ} (h : |y| ≤ M) : |(round y : ℝ)| ≤ M := by
  have h1 : -(M : ℝ) ≤ y := (abs_le.1 h).1
  have h2 : y ≤ M := (abs_le.1 h).2
  rw [abs_le]
  constructor
  · have := round_mono' h1
    rw [show (-(M : ℝ)) = ((-(M : ℤ) : ℤ) : ℝ) by push_cast; ring, round_intCast] at this
    exact_mod_cast this
  · have := round_mono' h2
    rw [show ((M : ℝ)) = (((M : ℤ) : ℤ) : ℝ) by push_cast; ring, round_intCast] at this
    exact_mod_cast this

theorem representable_round {e : ℤ} {x : ℝ} (h : |x| ≤ 2 ^ ((p : ℤ) + e)) :
    Representable p (round (x / 2 ^ e) * 2 ^ e) := by
  have h2 : (0 : ℝ) < 2 ^ e := by positivity
  refine representable_of_le rfl ?_
  have := abs_round_le (y := x / 2 ^ e) (M := 2 ^ p) (by
    rw [abs_div, abs_of_pos h2, div_le_iff₀ h2]
    push_cast
    rwa [zpow_add₀ (by norm_num), zpow_natCast] at h)
  exact_mod_cast this

/-- Relative error of one rounding. -/
theorem IsNearest.rel (h : IsNearest p fl) (x : ℝ) : |fl x - x| ≤ 2 ^ (-p : ℤ) * |x| := by
  rcases eq_or_ne x 0 with rfl | hx
  · rw [h.fix representable_zero]; simp
  obtain ⟨e, he1, he2⟩ := exists_mem_Ico_zpow (abs_pos.2 hx) (by norm_num : (1 : ℝ) < 2)
  have h1 := (h x).2 _ (representable_round (p := p) (e := e + 1 - p) (x := x)
    (by rw [show (p : ℤ) + (e + 1 - p) = e + 1 by ring]; exact he2.le))
  have h2 := round_mul (e + 1 - p) x
  rw [abs_sub_comm]
  refine h1.trans (h2.trans ?_)
  rw [show e + 1 - (p : ℤ) - 1 = -p + e by ring, zpow_add₀ (by norm_num)]
  exact mul_le_mul_of_nonneg_left he1 (by positivity)

/-- Absolute error between `-1` and `1`. -/
theorem IsNearest.abs_err (h : IsNearest p fl) {x : ℝ} (hx : |x| ≤ 1) : |fl x - x| ≤ 2 ^ (-p - 1 : ℤ) := by
  have h1 := (h x).2 _ (representable_round (p := p) (e := -p) (x := x) (by simpa using hx))
  rw [abs_sub_comm]
  exact h1.trans (round_mul (-p) x)

theorem IsNearest.pos (h : IsNearest p fl) (hp : 1 ≤ p) {x : ℝ} (hx : 0 < x) : 0 < fl x := by
  have := h.rel x
  rw [abs_of_pos hx] at this
  have h2 : (2 : ℝ) ^ (-p : ℤ) ≤ 1 / 2 := by
    calc (2 : ℝ) ^ (-p : ℤ) ≤ 2 ^ (-1 : ℤ) := zpow_le_zpow_right₀ (by norm_num) (by omega)
      _ = 1 / 2 := by norm_num
  have := (abs_le.1 this).1
  nlinarith

/-- There is no number of the format strictly between `1 - 2 ^ -p` and `1`. -/
theorem Representable.eq_one {x : ℝ} (h : Representable p x) (h1 : 1 - 2 ^ (-p : ℤ) < x) (h2 : x ≤ 1)
    (h0 : 1 / 2 < x) : x = 1 := by
  obtain ⟨m, e, hm, rfl⟩ := h
  have he0 : (0 : ℝ) < 2 ^ e := by positivity
  have hmr : |(m : ℝ)| ≤ 2 ^ p := by exact_mod_cast hm
  have he : -(p : ℤ) ≤ e := by
    by_contra hlt
    push Not at hlt
    have hle : (2 : ℝ) ^ e ≤ 2 ^ (-(p : ℤ) - 1) := zpow_le_zpow_right₀ (by norm_num) (by omega)
    have h3 : (2 : ℝ) ^ p * 2 ^ (-(p : ℤ) - 1) = 1 / 2 := by
      rw [← zpow_natCast, ← zpow_add₀ (by norm_num), show (p : ℤ) + (-p - 1) = -1 by ring]
      norm_num
    have h4 : (m : ℝ) * 2 ^ e ≤ 2 ^ p * 2 ^ (-(p : ℤ) - 1) :=
      mul_le_mul ((le_abs_self _).trans hmr) hle he0.le (by positivity)
    linarith
  obtain ⟨f, hf⟩ := Int.eq_ofNat_of_zero_le (by omega : 0 ≤ e + p)
  obtain rfl : e = f - p := by omega
  have hq : (0 : ℝ) < 2 ^ (-p : ℤ) := by positivity
  have hval : (m : ℝ) * 2 ^ ((f : ℤ) - p) = ((m * 2 ^ f : ℤ) : ℝ) * 2 ^ (-p : ℤ) := by
    rw [sub_eq_add_neg, zpow_add₀ (by norm_num), zpow_natCast]
    push_cast
    ring
  have hone : (1 : ℝ) = ((2 ^ p : ℤ) : ℝ) * 2 ^ (-p : ℤ) := by
    push_cast
    rw [← zpow_natCast, ← zpow_add₀ (by norm_num)]
    norm_num
  rw [hval] at h1 h2 ⊢
  have h5 : m * 2 ^ f ≤ 2 ^ p := by
    have : ((m * 2 ^ f : ℤ) : ℝ) * 2 ^ (-p : ℤ) ≤ ((2 ^ p : ℤ) : ℝ) * 2 ^ (-p : ℤ) := by rw [← hone]; exact h2
    exact_mod_cast le_of_mul_le_mul_right this hq
  have h6 : (2 ^ p : ℤ) - 1 < m * 2 ^ f := by
    have : ((2 ^ p - 1 : ℤ) : ℝ) * 2 ^ (-p : ℤ) < ((m * 2 ^ f : ℤ) : ℝ) * 2 ^ (-p : ℤ) := by
      refine lt_of_eq_of_lt ?_ h1
      conv_rhs => rw [hone]
      push_cast
      ring
    exact_mod_cast lt_of_mul_lt_mul_right this hq.le
  rw [show m * 2 ^ f = 2 ^ p by omega, ← hone]

/-- Numbers closer to `1` than half a step become `1`. -/
theorem IsNearest.eq_one (h : IsNearest p fl) (hp : 1 ≤ p) {x : ℝ} (h1 : 1 - 2 ^ (-p - 1 : ℤ) < x) (h2 : x ≤ 1) :
    fl x = 1 := by
  have hpp : (2 : ℝ) ^ (-p - 1 : ℤ) = 2 ^ (-p : ℤ) / 2 := by rw [zpow_sub_one₀ (by norm_num)]; ring
  have hle : (2 : ℝ) ^ (-p : ℤ) ≤ 1 / 2 := by
    calc (2 : ℝ) ^ (-p : ℤ) ≤ 2 ^ (-1 : ℤ) := zpow_le_zpow_right₀ (by norm_num) (by omega)
      _ = 1 / 2 := by norm_num
  have h3 := (h x).2 1 representable_one
  have h4 : fl x ≤ 1 := by have := h.mono h2; rwa [h.fix representable_one] at this
  rw [abs_sub_comm x 1, abs_of_nonneg (by linarith : 0 ≤ 1 - x)] at h3
  have h5 := (abs_le.1 h3).2
  exact (h x).1.eq_one (by linarith) h4 (by linarith)

/-! ### Rounding to nearest exists -/

theorem exists_nearest (hp : 1 ≤ p) : ∃ fl : ℝ → ℝ, IsNearest p fl := by
  have key : ∀ x : ℝ, ∃ z, Representable p z ∧ ∀ y, Representable p y → |x - z| ≤ |x - y| := by
    intro x
    rcases eq_or_ne x 0 with rfl | hx
    · exact ⟨0, representable_zero, fun y _ => by simp⟩
    obtain ⟨e, he1, he2⟩ := exists_mem_Ico_zpow (abs_pos.2 hx) (by norm_num : (1 : ℝ) < 2)
    set f : ℤ := e + 1 - p with hf
    have hf0 : (0 : ℝ) < 2 ^ f := by positivity
    refine ⟨round (x / 2 ^ f) * 2 ^ f, representable_round (by
      rw [show (p : ℤ) + f = e + 1 by omega]; exact he2.le), fun y hy => ?_⟩
    -- multiples of `2 ^ f` are not closer
    have hmul : ∀ k : ℤ, |x - round (x / 2 ^ f) * 2 ^ f| ≤ |x - k * 2 ^ f| := by
      intro k
      have h := round_le (x / 2 ^ f) k
      have e1 : ∀ a : ℝ, x - a * 2 ^ f = (x / 2 ^ f - a) * 2 ^ f := fun a => by field_simp
      rw [e1, e1, abs_mul, abs_mul]
      exact mul_le_mul_of_nonneg_right h (abs_nonneg _)
    obtain ⟨m, g, hm, rfl⟩ := hy
    have hmr : |(m : ℝ)| ≤ 2 ^ p := by exact_mod_cast hm
    by_cases hfg : f ≤ g
    · obtain ⟨t, ht⟩ := Int.eq_ofNat_of_zero_le (by omega : 0 ≤ g - f)
      have : (m : ℝ) * 2 ^ g = ((m * 2 ^ t : ℤ) : ℝ) * 2 ^ f := by
        rw [show g = t + f by omega, zpow_add₀ (by norm_num), zpow_natCast]
        push_cast
        ring
      rw [this]
      exact hmul _
    · -- `|y| ≤ 2 ^ e ≤ |x|`
      have hy : |(m : ℝ) * 2 ^ g| ≤ 2 ^ e := by
        rw [abs_mul, abs_of_pos (by positivity : (0 : ℝ) < 2 ^ g)]
        calc |(m : ℝ)| * 2 ^ g ≤ 2 ^ p * 2 ^ (f - 1) :=
              mul_le_mul hmr (zpow_le_zpow_right₀ (by norm_num) (by omega)) (by positivity) (by positivity)
          _ = 2 ^ e := by
              rw [← zpow_natCast, ← zpow_add₀ (by norm_num)]
              congr 1
              omega
      obtain ⟨t, ht⟩ := Int.eq_ofNat_of_zero_le (by omega : 0 ≤ e - f)
      have hpe : (2 : ℝ) ^ e = 2 ^ t * 2 ^ f := by
        rw [show e = t + f by omega, zpow_add₀ (by norm_num), zpow_natCast]
      obtain ⟨hy1, hy2⟩ := abs_le.1 hy
      rcases le_total 0 x with h0 | h0
      · rw [abs_of_nonneg h0] at he1
        have := hmul (2 ^ t)
        push_cast at this
        rw [← hpe] at this
        refine this.trans ?_
        rw [abs_of_nonneg (by linarith), abs_of_nonneg (by linarith)]
        linarith
      · rw [abs_of_nonpos h0] at he1
        have := hmul (-2 ^ t)
        push_cast at this
        rw [neg_mul, ← hpe] at this
        refine this.trans ?_
        rw [abs_of_nonpos (by linarith), abs_of_nonpos (by linarith)]
        linarith
  choose fl hfl using key
  exact ⟨fl, fun x => hfl x⟩

/-- A machine: all operations correctly rounded. -/
theorem exists_machine (hp : 1 ≤ p) : ∃ E : Machine p, ∀ x, E.lg x = Real.logb 10 x := by
  obtain ⟨f, hf⟩ := exists_nearest hp
  obtain ⟨g, hg⟩ := exists_nearest (p := 53) (by norm_num)
  exact ⟨⟨f, g, fun x => 10 ^ x, Real.logb 10, hf, hg, fun x => by rw [sub_self, abs_zero]; positivity,
    fun x hx => by rw [sub_self, abs_zero]; positivity⟩, fun _ => rfl⟩

end FBE.Rounded
