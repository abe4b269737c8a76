import Verif.Model.RoundedFir
import Verif.Proofs.Stats
import Verif.Spec.Signal

/-!
# Rounding errors of the correlations
-/

namespace FBE.Rounded

open Spec Complex

local notation "conj" => starRingEnd ℂ

variable {N : ℕ}

/-- Euclidean norm of `n` numbers. -/
noncomputable def l2 (n : ℕ) (F : ℕ → ℂ) : ℝ := √(∑ f ∈ Finset.range n, ‖F f‖ ^ 2)

theorem l2_nonneg (n : ℕ) (F : ℕ → ℂ) : 0 ≤ l2 n F := Real.sqrt_nonneg _

theorem l2_eq (n : ℕ) (F : ℕ → ℂ) : l2 n F = ‖(WithLp.toLp 2 fun f : Fin n => F f : EuclideanSpace ℂ (Fin n))‖ := by
  rw [EuclideanSpace.norm_eq, l2, Finset.sum_range]

theorem l2_add_le (n : ℕ) (F G : ℕ → ℂ) : l2 n (fun f => F f + G f) ≤ l2 n F + l2 n G := by
  rw [l2_eq, l2_eq, l2_eq]
  exact norm_add_le (WithLp.toLp 2 fun f : Fin n => F f : EuclideanSpace ℂ (Fin n)) (WithLp.toLp 2 fun f : Fin n => G f)

theorem l2_le_of_sub (n : ℕ) (F G : ℕ → ℂ) : l2 n F ≤ l2 n G + l2 n (fun f => F f - G f) := by
  have := l2_add_le n G (fun f => F f - G f)
  simpa using this

theorem sum_norm_mul_le (n : ℕ) (F G : ℕ → ℂ) : ∑ f ∈ Finset.range n, ‖F f‖ * ‖G f‖ ≤ l2 n F * l2 n G :=
  Real.sum_mul_le_sqrt_mul_sqrt _ _ _

/-- Parseval. -/
theorem l2_dft {n : ℕ} (hn : n ≠ 0) (x : ℕ → ℝ) : l2 n (dft n x) = √n * √(∑ u ∈ Finset.range n, x u ^ 2) := by
  have h := corr_spec hn x x 0
  have h1 : ∀ k, conj (dft n x k) * dft n x k * tw n k 0 = ((‖dft n x k‖ ^ 2 : ℝ) : ℂ) := fun k => by
    rw [show tw n k 0 = 1 by simp [tw], mul_one, mul_comm, Complex.mul_conj, Complex.normSq_eq_norm_sq]
  simp only [h1] at h
  rw [← Complex.ofReal_sum, Complex.ofReal_re] at h
  have hn' : (0 : ℝ) < n := by exact_mod_cast Nat.pos_of_ne_zero hn
  rw [div_eq_iff hn'.ne'] at h
  unfold l2
  rw [h, ← Real.sqrt_mul hn'.le, mul_comm]
  congr 2
  refine Finset.sum_congr rfl fun u hu => ?_
  rw [Nat.add_zero, Nat.mod_eq_of_lt (Finset.mem_range.1 hu), sq]

theorem allFreqs_herm {n : ℕ} {F : ℕ → ℂ} (hF : Herm n F) {f : ℕ} (hf : f < n) : allFreqs n F f = F f := by
  unfold allFreqs
  split
  · rfl
  · rename_i h
    rw [hF f (by omega) hf, Complex.conj_conj]

theorem allFreqs_rfft (n : ℕ) (x : Fin N → ℝ) {f : ℕ} (hf : f < n) :
    allFreqs n (fun f => (rfft n (List.ofFn x)).getD f 0) f = dft n (zpad x) f := by
  have h : ∀ g, g < n / 2 + 1 → (rfft n (List.ofFn x)).getD g 0 = dft n (zpad x) g := fun g hg => by
    rw [rfft_eq, getD_map_range _ _ _ _ hg]
    unfold dft
    simp only [getD_ofFn]
  rw [← allFreqs_herm (herm_dft (n := n) (zpad x)) hf]
  unfold allFreqs
  split
  · exact h f (by omega)
  · exact congrArg _ (h (n - f) (by omega))

/-- `irfft` of any spectrum. -/
theorem irfft_allFreqs (n : ℕ) (Z : ℕ → ℂ) {t : ℕ} (ht : t < n) :
    (irfft n ((List.range (n / 2 + 1)).map Z)).getD t 0 =
      (∑ f ∈ Finset.range n, (allFreqs n Z f * tw n f t).re) / n := by
  unfold irfft
  rw [getD_map_range _ _ _ _ ht]
  congr 1
  refine Finset.sum_congr rfl fun f hf => ?_
  rw [Finset.mem_range] at hf
  unfold allFreqs
  split
  · rw [getD_map_range _ _ _ _ (by omega)]
  · rw [getD_map_range _ _ _ _ (by omega)]

theorem sum_zpad_sq (x : Fin N → ℝ) {n : ℕ} (hN : N ≤ n) : ∑ u ∈ Finset.range n, zpad x u ^ 2 = ∑ t, x t ^ 2 := by
  have := sum_zpad_mul x n hN (zpad x)
  simp only [zpad_val] at this
  simpa only [sq] using this

theorem l2_dft_zpad {n : ℕ} (hn : n ≠ 0) (hN : N ≤ n) (x : Fin N → ℝ) : l2 n (dft n (zpad x)) = √n * sigNorm x := by
  rw [l2_dft hn, sum_zpad_sq x hN, sigNorm]

theorem dft_sub (n : ℕ) (x y : Fin N → ℝ) (f : ℕ) :
    dft n (zpad x) f - dft n (zpad y) f = dft n (zpad fun t => x t - y t) f := by
  unfold dft
  rw [← Finset.sum_sub_distrib]
  refine Finset.sum_congr rfl fun t _ => ?_
  rw [← sub_mul, ← Complex.ofReal_sub]
  congr 2
  unfold zpad
  split <;> simp

theorem sigNorm_add_le (x y : Fin N → ℝ) : sigNorm (fun t => x t + y t) ≤ sigNorm x + sigNorm y := by
  have h : ∀ z : Fin N → ℝ, sigNorm z = ‖(WithLp.toLp 2 z : Space N)‖ := fun z => by
    rw [EuclideanSpace.norm_eq, sigNorm]
    simp only [Real.norm_eq_abs, sq_abs]
  rw [h, h, h]
  exact norm_add_le (WithLp.toLp 2 x : Space N) (WithLp.toLp 2 y)

theorem sigNorm_le_of_sub (x y : Fin N → ℝ) : sigNorm x ≤ sigNorm y + sigNorm (fun t => x t - y t) := by
  have := sigNorm_add_le y (fun t => x t - y t)
  simpa using this

theorem sigNorm_nonneg' (x : Fin N → ℝ) : 0 ≤ sigNorm x := Real.sqrt_nonneg _

/-- The computed spectrum of a computed signal. -/
theorem IsRfft.close {A : Accuracy} {n : ℕ} (hn : n ≠ 0) (hN : N ≤ n) {x x' : Fin N → ℝ} {X : ℕ → ℂ} (h : IsRfft A n x' X)
    {κ : ℝ} (hx : sigNorm x ≤ 1) (hκ : sigNorm (fun t => x' t - x t) ≤ κ) :
    l2 n (fun f => allFreqs n X f - dft n (zpad x) f) ≤ √n * (κ + A.fft * (1 + κ)) := by
  have hn0 : (0 : ℝ) ≤ √n := Real.sqrt_nonneg _
  have h1 : l2 n (fun f => allFreqs n X f - dft n (zpad x') f) ≤ √n * (A.fft * (1 + κ)) := by
    have h2 : sigNorm x' ≤ 1 + κ := (sigNorm_le_of_sub x' x).trans (by linarith)
    have h3 : l2 n (fun f => allFreqs n X f - dft n (zpad x') f) ≤ √(A.fft ^ 2 * (n * ∑ t, x' t ^ 2)) := by
      unfold l2
      refine Real.sqrt_le_sqrt (le_of_eq_of_le ?_ h)
      exact Finset.sum_congr rfl fun f hf => by rw [allFreqs_rfft n x' (Finset.mem_range.1 hf)]
    refine h3.trans ?_
    rw [Real.sqrt_mul (sq_nonneg _), Real.sqrt_sq A.fft_nonneg, Real.sqrt_mul (Nat.cast_nonneg _)]
    calc A.fft * (√n * √(∑ t, x' t ^ 2)) = √n * (A.fft * sigNorm x') := by rw [sigNorm]; ring
      _ ≤ _ := by
        have := A.fft_nonneg
        gcongr
  have h4 : l2 n (fun f => dft n (zpad x') f - dft n (zpad x) f) ≤ √n * κ := by
    have : (fun f => dft n (zpad x') f - dft n (zpad x) f) = dft n (zpad fun t => x' t - x t) :=
      funext fun f => dft_sub n x' x f
    rw [this, l2_dft_zpad hn hN]
    gcongr
  have h5 := l2_add_le n (fun f => allFreqs n X f - dft n (zpad x') f) (fun f => dft n (zpad x') f - dft n (zpad x) f)
  simp only [sub_add_sub_cancel] at h5
  linarith

theorem IsProducts.all {u : ℝ} {X Y Z : ℕ → ℂ} (h : IsProducts u X Y Z) (n f : ℕ) :
    ‖allFreqs n Z f - conj (allFreqs n X f) * allFreqs n Y f‖ ≤ 4 * u * (‖allFreqs n X f‖ * ‖allFreqs n Y f‖) := by
  unfold allFreqs
  split
  · exact h f
  · rw [← map_mul, ← map_sub, RCLike.norm_conj, RCLike.norm_conj, RCLike.norm_conj]
    exact h (n - f)

/-- The error of a correlation. -/
theorem corr_close {A : Accuracy} {u : ℝ} (hu : 0 ≤ u) {n : ℕ} (hn : n ≠ 0) (hN : N ≤ n) {x y x' y' : Fin N → ℝ} {X Y Z : ℕ → ℂ}
    {z : ℕ → ℝ} (hX : IsRfft A n x' X) (hY : IsRfft A n y' Y) (hZ : IsProducts u X Y Z) (hz : IsIrfft A n Z z)
    {κ0 κ : ℝ} (hx : sigNorm x ≤ 1) (hy : sigNorm y ≤ 1) (hxκ : sigNorm (fun t => x' t - x t) ≤ κ0)
    (hyκ : sigNorm (fun t => y' t - y t) ≤ κ0) (hκ : κ0 + A.fft * (1 + κ0) ≤ κ) {t : ℕ} (ht : t < n) :
    |z t - circ n x y t| ≤ 2 * κ + κ ^ 2 + 4 * u * (1 + κ) ^ 2 + A.fft * ((1 + 4 * u) * (1 + κ) ^ 2) := by
  have hn' : (0 : ℝ) < n := by exact_mod_cast Nat.pos_of_ne_zero hn
  have hs : √(n : ℝ) * √(n : ℝ) = n := Real.mul_self_sqrt hn'.le
  have hs0 : 0 < √(n : ℝ) := Real.sqrt_pos.2 hn'
  set F := allFreqs n X
  set G := allFreqs n Y
  set F0 := dft n (zpad x)
  set G0 := dft n (zpad y)
  have dF : l2 n (fun f => F f - F0 f) ≤ √n * κ := (hX.close hn hN hx hxκ).trans (by gcongr)
  have dG : l2 n (fun f => G f - G0 f) ≤ √n * κ := (hY.close hn hN hy hyκ).trans (by gcongr)
  have nF0 : l2 n F0 ≤ √n * 1 := by rw [l2_dft_zpad hn hN]; gcongr
  have nG0 : l2 n G0 ≤ √n * 1 := by rw [l2_dft_zpad hn hN]; gcongr
  have hκ0 : 0 ≤ κ := by
    have := (l2_nonneg _ _).trans dF
    exact nonneg_of_mul_nonneg_right this hs0
  have nF : l2 n F ≤ √n * (1 + κ) := (l2_le_of_sub n F F0).trans (by linarith)
  have nG : l2 n G ≤ √n * (1 + κ) := (l2_le_of_sub n G G0).trans (by linarith)
  have sFG : ∑ f ∈ Finset.range n, ‖F f‖ * ‖G f‖ ≤ n * (1 + κ) ^ 2 := by
    refine (sum_norm_mul_le n F G).trans ((mul_le_mul nF nG (l2_nonneg _ _) (by positivity)).trans_eq ?_)
    linear_combination (1 + κ) ^ 2 * hs
  have sD1 : ∑ f ∈ Finset.range n, ‖F f - F0 f‖ * ‖G f‖ ≤ n * (κ * (1 + κ)) := by
    refine (sum_norm_mul_le n (fun f => F f - F0 f) G).trans
      ((mul_le_mul dF nG (l2_nonneg _ _) (by positivity)).trans_eq ?_)
    linear_combination (κ * (1 + κ)) * hs
  have sD2 : ∑ f ∈ Finset.range n, ‖F0 f‖ * ‖G f - G0 f‖ ≤ n * κ := by
    refine (sum_norm_mul_le n F0 (fun f => G f - G0 f)).trans
      ((mul_le_mul nF0 dG (l2_nonneg _ _) (by positivity)).trans_eq ?_)
    linear_combination κ * hs
  set Q := allFreqs n Z
  have hQ : ∀ f, ‖Q f - conj (F f) * G f‖ ≤ 4 * u * (‖F f‖ * ‖G f‖) := fun f => hZ.all n f
  -- the products
  have s1 : ∑ f ∈ Finset.range n, ‖Q f - conj (F0 f) * G0 f‖ ≤ n * (4 * u * (1 + κ) ^ 2 + (2 * κ + κ ^ 2)) := by
    have e1 : ∀ f, ‖Q f - conj (F0 f) * G0 f‖ ≤
        4 * u * (‖F f‖ * ‖G f‖) + (‖F f - F0 f‖ * ‖G f‖ + ‖F0 f‖ * ‖G f - G0 f‖) := fun f => by
      have e2 : Q f - conj (F0 f) * G0 f = (Q f - conj (F f) * G f) + (conj (F f - F0 f) * G f + conj (F0 f) * (G f - G0 f)) := by
        rw [map_sub]; ring
      rw [e2]
      refine (norm_add_le _ _).trans (add_le_add (hQ f) ((norm_add_le _ _).trans_eq ?_))
      rw [norm_mul, norm_mul, RCLike.norm_conj, RCLike.norm_conj]
    calc _ ≤ ∑ f ∈ Finset.range n, (4 * u * (‖F f‖ * ‖G f‖) + (‖F f - F0 f‖ * ‖G f‖ + ‖F0 f‖ * ‖G f - G0 f‖)) :=
          Finset.sum_le_sum fun f _ => e1 f
      _ = 4 * u * ∑ f ∈ Finset.range n, ‖F f‖ * ‖G f‖ + (∑ f ∈ Finset.range n, ‖F f - F0 f‖ * ‖G f‖ +
          ∑ f ∈ Finset.range n, ‖F0 f‖ * ‖G f - G0 f‖) := by
        rw [Finset.sum_add_distrib, Finset.sum_add_distrib, Finset.mul_sum]
      _ ≤ 4 * u * (n * (1 + κ) ^ 2) + (n * (κ * (1 + κ)) + n * κ) := by gcongr
      _ = _ := by ring
  have s2 : ∑ f ∈ Finset.range n, ‖Q f‖ ≤ n * ((1 + 4 * u) * (1 + κ) ^ 2) := by
    calc _ ≤ ∑ f ∈ Finset.range n, (1 + 4 * u) * (‖F f‖ * ‖G f‖) := Finset.sum_le_sum fun f _ => by
          have := norm_add_le (Q f - conj (F f) * G f) (conj (F f) * G f)
          rw [sub_add_cancel, norm_mul, RCLike.norm_conj] at this
          linarith [hQ f]
      _ ≤ (1 + 4 * u) * (n * (1 + κ) ^ 2) := by rw [← Finset.mul_sum]; gcongr
      _ = _ := by ring
  -- the inverse transform
  have h1 := hz t ht
  rw [irfft_allFreqs n Z ht] at h1
  have h2 : A.fft * ((∑ f ∈ Finset.range n, ‖Q f‖) / n) ≤ A.fft * ((1 + 4 * u) * (1 + κ) ^ 2) := by
    refine mul_le_mul_of_nonneg_left ?_ A.fft_nonneg
    rw [div_le_iff₀ hn', mul_comm _ (n : ℝ)]
    exact s2
  have h3 : |(∑ f ∈ Finset.range n, (Q f * tw n f t).re) / n - circ n x y t| ≤ 4 * u * (1 + κ) ^ 2 + (2 * κ + κ ^ 2) := by
    unfold circ
    rw [← corr_spec hn (zpad x) (zpad y) t, Complex.re_sum, ← sub_div, ← Finset.sum_sub_distrib, abs_div, abs_of_pos hn',
      div_le_iff₀ hn', mul_comm _ (n : ℝ)]
    refine (Finset.abs_sum_le_sum_abs _ _).trans ((Finset.sum_le_sum fun f _ => ?_).trans s1)
    rw [← Complex.sub_re, ← sub_mul]
    refine (Complex.abs_re_le_norm _).trans_eq ?_
    rw [norm_mul, norm_tw, mul_one]
  have h4 := abs_sub_le (z t) ((∑ f ∈ Finset.range n, (Q f * tw n f t).re) / n) (circ n x y t)
  linarith

/-- Rounding the real and the imaginary part of a product separately. -/
theorem product_plain {p : ℕ} (hp : 2 ≤ p) {fl : ℝ → ℝ} (h : ∀ x, |fl x - x| ≤ 2 ^ (-p : ℤ) * |x|) (X Y : ℂ) :
    ‖(⟨fl (fl (X.re * Y.re) + fl (X.im * Y.im)), fl (fl (X.re * Y.im) - fl (X.im * Y.re))⟩ : ℂ) - conj X * Y‖ ≤
      4 * 2 ^ (-p : ℤ) * (‖X‖ * ‖Y‖) := by
  set u : ℝ := 2 ^ (-p : ℤ)
  have hu0 : 0 < u := by positivity
  have hu1 : u ≤ 1 / 4 := by
    calc u ≤ (2 : ℝ) ^ (-2 : ℤ) := zpow_le_zpow_right₀ (by norm_num) (by omega)
      _ = 1 / 4 := by norm_num
  -- one sum of two products
  have step : ∀ a b : ℝ, |fl (fl a + fl b) - (a + b)| ≤ 2.25 * u * (|a| + |b|) := fun a b => by
    have h1 := h a
    have h2 := h b
    have h3 := h (fl a + fl b)
    have h4 : |fl a + fl b| ≤ (1 + u) * (|a| + |b|) := by
      have a1 : |fl a| ≤ |fl a - a| + |a| := by simpa using abs_add_le (fl a - a) a
      have a2 : |fl b| ≤ |fl b - b| + |b| := by simpa using abs_add_le (fl b - b) b
      calc |fl a + fl b| ≤ |fl a| + |fl b| := abs_add_le _ _
        _ ≤ _ := by nlinarith
    have h5 : |fl (fl a + fl b) - (a + b)| ≤ |fl (fl a + fl b) - (fl a + fl b)| + (|fl a - a| + |fl b - b|) := by
      have : fl (fl a + fl b) - (a + b) = (fl (fl a + fl b) - (fl a + fl b)) + ((fl a - a) + (fl b - b)) := by ring
      rw [this]
      exact (abs_add_le _ _).trans (by gcongr; exact abs_add_le _ _)
    have h6 : u * |fl a + fl b| ≤ u * ((1 + u) * (|a| + |b|)) := mul_le_mul_of_nonneg_left h4 hu0.le
    have h7 : 0 ≤ u * (|a| + |b|) := by positivity
    have h8 : u * (u * (|a| + |b|)) ≤ 1 / 4 * (u * (|a| + |b|)) := mul_le_mul_of_nonneg_right hu1 h7
    nlinarith
  have step' : ∀ a b : ℝ, |fl (fl a - fl b) - (a - b)| ≤ 2.25 * u * (|a| + |b|) := fun a b => by
    have h1 := h a
    have h2 := h b
    have h3 := h (fl a - fl b)
    have h4 : |fl a - fl b| ≤ (1 + u) * (|a| + |b|) := by
      have a1 : |fl a| ≤ |fl a - a| + |a| := by simpa using abs_add_le (fl a - a) a
      have a2 : |fl b| ≤ |fl b - b| + |b| := by simpa using abs_add_le (fl b - b) b
      calc |fl a - fl b| ≤ |fl a| + |fl b| := abs_sub _ _
        _ ≤ _ := by nlinarith
    have h5 : |fl (fl a - fl b) - (a - b)| ≤ |fl (fl a - fl b) - (fl a - fl b)| + (|fl a - a| + |fl b - b|) := by
      have : fl (fl a - fl b) - (a - b) = (fl (fl a - fl b) - (fl a - fl b)) + ((fl a - a) - (fl b - b)) := by ring
      rw [this]
      exact (abs_add_le _ _).trans (by gcongr; exact abs_sub _ _)
    have h6 : u * |fl a - fl b| ≤ u * ((1 + u) * (|a| + |b|)) := mul_le_mul_of_nonneg_left h4 hu0.le
    have h7 : 0 ≤ u * (|a| + |b|) := by positivity
    have h8 : u * (u * (|a| + |b|)) ≤ 1 / 4 * (u * (|a| + |b|)) := mul_le_mul_of_nonneg_right hu1 h7
    nlinarith
  -- Cauchy-Schwarz for both parts
  set a := |X.re|
  set b := |X.im|
  set c := |Y.re|
  set d := |Y.im|
  have i1 := step (X.re * Y.re) (X.im * Y.im)
  have i2 := step' (X.re * Y.im) (X.im * Y.re)
  simp only [abs_mul] at i1 i2
  change _ ≤ 2.25 * u * (a * c + b * d) at i1
  change _ ≤ 2.25 * u * (a * d + b * c) at i2
  have hX : ‖X‖ ^ 2 = a ^ 2 + b ^ 2 := by
    rw [← Complex.normSq_eq_norm_sq, Complex.normSq_apply, sq_abs, sq_abs]; ring
  have hY : ‖Y‖ ^ 2 = c ^ 2 + d ^ 2 := by
    rw [← Complex.normSq_eq_norm_sq, Complex.normSq_apply, sq_abs, sq_abs]; ring
  refine le_of_sq_le_sq ?_ (by positivity)
  rw [← Complex.normSq_eq_norm_sq, Complex.normSq_apply]
  have r1 : (conj X * Y).re = X.re * Y.re + X.im * Y.im := by simp [Complex.mul_re]
  have r2 : (conj X * Y).im = X.re * Y.im - X.im * Y.re := by simp [Complex.mul_im]; ring
  rw [Complex.sub_re, Complex.sub_im, r1, r2]
  set P := fl (fl (X.re * Y.re) + fl (X.im * Y.im)) - (X.re * Y.re + X.im * Y.im)
  set R := fl (fl (X.re * Y.im) - fl (X.im * Y.re)) - (X.re * Y.im - X.im * Y.re)
  have ha : 0 ≤ a := abs_nonneg _
  have hb : 0 ≤ b := abs_nonneg _
  have hc : 0 ≤ c := abs_nonneg _
  have hd : 0 ≤ d := abs_nonneg _
  have q1 : P * P ≤ (2.25 * u * (a * c + b * d)) ^ 2 := by
    rw [← sq, ← sq_abs]; exact pow_le_pow_left₀ (abs_nonneg _) i1 2
  have q2 : R * R ≤ (2.25 * u * (a * d + b * c)) ^ 2 := by
    rw [← sq, ← sq_abs]; exact pow_le_pow_left₀ (abs_nonneg _) i2 2
  have q3 : (4 * u * (‖X‖ * ‖Y‖)) ^ 2 = 16 * u ^ 2 * ((a ^ 2 + b ^ 2) * (c ^ 2 + d ^ 2)) := by
    rw [← hX, ← hY]; ring
  have q4 : (a * c + b * d) ^ 2 + (a * d + b * c) ^ 2 ≤ 2 * ((a ^ 2 + b ^ 2) * (c ^ 2 + d ^ 2)) := by
    nlinarith [sq_nonneg (a * c - b * d), sq_nonneg (a * d - b * c)]
  have q5 : 0 ≤ u ^ 2 * ((a ^ 2 + b ^ 2) * (c ^ 2 + d ^ 2)) := by positivity
  have q6 : u ^ 2 * ((a * c + b * d) ^ 2 + (a * d + b * c) ^ 2) ≤ u ^ 2 * (2 * ((a ^ 2 + b ^ 2) * (c ^ 2 + d ^ 2))) :=
    mul_le_mul_of_nonneg_left q4 (by positivity)
  rw [q3]
  nlinarith

end FBE.Rounded
