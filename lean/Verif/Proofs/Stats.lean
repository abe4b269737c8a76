import Verif.Proofs.Fft
import Verif.Proofs.Slice
import Verif.Spec.Signal

/-! The FFT statistics are linear correlations when there is no wrap-around. -/

namespace FBE

open Complex Spec

local notation "conj" => starRingEnd ℂ

variable {N M : ℕ}

theorem getD_ofFn (x : Fin N → ℝ) (t : ℕ) : (List.ofFn x).getD t 0 = zpad x t := by
  unfold zpad
  split
  · rename_i h
    simp [List.getD, h]
  · rename_i h
    simp [List.getD, h]

theorem zpad_of_le (x : Fin N → ℝ) {t : ℕ} (h : N ≤ t) : zpad x t = 0 := by
  unfold zpad; rw [dif_neg (by omega)]

theorem zpad_val (x : Fin N → ℝ) (t : Fin N) : zpad x t = x t := by
  unfold zpad; rw [dif_pos t.isLt]

theorem sum_zpad_mul (x : Fin N → ℝ) (n : ℕ) (hN : N ≤ n) (f : ℕ → ℝ) :
    ∑ u ∈ Finset.range n, zpad x u * f u = ∑ u : Fin N, x u * f u := by
  rw [← Finset.sum_subset (Finset.range_subset_range.2 hN)]
  · rw [Finset.sum_range]
    exact Finset.sum_congr rfl fun u _ => by rw [zpad_val]
  · intro u _ hu
    rw [Finset.mem_range, not_lt] at hu
    rw [zpad_of_le x hu, zero_mul]

/-- The circular correlation used everywhere (also with wrap-around). -/
theorem circ_get (n : ℕ) (hn : n ≠ 0) (x y : List ℝ) (t : ℕ) (ht : t < n) :
    (irfft n (List.zipWith (fun a b => conj a * b) (rfft n x) (rfft n y))).getD t 0 =
      ∑ u ∈ Finset.range n, x.getD u 0 * y.getD ((u + t) % n) 0 := by
  rw [rfft_eq, rfft_eq, zipWith_map_range, irfft_spec _ ht, corr_spec hn]
  exact ((herm_dft _).conj).mul (herm_dft _)

theorem acf1_eq_xcorr1 (n L : ℕ) (x : List ℝ) : acf1 n L x = xcorr1 n L x x := by
  unfold acf1 xcorr1
  congr 2
  rw [List.zipWith_self]
  refine List.map_congr_left fun z _ => ?_
  rw [mul_comm, Complex.mul_conj, Complex.normSq_apply]
  congr 1
  ring

theorem length_xcorr1 (n L : ℕ) (x y : List ℝ) : (xcorr1 n L x y).length = min L n := by
  unfold xcorr1
  rw [pySlice_take]
  simp

theorem length_acf1 (n L : ℕ) (x : List ℝ) : (acf1 n L x).length = min L n := by
  rw [acf1_eq_xcorr1, length_xcorr1]

theorem circ_corr (n : ℕ) (x : Fin N → ℝ) (y : Fin M → ℝ) (l : ℕ) (hN : N ≤ n) (h : l + N ≤ n) :
    circ n x y l = corr x y l := by
  unfold circ
  rw [sum_zpad_mul x n hN fun u => zpad y ((u + l) % n)]
  unfold corr
  refine Finset.sum_congr rfl fun u _ => ?_
  rw [Nat.mod_eq_of_lt (by have := u.isLt; omega)]

/-- Cyclic reindexing. -/
theorem sum_rotate {M : Type*} [AddCommMonoid M] (n a : ℕ) (F : ℕ → M) :
    ∑ u ∈ Finset.range n, F ((u + a) % n) = ∑ t ∈ Finset.range n, F t := by
  rcases Nat.eq_zero_or_pos n with rfl | hn
  · simp
  refine Finset.sum_nbij' (fun u => (u + a) % n) (fun t => (t + (n - a % n)) % n) ?_ ?_ ?_ ?_ ?_
  · intro u _; exact Finset.mem_range.2 (Nat.mod_lt _ hn)
  · intro u _; exact Finset.mem_range.2 (Nat.mod_lt _ hn)
  · intro u hu
    rw [Finset.mem_range] at hu
    have ha : a % n < n := Nat.mod_lt _ hn
    show ((u + a) % n + (n - a % n)) % n = u
    rw [Nat.mod_add_mod, Nat.add_assoc]
    have : a + (n - a % n) = n * (a / n) + n := by
      have := Nat.div_add_mod a n; omega
    rw [this, ← Nat.add_assoc, Nat.add_mod_right, Nat.add_mul_mod_self_left, Nat.mod_eq_of_lt hu]
  · intro t ht
    rw [Finset.mem_range] at ht
    have ha : a % n < n := Nat.mod_lt _ hn
    show ((t + (n - a % n)) % n + a) % n = t
    rw [Nat.mod_add_mod, Nat.add_assoc]
    have : (n - a % n) + a = n * (a / n) + n := by
      have := Nat.div_add_mod a n; omega
    rw [this, ← Nat.add_assoc, Nat.add_mod_right, Nat.add_mul_mod_self_left, Nat.mod_eq_of_lt ht]
  · intro _ _; rfl

theorem circ_swap (n : ℕ) (x : Fin N → ℝ) (y : Fin M → ℝ) (j : ℕ) (hj : j ≤ n) :
    circ n y x (n - j) = circ n x y j := by
  unfold circ
  rw [← sum_rotate n j fun u => zpad y u * zpad x ((u + (n - j)) % n)]
  refine Finset.sum_congr rfl fun u hu => ?_
  rw [Finset.mem_range] at hu
  rw [Nat.mod_add_mod, show u + j + (n - j) = u + n by omega, Nat.add_mod_right,
    Nat.mod_eq_of_lt hu, mul_comm]

theorem xcorr1_get (n L : ℕ) (hn : n ≠ 0) (x : Fin N → ℝ) (y : Fin M → ℝ) (l : ℕ) (hl : l < L) (hln : l < n) :
    (xcorr1 n L (List.ofFn x) (List.ofFn y)).getD l 0 = circ n x y l := by
  unfold xcorr1
  rw [pySlice_take, getD_take _ _ _ _ hl, circ_get n hn _ _ _ hln]
  simp only [getD_ofFn]
  rfl

theorem acf1_get (n L : ℕ) (hn : n ≠ 0) (x : Fin N → ℝ) (l : ℕ) (hl : l < L) (hln : l < n) :
    (acf1 n L (List.ofFn x)).getD l 0 = circ n x x l := by
  rw [acf1_eq_xcorr1, xcorr1_get n L hn x x l hl hln]

/-! ### all pairs -/

theorem acf2_swap (n : ℕ) (x y : List ℝ) :
    List.zipWith (fun a b => a * conj b) (rfft n x) (rfft n y) =
      List.zipWith (fun a b => conj a * b) (rfft n y) (rfft n x) := by
  rw [List.zipWith_comm]
  congr 1
  funext a b
  ring

theorem length_acf2 (n L : ℕ) (hL : 0 < L) (x y : List ℝ) :
    (acf2 n L x y).length = min L n + min L n := by
  unfold acf2
  simp only [pySlice_take, pySlice_last _ _ hL, List.length_append, List.length_take,
    List.length_drop, length_irfft]
  omega

/-- Positive lags. -/
theorem acf2_get (n L : ℕ) (hn : n ≠ 0) (x : Fin N → ℝ) (y : Fin M → ℝ) (l : ℕ) (hl : l < L) (hln : l < n) :
    (acf2 n L (List.ofFn x) (List.ofFn y)).getD l 0 = circ n y x l := by
  unfold acf2
  simp only [pySlice_take]
  rw [getD_append_left (by simp; omega), getD_take _ _ _ _ hl, acf2_swap,
    circ_get n hn _ _ _ hln]
  simp only [getD_ofFn]
  rfl

/-- Negative lags: position `2L - j`. -/
theorem acf2_get_neg (n L : ℕ) (hn : n ≠ 0) (hLn : L ≤ n) (x : Fin N → ℝ) (y : Fin M → ℝ) (j : ℕ) (hj : 0 < j)
    (hjL : j < L) :
    (acf2 n L (List.ofFn x) (List.ofFn y)).getD (2 * L - j) 0 = circ n x y j := by
  unfold acf2
  simp only [pySlice_take, pySlice_last _ _ (show 0 < L by omega)]
  rw [getD_append_right (by simp; omega)]
  rw [acf2_swap]
  rw [getD_drop]
  simp only [List.length_take, length_irfft]
  rw [show n - L + (2 * L - j - min L n) = n - j by omega, circ_get n hn _ _ _ (by omega)]
  simp only [getD_ofFn]
  exact circ_swap n x y j (by omega)

end FBE
