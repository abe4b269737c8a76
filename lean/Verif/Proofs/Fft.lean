import Verif.Model.Fft
import Mathlib.RingTheory.RootsOfUnity.Complex
import Mathlib.Algebra.Field.GeomSum
import Mathlib.Tactic.FieldSimp
import Mathlib.Tactic.Ring
import Mathlib.Tactic.Linarith

/-! The defining sums of the real FFT: inversion, circular correlation, circular convolution. -/

namespace FBE

open Complex

local notation "conj" => starRingEnd ℂ

/-- Full discrete Fourier transform of a real sequence. -/
noncomputable def dft (n : ℕ) (x : ℕ → ℝ) (k : ℕ) : ℂ :=
  ∑ t ∈ Finset.range n, (x t : ℂ) * conj (tw n k t)

theorem tw_eq_pow (n k t : ℕ) : tw n k t = (tw n 1 1) ^ (k * t) := by
  unfold tw
  rw [← Complex.exp_nat_mul]
  congr 1
  push_cast
  ring

theorem tw_ne_zero (n k t : ℕ) : tw n k t ≠ 0 := Complex.exp_ne_zero _

theorem norm_tw (n k t : ℕ) : ‖tw n k t‖ = 1 := by
  unfold tw
  rw [show (2 * Real.pi * I * (k * t) / n : ℂ) = ((2 * Real.pi * (k * t) / n : ℝ) : ℂ) * I by
    push_cast; ring]
  exact Complex.norm_exp_ofReal_mul_I _

theorem tw_mul_conj (n k t : ℕ) : tw n k t * conj (tw n k t) = 1 := by
  rw [Complex.mul_conj, Complex.normSq_eq_norm_sq, norm_tw]; simp

theorem conj_tw (n k t : ℕ) : conj (tw n k t) = (tw n k t)⁻¹ :=
  eq_inv_of_mul_eq_one_right (tw_mul_conj n k t)

theorem tw_add (n k a b : ℕ) : tw n k (a + b) = tw n k a * tw n k b := by
  rw [tw_eq_pow, tw_eq_pow n k a, tw_eq_pow n k b, ← pow_add, Nat.mul_add]

theorem tw_comm (n k t : ℕ) : tw n k t = tw n t k := by
  rw [tw_eq_pow, tw_eq_pow n t k, Nat.mul_comm]

theorem tw_primitive {n : ℕ} (hn : n ≠ 0) : IsPrimitiveRoot (tw n 1 1) n := by
  have := Complex.isPrimitiveRoot_exp n hn
  unfold tw
  convert this using 2
  push_cast
  ring

theorem tw_period {n : ℕ} (hn : n ≠ 0) (k : ℕ) : tw n k n = 1 := by
  rw [tw_eq_pow, Nat.mul_comm, pow_mul, (tw_primitive hn).pow_eq_one, one_pow]

theorem tw_mod {n : ℕ} (hn : n ≠ 0) (k t : ℕ) : tw n k (t % n) = tw n k t := by
  conv_rhs => rw [← Nat.mod_add_div t n, tw_add]
  rw [tw_eq_pow n k (n * (t / n)), ← Nat.mul_assoc, pow_mul, ← tw_eq_pow, tw_period hn, one_pow,
    mul_one]

/-- Orthogonality. -/
theorem sum_tw {n : ℕ} (hn : n ≠ 0) {a b : ℕ} (ha : a < n) (hb : b < n) :
    ∑ k ∈ Finset.range n, tw n k a * conj (tw n k b) = if a = b then (n : ℂ) else 0 := by
  have h1 : ∀ k, tw n k a * conj (tw n k b) = (tw n 1 a * conj (tw n 1 b)) ^ k := by
    intro k
    rw [mul_pow, ← map_pow, tw_eq_pow n k a, tw_eq_pow n k b, tw_eq_pow n 1 a, tw_eq_pow n 1 b,
      ← pow_mul, ← pow_mul]
    congr 2
    · ring
    · ring
  rw [Finset.sum_congr rfl fun k _ => h1 k]
  by_cases hab : a = b
  · subst hab
    rw [tw_mul_conj]
    simp
  · rw [if_neg hab]
    set w := tw n 1 a * conj (tw n 1 b) with hw
    have hw1 : w ≠ 1 := by
      intro h
      apply hab
      have h2 : tw n 1 a = tw n 1 b := by
        rw [hw, conj_tw, ← div_eq_mul_inv, div_eq_one_iff_eq (tw_ne_zero _ _ _)] at h
        exact h
      rw [tw_eq_pow n 1 a, tw_eq_pow n 1 b, Nat.one_mul, Nat.one_mul] at h2
      exact (tw_primitive hn).pow_inj ha hb h2
    have hwn : w ^ n = 1 := by
      rw [hw, mul_pow, ← map_pow]
      have : ∀ c, tw n 1 c ^ n = 1 := by
        intro c
        rw [tw_eq_pow n 1 c, ← pow_mul, Nat.mul_comm, pow_mul, (tw_primitive hn).pow_eq_one, one_pow]
      rw [this, this]
      simp
    rw [geom_sum_eq hw1, hwn]
    simp

/-- Inversion. -/
theorem sum_dft_tw {n : ℕ} (hn : n ≠ 0) (y : ℕ → ℝ) (t : ℕ) :
    ∑ k ∈ Finset.range n, dft n y k * tw n k t = n * (y (t % n) : ℂ) := by
  have ht : t % n < n := Nat.mod_lt _ (Nat.pos_of_ne_zero hn)
  have h1 : ∀ k, dft n y k * tw n k t =
      ∑ v ∈ Finset.range n, (y v : ℂ) * (tw n k (t % n) * conj (tw n k v)) := by
    intro k
    rw [tw_mod hn, dft, Finset.sum_mul]
    refine Finset.sum_congr rfl fun v _ => ?_
    ring
  simp only [h1]
  rw [Finset.sum_comm]
  have h2 : ∀ v ∈ Finset.range n,
      ∑ k ∈ Finset.range n, (y v : ℂ) * (tw n k (t % n) * conj (tw n k v)) =
      if t % n = v then (n : ℂ) * y v else 0 := by
    intro v hv
    rw [← Finset.mul_sum, sum_tw hn ht (Finset.mem_range.1 hv)]
    split
    · ring
    · ring
  rw [Finset.sum_congr rfl h2, Finset.sum_ite_eq, if_pos (Finset.mem_range.2 ht)]

/-- Spectra of real sequences. -/
def Herm (n : ℕ) (F : ℕ → ℂ) : Prop := ∀ k, 0 < k → k < n → F (n - k) = conj (F k)

theorem tw_sub {n : ℕ} (hn : n ≠ 0) {k : ℕ} (hk : k < n) (t : ℕ) :
    tw n (n - k) t = conj (tw n k t) := by
  rw [conj_tw]
  apply eq_inv_of_mul_eq_one_left
  rw [tw_comm n (n - k), tw_comm n k, ← tw_add, Nat.sub_add_cancel hk.le, tw_period hn]

theorem herm_dft {n : ℕ} (x : ℕ → ℝ) : Herm n (dft n x) := by
  intro k hk hkn
  unfold dft
  rw [map_sum]
  refine Finset.sum_congr rfl fun t _ => ?_
  rw [tw_sub (by omega) hkn, map_mul, Complex.conj_ofReal]

theorem Herm.mul {n : ℕ} {F G : ℕ → ℂ} (hF : Herm n F) (hG : Herm n G) :
    Herm n (fun k => F k * G k) := by
  intro k h1 h2; simp only [hF k h1 h2, hG k h1 h2, map_mul]

theorem Herm.conj {n : ℕ} {F : ℕ → ℂ} (hF : Herm n F) :
    Herm n (fun k => (starRingEnd ℂ) (F k)) := by
  intro k h1 h2; simp only [hF k h1 h2]

theorem Herm.sum {n : ℕ} {ι : Type*} {S : Finset ι} {F : ι → ℕ → ℂ} (hF : ∀ i ∈ S, Herm n (F i)) :
    Herm n (fun k => ∑ i ∈ S, F i k) := by
  intro k h1 h2
  simp only [map_sum]
  exact Finset.sum_congr rfl fun i hi => hF i hi k h1 h2

/-! ### the lists -/

@[simp] theorem length_rfft (n : ℕ) (x : List ℝ) : (rfft n x).length = n / 2 + 1 := by simp [rfft]
@[simp] theorem length_irfft (n : ℕ) (X : List ℂ) : (irfft n X).length = n := by simp [irfft]

theorem rfft_eq (n : ℕ) (x : List ℝ) :
    rfft n x = (List.range (n / 2 + 1)).map (dft n fun t => x.getD t 0) := rfl

theorem getD_map_range {α : Type*} (F : ℕ → α) (m k : ℕ) (d : α) (hk : k < m) :
    ((List.range m).map F).getD k d = F k := by
  simp [List.getD, hk]

theorem irfft_spec {n : ℕ} {F : ℕ → ℂ} (hF : Herm n F) {t : ℕ} (ht : t < n) :
    (irfft n ((List.range (n / 2 + 1)).map F)).getD t 0 =
      (∑ k ∈ Finset.range n, F k * tw n k t).re / n := by
  unfold irfft
  rw [getD_map_range _ _ _ _ ht, Complex.re_sum]
  congr 1
  refine Finset.sum_congr rfl fun k hk => ?_
  rw [Finset.mem_range] at hk
  split
  · rename_i h
    rw [getD_map_range _ _ _ _ (by omega)]
  · rename_i h
    rw [getD_map_range _ _ _ _ (by omega), hF k (by omega) hk]
    simp

theorem zipWith_map_range {α β γ : Type*} (f : α → β → γ) (F : ℕ → α) (G : ℕ → β) (m : ℕ) :
    List.zipWith f ((List.range m).map F) ((List.range m).map G) =
      (List.range m).map fun k => f (F k) (G k) := by
  rw [List.zipWith_map, List.zipWith_self]

/-- Circular correlation. -/
theorem corr_spec {n : ℕ} (hn : n ≠ 0) (x y : ℕ → ℝ) (t : ℕ) :
    (∑ k ∈ Finset.range n, conj (dft n x k) * dft n y k * tw n k t).re / n =
      ∑ u ∈ Finset.range n, x u * y ((u + t) % n) := by
  have h : ∑ k ∈ Finset.range n, conj (dft n x k) * dft n y k * tw n k t =
      (n : ℂ) * ((∑ u ∈ Finset.range n, x u * y ((u + t) % n) : ℝ) : ℂ) := by
    have h1 : ∀ k, conj (dft n x k) * dft n y k * tw n k t =
        ∑ u ∈ Finset.range n, (x u : ℂ) * (dft n y k * tw n k (u + t)) := by
      intro k
      conv_lhs => rw [dft, map_sum]
      rw [mul_assoc, Finset.sum_mul]
      refine Finset.sum_congr rfl fun u _ => ?_
      rw [map_mul, Complex.conj_ofReal, Complex.conj_conj, tw_add]
      ring
    simp only [h1]
    rw [Finset.sum_comm]
    push_cast
    rw [Finset.mul_sum]
    refine Finset.sum_congr rfl fun u _ => ?_
    rw [← Finset.mul_sum, sum_dft_tw hn]
    ring
  rw [h]
  have hn' : (n : ℝ) ≠ 0 := by exact_mod_cast hn
  rw [show ((n : ℂ)) = ((n : ℝ) : ℂ) by push_cast; rfl, ← Complex.ofReal_mul, Complex.ofReal_re]
  field_simp

/-- Circular convolution. -/
theorem conv_spec {n : ℕ} (hn : n ≠ 0) (x y : ℕ → ℝ) (t : ℕ) :
    (∑ k ∈ Finset.range n, dft n x k * dft n y k * tw n k t).re / n =
      ∑ u ∈ Finset.range n, x u * y ((t + (n - u)) % n) := by
  have h : ∑ k ∈ Finset.range n, dft n x k * dft n y k * tw n k t =
      (n : ℂ) * ((∑ u ∈ Finset.range n, x u * y ((t + (n - u)) % n) : ℝ) : ℂ) := by
    have h1 : ∀ k, dft n x k * dft n y k * tw n k t =
        ∑ u ∈ Finset.range n, (x u : ℂ) * (dft n y k * tw n k (t + (n - u))) := by
      intro k
      conv_lhs => rw [dft]
      rw [mul_assoc, Finset.sum_mul]
      refine Finset.sum_congr rfl fun u hu => ?_
      rw [Finset.mem_range] at hu
      have : tw n k (n - u) = conj (tw n k u) := by
        rw [conj_tw]
        apply eq_inv_of_mul_eq_one_left
        rw [← tw_add, Nat.sub_add_cancel hu.le, tw_period hn]
      rw [tw_add, this]
      ring
    simp only [h1]
    rw [Finset.sum_comm]
    push_cast
    rw [Finset.mul_sum]
    refine Finset.sum_congr rfl fun u _ => ?_
    rw [← Finset.mul_sum, sum_dft_tw hn]
    ring
  rw [h]
  have hn' : (n : ℝ) ≠ 0 := by exact_mod_cast hn
  rw [show ((n : ℂ)) = ((n : ℝ) : ℂ) by push_cast; rfl, ← Complex.ofReal_mul, Complex.ofReal_re]
  field_simp

end FBE
