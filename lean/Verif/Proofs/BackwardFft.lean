import Verif.Model.BackwardFir
import Verif.Proofs.Stats
import Verif.Proofs.Toeplitz

/-!
The derivative formulas of the transforms and of the Toeplitz matrix are the adjoint maps.
-/

set_option linter.unusedSectionVars false

namespace FBE.Backward

open Spec Complex Matrix

variable {r e N M K : ℕ}

local notation "conj" => starRingEnd ℂ

/-- Weights of the half spectrum. -/
noncomputable def half (n f : ℕ) : ℂ := if 1 ≤ f ∧ f ≤ n - (n / 2 + 1) then 2 else 1

theorem half_sum {n : ℕ} (hn : n ≠ 0) {F : ℕ → ℂ} (hF : Herm n F) :
    (∑ f ∈ Finset.range (n / 2 + 1), half n f * F f).re = (∑ f ∈ Finset.range n, F f).re := by
  have h1 : ∑ f ∈ Finset.range (n / 2 + 1), half n f * F f =
      ∑ f ∈ Finset.range (n / 2 + 1), F f +
        ∑ f ∈ Finset.range (n / 2 + 1), if 1 ≤ f ∧ f ≤ n - (n / 2 + 1) then F f else 0 := by
    rw [← Finset.sum_add_distrib]
    refine Finset.sum_congr rfl fun f _ => ?_
    unfold half
    split <;> ring
  have h2 : ∑ f ∈ Finset.range n, F f = ∑ f ∈ Finset.range (n / 2 + 1), F f +
      ∑ f ∈ Finset.Ico (n / 2 + 1) n, F f :=
    (Finset.sum_range_add_sum_Ico _ (by omega)).symm
  have h3 : ∑ f ∈ Finset.Ico (n / 2 + 1) n, F f =
      ∑ f ∈ Finset.range (n / 2 + 1), if 1 ≤ f ∧ f ≤ n - (n / 2 + 1) then conj (F f) else 0 := by
    rw [← Finset.sum_filter]
    refine Finset.sum_nbij' (fun f => n - f) (fun f => n - f) ?_ ?_ ?_ ?_ ?_
    · intro f hf
      rw [Finset.mem_Ico] at hf
      rw [Finset.mem_filter, Finset.mem_range]
      omega
    · intro f hf
      rw [Finset.mem_filter, Finset.mem_range] at hf
      rw [Finset.mem_Ico]
      omega
    · intro f hf
      rw [Finset.mem_Ico] at hf
      omega
    · intro f hf
      rw [Finset.mem_filter, Finset.mem_range] at hf
      omega
    · intro f hf
      rw [Finset.mem_Ico] at hf
      have := hF (n - f) (by omega) (by omega)
      rw [show n - (n - f) = f by omega] at this
      exact this
  rw [h1, h2, h3, add_re, add_re]
  congr 1
  rw [re_sum, re_sum]
  refine Finset.sum_congr rfl fun f _ => ?_
  split
  · rw [conj_re]
  · rfl

theorem spectrum_eq {n f : ℕ} (x : Fin N → ℝ) (hf : f < n / 2 + 1) : spectrum n x f = dft n (zpad x) f := by
  unfold spectrum
  rw [rfft_eq, getD_map_range _ _ _ _ hf]
  congr 1
  funext t
  exact getD_ofFn x t

theorem irfftGrad_eq {n : ℕ} (g : Fin K → ℝ) (hK : K ≤ n) (f : ℕ) :
    irfftGrad n K g f = half n f * (dft n (zpad g) f / n) := by
  unfold irfftGrad half dft
  congr 2
  rw [← Finset.sum_subset (Finset.range_subset_range.2 hK)]
  · rw [Finset.sum_range]
    exact Finset.sum_congr rfl fun u _ => by rw [zpad_val]
  · intro u _ hu
    rw [Finset.mem_range, not_lt] at hu
    rw [zpad_of_le g hu]
    simp

theorem rfftGrad_adjoint {n : ℕ} (hM : M ≤ n) (G : ℕ → ℂ) (v : Fin M → ℝ) :
    ∑ t : Fin M, rfftGrad n G t * v t =
      (∑ f ∈ Finset.range (n / 2 + 1), G f * conj (dft n (zpad v) f)).re := by
  have h1 : ∀ f, conj (dft n (zpad v) f) = ∑ t : Fin M, (v t : ℂ) * tw n f t := by
    intro f
    unfold dft
    rw [map_sum, ← Finset.sum_subset (Finset.range_subset_range.2 hM)]
    · rw [Finset.sum_range]
      refine Finset.sum_congr rfl fun u _ => ?_
      rw [zpad_val, map_mul, conj_ofReal, conj_conj]
    · intro u _ hu
      rw [Finset.mem_range, not_lt] at hu
      rw [zpad_of_le v hu]
      simp
  simp only [h1, Finset.mul_sum]
  rw [Finset.sum_comm, re_sum]
  refine Finset.sum_congr rfl fun t _ => ?_
  unfold rfftGrad
  have : ∑ f ∈ Finset.range (n / 2 + 1), G f * ((v t : ℂ) * tw n f t) =
      (∑ f ∈ Finset.range (n / 2 + 1), G f * tw n f t) * (v t : ℂ) := by
    rw [Finset.sum_mul]
    exact Finset.sum_congr rfl fun f _ => by ring
  rw [this, re_mul_ofReal]

/-- Sum over the lags of a product of spectra. -/
theorem lags_sum {n : ℕ} (hn : n ≠ 0) (hK : K ≤ n) (g : Fin K → ℝ) (x y : ℕ → ℝ) :
    (∑ f ∈ Finset.range n, conj (dft n (zpad g) f) / n * (conj (dft n x f) * dft n y f)).re =
      ∑ l : Fin K, g l * ∑ u ∈ Finset.range n, x u * y ((u + l) % n) := by
  have h1 : ∀ f, conj (dft n (zpad g) f) = ∑ l : Fin K, (g l : ℂ) * tw n f l := by
    intro f
    unfold dft
    rw [map_sum, ← Finset.sum_subset (Finset.range_subset_range.2 hK)]
    · rw [Finset.sum_range]
      refine Finset.sum_congr rfl fun u _ => ?_
      rw [zpad_val, map_mul, conj_ofReal, conj_conj]
    · intro u _ hu
      rw [Finset.mem_range, not_lt] at hu
      rw [zpad_of_le g hu]
      simp
  have h2 : ∑ f ∈ Finset.range n, conj (dft n (zpad g) f) / n * (conj (dft n x f) * dft n y f) =
      ∑ l : Fin K, ((g l / n : ℝ) : ℂ) * ∑ f ∈ Finset.range n, conj (dft n x f) * dft n y f * tw n f l := by
    simp only [h1, Finset.sum_div, Finset.sum_mul, Finset.mul_sum]
    rw [Finset.sum_comm]
    refine Finset.sum_congr rfl fun l _ => Finset.sum_congr rfl fun f _ => ?_
    push_cast
    ring
  rw [h2, re_sum]
  refine Finset.sum_congr rfl fun l _ => ?_
  rw [re_ofReal_mul, ← corr_spec hn x y l]
  ring

/-- Cross-correlations, as a function of the second signal. -/
theorem adjoint_second {n : ℕ} (hn : n ≠ 0) (hK : K ≤ n) (hM : M ≤ n) (g : Fin K → ℝ) (x : Fin N → ℝ) (v : Fin M → ℝ) :
    ∑ t : Fin M, rfftGrad n (fun f => irfftGrad n K g f * spectrum n x f) t * v t = ∑ l : Fin K, g l * circ n x v l := by
  rw [rfftGrad_adjoint hM]
  have h1 : ∑ f ∈ Finset.range (n / 2 + 1), irfftGrad n K g f * spectrum n x f * conj (dft n (zpad v) f) =
      ∑ f ∈ Finset.range (n / 2 + 1), half n f *
        (dft n (zpad g) f * dft n (zpad x) f * conj (dft n (zpad v) f) * ((n : ℝ)⁻¹ : ℝ)) := by
    refine Finset.sum_congr rfl fun f hf => ?_
    rw [spectrum_eq x (Finset.mem_range.1 hf), irfftGrad_eq g hK]
    push_cast
    ring
  have hH : Herm n fun f => dft n (zpad g) f * dft n (zpad x) f * conj (dft n (zpad v) f) * ((n : ℝ)⁻¹ : ℝ) := by
    refine (((herm_dft _).mul (herm_dft _)).mul (herm_dft _).conj).mul ?_
    intro k _ _
    rw [conj_ofReal]
  rw [h1, half_sum hn hH, ← conj_re, map_sum]
  have h2 := lags_sum hn hK g (zpad x) (zpad v)
  unfold circ
  rw [← h2]
  congr 1
  refine Finset.sum_congr rfl fun f _ => ?_
  simp only [map_mul, conj_conj, conj_ofReal]
  push_cast
  ring

/-- Cross-correlations, as a function of the first signal. -/
theorem adjoint_first {n : ℕ} (hn : n ≠ 0) (hK : K ≤ n) (hN : N ≤ n) (g : Fin K → ℝ) (y : Fin M → ℝ) (v : Fin N → ℝ) :
    ∑ t : Fin N, rfftGrad n (fun f => conj (irfftGrad n K g f) * spectrum n y f) t * v t =
      ∑ l : Fin K, g l * circ n v y l := by
  rw [rfftGrad_adjoint hN]
  have hr : ∀ f, conj (half n f) = half n f := by
    intro f
    unfold half
    split
    · exact Complex.conj_ofNat 2
    · exact map_one _
  have h1 : ∑ f ∈ Finset.range (n / 2 + 1), conj (irfftGrad n K g f) * spectrum n y f * conj (dft n (zpad v) f) =
      ∑ f ∈ Finset.range (n / 2 + 1), half n f *
        (conj (dft n (zpad g) f) * dft n (zpad y) f * conj (dft n (zpad v) f) * ((n : ℝ)⁻¹ : ℝ)) := by
    refine Finset.sum_congr rfl fun f hf => ?_
    rw [spectrum_eq y (Finset.mem_range.1 hf), irfftGrad_eq g hK, map_mul, hr, map_div₀, conj_natCast]
    push_cast
    ring
  have hH : Herm n fun f => conj (dft n (zpad g) f) * dft n (zpad y) f * conj (dft n (zpad v) f) * ((n : ℝ)⁻¹ : ℝ) := by
    refine (((herm_dft _).conj.mul (herm_dft _)).mul (herm_dft _).conj).mul ?_
    intro k _ _
    rw [conj_ofReal]
  rw [h1, half_sum hn hH]
  have h2 := lags_sum hn hK g (zpad v) (zpad y)
  unfold circ
  rw [← h2]
  congr 1
  refine Finset.sum_congr rfl fun f _ => ?_
  push_cast
  ring

theorem rfftGrad_add (n : ℕ) (F G : ℕ → ℂ) (t : ℕ) : rfftGrad n (fun f => F f + G f) t = rfftGrad n F t + rfftGrad n G t := by
  unfold rfftGrad
  rw [← add_re, ← Finset.sum_add_distrib]
  congr 1
  exact Finset.sum_congr rfl fun f _ => by ring

theorem rfftGrad_sum {ι : Type*} (S : Finset ι) (n : ℕ) (F : ι → ℕ → ℂ) (t : ℕ) :
    rfftGrad n (fun f => ∑ i ∈ S, F i f) t = ∑ i ∈ S, rfftGrad n (F i) t := by
  unfold rfftGrad
  rw [← re_sum, Finset.sum_comm]
  congr 1
  exact Finset.sum_congr rfl fun f _ => by rw [Finset.sum_mul]

/-- Autocorrelations. -/
theorem adjoint_auto {n : ℕ} (hn : n ≠ 0) (hK : K ≤ n) (hN : N ≤ n) (g : Fin K → ℝ) (x v : Fin N → ℝ) :
    ∑ t : Fin N, rfftGrad n (fun f => ((2 * (irfftGrad n K g f).re : ℝ) : ℂ) * spectrum n x f) t * v t =
      ∑ l : Fin K, g l * (circ n x v l + circ n v x l) := by
  have h1 : (fun f => ((2 * (irfftGrad n K g f).re : ℝ) : ℂ) * spectrum n x f) =
      fun f => irfftGrad n K g f * spectrum n x f + conj (irfftGrad n K g f) * spectrum n x f := by
    funext f
    rw [← add_mul, add_conj]
  rw [h1]
  simp only [rfftGrad_add, add_mul, Finset.sum_add_distrib, mul_add]
  rw [adjoint_second hn hK hN, adjoint_first hn hK hN]

/-- The Toeplitz matrix. -/
theorem toeplitzGrad_adjoint (gR : Matrix (Fin K) (Fin K) ℝ) (a : ℕ → ℝ) :
    ∑ l : Fin K, toeplitzGrad gR l * a l =
      ∑ i : Fin K, ∑ j : Fin K, gR i j * a (max i.val j - min i.val j) := by
  have h1 : ∀ l : Fin K, toeplitzGrad gR l * a l =
      ∑ i : Fin K, ∑ j : Fin K, if max i.val j - min i.val j = l.val then gR i j * a l else 0 := by
    intro l
    unfold toeplitzGrad twoGrad
    have h0 : (if 1 ≤ l.val then ∑ i : Fin K, ∑ j : Fin K, if K - 1 - i.val + j.val = K - 1 - l then gR i j else 0 else 0) =
        ∑ i : Fin K, ∑ j : Fin K, if 1 ≤ l.val ∧ K - 1 - i.val + j.val = K - 1 - l then gR i j else 0 := by
      by_cases hl : 1 ≤ l.val
      · simp [hl]
      · simp [hl]
    rw [h0, ← Finset.sum_add_distrib, Finset.sum_mul]
    refine Finset.sum_congr rfl fun i _ => ?_
    rw [← Finset.sum_add_distrib, Finset.sum_mul]
    refine Finset.sum_congr rfl fun j _ => ?_
    have hi := i.isLt
    have hj := j.isLt
    have hl := l.isLt
    by_cases h : max i.val j - min i.val j = l.val
    · rw [if_pos h]
      rcases le_total i.val j.val with hij | hij
      · rw [max_eq_right hij, min_eq_left hij] at h
        rw [if_pos (by omega), if_neg (by omega), add_zero]
      · rw [max_eq_left hij, min_eq_right hij] at h
        by_cases h2 : i.val = j.val
        · rw [if_pos (by omega), if_neg (by omega), add_zero]
        · rw [if_neg (by omega), if_pos (by omega), zero_add]
    · rw [if_neg h]
      rcases le_total i.val j.val with hij | hij
      · rw [max_eq_right hij, min_eq_left hij] at h
        rw [if_neg (by omega), if_neg (by omega), add_zero, zero_mul]
      · rw [max_eq_left hij, min_eq_right hij] at h
        rw [if_neg (by omega), if_neg (by omega), add_zero, zero_mul]
  simp only [h1]
  rw [Finset.sum_comm]
  refine Finset.sum_congr rfl fun i _ => ?_
  rw [Finset.sum_comm]
  refine Finset.sum_congr rfl fun j _ => ?_
  have hi := i.isLt
  have hj := j.isLt
  have hlt : max i.val j - min i.val j < K := by omega
  rw [Finset.sum_eq_single (⟨max i.val j - min i.val j, hlt⟩ : Fin K)]
  · rw [if_pos rfl]
  · intro l _ hl
    rw [if_neg]
    intro h
    exact hl (Fin.ext h.symm)
  · intro h
    exact absurd (Finset.mem_univ _) h

end FBE.Backward
