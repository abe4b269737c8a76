import Verif.Proofs.BackwardFft
import Verif.Proofs.CgOps
import Verif.Model.BackwardCg

/-!
Products of spectra: the operators of the conjugate gradient method and the adjoints of their derivatives.
-/

set_option linter.unusedSectionVars false

namespace FBE.Backward

open Spec Complex Matrix

variable {n K : ℕ}

local notation "conj" => starRingEnd ℂ

theorem conj_half (n f : ℕ) : conj (half n f) = half n f := by
  unfold half
  split
  · exact Complex.conj_ofNat 2
  · exact map_one _

theorem irfft_half {n : ℕ} (hn : n ≠ 0) (X : ℕ → ℂ) {t : ℕ} (ht : t < n) :
    (irfft n ((List.range (n / 2 + 1)).map X)).getD t 0 =
      (∑ f ∈ Finset.range (n / 2 + 1), half n f * (X f * tw n f t)).re / n := by
  unfold irfft
  rw [getD_map_range _ _ _ _ ht]
  congr 1
  have h0 : ∀ k, ((List.range (n / 2 + 1)).map X).getD k 0 = if k < n / 2 + 1 then X k else 0 := by
    intro k
    by_cases hk : k < n / 2 + 1
    · rw [getD_map_range _ _ _ _ hk, if_pos hk]
    · rw [if_neg hk, List.getD_eq_default]
      simpa using hk
  simp only [h0]
  rw [← Finset.sum_range_add_sum_Ico _ (show n / 2 + 1 ≤ n by omega), re_sum]
  have h1 : ∑ k ∈ Finset.range (n / 2 + 1), ((if k ≤ n / 2 then if k < n / 2 + 1 then X k else 0 else
      conj (if n - k < n / 2 + 1 then X (n - k) else 0)) * tw n k t).re =
      ∑ k ∈ Finset.range (n / 2 + 1), (X k * tw n k t).re := by
    refine Finset.sum_congr rfl fun k hk => ?_
    rw [Finset.mem_range] at hk
    rw [if_pos (by omega), if_pos hk]
  have h2 : ∑ k ∈ Finset.Ico (n / 2 + 1) n, ((if k ≤ n / 2 then if k < n / 2 + 1 then X k else 0 else
      conj (if n - k < n / 2 + 1 then X (n - k) else 0)) * tw n k t).re =
      ∑ f ∈ Finset.range (n / 2 + 1), if 1 ≤ f ∧ f ≤ n - (n / 2 + 1) then (X f * tw n f t).re else 0 := by
    rw [← Finset.sum_filter]
    refine Finset.sum_nbij' (fun f => n - f) (fun f => n - f) ?_ ?_ ?_ ?_ ?_
    · intro f hf
      rw [Finset.mem_Ico] at hf
      rw [Finset.mem_filter, Finset.mem_range]
      omega
    · intro f hf
      rw [Finset.mem_filter, Finset.mem_range] at hf
      rw [Finset.mem_Ico]
      omega
    · intro f hf
      rw [Finset.mem_Ico] at hf
      omega
    · intro f hf
      rw [Finset.mem_filter, Finset.mem_range] at hf
      omega
    · intro f hf
      rw [Finset.mem_Ico] at hf
      rw [if_neg (by omega), if_pos (by omega), ← conj_re, map_mul, conj_conj]
      congr 2
      rw [tw_sub hn hf.2]
  rw [h1, h2, ← Finset.sum_add_distrib]
  refine Finset.sum_congr rfl fun f _ => ?_
  unfold half
  split
  · rw [show (2 : ℂ) * (X f * tw n f t) = X f * tw n f t + X f * tw n f t by ring, add_re]
  · rw [one_mul, add_zero]

/-- `irfft(C * rfft(y, n), n)[:K]`. -/
noncomputable def mulSpec (n : ℕ) {K : ℕ} (C : ℕ → ℂ) (y : Fin K → ℝ) : Fin K → ℝ :=
  fun t => (∑ f ∈ Finset.range (n / 2 + 1), half n f * (C f * dft n (zpad y) f * tw n f t)).re / n

theorem circPrecond_mulSpec (hK : 0 < K) (col : List ℝ) (v : Fin K → ℝ) :
    circPrecond torchBackend K col v = mulSpec K (precSpec K col) v := by
  funext t
  unfold circPrecond vec mulSpec
  have h : List.zipWith (· * ·) ((rfft K (symPrecondCol col)).map torchBackend.specInv) (rfft K (List.ofFn v)) =
      (List.range (K / 2 + 1)).map fun f => torchBackend.specInv (dft K (fun t => (symPrecondCol col).getD t 0) f) *
        dft K (fun t => (List.ofFn v).getD t 0) f := by
    rw [rfft_eq, rfft_eq, List.map_map, zipWith_map_range]
    rfl
  simp only [h]
  rw [irfft_half (by omega) _ t.isLt]
  congr 2
  refine Finset.sum_congr rfl fun f hf => ?_
  have h2 : precSpec K col f = torchBackend.specInv (dft K (fun t => (symPrecondCol col).getD t 0) f) := by
    unfold precSpec circSpec
    rw [rfft_eq, getD_map_range _ _ _ _ (Finset.mem_range.1 hf)]
  rw [h2]
  simp only [getD_ofFn]

theorem symToeplitzOp_mulSpec (hK : 0 < K) {col : List ℝ} (hc : col.length = K) (v : Fin K → ℝ) :
    symToeplitzOp torchBackend K col v = mulSpec (2 * K) (toepSpec K col) v := by
  funext t
  have ht := t.isLt
  unfold symToeplitzOp vec mulSpec
  have hl := length_symCircCol (B := torchBackend) (Or.inl rfl) hc hK
  have h : List.zipWith (· * ·) (rfft (2 * K) (List.ofFn v)) (rfft (symCircCol torchBackend K col).length (symCircCol torchBackend K col)) =
      (List.range (2 * K / 2 + 1)).map fun f => dft (2 * K) (fun t => (List.ofFn v).getD t 0) f *
        dft (2 * K) (fun t => (symCircCol torchBackend K col).getD t 0) f := by
    rw [hl, rfft_eq, rfft_eq, zipWith_map_range]
  simp only [h]
  rw [pySlice_take, getD_take _ _ _ _ ht, irfft_half (by omega) _ (by omega)]
  congr 2
  refine Finset.sum_congr rfl fun f hf => ?_
  have h2 : toepSpec K col f = dft (2 * K) (fun t => (symCircCol torchBackend K col).getD t 0) f := by
    unfold toepSpec
    rw [hl, rfft_eq, getD_map_range _ _ _ _ (Finset.mem_range.1 hf)]
  rw [h2]
  simp only [getD_ofFn]
  ring

theorem conj_dft (hK : K ≤ n) (g : Fin K → ℝ) (f : ℕ) : conj (dft n (zpad g) f) = ∑ l : Fin K, (g l : ℂ) * tw n f l := by
  unfold dft
  rw [map_sum, ← Finset.sum_subset (Finset.range_subset_range.2 hK)]
  · rw [Finset.sum_range]
    refine Finset.sum_congr rfl fun u _ => ?_
    rw [zpad_val, map_mul, conj_ofReal, conj_conj]
  · intro u _ hu
    rw [Finset.mem_range, not_lt] at hu
    rw [zpad_of_le g hu]
    simp

theorem mulSpec_pair (hK : K ≤ n) (C : ℕ → ℂ) (g y : Fin K → ℝ) :
    ∑ t, g t * mulSpec n C y t =
      (∑ f ∈ Finset.range (n / 2 + 1), irfftGrad n K g f * conj (C f * dft n (zpad y) f)).re := by
  have h1 : ∀ t, g t * mulSpec n C y t =
      (∑ f ∈ Finset.range (n / 2 + 1), half n f * (C f * dft n (zpad y) f * ((n : ℝ)⁻¹ : ℝ)) * ((g t : ℂ) * tw n f t)).re := by
    intro t
    unfold mulSpec
    rw [div_eq_mul_inv, mul_comm _ ((n : ℝ)⁻¹), ← mul_assoc, ← re_ofReal_mul, Finset.mul_sum]
    congr 1
    refine Finset.sum_congr rfl fun f _ => ?_
    push_cast
    ring
  simp only [h1]
  rw [← re_sum, Finset.sum_comm, ← conj_re, map_sum]
  congr 1
  refine Finset.sum_congr rfl fun f _ => ?_
  rw [← Finset.mul_sum, ← conj_dft hK, irfftGrad_eq g hK]
  simp only [map_mul, conj_conj, conj_half, conj_ofReal]
  push_cast
  ring

/-- The derivative by the vector. -/
theorem opGrad_adjoint (hK : K ≤ n) (C : ℕ → ℂ) (g y : Fin K → ℝ) :
    innerProd (opGrad n C g) y = innerProd g (mulSpec n C y) := by
  unfold innerProd opGrad
  rw [mulSpec_pair hK, rfftGrad_adjoint hK]
  congr 1
  refine Finset.sum_congr rfl fun f _ => ?_
  rw [map_mul]
  ring

/-- The real inner product of half spectra of a transform of size `n`. -/
noncomputable def specPair (n : ℕ) (G H : ℕ → ℂ) : ℝ := (∑ f ∈ Finset.range (n / 2 + 1), G f * conj (H f)).re

/-- The derivative by the spectrum. -/
theorem opSpecGrad_adjoint (hK : K ≤ n) (C : ℕ → ℂ) (g y : Fin K → ℝ) :
    specPair n (opSpecGrad n y g) C = innerProd g (mulSpec n C y) := by
  unfold innerProd specPair opSpecGrad
  rw [mulSpec_pair hK]
  congr 1
  refine Finset.sum_congr rfl fun f hf => ?_
  rw [map_mul, spectrum_eq y (Finset.mem_range.1 hf)]
  ring

theorem specPair_add (n : ℕ) (G G' H : ℕ → ℂ) : specPair n (fun f => G f + G' f) H = specPair n G H + specPair n G' H := by
  unfold specPair
  rw [← add_re, ← Finset.sum_add_distrib]
  congr 1
  exact Finset.sum_congr rfl fun f _ => by ring

theorem specPair_sum {ι : Type*} (S : Finset ι) (n : ℕ) (G : ι → ℕ → ℂ) (H : ℕ → ℂ) :
    specPair n (fun f => ∑ i ∈ S, G i f) H = ∑ i ∈ S, specPair n (G i) H := by
  unfold specPair
  rw [← re_sum, Finset.sum_comm]
  congr 1
  exact Finset.sum_congr rfl fun f _ => by rw [Finset.sum_mul]

theorem specPair_zero (n : ℕ) (H : ℕ → ℂ) : specPair n (fun _ => 0) H = 0 := by
  simp [specPair]

/-! ### From spectra to columns -/

/-- The column of the circulant of size `2 K`. -/
noncomputable def circ2 (K : ℕ) (col : Fin K → ℝ) : Fin (2 * K) → ℝ :=
  fun t => if t.val < K then zpad col t else if t.val = K then 0 else zpad col (2 * K - t)

theorem toepSpec_eq (hK : 0 < K) (col : Fin K → ℝ) {f : ℕ} (hf : f < 2 * K / 2 + 1) :
    toepSpec K (List.ofFn col) f = dft (2 * K) (zpad (circ2 K col)) f := by
  have hc : (List.ofFn col).length = K := by simp
  unfold toepSpec
  rw [length_symCircCol (Or.inl rfl) hc hK, rfft_eq, getD_map_range _ _ _ _ hf]
  unfold dft
  refine Finset.sum_congr rfl fun t ht => ?_
  rw [Finset.mem_range] at ht
  congr 2
  dsimp only
  rw [symCircCol_get (Or.inl rfl) hc ht]
  simp only [getD_ofFn]
  have : zpad (circ2 K col) t = circ2 K col ⟨t, ht⟩ := zpad_val (circ2 K col) ⟨t, ht⟩
  rw [this]
  rfl

theorem toepColGrad_adjoint (hK : 0 < K) (G : ℕ → ℂ) (col : Fin K → ℝ) :
    innerProd (toepColGrad K G) col = specPair (2 * K) G (toepSpec K (List.ofFn col)) := by
  have h1 : specPair (2 * K) G (toepSpec K (List.ofFn col)) = ∑ t : Fin (2 * K), rfftGrad (2 * K) G t * circ2 K col t := by
    rw [rfftGrad_adjoint le_rfl]
    unfold specPair
    congr 1
    exact Finset.sum_congr rfl fun f hf => by rw [toepSpec_eq hK col (Finset.mem_range.1 hf)]
  rw [h1]
  unfold innerProd toepColGrad
  simp only [add_mul, Finset.sum_add_distrib]
  have h2 : ∑ t : Fin (2 * K), rfftGrad (2 * K) G t * circ2 K col t =
      ∑ t ∈ Finset.range (2 * K), rfftGrad (2 * K) G t * (if t < K then zpad col t else if t = K then 0 else zpad col (2 * K - t)) := by
    rw [Finset.sum_range]
    rfl
  rw [h2, ← Finset.sum_range_add_sum_Ico _ (show K ≤ 2 * K by omega)]
  congr 1
  · rw [Finset.sum_range]
    refine Finset.sum_congr rfl fun l _ => ?_
    rw [if_pos l.isLt, zpad_val]
  · have h3 : ∑ l : Fin K, (if 1 ≤ l.val then rfftGrad (2 * K) G (2 * K - l) else 0) * col l =
        ∑ l ∈ (Finset.range K).filter (fun l => 1 ≤ l), rfftGrad (2 * K) G (2 * K - l) * zpad col l := by
      rw [Finset.sum_filter, Finset.sum_range]
      refine Finset.sum_congr rfl fun l _ => ?_
      rw [zpad_val, ite_mul, zero_mul]
    have h4 : ∑ t ∈ Finset.Ico K (2 * K), rfftGrad (2 * K) G t * (if t < K then zpad col t else if t = K then 0 else zpad col (2 * K - t)) =
        ∑ t ∈ (Finset.Ico K (2 * K)).filter (fun t => t ≠ K), rfftGrad (2 * K) G t * zpad col (2 * K - t) := by
      rw [Finset.sum_filter]
      refine Finset.sum_congr rfl fun t ht => ?_
      rw [Finset.mem_Ico] at ht
      rw [if_neg (by omega)]
      by_cases h : t = K
      · rw [if_pos h, if_neg (by simpa using h), mul_zero]
      · rw [if_neg h, if_pos h]
    rw [h3, h4]
    refine Finset.sum_nbij' (fun l => 2 * K - l) (fun l => 2 * K - l) ?_ ?_ ?_ ?_ ?_
    · intro l hl
      rw [Finset.mem_filter, Finset.mem_range] at hl
      rw [Finset.mem_filter, Finset.mem_Ico]
      omega
    · intro l hl
      rw [Finset.mem_filter, Finset.mem_Ico] at hl
      rw [Finset.mem_filter, Finset.mem_range]
      omega
    · intro l hl
      rw [Finset.mem_filter, Finset.mem_range] at hl
      omega
    · intro l hl
      rw [Finset.mem_filter, Finset.mem_Ico] at hl
      omega
    · intro l hl
      rw [Finset.mem_filter, Finset.mem_range] at hl
      rw [show 2 * K - (2 * K - l) = l by omega]

/-- The column of the circulant preconditioner. -/
noncomputable def circ1 (K : ℕ) (col : Fin K → ℝ) : Fin K → ℝ :=
  fun t => if t.val = 0 then zpad col 0 else ((K - t.val : ℕ) * zpad col t + t * zpad col (K - t)) / K

theorem circSpec_eq (hK : 0 < K) (col : Fin K → ℝ) {f : ℕ} (hf : f < K / 2 + 1) :
    circSpec K (List.ofFn col) f = dft K (zpad (circ1 K col)) f := by
  have hc : (List.ofFn col).length = K := by simp
  unfold circSpec
  rw [rfft_eq, getD_map_range _ _ _ _ hf]
  unfold dft
  refine Finset.sum_congr rfl fun t ht => ?_
  rw [Finset.mem_range] at ht
  congr 2
  dsimp only
  have : zpad (circ1 K col) t = circ1 K col ⟨t, ht⟩ := zpad_val (circ1 K col) ⟨t, ht⟩
  rw [this]
  unfold circ1
  by_cases h : t = 0
  · rw [if_pos h, h, symPrecondCol_zero hc hK, getD_ofFn]
  · rw [if_neg h, symPrecondCol_get hc (by omega) ht]
    simp only [getD_ofFn]

theorem circColGrad_adjoint (hK : 0 < K) (G : ℕ → ℂ) (col : Fin K → ℝ) :
    innerProd (circColGrad K G) col = specPair K G (circSpec K (List.ofFn col)) := by
  have h1 : specPair K G (circSpec K (List.ofFn col)) = ∑ t : Fin K, rfftGrad K G t * circ1 K col t := by
    rw [rfftGrad_adjoint le_rfl]
    unfold specPair
    congr 1
    exact Finset.sum_congr rfl fun f hf => by rw [circSpec_eq hK col (Finset.mem_range.1 hf)]
  rw [h1]
  unfold innerProd circColGrad circ1
  obtain ⟨K, rfl⟩ : ∃ k, K = k + 1 := ⟨K - 1, by omega⟩
  rw [Fin.sum_univ_succ, Fin.sum_univ_succ]
  have h0 : zpad col 0 = col 0 := zpad_val col 0
  refine congrArg₂ (· + ·) ?_ ?_
  · simp [h0]
  · have h2 : ∀ l : Fin K, (if l.succ.val = 0 then rfftGrad (K + 1) G 0 else
        (rfftGrad (K + 1) G l.succ + rfftGrad (K + 1) G (K + 1 - l.succ)) * (((K + 1 - l.succ.val : ℕ) : ℝ) / (K + 1 : ℕ))) * col l.succ =
        rfftGrad (K + 1) G l.succ * (((K + 1 - l.succ.val : ℕ) : ℝ) * zpad col l.succ / (K + 1 : ℕ)) +
          rfftGrad (K + 1) G (K + 1 - l.succ) * (((K + 1 - l.succ.val : ℕ) : ℝ) * zpad col l.succ / (K + 1 : ℕ)) := by
      intro l
      rw [if_neg (by simp), zpad_val]
      ring
    have h3 : ∀ l : Fin K, rfftGrad (K + 1) G l.succ * (if l.succ.val = 0 then zpad col 0 else
        ((K + 1 - l.succ.val : ℕ) * zpad col l.succ + (l.succ.val : ℝ) * zpad col (K + 1 - l.succ)) / (K + 1 : ℕ)) =
        rfftGrad (K + 1) G l.succ * (((K + 1 - l.succ.val : ℕ) : ℝ) * zpad col l.succ / (K + 1 : ℕ)) +
          rfftGrad (K + 1) G l.succ * (l.succ.val * zpad col (K + 1 - l.succ) / (K + 1 : ℕ)) := by
      intro l
      rw [if_neg (by simp)]
      ring
    rw [Finset.sum_congr rfl fun l _ => h2 l, Finset.sum_congr rfl fun l _ => h3 l, Finset.sum_add_distrib,
      Finset.sum_add_distrib]
    congr 1
    rw [← Equiv.sum_comp Fin.revPerm]
    refine Finset.sum_congr rfl fun l _ => ?_
    have hl := l.isLt
    have e1 : (Fin.revPerm l).succ.val = K - l.val := by
      simp [Fin.val_rev]
      omega
    rw [e1, show K + 1 - (K - l.val) = l.val + 1 by omega, Fin.val_succ, show K + 1 - (l.val + 1) = K - l.val by omega]

end FBE.Backward
