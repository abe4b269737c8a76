import Verif.Proofs.CgSolve

/-!
# When the iterative solver fails
-/

set_option linter.unusedSectionVars false

namespace FBE

open Spec Matrix
open scoped ComplexOrder

variable {s : List ℕ} {r e c N M n : ℕ} {B : Backend} {o : Opts}

/-- Complex multiples of real vectors: independence over the reals is enough. -/
theorem complex_comb_eq_zero {D : ℕ} (v : Fin r → Fin D → ℝ) (h : LinearIndependent ℝ v) {x : Fin r → ℂ}
    (hx : ∀ t, ∑ c, x c * (v c t : ℂ) = 0) : x = 0 := by
  rw [Fintype.linearIndependent_iff] at h
  have hre := h (fun c => (x c).re) (by
    funext t
    have := congrArg Complex.re (hx t)
    rw [Complex.re_sum] at this
    simpa [Finset.sum_apply] using this)
  have him := h (fun c => (x c).im) (by
    funext t
    have := congrArg Complex.im (hx t)
    rw [Complex.im_sum] at this
    simpa [Finset.sum_apply] using this)
  funext c
  exact Complex.ext (hre c) (him c)

/-- A sum of delayed copies of a signal with non-zero weight for the first copy vanishes only with the signal. -/
theorem delayed_sum_eq_zero {L N : ℕ} (hL : 0 < L) (f : ℕ → ℂ) (hf : ∀ t, N ≤ t → f t = 0) (w : Fin L → ℂ)
    (hw : w ⟨0, hL⟩ ≠ 0)
    (h : ∀ t < N, ∑ l : Fin L, w l * (if l.val ≤ t then f (t - l) else 0) = 0) (t : ℕ) : f t = 0 := by
  induction t using Nat.strong_induction_on with
  | _ t ih =>
    by_cases ht : N ≤ t
    · exact hf t ht
    have h1 := h t (by omega)
    rw [Finset.sum_eq_single ⟨0, hL⟩] at h1
    · simpa [hw] using h1
    · intro l _ hl
      have hl0 : l.val ≠ 0 := fun h0 => hl (Fin.ext h0)
      by_cases hlt : l.val ≤ t
      · rw [if_pos hlt, ih (t - l) (by omega), mul_zero]
      · rw [if_neg hlt, mul_zero]
    · simp

/-- The matrices of the block preconditioner for the shifts of some signals are singular exactly for linearly
dependent signals. -/
theorem blockSpec_singular (hB : Covered B) {D : ℕ} (hn : 2 ≤ n) (hD : N ≤ D) {acf : Fin c → Fin c → List ℝ}
    (hc : ∀ k l, (acf k l).length = n + n) (x : Fin c → Fin N → ℝ)
    (hT : lagMatrix n acf = gramD (allFam (fun x i => shift D x i) n x) 0) (k : ℕ) :
    (blockSpec B n acf k).det = 0 ↔ ¬ LinearIndependent ℝ x := by
  have hC := dft_mean_eq (κ := Fin c) (T := lagMatrix n acf) (τ := fun a d => lagAt (acf a d)) (fun _ _ => rfl)
    (col := fun a d t => (nonsymPrecondCol B (acf a d)).getD t 0)
    (fun a d _ ht => nonsymPrecondCol_mean hB hn (hc a d) ht) (by omega) k
  have hC' : blockSpec B n acf k = _ := hC
  set V : Matrix (Fin D) (Fin n × Fin c) ℂ := Matrix.of fun t p => ((shift D (x p.2) p.1 t : ℝ) : ℂ) with hV
  have hTV : (lagMatrix n acf).map Complex.ofReal = Vᴴ * V := by
    rw [hT, gramD_zero]
    ext p q
    rw [Matrix.map_apply, gram_apply, Matrix.mul_apply, PiLp.inner_apply]
    push_cast
    refine Finset.sum_congr rfl fun t _ => ?_
    simp [hV, allFam, mul_comm]
  rw [hTV] at hC'
  set W : Matrix (Fin D) (Fin c) ℂ := V * twMat n (Fin c) k with hW
  have hC2 : blockSpec B n acf k = ((1 / n : ℝ)) • (Wᴴ * W) := by
    rw [hC', hW, conjTranspose_mul]
    simp only [Matrix.mul_assoc]
  have hWx : ∀ (u : Fin c → ℂ) (t : Fin D), (W *ᵥ u) t =
      ∑ l : Fin n, tw n k l * (if l.val ≤ t.val then ∑ a, u a * (zpad (x a) (t.val - l) : ℂ) else 0) := by
    intro u t
    rw [hW, ← mulVec_mulVec]
    simp only [mulVec, dotProduct, Fintype.sum_prod_type]
    refine Finset.sum_congr rfl fun l _ => ?_
    by_cases hlt : l.val ≤ t.val
    · rw [if_pos hlt, Finset.mul_sum]
      refine Finset.sum_congr rfl fun a _ => ?_
      simp [hV, twMat, shift_apply, hlt]
      ring
    · rw [if_neg hlt, mul_zero]
      refine Finset.sum_eq_zero fun a _ => ?_
      simp [hV, shift_apply, hlt]
  have hker : ∀ u : Fin c → ℂ, blockSpec B n acf k *ᵥ u = 0 ↔ ∀ t : ℕ, ∑ a, u a * (zpad (x a) t : ℂ) = 0 := by
    intro u
    have hn0 : (1 / n : ℝ) ≠ 0 := by
      have : (n : ℝ) ≠ 0 := by
        have : n ≠ 0 := by omega
        exact_mod_cast this
      exact one_div_ne_zero this
    rw [hC2, smul_mulVec, smul_eq_zero_iff_right hn0, conjTranspose_mul_self_mulVec_eq_zero]
    constructor
    · intro h
      refine delayed_sum_eq_zero (L := n) (N := N) (by omega) _ (fun t ht => ?_) (fun l => tw n k l) (tw_ne_zero _ _ _)
        fun t ht => ?_
      · refine Finset.sum_eq_zero fun a _ => ?_
        rw [zpad, dif_neg (by omega)]
        simp
      · rw [← hWx u ⟨t, by omega⟩, h]
        rfl
    · intro h
      funext t
      rw [hWx]
      refine Finset.sum_eq_zero fun l _ => ?_
      split
      · rw [h, mul_zero]
      · rw [mul_zero]
  rw [← Matrix.exists_mulVec_eq_zero_iff]
  constructor
  · rintro ⟨u, hu, h⟩ hi
    refine hu (complex_comb_eq_zero x hi fun t => ?_)
    have := (hker u).1 h t
    simpa only [zpad_val] using this
  · intro hi
    rw [Fintype.linearIndependent_iff] at hi
    push Not at hi
    obtain ⟨g, hg, i, hgi⟩ := hi
    refine ⟨fun a => (g a : ℂ), fun h0 => hgi ?_, (hker _).2 fun t => ?_⟩
    · have := congrFun h0 i
      simpa using this
    · by_cases ht : t < N
      · have := congrFun hg ⟨t, ht⟩
        simp only [Finset.sum_apply, Pi.smul_apply, smul_eq_mul, Pi.zero_apply] at this
        simp only [zpad, dif_pos ht]
        exact_mod_cast this
      · simp [zpad, ht]

/-- Gains do not change independence. -/
theorem independent_prep (x : Sig s c N) (m : BIdx s) :
    LinearIndependent ℝ (prep o x m) ↔ LinearIndependent ℝ fun k => centred o.zeroMean (x m k) := by
  have h1 : prep o x m = fun k => gain (cen o x m k) • cen o x m k := by
    funext k
    exact prep_eq o x m k
  rw [h1]
  constructor
  · intro h
    have := h.units_smul fun i => (Units.mk0 _ (gain_pos (cen o x m i)).ne')⁻¹
    convert this using 1
    funext i
    show cen o x m i = ((Units.mk0 _ (gain_pos (cen o x m i)).ne')⁻¹ : ℝˣ) • (gain (cen o x m i) • cen o x m i)
    rw [Units.smul_def, Units.val_inv_eq_inv_val, Units.val_mk0, smul_smul, inv_mul_cancel₀ (gain_pos _).ne', one_smul]
  · intro h
    exact h.units_smul fun i => Units.mk0 _ (gain_pos (cen o x m i)).ne'

/-- The matrices of the preconditioner in `bss_eval_sources`. -/
theorem precond_singular (hB : Covered B) (hL : 2 ≤ o.filterLength) (hload : o.load = 0) (hn : nFft N = .ok n)
    (hfit : FilterFits N o.filterLength) (ref : Sig s r N) (m : BIdx s) {k : ℕ} (hk : k ≤ o.filterLength / 2) :
    (blockPrecondSpec B (bssAcf o n ref m) k).det = 0 ↔
      ¬ LinearIndependent ℝ fun k => centred o.zeroMean (ref m k) := by
  have hb := fits_bounds hn hfit
  have hN := (nFft_ok hn).1
  have hD : N + o.filterLength ≤ (N + o.filterLength - 1) + 1 := by omega
  have F := fam_fits hD hn hfit hL
  have hlen : ∀ a b, (bssAcf o n ref m a b).length = o.filterLength + o.filterLength := fun a b =>
    length_bssAcf F (by omega) (by omega) ref m a b
  rw [blockPrecondSpec_eq hB hL hlen hk, ← independent_prep]
  refine blockSpec_singular hB (D := N + o.filterLength - 1) hL (by omega) hlen (prep o ref m) ?_ k
  have h1 := blockToeplitz_bssAcf (B := torchBackend) F (by omega) hL (by omega) ref
  rw [blockToeplitz_ok hL _ (fun m k l => by rw [length_bssAcf F (by omega) (by omega)]; omega), hload] at h1
  exact congrFun (Except.ok.inj h1) m

end FBE
