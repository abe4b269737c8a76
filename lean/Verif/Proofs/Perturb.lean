import Verif.Proofs.Gram
import Mathlib.Algebra.Order.BigOperators.Ring.Finset

/-!
# Normal equations with perturbed coefficients
-/

set_option linter.unusedSectionVars false

namespace FBE

open Matrix

variable {E J : Type*} [NormedAddCommGroup E] [InnerProductSpace ℝ E] [FiniteDimensional ℝ E]
  [Fintype J] [DecidableEq J]

/-- Euclidean norm of a family of numbers. -/
noncomputable def nrm (w : J → ℝ) : ℝ := √(w ⬝ᵥ w)

theorem dot_self_nonneg (w : J → ℝ) : 0 ≤ w ⬝ᵥ w := Finset.sum_nonneg fun _ _ => mul_self_nonneg _

theorem nrm_nonneg (w : J → ℝ) : 0 ≤ nrm w := Real.sqrt_nonneg _

theorem nrm_sq (w : J → ℝ) : nrm w ^ 2 = w ⬝ᵥ w := Real.sq_sqrt (dot_self_nonneg w)

theorem sum_abs_mul_le (u w : J → ℝ) : ∑ i, |u i| * |w i| ≤ nrm u * nrm w := by
  have := Real.sum_mul_le_sqrt_mul_sqrt Finset.univ (fun i => |u i|) (fun i => |w i|)
  simp only [sq_abs] at this
  unfold nrm dotProduct
  simpa only [sq] using this

theorem abs_dot_le (u w : J → ℝ) : |u ⬝ᵥ w| ≤ nrm u * nrm w := by
  refine (Finset.abs_sum_le_sum_abs _ _).trans (le_of_eq_of_le ?_ (sum_abs_mul_le u w))
  exact Finset.sum_congr rfl fun i _ => abs_mul _ _

theorem sum_abs_le (u : J → ℝ) : ∑ i, |u i| ≤ √(Fintype.card J) * nrm u := by
  have := sum_abs_mul_le (fun _ : J => (1 : ℝ)) u
  have h1 : nrm (fun _ : J => (1 : ℝ)) = √(Fintype.card J) := by
    unfold nrm dotProduct; simp
  rw [h1] at this
  simpa using this

/-- Entries bounded by `a`. -/
theorem abs_bilin_le {D : Matrix J J ℝ} {a : ℝ} (ha : ∀ i j, |D i j| ≤ a) (ha0 : 0 ≤ a) (u w : J → ℝ) :
    |u ⬝ᵥ (D *ᵥ w)| ≤ Fintype.card J * a * (nrm u * nrm w) := by
  have h1 : |u ⬝ᵥ (D *ᵥ w)| ≤ a * ((∑ i, |u i|) * ∑ j, |w j|) := by
    refine (Finset.abs_sum_le_sum_abs _ _).trans ?_
    rw [Finset.sum_mul, Finset.mul_sum]
    refine Finset.sum_le_sum fun i _ => ?_
    rw [abs_mul]
    have h2 : |(D *ᵥ w) i| ≤ a * ∑ j, |w j| := by
      refine (Finset.abs_sum_le_sum_abs _ _).trans ?_
      rw [Finset.mul_sum]
      refine Finset.sum_le_sum fun j _ => ?_
      rw [abs_mul]
      exact mul_le_mul_of_nonneg_right (ha i j) (abs_nonneg _)
    calc |u i| * |(D *ᵥ w) i| ≤ |u i| * (a * ∑ j, |w j|) := mul_le_mul_of_nonneg_left h2 (abs_nonneg _)
      _ = a * (|u i| * ∑ j, |w j|) := by ring
  have h3 : (∑ i, |u i|) * ∑ j, |w j| ≤ (√(Fintype.card J) * nrm u) * (√(Fintype.card J) * nrm w) :=
    mul_le_mul (sum_abs_le u) (sum_abs_le w) (Finset.sum_nonneg fun _ _ => abs_nonneg _)
      (mul_nonneg (Real.sqrt_nonneg _) (nrm_nonneg _))
  have h4 : √(Fintype.card J : ℝ) * √(Fintype.card J : ℝ) = Fintype.card J := Real.mul_self_sqrt (Nat.cast_nonneg _)
  calc _ ≤ a * ((√(Fintype.card J) * nrm u) * (√(Fintype.card J) * nrm w)) := h1.trans (mul_le_mul_of_nonneg_left h3 ha0)
    _ = (√(Fintype.card J : ℝ) * √(Fintype.card J : ℝ)) * a * (nrm u * nrm w) := by ring
    _ = _ := by rw [h4]

theorem nrm_le_of_abs_le {e : J → ℝ} {a : ℝ} (ha0 : 0 ≤ a) (ha : ∀ i, |e i| ≤ a) : nrm e ≤ √(Fintype.card J) * a := by
  unfold nrm
  rw [← Real.sqrt_sq ha0, ← Real.sqrt_mul (Nat.cast_nonneg _)]
  refine Real.sqrt_le_sqrt ?_
  unfold dotProduct
  calc ∑ i, e i * e i ≤ ∑ _i : J, a ^ 2 := Finset.sum_le_sum fun i _ => by
        rw [← sq, ← sq_abs]; exact pow_le_pow_left₀ (abs_nonneg _) (ha i) 2
    _ = _ := by simp

theorem nrm_add_le (u w : J → ℝ) : nrm (u + w) ≤ nrm u + nrm w := by
  unfold nrm
  rw [Real.sqrt_le_left (add_nonneg (Real.sqrt_nonneg _) (Real.sqrt_nonneg _))]
  have h := (abs_le.1 (abs_dot_le u w)).2
  have h1 := nrm_sq u
  have h2 := nrm_sq w
  unfold nrm at h h1 h2
  rw [add_dotProduct, dotProduct_add, dotProduct_add, dotProduct_comm w u]
  nlinarith

theorem gramD_symm (v : J → E) (d : ℝ) (u w : J → ℝ) : u ⬝ᵥ (gramD v d *ᵥ w) = w ⬝ᵥ (gramD v d *ᵥ u) := by
  have hT : (gramD v d)ᵀ = gramD v d := by
    unfold gramD
    rw [transpose_add, transpose_smul, transpose_one]
    congr 1
    ext i j
    exact real_inner_comm _ _
  rw [dotProduct_mulVec, ← mulVec_transpose, hT, dotProduct_comm]

theorem gramD_quad (v : J → E) (d : ℝ) (w : J → ℝ) : w ⬝ᵥ (gramD v d *ᵥ w) = ‖∑ i, w i • v i‖ ^ 2 + d * (w ⬝ᵥ w) := by
  rw [gramD_mulVec, dotProduct_add, dotProduct_smul, smul_eq_mul, dotProduct_comm, coeffs_dot, real_inner_self_eq_norm_sq]

/-- The eigenvalues are at least `l`. -/
def Coercive (v : J → E) (d l : ℝ) : Prop := ∀ w : J → ℝ, l * (w ⬝ᵥ w) ≤ w ⬝ᵥ (gramD v d *ᵥ w)

theorem Coercive.det_ne_zero {v : J → E} {d l : ℝ} (hl : 0 < l) (h : Coercive v d l) : (gramD v d).det ≠ 0 := by
  intro h0
  obtain ⟨w, hw, hw0⟩ := Matrix.exists_mulVec_eq_zero_iff.2 h0
  have h1 := h w
  rw [hw0, dotProduct_zero] at h1
  have h2 : w ⬝ᵥ w ≤ 0 := by nlinarith [dot_self_nonneg w]
  exact hw (dotProduct_self_eq_zero.1 (le_antisymm h2 (dot_self_nonneg w)))

theorem quad_le_one_of_norm (v : J → E) {d : ℝ} (hd : 0 ≤ d) (h : (gramD v d).det ≠ 0) {y : E} (hy : ‖y‖ ≤ 1) :
    quad v d y ≤ 1 := by
  refine (quad_le_proj v y hd h).trans ?_
  have := ((famSpan v).norm_starProjection_apply_le y).trans hy
  exact pow_le_one₀ (norm_nonneg _) this

/-- The coherence computed with coefficients that are not exact. -/
theorem quad_perturbed (v : J → E) {d l : ℝ} (hd : 0 ≤ d) (hl : 0 < l) (hco : Coercive v d l) {y : E} (hy : ‖y‖ ≤ 1)
    {A : Matrix J J ℝ} {b s : J → ℝ} (hs : A *ᵥ s = b) {α β : ℝ}
    (hA : ∀ u w, |u ⬝ᵥ ((A - gramD v d) *ᵥ w)| ≤ α * (nrm u * nrm w)) (hb : nrm (b - coeffs v y) ≤ β)
    (hα0 : 0 ≤ α) (hα : α ≤ l / 6) (hβ : β ≤ √l / 24) :
    nrm s ≤ 1.3 / √l ∧ |b ⬝ᵥ s - quad v d y| ≤ 2.3 * (β / √l) + 1.3 * (α / l) := by
  have hdet := hco.det_ne_zero hl
  set G := gramD v d
  set b0 := coeffs v y
  set s0 := G⁻¹ *ᵥ b0 with hs0
  have hG0 : G *ᵥ s0 = b0 := mulVec_inv hdet b0
  have hq : quad v d y = b0 ⬝ᵥ s0 := rfl
  have hq1 : b0 ⬝ᵥ s0 ≤ 1 := quad_le_one_of_norm v hd hdet hy
  have hr : 0 < √l := Real.sqrt_pos.2 hl
  have hrr : √l ^ 2 = l := Real.sq_sqrt hl.le
  set r := √l
  have hβ0 : 0 ≤ β := (nrm_nonneg _).trans hb
  -- the exact solution
  have n0 : nrm s0 * r ≤ 1 := by
    have h1 := hco s0
    change l * (s0 ⬝ᵥ s0) ≤ s0 ⬝ᵥ (G *ᵥ s0) at h1
    rw [hG0, dotProduct_comm s0 b0, ← nrm_sq] at h1
    have : (nrm s0 * r) ^ 2 ≤ 1 ^ 2 := by rw [mul_pow, hrr]; linarith
    exact le_of_sq_le_sq this (by norm_num)
  -- the system solved by the computed solution
  set D := A - G with hD
  set e := b - b0 with he
  have hGs : G *ᵥ s = b0 + e - D *ᵥ s := by
    have : A *ᵥ s = G *ᵥ s + D *ᵥ s := by rw [hD, sub_mulVec]; abel
    rw [he, ← hs, this]
    abel
  have hes : ∀ w : J → ℝ, |w ⬝ᵥ e| ≤ β * nrm w := fun w => by
    refine (abs_dot_le w e).trans ?_
    rw [mul_comm β]
    exact mul_le_mul_of_nonneg_left hb (nrm_nonneg _)
  have hQ : s ⬝ᵥ (G *ᵥ s) = b0 ⬝ᵥ s + s ⬝ᵥ e - s ⬝ᵥ (D *ᵥ s) := by
    rw [hGs, dotProduct_sub, dotProduct_add, dotProduct_comm s b0]
  have h2 := schur (gramD_posSemidef v hd) hG0 s
  change 2 * (b0 ⬝ᵥ s) - s ⬝ᵥ (G *ᵥ s) ≤ b0 ⬝ᵥ s0 at h2
  have h3 := (abs_le.1 (hes s)).2
  have h4 := (abs_le.1 (hA s s)).1
  have h5 := hco s
  change l * (s ⬝ᵥ s) ≤ s ⬝ᵥ (G *ᵥ s) at h5
  rw [← nrm_sq] at h5
  set n := nrm s
  have hn0 : 0 ≤ n := nrm_nonneg s
  have n1 : n * r ≤ 1.3 := by
    by_contra hc
    push Not at hc
    have a1 : l * n ^ 2 ≤ 1 + 2 * (β * n) + 2 * (α * (n * n)) := by linarith
    have a2 : α * (n * n) ≤ l / 6 * (n * n) := mul_le_mul_of_nonneg_right hα (by positivity)
    have a3 : β * n ≤ r / 24 * n := mul_le_mul_of_nonneg_right hβ hn0
    set m := n * r with hm
    have a4 : l * n ^ 2 = m ^ 2 := by rw [hm, mul_pow, hrr]; ring
    have a5 : l / 6 * (n * n) = m ^ 2 / 6 := by rw [← a4]; ring
    have a6 : r / 24 * n = m / 24 := by rw [hm]; ring
    nlinarith
  have hn : n ≤ 1.3 / r := by rw [le_div_iff₀ hr]; exact n1
  refine ⟨hn, ?_⟩
  have hdiff : b ⬝ᵥ s - quad v d y = s ⬝ᵥ e + s0 ⬝ᵥ e - s0 ⬝ᵥ (D *ᵥ s) := by
    have c1 : b = b0 + e := by rw [he]; abel
    have c2 : b0 ⬝ᵥ s = s0 ⬝ᵥ (G *ᵥ s) := by rw [gramD_symm v d s0 s]; change _ = s ⬝ᵥ (G *ᵥ s0); rw [hG0, dotProduct_comm]
    rw [hq, c1, add_dotProduct, c2, hGs, dotProduct_sub, dotProduct_add, dotProduct_comm e s, dotProduct_comm s0 b0]
    ring
  have hn0' : nrm s0 ≤ 1 / r := by rw [le_div_iff₀ hr]; exact n0
  rw [hdiff]
  have d1 : |s ⬝ᵥ e| ≤ β * (1.3 / r) := (hes s).trans (mul_le_mul_of_nonneg_left hn hβ0)
  have d2 : |s0 ⬝ᵥ e| ≤ β * (1 / r) := (hes s0).trans (mul_le_mul_of_nonneg_left hn0' hβ0)
  have d3 : |s0 ⬝ᵥ (D *ᵥ s)| ≤ α * (1 / r * (1.3 / r)) :=
    (hA s0 s).trans (mul_le_mul_of_nonneg_left (mul_le_mul hn0' hn hn0 (by positivity)) hα0)
  have d4 : α * (1 / r * (1.3 / r)) = 1.3 * (α / l) := by rw [← hrr]; field_simp
  have d5 : β * (1.3 / r) + β * (1 / r) = 2.3 * (β / r) := by ring
  calc |s ⬝ᵥ e + s0 ⬝ᵥ e - s0 ⬝ᵥ (D *ᵥ s)| ≤ |s ⬝ᵥ e + s0 ⬝ᵥ e| + |s0 ⬝ᵥ (D *ᵥ s)| := abs_sub _ _
    _ ≤ |s ⬝ᵥ e| + |s0 ⬝ᵥ e| + |s0 ⬝ᵥ (D *ᵥ s)| := by gcongr; exact abs_add_le _ _
    _ ≤ _ := by linarith

end FBE
