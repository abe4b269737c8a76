import Verif.Spec.Signal
import Mathlib.Analysis.InnerProductSpace.GramMatrix
import Mathlib.Analysis.InnerProductSpace.Projection.Basic
import Mathlib.Analysis.InnerProductSpace.Projection.FiniteDimensional
import Mathlib.Analysis.Matrix.PosDef

/-!
# Normal equations and projections

For a family `v` of vectors, a vector `y` and `d ≥ 0`: the value `b ⬝ᵥ (G + d I)⁻¹ b`, with `G` the
Gram matrix of `v` and `b i = ⟪v i, y⟫`.
-/

set_option linter.unusedSectionVars false

namespace FBE

open Matrix Module

variable {E J : Type*} [NormedAddCommGroup E] [InnerProductSpace ℝ E] [FiniteDimensional ℝ E]
  [Fintype J] [DecidableEq J]

/-- Gram matrix with loaded diagonal. -/
noncomputable def gramD (v : J → E) (d : ℝ) : Matrix J J ℝ := gram ℝ v + d • (1 : Matrix J J ℝ)

/-- Inner products with a family. -/
noncomputable def coeffs (v : J → E) (y : E) : J → ℝ := fun i => inner ℝ (v i) y

theorem gramD_posSemidef (v : J → E) {d : ℝ} (hd : 0 ≤ d) : (gramD v d).PosSemidef :=
  (posSemidef_gram (𝕜 := ℝ) v).add (PosSemidef.one.smul hd)

theorem gramD_det_ne_zero (v : J → E) {d : ℝ} (hd : 0 < d) : (gramD v d).det ≠ 0 := by
  have : (gramD v d).PosDef := PosDef.posSemidef_add (posSemidef_gram (𝕜 := ℝ) v)
    (PosDef.one.smul hd)
  exact this.det_pos.ne'

theorem gramD_zero (v : J → E) : gramD v 0 = gram ℝ v := by
  unfold gramD; simp

/-- Completing the square. -/
theorem schur {H : Matrix J J ℝ} (hH : H.PosSemidef) {b w : J → ℝ} (hw : H *ᵥ w = b) (u : J → ℝ) :
    2 * (b ⬝ᵥ u) - u ⬝ᵥ (H *ᵥ u) ≤ b ⬝ᵥ w := by
  have h0 := hH.dotProduct_mulVec_nonneg (w - u)
  simp only [star_trivial] at h0
  have hsym : u ⬝ᵥ (H *ᵥ w) = w ⬝ᵥ (H *ᵥ u) := by
    rw [dotProduct_mulVec, ← mulVec_transpose]
    have : Hᵀ = H := by
      have := hH.isHermitian
      rwa [IsHermitian, conjTranspose_eq_transpose_of_trivial] at this
    rw [this, dotProduct_comm]
  rw [mulVec_sub, sub_dotProduct, dotProduct_sub, dotProduct_sub, hw] at h0
  rw [hw] at hsym
  rw [← hsym, dotProduct_comm w b, dotProduct_comm u b] at h0
  linarith

theorem mulVec_inv {H : Matrix J J ℝ} (h : H.det ≠ 0) (b : J → ℝ) : H *ᵥ (H⁻¹ *ᵥ b) = b := by
  rw [mulVec_mulVec, mul_nonsing_inv _ (isUnit_iff_ne_zero.2 h), one_mulVec]

theorem inv_unique {H : Matrix J J ℝ} (h : H.det ≠ 0) {w b : J → ℝ} (hw : H *ᵥ w = b) :
    w = H⁻¹ *ᵥ b := by
  rw [← hw, mulVec_mulVec, nonsing_inv_mul _ (isUnit_iff_ne_zero.2 h), one_mulVec]

/-- The value computed by the code. -/
noncomputable def quad (v : J → E) (d : ℝ) (y : E) : ℝ :=
  coeffs v y ⬝ᵥ ((gramD v d)⁻¹ *ᵥ coeffs v y)

theorem coeffs_dot (v : J → E) (y : E) (w : J → ℝ) :
    coeffs v y ⬝ᵥ w = inner ℝ (∑ i, w i • v i) y := by
  rw [sum_inner]
  unfold coeffs dotProduct
  refine Finset.sum_congr rfl fun i _ => ?_
  rw [real_inner_smul_left, mul_comm]

theorem gramD_mulVec (v : J → E) (d : ℝ) (w : J → ℝ) :
    gramD v d *ᵥ w = coeffs v (∑ i, w i • v i) + d • w := by
  unfold gramD
  rw [add_mulVec, smul_mulVec, one_mulVec]
  congr 1
  funext i
  unfold coeffs
  rw [inner_sum]
  unfold mulVec dotProduct
  refine Finset.sum_congr rfl fun j _ => ?_
  rw [real_inner_smul_right]
  show inner ℝ (v i) (v j) * w j = _
  rw [mul_comm]

variable (v : J → E) (y : E)

/-- The span of the family. -/
noncomputable def famSpan : Submodule ℝ E := Submodule.span ℝ (Set.range v)

theorem comb_mem (w : J → ℝ) : ∑ i, w i • v i ∈ famSpan v :=
  Submodule.sum_mem _ fun i _ => Submodule.smul_mem _ _ (Submodule.subset_span ⟨i, rfl⟩)

theorem inner_proj_eq {K : Submodule ℝ E} {u : E} (hu : u ∈ K) (y : E) :
    inner ℝ u (K.starProjection y) = inner ℝ u y := by
  rw [← Submodule.inner_starProjection_left_eq_right, K.starProjection_eq_self_iff.2 hu]

theorem coeffs_proj : coeffs v ((famSpan v).starProjection y) = coeffs v y := by
  funext i
  have hi : v i ∈ famSpan v := Submodule.subset_span ⟨i, rfl⟩
  exact inner_proj_eq hi y

/-- With an invertible Gram matrix the value is the energy of the projection. -/
theorem quad_eq_proj (h : (gram ℝ v).det ≠ 0) :
    quad v 0 y = ‖(famSpan v).starProjection y‖ ^ 2 := by
  have h' : (gramD v 0).det ≠ 0 := by rwa [gramD_zero]
  have hw := mulVec_inv h' (coeffs v y)
  rw [gramD_mulVec, zero_smul, add_zero] at hw
  have hP : ∑ i, ((gramD v 0)⁻¹ *ᵥ coeffs v y) i • v i = (famSpan v).starProjection y := by
    symm
    apply Submodule.eq_starProjection_of_mem_of_inner_eq_zero (comb_mem v _)
    intro u hu
    refine Submodule.span_induction ?_ ?_ ?_ ?_ hu
    · rintro _ ⟨i, rfl⟩
      have := congrFun hw i
      unfold coeffs at this
      rw [inner_sub_left, sub_eq_zero, real_inner_comm, real_inner_comm (v i)]
      exact this.symm
    · simp
    · intro a b _ _ ha hb; rw [inner_add_right, ha, hb, add_zero]
    · intro c a _ ha; rw [real_inner_smul_right, ha, mul_zero]
  unfold quad
  rw [coeffs_dot, hP, ← inner_proj_eq ((famSpan v).starProjection_apply_mem y), real_inner_self_eq_norm_sq]

theorem quad_nonneg {d : ℝ} (hd : 0 ≤ d) (h : (gramD v d).det ≠ 0) : 0 ≤ quad v d y := by
  have := schur (gramD_posSemidef v hd) (mulVec_inv h (coeffs v y)) 0
  simpa [quad] using this

theorem quad_le_proj {d : ℝ} (hd : 0 ≤ d) (h : (gramD v d).det ≠ 0) :
    quad v d y ≤ ‖(famSpan v).starProjection y‖ ^ 2 := by
  set w := (gramD v d)⁻¹ *ᵥ coeffs v y with hwdef
  have hw : gramD v d *ᵥ w = coeffs v y := mulVec_inv h _
  have hq : quad v d y = inner ℝ (∑ i, w i • v i) y := coeffs_dot v y w
  set u := ∑ i, w i • v i with hu
  have h1 : quad v d y = ‖u‖ ^ 2 + d * (w ⬝ᵥ w) := by
    show coeffs v y ⬝ᵥ w = _
    rw [← hw, gramD_mulVec, ← hu, add_dotProduct, smul_dotProduct, coeffs_dot, ← hu,
      real_inner_self_eq_norm_sq]
    rfl
  have h2 : ‖u‖ ^ 2 ≤ quad v d y := by
    have : 0 ≤ w ⬝ᵥ w := Finset.sum_nonneg fun i _ => mul_self_nonneg _
    nlinarith
  rw [← inner_proj_eq (comb_mem v w) y, ← hu] at hq
  set P := (famSpan v).starProjection y
  have h3 : quad v d y ≤ ‖u‖ * ‖P‖ := hq ▸ real_inner_le_norm u P
  nlinarith [sq_nonneg (‖u‖ - ‖P‖), norm_nonneg u, norm_nonneg P]

/-- More vectors give a larger value. -/
theorem quad_mono {J' : Type*} [Fintype J'] [DecidableEq J'] (f : J' → J)
    (hf : Function.Injective f) {d : ℝ} (hd : 0 ≤ d) (h : (gramD v d).det ≠ 0)
    (h' : (gramD (v ∘ f) d).det ≠ 0) : quad (v ∘ f) d y ≤ quad v d y := by
  set w' := (gramD (v ∘ f) d)⁻¹ *ᵥ coeffs (v ∘ f) y with hw'def
  have hw' : gramD (v ∘ f) d *ᵥ w' = coeffs (v ∘ f) y := mulVec_inv h' _
  -- extend by zero
  let u : J → ℝ := fun i => ∑ a, if f a = i then w' a else 0
  have hsum : ∀ g : J → ℝ, ∑ i, u i * g i = ∑ a, w' a * g (f a) := by
    intro g
    simp only [u, Finset.sum_mul, ite_mul, zero_mul]
    rw [Finset.sum_comm]
    refine Finset.sum_congr rfl fun a _ => ?_
    rw [Finset.sum_ite_eq Finset.univ (f a) (fun i => w' a * g i), if_pos (Finset.mem_univ _)]
  have huf : ∀ a, u (f a) = w' a := by
    intro a
    simp only [u]
    rw [Finset.sum_eq_single a (fun b _ hb => if_neg fun hfb => hb (hf hfb)) (by simp), if_pos rfl]
  have hcomb : ∑ i, u i • v i = ∑ a, w' a • (v ∘ f) a := by
    simp only [u, Finset.sum_smul, ite_smul, zero_smul]
    rw [Finset.sum_comm]
    refine Finset.sum_congr rfl fun a _ => ?_
    rw [Finset.sum_ite_eq Finset.univ (f a) (fun i => w' a • v i), if_pos (Finset.mem_univ _)]
    rfl
  have key := schur (gramD_posSemidef v hd) (mulVec_inv h (coeffs v y)) u
  have hb : coeffs v y ⬝ᵥ u = coeffs (v ∘ f) y ⬝ᵥ w' := by
    rw [coeffs_dot, coeffs_dot, hcomb]
  have hH : u ⬝ᵥ (gramD v d *ᵥ u) = coeffs (v ∘ f) y ⬝ᵥ w' := by
    rw [← hw', gramD_mulVec, gramD_mulVec, hcomb, dotProduct_add, add_dotProduct,
      dotProduct_smul, smul_dotProduct, dotProduct_comm u, coeffs_dot, coeffs_dot, hcomb]
    congr 2
    unfold dotProduct
    rw [hsum u]
    simp only [huf]
  rw [hb, hH] at key
  show coeffs (v ∘ f) y ⬝ᵥ w' ≤ coeffs v y ⬝ᵥ _
  linarith

/-- More loading gives a smaller value. -/
theorem quad_anti {d d' : ℝ} (hd : 0 ≤ d) (hdd : d ≤ d') (h : (gramD v d).det ≠ 0)
    (h' : (gramD v d').det ≠ 0) : quad v d' y ≤ quad v d y := by
  set w' := (gramD v d')⁻¹ *ᵥ coeffs v y with hw'def
  have hw' : gramD v d' *ᵥ w' = coeffs v y := mulVec_inv h' _
  have key := schur (gramD_posSemidef v hd) (mulVec_inv h (coeffs v y)) w'
  have e1 : w' ⬝ᵥ (gramD v d *ᵥ w') = coeffs v y ⬝ᵥ w' - (d' - d) * (w' ⬝ᵥ w') := by
    rw [← hw', gramD_mulVec, gramD_mulVec, dotProduct_add, add_dotProduct, dotProduct_smul,
      smul_dotProduct, dotProduct_comm w']
    simp only [smul_eq_mul]
    ring
  have e2 : 0 ≤ w' ⬝ᵥ w' := Finset.sum_nonneg fun i _ => mul_self_nonneg _
  rw [e1] at key
  show coeffs v y ⬝ᵥ w' ≤ coeffs v y ⬝ᵥ _
  nlinarith

end FBE
