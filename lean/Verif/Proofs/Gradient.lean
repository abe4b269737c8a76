import Mathlib.Analysis.InnerProductSpace.Calculus
import Mathlib.Analysis.SpecialFunctions.Log.Deriv
import Verif.Proofs.CgContinuous
import Verif.Proofs.Ratio

/-!
Derivatives of the loss: where the coherence is not clamped, and the derivative of a ratio of energies
in decibel.
-/

set_option linter.unusedSectionVars false

namespace FBE

open Spec XR Filter Topology

variable {s : List ℕ} {r e c N : ℕ} {B : Backend} {o : Opts}

/-- A finite loss strictly between the bounds comes from a coherence that was not clamped. -/
theorem coh_inside {cl : Option ℝ} {v x : ℝ} (h : coherenceToNegSdr cl (fin v) = fin x)
    (hcl : ∀ d, cl = some d → |x| < d) : epsOf cl < v ∧ v < 1 - epsOf cl := by
  rw [coherenceToNegSdr_fin] at h
  cases cl with
  | none =>
    unfold cclamp epsOf at h
    show 0 < v ∧ v < 1 - 0
    simp only [sub_zero] at h ⊢
    constructor
    · by_contra hv
      rw [max_eq_right (not_lt.1 hv), min_eq_left zero_le_one] at h
      simp [negDb] at h
    · by_contra hv
      have hv := not_lt.1 hv
      rw [max_eq_left (by linarith), min_eq_right hv] at h
      simp [negDb] at h
  | some d =>
    have hd := hcl d rfl
    have hd0 : 0 < d := lt_of_le_of_lt (abs_nonneg x) hd
    have h0 := dbClampEps_pos d
    have h1 := dbClampEps_le_half hd0.le
    unfold cclamp at h
    show dbClampEps d < v ∧ v < 1 - dbClampEps d
    have he : epsOf (some d) = dbClampEps d := rfl
    rw [he] at h
    constructor
    · by_contra hv
      rw [max_eq_right (not_lt.1 hv), min_eq_left (by linarith), negDb_eps] at h
      cases h
      exact absurd hd (not_lt.2 (le_abs_self _))
    · by_contra hv
      have hv := not_lt.1 hv
      rw [max_eq_left (by linarith), min_eq_right hv, negDb_symm, negDb_eps] at h
      cases h
      rw [abs_neg] at hd
      exact absurd hd (not_lt.2 (le_abs_self _))

/-- The loss of a coherence that is not clamped. -/
theorem loss_inside {cl : Option ℝ} {v : ℝ} (h0 : epsOf cl < v) (h1 : v < 1 - epsOf cl) :
    coherenceToNegSdr cl (fin v) = fin (10 * Real.logb 10 ((1 - v) / v)) := by
  have he := epsOf_nonneg cl
  rw [coherenceToNegSdr_fin]
  unfold cclamp
  rw [max_eq_left h0.le, min_eq_left h1.le]
  unfold negDb
  rw [if_neg (by linarith), if_neg (by linarith)]

theorem shift_add (D : ℕ) (x y : Fin N → ℝ) (l : ℕ) : shift D (x + y) l = shift D x l + shift D y l := by
  ext t
  show (if l ≤ t.val then zpad (x + y) (t.val - l) else 0) =
    (if l ≤ t.val then zpad x (t.val - l) else 0) + (if l ≤ t.val then zpad y (t.val - l) else 0)
  split
  · unfold zpad
    split <;> simp
  · simp

theorem centred_add' (zm : Bool) (x y : Fin N → ℝ) : centred zm (x + y) = centred zm x + centred zm y := by
  unfold centred
  cases zm
  · rfl
  · funext t
    simp only [if_true, Pi.add_apply, Finset.sum_add_distrib]
    ring

theorem centred_smul' (zm : Bool) (a : ℝ) (x : Fin N → ℝ) : centred zm (a • x) = a • centred zm x := by
  unfold centred
  cases zm
  · rfl
  · funext t
    simp only [if_true, Pi.smul_apply, smul_eq_mul, ← Finset.mul_sum]
    ring

/-- The centred and padded channel `(m, j)`, as a linear function of all the channels. -/
noncomputable def chanCLM (zm : Bool) (D : ℕ) (m : BIdx s) (j : Fin e) : Sig s e N →L[ℝ] Space D :=
  LinearMap.toContinuousLinearMap
    { toFun := fun p => shift D (centred zm (p m j)) 0
      map_add' := fun p q => by
        show shift D (centred zm (p m j + q m j)) 0 = _
        rw [centred_add', shift_add]
      map_smul' := fun a p => by
        show shift D (centred zm (a • p m j)) 0 = _
        rw [centred_smul']
        exact shift_smul D a _ 0 }

theorem chanCLM_apply (zm : Bool) (D : ℕ) (m : BIdx s) (j : Fin e) (p : Sig s e N) :
    chanCLM zm D m j p = shift D (centred zm (p m j)) 0 := rfl

/-- The derivative of the ratio of the energies of a residual and of a projection, in decibel. -/
theorem hasFDerivAt_ratio {E F : Type*} [NormedAddCommGroup E] [NormedSpace ℝ E] [NormedAddCommGroup F]
    [InnerProductSpace ℝ F] (K : Submodule ℝ F) [K.HasOrthogonalProjection] (T : E →L[ℝ] F) (p : E)
    (h1 : K.starProjection (T p) ≠ 0) (h2 : T p - K.starProjection (T p) ≠ 0) :
    ∃ f' : E →L[ℝ] ℝ, HasFDerivAt (fun q => 10 * Real.logb 10
        (‖T q - K.starProjection (T q)‖ ^ 2 / ‖K.starProjection (T q)‖ ^ 2)) f' p ∧
      ∀ v, f' v = 20 / Real.log 10 *
        (inner ℝ (T p - K.starProjection (T p)) (T v) / ‖T p - K.starProjection (T p)‖ ^ 2 -
          inner ℝ (K.starProjection (T p)) (T v) / ‖K.starProjection (T p)‖ ^ 2) := by
  have hA : HasFDerivAt (fun q => K.starProjection (T q)) (K.starProjection ∘L T) p :=
    (K.starProjection ∘L T).hasFDerivAt
  have hR : HasFDerivAt (fun q => T q - K.starProjection (T q)) (T - K.starProjection ∘L T) p :=
    T.hasFDerivAt.sub hA
  have hA2 := (hA.norm_sq).log (pow_ne_zero 2 (norm_ne_zero_iff.2 h1))
  have hR2 := (hR.norm_sq).log (pow_ne_zero 2 (norm_ne_zero_iff.2 h2))
  have hd := (hR2.sub hA2).const_mul (10 / Real.log 10)
  refine ⟨_, hd.congr_of_eventuallyEq ?_, ?_⟩
  · have c1 : ∀ᶠ q in 𝓝 p, K.starProjection (T q) ≠ 0 :=
      hA.continuousAt.eventually_ne h1
    have c2 : ∀ᶠ q in 𝓝 p, T q - K.starProjection (T q) ≠ 0 :=
      hR.continuousAt.eventually_ne h2
    filter_upwards [c1, c2] with q q1 q2
    rw [← Real.log_div_log, Real.log_div (pow_ne_zero 2 (norm_ne_zero_iff.2 q2)) (pow_ne_zero 2 (norm_ne_zero_iff.2 q1))]
    simp only [Pi.sub_apply]
    ring
  · intro v
    have e1 : inner ℝ (T p - K.starProjection (T p)) (T v - K.starProjection (T v)) =
        inner ℝ (T p - K.starProjection (T p)) (T v) := by
      rw [inner_sub_right]
      have : inner ℝ (T p - K.starProjection (T p)) (K.starProjection (T v)) = 0 := by
        exact K.starProjection_inner_eq_zero _ _ (K.starProjection_apply_mem _)
      rw [this, sub_zero]
    have e2 : inner ℝ (K.starProjection (T p)) (K.starProjection (T v)) =
        inner ℝ (K.starProjection (T p)) (T v) := by
      have := K.starProjection_inner_eq_zero (T v) _ (K.starProjection_apply_mem (T p))
      rw [real_inner_comm, inner_sub_right] at this
      linarith
    simp only [_root_.smul_apply, _root_.sub_apply, ContinuousLinearMap.comp_apply,
      innerSL_apply_apply, smul_eq_mul, e1, e2]
    ring

/-- The inner product with a padded signal. -/
theorem inner_shift_coord {D : ℕ} (hD : N ≤ D) (w : Space D) (x : Fin N → ℝ) :
    inner ℝ w (shift D x 0) = ∑ t : Fin N, w ⟨t, lt_of_lt_of_le t.2 hD⟩ * x t := by
  obtain ⟨d, rfl⟩ := Nat.exists_eq_add_of_le hD
  rw [inner_space, Fin.sum_univ_add]
  have h2 : ∀ i : Fin d, (shift (N + d) x 0) (Fin.natAdd N i) = 0 := fun i => by
    show (if 0 ≤ (Fin.natAdd N i).val then zpad x ((Fin.natAdd N i).val - 0) else 0) = 0
    rw [if_pos (Nat.zero_le _)]
    unfold zpad
    rw [dif_neg (by simp)]
  have h1 : ∀ i : Fin N, (shift (N + d) x 0) (Fin.castAdd d i) = x i := fun i => by
    show (if 0 ≤ (Fin.castAdd d i).val then zpad x ((Fin.castAdd d i).val - 0) else 0) = x i
    rw [if_pos (Nat.zero_le _)]
    exact zpad_val x i
  simp only [h1, h2, mul_zero, Finset.sum_const_zero, add_zero]
  rfl

end FBE
