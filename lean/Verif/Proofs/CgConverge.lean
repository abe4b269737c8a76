import Verif.Proofs.CgDescent
import Mathlib.Analysis.PSeries
import Mathlib.Topology.Instances.Matrix
import Mathlib.Topology.Algebra.Module.FiniteDimension

/-!
# Convergence of the iterative solver with its safeguards

The error in the energy norm tends to zero, uniformly in the start, although the safeguards
`max(·, 1e-6)` become active on the way.
-/

set_option linter.unusedSectionVars false

namespace FBE

open Spec Matrix

variable {J : Type} [Fintype J]

/-- Two positive definite forms are comparable. -/
theorem quad_le_mul {f g : (J → ℝ) → ℝ} (hf : Continuous f) (hg : Continuous g)
    (hf2 : ∀ (t : ℝ) v, f (t • v) = t ^ 2 * f v) (hg2 : ∀ (t : ℝ) v, g (t • v) = t ^ 2 * g v)
    (hpos : ∀ v, v ≠ 0 → 0 < g v) : ∃ c : ℝ, 0 < c ∧ ∀ v, f v ≤ c * g v := by
  have hne : ∀ v ∈ Metric.sphere (0 : J → ℝ) 1, g v ≠ 0 := fun v hv => by
    have h1 : ‖v‖ = 1 := by simpa using hv
    refine (hpos v fun h0 => ?_).ne'
    rw [h0, norm_zero] at h1
    norm_num at h1
  have hc : ContinuousOn (fun v => f v / g v) (Metric.sphere (0 : J → ℝ) 1) :=
    hf.continuousOn.div hg.continuousOn hne
  obtain ⟨C, hC⟩ := (isCompact_sphere (0 : J → ℝ) 1).bddAbove_image hc
  refine ⟨max C 1, lt_of_lt_of_le one_pos (le_max_right _ _), fun v => ?_⟩
  by_cases hv : v = 0
  · have h0 : f v = 0 := by simpa [hv] using hf2 0 v
    have h1 : g v = 0 := by simpa [hv] using hg2 0 v
    rw [h0, h1, mul_zero]
  · have hnv : 0 < ‖v‖ := norm_pos_iff.2 hv
    have hu : ‖v‖⁻¹ • v ∈ Metric.sphere (0 : J → ℝ) 1 := by
      rw [mem_sphere_zero_iff_norm, norm_smul, norm_inv, norm_norm, inv_mul_cancel₀ hnv.ne']
    have h := hC ⟨_, hu, rfl⟩
    simp only [hf2, hg2] at h
    rw [mul_div_mul_left _ _ (by positivity), div_le_iff₀ (hpos v hv)] at h
    exact h.trans (mul_le_mul_of_nonneg_right (le_max_left _ _) (hpos v hv).le)

theorem continuous_quad (A C : (J → ℝ) →ₗ[ℝ] (J → ℝ)) : Continuous fun v => A v ⬝ᵥ C v :=
  (LinearMap.continuous_of_finiteDimensional A).dotProduct (LinearMap.continuous_of_finiteDimensional C)

theorem quad_smul (A C : (J → ℝ) →ₗ[ℝ] (J → ℝ)) (t : ℝ) (v : J → ℝ) :
    A (t • v) ⬝ᵥ C (t • v) = t ^ 2 * (A v ⬝ᵥ C v) := by
  rw [map_smul, map_smul, smul_dotProduct, dotProduct_smul, smul_eq_mul, smul_eq_mul]
  ring

theorem Spec.Spd.injective {A : (J → ℝ) →ₗ[ℝ] (J → ℝ)} (hA : Spd A) {v : J → ℝ} (hv : v ≠ 0) : A v ≠ 0 := by
  intro h
  have := hA.pos v hv
  rw [h, dotProduct_zero] at this
  exact lt_irrefl _ this

section

variable {A M : (J → ℝ) →ₗ[ℝ] (J → ℝ)} {b x0 y : J → ℝ}

/-- The directions are `M w`. -/
noncomputable def cgW (A M : (J → ℝ) → (J → ℝ)) (b x0 : J → ℝ) : ℕ → (J → ℝ)
  | 0 => (cgRun A M b x0 0).r
  | n + 1 => (cgRun A M b x0 (n + 1)).r +
      ((cgRun A M b x0 (n + 1)).rsold / max (cgRun A M b x0 n).rsold 1e-6) • cgW A M b x0 n

theorem cgW_p (n : ℕ) : M (cgW A M b x0 n) = (cgRun A M b x0 n).p := by
  induction n with
  | zero => rfl
  | succ n ih =>
    unfold cgW
    rw [map_add, map_smul, ih, cgRun_succ, cgBody_eq]

theorem cgRun_rsold (n : ℕ) : (cgRun A M b x0 n).rsold = (cgRun A M b x0 n).r ⬝ᵥ M (cgRun A M b x0 n).r := by
  cases n with
  | zero => rfl
  | succ n => rw [cgRun_succ, cgBody_eq]

/-- How far the directions are from the gradients, while the residual is not small. -/
theorem cg_bounds (hA : Spd A) (hM : Spd M) (hy : A y = b) {E g : ℝ} (hg : 0 < g) (hE : errSq A y x0 ≤ E) (n : ℕ)
    (hrs : ∀ i ≤ n, g ≤ (cgRun A M b x0 i).rsold) :
    (cgRun A M b x0 n).r ⬝ᵥ (cgRun A M b x0 n).p ≤ (1 + (1 + E * 1e-6) / g) * (cgRun A M b x0 n).rsold ∧
    cgW A M b x0 n ⬝ᵥ M (cgW A M b x0 n) ≤
      (n + 1) * ((1 + 2 * ((1 + E * 1e-6) / g)) / g) * (cgRun A M b x0 n).rsold ^ 2 := by
  set K := (1 + E * 1e-6) / g with hK
  have hE0 : 0 ≤ E := le_trans (hA.spsd.nonneg _) hE
  have hK0 : 0 ≤ K := by positivity
  induction n with
  | zero =>
    have h0 := hrs 0 le_rfl
    have e1 : (cgRun A M b x0 0).r ⬝ᵥ (cgRun A M b x0 0).p = (cgRun A M b x0 0).rsold := rfl
    have e2 : cgW A M b x0 0 ⬝ᵥ M (cgW A M b x0 0) = (cgRun A M b x0 0).rsold := rfl
    rw [e1, e2]
    set rs := (cgRun A M b x0 0).rsold
    have hp : 0 < rs := lt_of_lt_of_le hg h0
    refine ⟨by nlinarith, ?_⟩
    have : rs ≤ (1 / g) * rs ^ 2 := by
      rw [div_mul_eq_mul_div, le_div_iff₀ hg]
      nlinarith
    refine this.trans (mul_le_mul_of_nonneg_right ?_ (sq_nonneg _))
    push_cast
    rw [zero_add, one_mul]
    exact div_le_div_of_nonneg_right (by linarith) hg.le
  | succ n ih =>
    obtain ⟨ih1, ih2⟩ := ih fun i hi => hrs i (by omega)
    have hn0 := hrs n (by omega)
    have hn1 := hrs (n + 1) le_rfl
    have hle : errSq A y (cgRun A M b x0 n).x ≤ E :=
      (errSq_anti hA.spsd (fun v => hM.spsd.nonneg v) hy (Nat.zero_le n)).trans hE
    obtain ⟨i1, i2⟩ := cg_invariant (b := b) (x0 := x0) (A := A) (fun v => hM.spsd.nonneg v) n
    have hres := cgRun_res (M := M) (x0 := x0) hy n
    have hws : cgW A M b x0 (n + 1) = (cgRun A M b x0 (n + 1)).r +
      ((cgRun A M b x0 (n + 1)).rsold / max (cgRun A M b x0 n).rsold 1e-6) • cgW A M b x0 n := rfl
    have hwp := cgW_p (A := A) (M := M) (b := b) (x0 := x0) n
    have hrs' := cgRun_rsold (A := A) (M := M) (b := b) (x0 := x0) (n + 1)
    have hp1 : (cgRun A M b x0 (n + 1)).p = M (cgRun A M b x0 (n + 1)).r +
      ((cgRun A M b x0 (n + 1)).rsold / max (cgRun A M b x0 n).rsold 1e-6) • (cgRun A M b x0 n).p := by
      rw [cgRun_succ, cgBody_eq]
    have hr1 : (cgRun A M b x0 (n + 1)).r = (cgRun A M b x0 n).r - ((cgRun A M b x0 n).rsold /
      max ((cgRun A M b x0 n).p ⬝ᵥ A (cgRun A M b x0 n).p) 1e-6) • A (cgRun A M b x0 n).p := by
      rw [cgRun_succ, cgBody_eq]
    set w := cgW A M b x0 n with hw
    set w' := cgW A M b x0 (n + 1) with hw'
    set st := cgRun A M b x0 n with hst
    set st' := cgRun A M b x0 (n + 1) with hst'
    set be := st'.rsold / max st.rsold 1e-6 with hbe
    set al := st.rsold / max (st.p ⬝ᵥ A st.p) 1e-6 with hal
    have hrs0 : 0 < st.rsold := lt_of_lt_of_le hg hn0
    have hrs1 : 0 < st'.rsold := lt_of_lt_of_le hg hn1
    have hbe0 : 0 ≤ be := div_nonneg hrs1.le (le_trans hrs0.le (le_max_left _ _))
    have hbe1 : be * st.rsold ≤ st'.rsold := by
      rw [hbe, div_mul_eq_mul_div, div_le_iff₀ (lt_of_lt_of_le hrs0 (le_max_left _ _))]
      exact mul_le_mul_of_nonneg_left (le_max_left _ _) hrs1.le
    have hpos : (0 : ℝ) < max (st.p ⬝ᵥ A st.p) 1e-6 := lt_of_lt_of_le (by norm_num) (le_max_right _ _)
    have hap : al * (st.p ⬝ᵥ A st.p) ≤ st.rsold := by
      rw [hal, div_mul_eq_mul_div, div_le_iff₀ hpos]
      exact mul_le_mul_of_nonneg_left (le_max_left _ _) hrs0.le
    have hd : st'.r ⬝ᵥ st.p = st.r ⬝ᵥ st.p - al * (st.p ⬝ᵥ A st.p) := by
      rw [hr1, sub_dotProduct, smul_dotProduct, dotProduct_comm (A st.p), smul_eq_mul]
    have hd0 : 0 ≤ st'.r ⬝ᵥ st.p := by rw [hd]; linarith
    have hdK : st'.r ⬝ᵥ st.p ≤ K * st.rsold := by
      by_cases hc : 1e-6 ≤ st.p ⬝ᵥ A st.p
      · have : al * (st.p ⬝ᵥ A st.p) = st.rsold := by
          rw [hal, max_eq_left hc, div_mul_cancel₀]
          exact (lt_of_lt_of_le (by norm_num) hc).ne'
        rw [hd, this]
        linarith
      · have hc' : st.p ⬝ᵥ A st.p ≤ 1e-6 := (not_le.1 hc).le
        have hpp : 0 ≤ st.p ⬝ᵥ A st.p := hA.spsd.nonneg _
        have hcs := hA.spsd.cauchy (y - st.x) st.p
        have e2 : (y - st.x) ⬝ᵥ A st.p = st.r ⬝ᵥ st.p := by rw [hA.symm, ← hres, dotProduct_comm]
        rw [e2] at hcs
        have h3 : ((y - st.x) ⬝ᵥ A (y - st.x)) * (st.p ⬝ᵥ A st.p) ≤ E * 1e-6 :=
          mul_le_mul hle hc' hpp hE0
        have h4 : st.r ⬝ᵥ st.p ≤ 1 + E * 1e-6 := by nlinarith [sq_nonneg (st.r ⬝ᵥ st.p - 1)]
        have h5 : 0 ≤ al * (st.p ⬝ᵥ A st.p) := mul_nonneg (div_nonneg hrs0.le hpos.le) hpp
        have h6 : 1 + E * 1e-6 ≤ K * st.rsold := by
          rw [hK, div_mul_eq_mul_div, le_div_iff₀ hg]
          exact mul_le_mul_of_nonneg_left hn0 (by positivity)
        rw [hd]
        linarith
    have hbd : be * (st'.r ⬝ᵥ st.p) ≤ K * st'.rsold := by
      calc be * (st'.r ⬝ᵥ st.p) ≤ be * (K * st.rsold) := mul_le_mul_of_nonneg_left hdK hbe0
        _ = K * (be * st.rsold) := by ring
        _ ≤ K * st'.rsold := mul_le_mul_of_nonneg_left hbe1 hK0
    constructor
    · rw [hp1, dotProduct_add, dotProduct_smul, smul_eq_mul, ← hrs']
      linarith
    · have e : w' ⬝ᵥ M w' = st'.rsold + 2 * (be * (st'.r ⬝ᵥ st.p)) + be ^ 2 * (w ⬝ᵥ M w) := by
        have e1 : w ⬝ᵥ M st'.r = st'.r ⬝ᵥ st.p := by rw [hM.symm, hwp]
        rw [hws, map_add, map_smul, add_dotProduct, dotProduct_add, dotProduct_add, smul_dotProduct, smul_dotProduct,
          dotProduct_smul, dotProduct_smul, e1, hwp, ← hrs']
        simp only [smul_eq_mul]
        ring
      have hb2 : be ^ 2 * st.rsold ^ 2 ≤ st'.rsold ^ 2 := by
        rw [← mul_pow]
        exact pow_le_pow_left₀ (mul_nonneg hbe0 hrs0.le) hbe1 2
      have hk : 0 ≤ (n + 1) * ((1 + 2 * K) / g) := by positivity
      have h7 : be ^ 2 * (w ⬝ᵥ M w) ≤ (n + 1) * ((1 + 2 * K) / g) * st'.rsold ^ 2 := by
        calc be ^ 2 * (w ⬝ᵥ M w) ≤ be ^ 2 * ((n + 1) * ((1 + 2 * K) / g) * st.rsold ^ 2) :=
              mul_le_mul_of_nonneg_left ih2 (sq_nonneg _)
          _ = (n + 1) * ((1 + 2 * K) / g) * (be ^ 2 * st.rsold ^ 2) := by ring
          _ ≤ _ := mul_le_mul_of_nonneg_left hb2 hk
      have h8 : (1 + 2 * K) * st'.rsold ≤ (1 + 2 * K) / g * st'.rsold ^ 2 := by
        rw [div_mul_eq_mul_div, le_div_iff₀ hg, mul_assoc]
        refine mul_le_mul_of_nonneg_left ?_ (by positivity)
        nlinarith
      rw [e]
      push_cast
      nlinarith

/-- The error tends to zero, uniformly in the right-hand side and the start. -/
theorem errSq_small (hA : Spd A) (hM : Spd M) (E : ℝ) {η : ℝ} (hη : 0 < η) :
    ∃ n0 : ℕ, ∀ b x0 y : J → ℝ, A y = b → errSq A y x0 ≤ E → ∀ n ≥ n0, errSq A y (cgRun A M b x0 n).x ≤ η := by
  obtain ⟨c1, hc1, h1⟩ := quad_le_mul (continuous_quad LinearMap.id A) (continuous_quad A (M ∘ₗ A))
    (quad_smul _ _) (quad_smul _ _) fun v hv => hM.pos _ (hA.injective hv)
  obtain ⟨c2, hc2, h2⟩ := quad_le_mul (continuous_quad M (A ∘ₗ M)) (continuous_quad LinearMap.id M)
    (quad_smul _ _) (quad_smul _ _) fun v hv => hM.pos v hv
  set g := η / c1 with hg
  have hg0 : 0 < g := by positivity
  set K := (1 + E * 1e-6) / g with hK
  set κ := (1 + 2 * K) / g with hκ
  set κ' := max (c2 * κ) (1e-6 / g ^ 2) with hκ'
  have hκ'0 : 0 < κ' := lt_of_lt_of_le (by positivity) (le_max_right _ _)
  obtain ⟨n0, hn0⟩ : ∃ n0 : ℕ, κ' * E < ∑ i ∈ Finset.range n0, 1 / ((i : ℝ) + 1) := by
    have := Real.tendsto_sum_range_one_div_nat_succ_atTop
    exact (this.eventually_gt_atTop (κ' * E)).exists
  refine ⟨n0, fun b x0 y hy hE n hn => ?_⟩
  refine (errSq_anti hA.spsd (fun v => hM.spsd.nonneg v) hy hn).trans ?_
  by_contra hcon
  have hbig : ∀ i ≤ n0, η < errSq A y (cgRun A M b x0 i).x := fun i hi =>
    lt_of_lt_of_le (not_le.1 hcon) (errSq_anti hA.spsd (fun v => hM.spsd.nonneg v) hy hi)
  have hrs : ∀ i ≤ n0, g ≤ (cgRun A M b x0 i).rsold := by
    intro i hi
    have h := h1 (y - (cgRun A M b x0 i).x)
    rw [cgRun_rsold, cgRun_res hy]
    have h' := hbig i hi
    unfold errSq at h'
    rw [hg, div_le_iff₀ hc1]
    have : (y - (cgRun A M b x0 i).x) ⬝ᵥ A (y - (cgRun A M b x0 i).x) ≤
      c1 * (A (y - (cgRun A M b x0 i).x) ⬝ᵥ M (A (y - (cgRun A M b x0 i).x))) := h
    linarith
  have hstep : ∀ i < n0, 1 / ((i : ℝ) + 1) ≤
      κ' * (errSq A y (cgRun A M b x0 i).x - errSq A y (cgRun A M b x0 (i + 1)).x) := by
    intro i hi
    have hgain := errSq_gain (x0 := x0) hA.spsd (fun v => hM.spsd.nonneg v) hy i
    obtain ⟨-, hb⟩ := cg_bounds hA hM hy hg0 hE i fun j hj => hrs j (by omega)
    have hi0 := hrs i (by omega)
    have hpa : (cgRun A M b x0 i).p ⬝ᵥ A (cgRun A M b x0 i).p ≤ c2 * (cgW A M b x0 i ⬝ᵥ M (cgW A M b x0 i)) := by
      have := h2 (cgW A M b x0 i)
      simp only [LinearMap.comp_apply, LinearMap.id_apply, cgW_p] at this
      rw [cgW_p]
      exact this
    have hp : 0 < (cgRun A M b x0 i).rsold := lt_of_lt_of_le hg0 hi0
    refine le_trans ?_ (mul_le_mul_of_nonneg_left hgain hκ'0.le)
    have hmax : max ((cgRun A M b x0 i).p ⬝ᵥ A (cgRun A M b x0 i).p) 1e-6 ≤
        ((i : ℝ) + 1) * κ' * (cgRun A M b x0 i).rsold ^ 2 := by
      refine max_le ?_ ?_
      · calc _ ≤ c2 * (cgW A M b x0 i ⬝ᵥ M (cgW A M b x0 i)) := hpa
          _ ≤ c2 * ((i + 1) * κ * (cgRun A M b x0 i).rsold ^ 2) := mul_le_mul_of_nonneg_left hb hc2.le
          _ = (i + 1) * (c2 * κ) * (cgRun A M b x0 i).rsold ^ 2 := by ring
          _ ≤ _ := by
            refine mul_le_mul_of_nonneg_right (mul_le_mul_of_nonneg_left (le_max_left _ _) (by positivity)) (sq_nonneg _)
      · have h3 : 1e-6 ≤ κ' * g ^ 2 := by
          rw [← div_le_iff₀ (by positivity)]
          exact le_max_right _ _
        have h4 : g ^ 2 ≤ (cgRun A M b x0 i).rsold ^ 2 := pow_le_pow_left₀ hg0.le hi0 2
        have h5 : (0 : ℝ) ≤ i := Nat.cast_nonneg i
        calc (1e-6 : ℝ) ≤ κ' * g ^ 2 := h3
          _ ≤ κ' * (cgRun A M b x0 i).rsold ^ 2 := mul_le_mul_of_nonneg_left h4 hκ'0.le
          _ ≤ ((i : ℝ) + 1) * (κ' * (cgRun A M b x0 i).rsold ^ 2) := by
            have : 0 ≤ κ' * (cgRun A M b x0 i).rsold ^ 2 := by positivity
            nlinarith
          _ = _ := by ring
    have hm0 : (0 : ℝ) < max ((cgRun A M b x0 i).p ⬝ᵥ A (cgRun A M b x0 i).p) 1e-6 :=
      lt_of_lt_of_le (by norm_num) (le_max_right _ _)
    rw [mul_div_assoc', div_le_div_iff₀ (by positivity) hm0]
    linarith
  have hsum := Finset.sum_le_sum fun i (hi : i ∈ Finset.range n0) => hstep i (Finset.mem_range.1 hi)
  rw [← Finset.mul_sum, Finset.sum_range_sub'] at hsum
  have h0 : 0 ≤ errSq A y (cgRun A M b x0 n0).x := hA.spsd.nonneg _
  have hE' : errSq A y (cgRun A M b x0 0).x ≤ E := hE
  have : κ' * (errSq A y (cgRun A M b x0 0).x - errSq A y (cgRun A M b x0 n0).x) ≤ κ' * E :=
    mul_le_mul_of_nonneg_left (by linarith) hκ'0.le
  linarith

end

end FBE
