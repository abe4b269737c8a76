import Verif.Proofs.CgSolve

/-!
# The iterative solver with its safeguards

No assumption on the safeguards: the error in the energy norm never grows.
-/

set_option linter.unusedSectionVars false

namespace FBE

open Spec Matrix

variable {J : Type} [Fintype J]

/-- Symmetric, positive semidefinite. -/
structure Spsd (A : (J → ℝ) →ₗ[ℝ] (J → ℝ)) : Prop where
  symm : ∀ u v, u ⬝ᵥ A v = v ⬝ᵥ A u
  nonneg : ∀ v, 0 ≤ v ⬝ᵥ A v

theorem Spec.Spd.spsd {A : (J → ℝ) →ₗ[ℝ] (J → ℝ)} (h : Spd A) : Spsd A :=
  ⟨h.symm, fun v => by
    by_cases hv : v = 0
    · rw [hv]; simp
    · exact (h.pos v hv).le⟩

/-- Squared error of `x` in the energy norm. -/
def errSq (A : (J → ℝ) →ₗ[ℝ] (J → ℝ)) (y x : J → ℝ) : ℝ := (y - x) ⬝ᵥ A (y - x)

section

variable {A : (J → ℝ) →ₗ[ℝ] (J → ℝ)} {M : (J → ℝ) → (J → ℝ)} {b x0 y : J → ℝ}

theorem cg_invariant (hM : ∀ v, 0 ≤ v ⬝ᵥ M v) (n : ℕ) :
    0 ≤ (cgRun A M b x0 n).rsold ∧ (cgRun A M b x0 n).rsold ≤ (cgRun A M b x0 n).r ⬝ᵥ (cgRun A M b x0 n).p := by
  induction n with
  | zero => exact ⟨hM _, le_rfl⟩
  | succ n ih =>
    obtain ⟨h1, h2⟩ := ih
    rw [cgRun_succ, cgBody_eq]
    simp only
    set st := cgRun A M b x0 n with hst
    set al := st.rsold / max (st.p ⬝ᵥ A st.p) 1e-6 with hal
    set r := st.r - al • A st.p with hr
    have hpos : (0 : ℝ) < max (st.p ⬝ᵥ A st.p) 1e-6 := lt_of_lt_of_le (by norm_num) (le_max_right _ _)
    have hap : al * (st.p ⬝ᵥ A st.p) ≤ st.rsold := by
      rw [hal, div_mul_eq_mul_div, div_le_iff₀ hpos]
      exact mul_le_mul_of_nonneg_left (le_max_left _ _) h1
    refine ⟨hM _, ?_⟩
    have hb : 0 ≤ (r ⬝ᵥ M r) / max st.rsold 1e-6 :=
      div_nonneg (hM _) (le_trans (by norm_num) (le_max_right _ _))
    have hrp : 0 ≤ r ⬝ᵥ st.p := by
      rw [hr, sub_dotProduct, smul_dotProduct, dotProduct_comm (A st.p), smul_eq_mul]
      linarith
    rw [dotProduct_add, dotProduct_smul, smul_eq_mul]
    nlinarith [mul_nonneg hb hrp]

theorem cgRun_res {M : (J → ℝ) → (J → ℝ)} (hy : A y = b) (n : ℕ) : (cgRun A M b x0 n).r = A (y - (cgRun A M b x0 n).x) := by
  rw [map_sub, hy]
  induction n with
  | zero => rfl
  | succ n ih =>
    rw [cgRun_succ, cgBody_eq]
    simp only
    rw [map_add, map_smul, ih]
    abel

/-- What one iteration gains. -/
theorem errSq_gain (hA : Spsd A) (hM : ∀ v, 0 ≤ v ⬝ᵥ M v) (hy : A y = b) (n : ℕ) :
    (cgRun A M b x0 n).rsold ^ 2 / max ((cgRun A M b x0 n).p ⬝ᵥ A (cgRun A M b x0 n).p) 1e-6 ≤
      errSq A y (cgRun A M b x0 n).x - errSq A y (cgRun A M b x0 (n + 1)).x := by
  obtain ⟨h1, h2⟩ := cg_invariant (b := b) (x0 := x0) (A := A) hM n
  have hres := cgRun_res (M := M) (x0 := x0) hy n
  rw [cgRun_succ, cgBody_eq]
  simp only
  set st := cgRun A M b x0 n with hst
  set al := st.rsold / max (st.p ⬝ᵥ A st.p) 1e-6 with hal
  have hpos : (0 : ℝ) < max (st.p ⬝ᵥ A st.p) 1e-6 := lt_of_lt_of_le (by norm_num) (le_max_right _ _)
  have hal0 : 0 ≤ al := div_nonneg h1 hpos.le
  have hap : al * (st.p ⬝ᵥ A st.p) ≤ st.rsold := by
    rw [hal, div_mul_eq_mul_div, div_le_iff₀ hpos]
    exact mul_le_mul_of_nonneg_left (le_max_left _ _) h1
  have e : errSq A y (st.x + al • st.p) = errSq A y st.x - 2 * al * (st.r ⬝ᵥ st.p) + al * (al * (st.p ⬝ᵥ A st.p)) := by
    unfold errSq
    have e1 : y - (st.x + al • st.p) = (y - st.x) - al • st.p := by abel
    have e2 : (y - st.x) ⬝ᵥ A st.p = st.r ⬝ᵥ st.p := by rw [hA.symm, ← hres, dotProduct_comm]
    have e3 : st.p ⬝ᵥ A (y - st.x) = st.r ⬝ᵥ st.p := by rw [← hres, dotProduct_comm]
    rw [e1, map_sub, map_smul, sub_dotProduct, dotProduct_sub, dotProduct_sub, smul_dotProduct, smul_dotProduct,
      dotProduct_smul, dotProduct_smul, e2, e3]
    simp only [smul_eq_mul]
    ring
  have e4 : st.rsold ^ 2 / max (st.p ⬝ᵥ A st.p) 1e-6 = al * st.rsold := by rw [hal]; ring
  rw [e, e4]
  nlinarith [mul_nonneg hal0 (sub_nonneg.2 h2), mul_nonneg hal0 (sub_nonneg.2 hap)]

/-- The error never grows. -/
theorem errSq_succ_le (hA : Spsd A) (hM : ∀ v, 0 ≤ v ⬝ᵥ M v) (hy : A y = b) (n : ℕ) :
    errSq A y (cgRun A M b x0 (n + 1)).x ≤ errSq A y (cgRun A M b x0 n).x := by
  have h := errSq_gain (x0 := x0) hA hM hy n
  have h0 : (0 : ℝ) ≤ (cgRun A M b x0 n).rsold ^ 2 / max ((cgRun A M b x0 n).p ⬝ᵥ A (cgRun A M b x0 n).p) 1e-6 :=
    div_nonneg (sq_nonneg _) (le_trans (by norm_num) (le_max_right _ _))
  linarith

theorem errSq_anti (hA : Spsd A) (hM : ∀ v, 0 ≤ v ⬝ᵥ M v) (hy : A y = b) {n n' : ℕ} (h : n ≤ n') :
    errSq A y (cgRun A M b x0 n').x ≤ errSq A y (cgRun A M b x0 n).x :=
  antitone_nat_of_succ_le (f := fun n => errSq A y (cgRun A M b x0 n).x) (errSq_succ_le hA hM hy) h

theorem errSq_eq (hA : Spsd A) (hy : A y = b) (x : J → ℝ) : errSq A y x = b ⬝ᵥ y - 2 * (b ⬝ᵥ x) + x ⬝ᵥ A x := by
  unfold errSq
  rw [map_sub, hy, sub_dotProduct, dotProduct_sub, dotProduct_sub, hA.symm y x, hy, dotProduct_comm y b, dotProduct_comm x b]
  ring

/-- Cauchy–Schwarz. -/
theorem Spsd.cauchy (hA : Spsd A) (u v : J → ℝ) : (u ⬝ᵥ A v) ^ 2 ≤ (u ⬝ᵥ A u) * (v ⬝ᵥ A v) := by
  have h : ∀ t : ℝ, 0 ≤ (v ⬝ᵥ A v) * (t * t) + (2 * (u ⬝ᵥ A v)) * t + u ⬝ᵥ A u := by
    intro t
    have h := hA.nonneg (u + t • v)
    rw [map_add, map_smul, add_dotProduct, dotProduct_add, dotProduct_add, smul_dotProduct, smul_dotProduct,
      dotProduct_smul, dotProduct_smul, hA.symm v u] at h
    simp only [smul_eq_mul] at h
    linarith
  have := discrim_le_zero h
  unfold discrim at this
  linarith

/-- The error of `b ⬝ x`. -/
theorem value_error (hA : Spsd A) (hy : A y = b) (x : J → ℝ) :
    (b ⬝ᵥ y - b ⬝ᵥ x) ^ 2 ≤ (b ⬝ᵥ y) * errSq A y x := by
  have h := hA.cauchy y (y - x)
  have e1 : y ⬝ᵥ A (y - x) = b ⬝ᵥ y - b ⬝ᵥ x := by
    rw [hA.symm, hy, sub_dotProduct, dotProduct_comm y, dotProduct_comm x]
  have e2 : y ⬝ᵥ A y = b ⬝ᵥ y := by rw [hy, dotProduct_comm]
  rw [e1, e2] at h
  exact h

end

end FBE
