import Verif.Spec.Run
import Verif.Proofs.Steepness

/-!
# Runs of gradient descent
-/

namespace FBE.Steepness

open Classical FBE.Spec FBE.Backward FBE.Props XR

variable {s : List ℕ} {r e c N T K : ℕ} {zm : Bool}

/-! ### Finite gradients come from finite gradients -/

theorem add_fin {a b : XR} {y : ℝ} (h : add a b = fin y) : ∃ x, a = fin x := by
  cases a <;> cases b <;> simp [add] at h ⊢

theorem div_fin {a : XR} {b y : ℝ} (h : div a (fin b) = fin y) : ∃ x, a = fin x := by
  cases a with
  | fin x => exact ⟨x, rfl⟩
  | pinf =>
    simp only [div] at h
    split at h <;> cases h
  | ninf =>
    simp only [div] at h
    split at h <;> cases h
  | nan =>
    simp only [div] at h
    cases h

theorem normalizeGrad_of_fin {x : Fin N → ℝ} {g : Fin N → XR} {γ : Fin N → ℝ} (h : ∀ t, normalizeGrad x g t = fin (γ t)) (t : Fin N) :
    ∃ y, g t = fin y := by
  obtain ⟨y, hy⟩ := add_fin (h t)
  exact div_fin hy

/-- A finite gradient of a signal is the derivative of the normalisation applied to a finite gradient. -/
theorem prepR_of_fin {x : Fin N → ℝ} {g : Fin N → XR} {γ : Fin N → ℝ} (h : ∀ t, preprocessGrad zm x g t = fin (γ t)) :
    ∃ δ, γ = prepR zm x δ := by
  have hg : ∀ t, ∃ y, g t = fin y := by
    cases zm
    · exact normalizeGrad_of_fin h
    · have h2 : ∀ t, ∃ y, normalizeGrad (removeMean x) g t = fin y := fun t => add_fin (h t)
      choose y hy using h2
      exact normalizeGrad_of_fin hy
  choose δ hδ using hg
  refine ⟨δ, funext fun t => ?_⟩
  have h3 := h t
  rw [show g = fun t => fin (δ t) from funext hδ, preprocessGrad_fin] at h3
  exact (XR.fin.inj h3).symm

/-! ### One step -/

theorem sum_prepR (x δ : Fin N → ℝ) : ∑ t, prepR true x δ t = 0 := sum_centred _

theorem normR_orth {x : Fin N → ℝ} (h : 1e-6 ≤ sigNorm (centred zm x)) (δ : Fin N → ℝ) :
    ∑ t, normR (centred zm x) δ t * centred zm x t = 0 := by
  have h0 : sigNorm (centred zm x) ≠ 0 := (lt_of_lt_of_le (by norm_num) h).ne'
  have hc : ∀ t, centred zm x t = sigNorm (centred zm x) * preprocess zm x t := fun t => by
    rw [preprocess_audible h]
    field_simp
  have h1 : ∀ t, normR (centred zm x) δ t * centred zm x t =
      δ t * preprocess zm x t - (∑ u, δ u * preprocess zm x u) * preprocess zm x t ^ 2 := fun t => by
    rw [normR_audible h, hc t]
    field_simp
  simp only [h1, Finset.sum_sub_distrib, ← Finset.mul_sum, preprocess_sq h]
  ring

theorem prepR_orth {x : Fin N → ℝ} (h : 1e-6 ≤ sigNorm (centred zm x)) (δ : Fin N → ℝ) :
    ∑ t, prepR zm x δ t * centred zm x t = 0 := by
  have h1 := normR_orth h δ
  cases zm
  · exact h1
  · have h2 : ∀ t, prepR true x δ t * centred true x t = normR (centred true x) δ t * centred true x t -
        (∑ u, normR (centred true x) δ u) / N * centred true x t := fun t => by
      rw [← sub_mul]
      rfl
    simp only [h2, Finset.sum_sub_distrib, ← Finset.mul_sum, h1, sum_centred]
    ring

theorem centred_step {x γ : Fin N → ℝ} (η : ℝ) (hγ : zm = true → ∑ t, γ t = 0) :
    centred zm (fun t => x t - η * γ t) = fun t => centred zm x t - η * γ t := by
  cases zm
  · rfl
  · funext t
    have : ∑ t, (x t - η * γ t) = ∑ t, x t := by
      rw [Finset.sum_sub_distrib, ← Finset.mul_sum, hγ rfl, mul_zero, sub_zero]
    show x t - η * γ t - (∑ t, (x t - η * γ t)) / N = x t - (∑ t, x t) / N - η * γ t
    rw [this]
    ring

theorem sq_sigNorm (x : Fin N → ℝ) : sigNorm x ^ 2 = ∑ t, x t ^ 2 := Real.sq_sqrt (Finset.sum_nonneg fun _ _ => sq_nonneg _)

theorem sigNorm_nn (x : Fin N → ℝ) : 0 ≤ sigNorm x := Real.sqrt_nonneg _

theorem step_norm {x : Fin N → ℝ} (h : 1e-6 ≤ sigNorm (centred zm x)) (η : ℝ) (δ : Fin N → ℝ) :
    sigNorm (centred zm fun t => x t - η * prepR zm x δ t) ^ 2 =
      sigNorm (centred zm x) ^ 2 + (η * sigNorm (prepR zm x δ)) ^ 2 := by
  rw [centred_step η fun hz => by
    rw [hz]
    exact sum_prepR x δ]
  rw [mul_pow, sq_sigNorm, sq_sigNorm, sq_sigNorm]
  have h1 : ∀ t, (centred zm x t - η * prepR zm x δ t) ^ 2 =
      centred zm x t ^ 2 - 2 * η * (prepR zm x δ t * centred zm x t) + η ^ 2 * prepR zm x δ t ^ 2 := fun t => by ring
  simp only [h1, Finset.sum_add_distrib, Finset.sum_sub_distrib, ← Finset.mul_sum, prepR_orth h]
  ring

/-! ### Many steps -/

section steps

variable {x γ : ℕ → Fin N → ℝ} {η : ℕ → ℝ}

/-- The steps of one channel. -/
structure Steps (zm : Bool) (K : ℕ) (η : ℕ → ℝ) (x γ : ℕ → Fin N → ℝ) : Prop where
  audible : 1e-6 ≤ sigNorm (centred zm (x 0))
  step : ∀ i < K, x (i + 1) = fun t => x i t - η i * γ i t
  grad : ∀ i < K, ∃ δ, γ i = prepR zm (x i) δ

theorem Steps.loud (S : Steps zm K η x γ) {i : ℕ} (hi : i ≤ K) : sigNorm (centred zm (x 0)) ≤ sigNorm (centred zm (x i)) := by
  induction i with
  | zero => exact le_rfl
  | succ i ih =>
    have ih := ih (by omega)
    obtain ⟨δ, hδ⟩ := S.grad i (by omega)
    rw [S.step i (by omega), hδ]
    have := step_norm (S.audible.trans ih) (η i) δ
    exact ih.trans (abs_le_of_sq_le_sq' (by rw [this]; nlinarith [sq_nonneg (η i * sigNorm (prepR zm (x i) δ))]) (sigNorm_nn _)).2

theorem Steps.aud (S : Steps zm K η x γ) {i : ℕ} (hi : i ≤ K) : 1e-6 ≤ sigNorm (centred zm (x i)) := S.audible.trans (S.loud hi)

theorem Steps.pythagoras (S : Steps zm K η x γ) {i : ℕ} (hi : i < K) :
    sigNorm (centred zm (x (i + 1))) ^ 2 = sigNorm (centred zm (x i)) ^ 2 + (η i * sigNorm (γ i)) ^ 2 := by
  obtain ⟨δ, hδ⟩ := S.grad i hi
  rw [S.step i hi, hδ]
  exact step_norm (S.aud hi.le) (η i) δ

theorem Steps.mono (S : Steps zm K η x γ) {i : ℕ} (hi : i < K) : sigNorm (centred zm (x i)) ≤ sigNorm (centred zm (x (i + 1))) :=
  (abs_le_of_sq_le_sq' (by rw [S.pythagoras hi]; nlinarith [sq_nonneg (η i * sigNorm (γ i))]) (sigNorm_nn _)).2

theorem Steps.mean (S : Steps zm K η x γ) (hz : zm = true) {i : ℕ} (hi : i ≤ K) : ∑ t, x i t = ∑ t, x 0 t := by
  induction i with
  | zero => rfl
  | succ i ih =>
    obtain ⟨δ, hδ⟩ := S.grad i (by omega)
    rw [S.step i (by omega), hδ, ← ih (by omega), Finset.sum_sub_distrib, ← Finset.mul_sum, hz, sum_prepR, mul_zero, sub_zero]

theorem Steps.upper (S : Steps zm K η x γ) {a : ℝ} (ha : ∀ i < K, sigNorm (γ i) ≤ a / sigNorm (centred zm (x i))) :
    sigNorm (centred zm (x K)) ^ 4 ≤ loudnessBound (sigNorm (centred zm (x 0))) a η K := by
  have h0 : 0 < sigNorm (centred zm (x 0)) := lt_of_lt_of_le (by norm_num) S.audible
  have key : ∀ k ≤ K, sigNorm (centred zm (x k)) ^ 4 ≤ loudnessBound (sigNorm (centred zm (x 0))) a η k := by
    intro k hk
    induction k with
    | zero =>
      unfold loudnessBound
      simp
    | succ k ih =>
      have ih := ih (by omega)
      have hl := S.loud (i := k) (by omega)
      have hp := S.pythagoras (i := k) (by omega)
      have hk' := ha k (by omega)
      have hn : 0 < sigNorm (centred zm (x k)) := lt_of_lt_of_le h0 hl
      have hg : (η k * sigNorm (γ k)) ^ 2 ≤ (η k * a) ^ 2 / sigNorm (centred zm (x k)) ^ 2 := by
        rw [mul_pow, mul_pow, mul_div_assoc, ← div_pow]
        exact mul_le_mul_of_nonneg_left (pow_le_pow_left₀ (sigNorm_nn _) hk' 2) (sq_nonneg _)
      have h4 : sigNorm (centred zm (x (k + 1))) ^ 4 ≤
          sigNorm (centred zm (x k)) ^ 4 + (2 * (η k * a) ^ 2 + (η k * a) ^ 4 / sigNorm (centred zm (x k)) ^ 4) := by
        rw [show sigNorm (centred zm (x (k + 1))) ^ 4 = (sigNorm (centred zm (x (k + 1))) ^ 2) ^ 2 by ring, hp]
        refine (pow_le_pow_left₀ (by positivity) (add_le_add_right hg _) 2).trans (le_of_eq ?_)
        field_simp
        ring
      have h5 : (η k * a) ^ 4 / sigNorm (centred zm (x k)) ^ 4 ≤ (η k * a) ^ 4 / sigNorm (centred zm (x 0)) ^ 4 :=
        div_le_div_of_nonneg_left (by positivity) (by positivity) (pow_le_pow_left₀ h0.le hl 4)
      unfold loudnessBound at ih ⊢
      rw [Finset.sum_range_succ]
      linarith
  exact key K le_rfl

theorem Steps.lower (S : Steps zm K η x γ) {a : ℝ} (h0a : 0 ≤ a) (ha : ∀ i < K, a / sigNorm (centred zm (x i)) ≤ sigNorm (γ i)) :
    sigNorm (centred zm (x 0)) ^ 4 + 2 * a ^ 2 * ∑ i ∈ Finset.range K, η i ^ 2 ≤ sigNorm (centred zm (x K)) ^ 4 := by
  have h0 : 0 < sigNorm (centred zm (x 0)) := lt_of_lt_of_le (by norm_num) S.audible
  have key : ∀ k ≤ K, sigNorm (centred zm (x 0)) ^ 4 + 2 * a ^ 2 * ∑ i ∈ Finset.range k, η i ^ 2 ≤ sigNorm (centred zm (x k)) ^ 4 := by
    intro k hk
    induction k with
    | zero => simp
    | succ k ih =>
      have ih := ih (by omega)
      have hl := S.loud (i := k) (by omega)
      have hp := S.pythagoras (i := k) (by omega)
      have hk' := ha k (by omega)
      have hn : 0 < sigNorm (centred zm (x k)) := lt_of_lt_of_le h0 hl
      have hg : (η k * a) ^ 2 / sigNorm (centred zm (x k)) ^ 2 ≤ (η k * sigNorm (γ k)) ^ 2 := by
        rw [mul_pow, mul_pow, mul_div_assoc, ← div_pow]
        exact mul_le_mul_of_nonneg_left (pow_le_pow_left₀ (by positivity) hk' 2) (sq_nonneg _)
      have h4 : sigNorm (centred zm (x k)) ^ 4 + 2 * (η k * a) ^ 2 ≤ sigNorm (centred zm (x (k + 1))) ^ 4 := by
        rw [show sigNorm (centred zm (x (k + 1))) ^ 4 = (sigNorm (centred zm (x (k + 1))) ^ 2) ^ 2 by ring, hp]
        refine le_trans ?_ (pow_le_pow_left₀ (by positivity) (add_le_add_right hg _) 2)
        have : (sigNorm (centred zm (x k)) ^ 2 + (η k * a) ^ 2 / sigNorm (centred zm (x k)) ^ 2) ^ 2 =
            sigNorm (centred zm (x k)) ^ 4 + 2 * (η k * a) ^ 2 + ((η k * a) ^ 2 / sigNorm (centred zm (x k)) ^ 2) ^ 2 := by
          field_simp
          ring
        rw [this]
        linarith [sq_nonneg ((η k * a) ^ 2 / sigNorm (centred zm (x k)) ^ 2)]
      rw [Finset.sum_range_succ]
      nlinarith
  exact key K le_rfl

end steps

end FBE.Steepness
