import Verif.Spec.Pcg
import Verif.Model.Cgd
import Mathlib.LinearAlgebra.Matrix.DotProduct
import Mathlib.LinearAlgebra.Dimension.Finite
import Mathlib.LinearAlgebra.FiniteDimensional.Lemmas

/-!
# The textbook iteration: conjugate directions, finite termination, monotonicity; the loop of the code
-/

set_option linter.unusedSectionVars false

namespace FBE

open Spec Matrix

variable {J : Type} [Fintype J]

section theory

variable {A M : (J → ℝ) →ₗ[ℝ] (J → ℝ)} {b x0 : J → ℝ}

/-- The residual is the true residual. -/
theorem pcg_residual (A : (J → ℝ) →ₗ[ℝ] (J → ℝ)) (M : (J → ℝ) → (J → ℝ)) (b x0 : J → ℝ) (n : ℕ) :
    (pcg A M b x0 n).r = b - A (pcg A M b x0 n).x := by
  induction n with
  | zero => rfl
  | succ n ih =>
    show (pcg A M b x0 n).r - _ • A (pcg A M b x0 n).p = b - A ((pcg A M b x0 n).x + _ • (pcg A M b x0 n).p)
    rw [map_add, map_smul, ih]
    abel

/-- A solution is kept. -/
theorem pcg_step_zero {A M : (J → ℝ) →ₗ[ℝ] (J → ℝ)} {s : Pcg J} (h : s.r = 0) :
    pcgStep A M s = ⟨s.x, 0, 0⟩ := by
  unfold pcgStep
  simp [h]

theorem pcg_stop {n : ℕ} (h : (pcg A M b x0 n).r = 0) (k : ℕ) :
    (pcg A M b x0 (n + k)).r = 0 ∧ (pcg A M b x0 (n + k)).x = (pcg A M b x0 n).x := by
  induction k with
  | zero => exact ⟨h, rfl⟩
  | succ k ih =>
    have : pcg A M b x0 (n + (k + 1)) = pcgStep A M (pcg A M b x0 (n + k)) := rfl
    rw [this, pcg_step_zero ih.1]
    exact ⟨rfl, ih.2⟩

/-- The relations between the vectors of the first `n` iterations. -/
structure PcgInv (A M : (J → ℝ) →ₗ[ℝ] (J → ℝ)) (b x0 : J → ℝ) (n : ℕ) : Prop where
  rp : ∀ i < n, (pcg A M b x0 n).r ⬝ᵥ (pcg A M b x0 i).p = 0
  rz : ∀ i < n, (pcg A M b x0 n).r ⬝ᵥ M (pcg A M b x0 i).r = 0
  pp : ∀ i < n, (pcg A M b x0 n).p ⬝ᵥ A (pcg A M b x0 i).p = 0
  rpn : (pcg A M b x0 n).r ⬝ᵥ (pcg A M b x0 n).p = (pcg A M b x0 n).r ⬝ᵥ M (pcg A M b x0 n).r

theorem pcg_p_ne_zero (hM : Spd M) {n : ℕ} (h : PcgInv A M b x0 n) (hr : (pcg A M b x0 n).r ≠ 0) :
    (pcg A M b x0 n).p ≠ 0 := by
  intro hp
  have := h.rpn
  rw [hp, dotProduct_zero] at this
  exact (hM.pos _ hr).ne this

theorem pcg_inv (hA : Spd A) (hM : Spd M) (n : ℕ) (hr : ∀ i < n, (pcg A M b x0 i).r ≠ 0) :
    ∀ k ≤ n, PcgInv A M b x0 k := by
  intro k
  induction k using Nat.strong_induction_on with
  | _ k ih =>
    intro hk
    rcases Nat.eq_zero_or_pos k with rfl | hpos
    · exact ⟨fun i hi => absurd hi (by omega), fun i hi => absurd hi (by omega),
        fun i hi => absurd hi (by omega), rfl⟩
    obtain ⟨k, rfl⟩ : ∃ j, k = j + 1 := ⟨k - 1, by omega⟩
    have I : ∀ i ≤ k, PcgInv A M b x0 i := fun i hi => ih i (by omega) (by omega)
    set S := pcg A M b x0 with hS
    let al : ℕ → ℝ := fun i => ((S i).r ⬝ᵥ M (S i).r) / ((S i).p ⬝ᵥ A (S i).p)
    let be : ℕ → ℝ := fun i => ((S (i + 1)).r ⬝ᵥ M (S (i + 1)).r) / ((S i).r ⬝ᵥ M (S i).r)
    have hrs : ∀ i ≤ k, 0 < (S i).r ⬝ᵥ M (S i).r := fun i hi => hM.pos _ (hr i (by omega))
    have hpp : ∀ i ≤ k, 0 < (S i).p ⬝ᵥ A (S i).p := fun i hi =>
      hA.pos _ (pcg_p_ne_zero hM (I i hi) (hr i (by omega)))
    have hal : ∀ i ≤ k, al i ≠ 0 := fun i hi => (div_pos (hrs i hi) (hpp i hi)).ne'
    have er : ∀ i, (S (i + 1)).r = (S i).r - al i • A (S i).p := fun i => rfl
    have ep : ∀ i, (S (i + 1)).p = M (S (i + 1)).r + be i • (S i).p := fun i => rfl
    -- residual against directions
    have h1 : ∀ i ≤ k, (S (k + 1)).r ⬝ᵥ (S i).p = 0 := by
      intro i hi
      rw [er, sub_dotProduct, smul_dotProduct]
      rcases Nat.lt_or_ge i k with h | h
      · rw [(I k le_rfl).rp i h]
        have := (I k le_rfl).pp i h
        rw [hA.symm] at this
        rw [dotProduct_comm, this]
        simp
      · obtain rfl : i = k := by omega
        rw [(I i le_rfl).rpn, dotProduct_comm (A _)]
        show _ - (_ / _) * _ = _
        rw [div_mul_cancel₀ _ (hpp i hi).ne', sub_self]
    have h2 : ∀ i ≤ k, (S (k + 1)).r ⬝ᵥ M (S i).r = 0 := by
      intro i hi
      rcases Nat.eq_zero_or_pos i with rfl | hi0
      · exact h1 0 (by omega)
      · obtain ⟨j, rfl⟩ : ∃ j, i = j + 1 := ⟨i - 1, by omega⟩
        have : M (S (j + 1)).r = (S (j + 1)).p - be j • (S j).p := by rw [ep j]; abel
        rw [this, dotProduct_sub, dotProduct_smul, h1 (j + 1) hi, h1 j (by omega)]
        simp
    have hAp : ∀ i ≤ k, A (S i).p = (al i)⁻¹ • ((S i).r - (S (i + 1)).r) := by
      intro i hi
      rw [er i]
      rw [sub_sub_cancel, smul_smul, inv_mul_cancel₀ (hal i hi), one_smul]
    have hz : ∀ i ≤ k, M (S (k + 1)).r ⬝ᵥ A (S i).p =
        (al i)⁻¹ * (0 - (S (k + 1)).r ⬝ᵥ M (S (i + 1)).r) := by
      intro i hi
      rw [hAp i hi, dotProduct_smul, dotProduct_sub]
      rw [dotProduct_comm (M _) (S i).r, hM.symm, h2 i hi, dotProduct_comm (M _) (S (i + 1)).r, hM.symm]
      rfl
    refine ⟨fun i hi => h1 i (by omega), fun i hi => h2 i (by omega), fun i hi => ?_, ?_⟩
    · rw [ep k, add_dotProduct, smul_dotProduct, hz i (by omega)]
      rcases Nat.lt_or_ge i k with h | h
      · rw [h2 (i + 1) (by omega), (I k le_rfl).pp i h]
        simp
      · obtain rfl : i = k := by omega
        show ((_ / _ : ℝ))⁻¹ * _ + (_ / _) * _ = 0
        have a1 := (hrs i le_rfl).ne'
        have a2 := (hpp i le_rfl).ne'
        field_simp
        ring
    · have h3 : (S (k + 1)).r ⬝ᵥ (S (k + 1)).p = (S (k + 1)).r ⬝ᵥ M (S (k + 1)).r := by
        rw [ep k, dotProduct_add, dotProduct_smul, h1 k le_rfl]
        simp
      exact h3

/-- Finite termination. -/
theorem pcg_terminates (hA : Spd A) (hM : Spd M) {n : ℕ} (hn : Fintype.card J ≤ n) :
    (pcg A M b x0 n).r = 0 := by
  by_contra hc
  have hr : ∀ i ≤ n, (pcg A M b x0 i).r ≠ 0 := fun i hi h => by
    obtain ⟨d, rfl⟩ := Nat.exists_eq_add_of_le hi
    exact hc (pcg_stop h d).1
  have I := pcg_inv hA hM (b := b) (x0 := x0) n fun i hi => hr i hi.le
  have horth : ∀ i j : Fin (n + 1), i ≠ j →
      (pcg A M b x0 i).r ⬝ᵥ M (pcg A M b x0 j).r = 0 := by
    intro i j hij
    rcases lt_or_gt_of_ne hij with h | h
    · rw [hM.symm]
      exact (I j (by omega)).rz i h
    · exact (I i (by omega)).rz j h
  have hli : LinearIndependent ℝ fun i : Fin (n + 1) => (pcg A M b x0 i).r := by
    rw [Fintype.linearIndependent_iff]
    intro g hg i
    have h0 : (pcg A M b x0 i).r ⬝ᵥ M (∑ j : Fin (n + 1), g j • (pcg A M b x0 j).r) = 0 := by
      rw [hg, map_zero, dotProduct_zero]
    rw [map_sum, dotProduct_sum, Finset.sum_eq_single i] at h0
    · rw [map_smul, dotProduct_smul, smul_eq_mul] at h0
      exact (mul_eq_zero.1 h0).resolve_right (hM.pos _ (hr i (by omega))).ne'
    · intro j _ hj
      rw [map_smul, dotProduct_smul, horth i j hj.symm, smul_zero]
    · simp
  have := hli.fintype_card_le_finrank
  simp at this
  omega

theorem Spec.Spd.nonneg (hA : Spd A) (v : J → ℝ) : 0 ≤ v ⬝ᵥ A v := by
  by_cases h : v = 0
  · rw [h, zero_dotProduct]
  · exact (hA.pos v h).le

/-- The iterates, started at zero, are combinations of the directions. -/
theorem pcg_x_orth (n : ℕ) (y : J → ℝ)
    (hy : ∀ i < n, y ⬝ᵥ (pcg A M b 0 i).p = 0) : y ⬝ᵥ (pcg A M b 0 n).x = 0 := by
  induction n with
  | zero => exact dotProduct_zero _
  | succ n ih =>
    show y ⬝ᵥ ((pcg A M b 0 n).x + _ • (pcg A M b 0 n).p) = 0
    rw [dotProduct_add, dotProduct_smul, ih fun i hi => hy i (by omega), hy n (by omega)]
    simp

theorem pcg_cases (A M : (J → ℝ) →ₗ[ℝ] (J → ℝ)) (b x0 : J → ℝ) (n : ℕ) :
    (∀ i < n, (pcg A M b x0 i).r ≠ 0) ∨ (pcg A M b x0 n).r = 0 := by
  by_cases h : ∀ i < n, (pcg A M b x0 i).r ≠ 0
  · exact Or.inl h
  · push Not at h
    obtain ⟨i, hi, h⟩ := h
    obtain ⟨d, rfl⟩ := Nat.exists_eq_add_of_le hi.le
    exact Or.inr (pcg_stop h d).1

/-- Started at zero, the iterate is orthogonal to its residual. -/
theorem pcg_rx (hA : Spd A) (hM : Spd M) (n : ℕ) : (pcg A M b 0 n).r ⬝ᵥ (pcg A M b 0 n).x = 0 := by
  rcases pcg_cases A M b 0 n with h | h
  · exact pcg_x_orth n _ (pcg_inv hA hM n h n le_rfl).rp
  · rw [h, zero_dotProduct]

theorem pcg_energy (hA : Spd A) (hM : Spd M) (n : ℕ) :
    b ⬝ᵥ (pcg A M b 0 n).x = (pcg A M b 0 n).x ⬝ᵥ A (pcg A M b 0 n).x := by
  have h := pcg_rx hA hM (b := b) n
  rw [pcg_residual, sub_dotProduct, sub_eq_zero] at h
  rw [h, dotProduct_comm]

/-- Every iteration adds to `bᵀx`. -/
theorem pcg_mono_succ (hA : Spd A) (hM : Spd M) (n : ℕ) :
    b ⬝ᵥ (pcg A M b 0 n).x ≤ b ⬝ᵥ (pcg A M b 0 (n + 1)).x := by
  by_cases hrn : (pcg A M b 0 n).r = 0
  · rw [(pcg_stop hrn 1).2]
  have hr := (pcg_cases A M b 0 n).resolve_right hrn
  have I := pcg_inv hA hM n hr n le_rfl
  show _ ≤ b ⬝ᵥ ((pcg A M b 0 n).x + _ • (pcg A M b 0 n).p)
  rw [dotProduct_add, dotProduct_smul]
  have e : b = (pcg A M b 0 n).r + A (pcg A M b 0 n).x := by rw [pcg_residual]; abel
  have hbp : b ⬝ᵥ (pcg A M b 0 n).p = (pcg A M b 0 n).r ⬝ᵥ M (pcg A M b 0 n).r := by
    have e2 := congrArg (· ⬝ᵥ (pcg A M b 0 n).p) e
    beta_reduce at e2
    rw [e2, add_dotProduct, I.rpn, dotProduct_comm (A _), hA.symm,
      dotProduct_comm (pcg A M b 0 n).x]
    rw [pcg_x_orth n (A (pcg A M b 0 n).p) fun i hi => by
      rw [dotProduct_comm, hA.symm]; exact I.pp i hi]
    rw [add_zero]
  rw [hbp, smul_eq_mul]
  have := mul_nonneg (div_nonneg (hM.nonneg (pcg A M b 0 n).r) (hA.nonneg (pcg A M b 0 n).p))
    (hM.nonneg (pcg A M b 0 n).r)
  linarith

theorem pcg_mono (hA : Spd A) (hM : Spd M) {n n' : ℕ} (h : n ≤ n') :
    b ⬝ᵥ (pcg A M b 0 n).x ≤ b ⬝ᵥ (pcg A M b 0 n').x :=
  monotone_nat_of_le_succ (f := fun n => b ⬝ᵥ (pcg A M b 0 n).x) (pcg_mono_succ hA hM) h

/-- `bᵀx` never exceeds its value for the solution. -/
theorem pcg_le (hA : Spd A) (hM : Spd M) {y : J → ℝ} (hy : A y = b) (n : ℕ) :
    b ⬝ᵥ (pcg A M b 0 n).x ≤ b ⬝ᵥ y := by
  have h := hA.nonneg (y - (pcg A M b 0 n).x)
  have h1 : y ⬝ᵥ A (pcg A M b 0 n).x = b ⬝ᵥ (pcg A M b 0 n).x := by rw [hA.symm, hy, dotProduct_comm]
  rw [map_sub, dotProduct_sub, sub_dotProduct, sub_dotProduct, h1, hy,
    ← pcg_energy hA hM n, dotProduct_comm _ b, dotProduct_comm _ b] at h
  linarith

end theory

/-! ### the loop of the code -/

section code

theorem cgRun_succ (A M : (J → ℝ) → (J → ℝ)) (b x0 : J → ℝ) (n : ℕ) :
    cgRun A M b x0 (n + 1) = cgBody A M b (cgRun A M b x0 n) n := by
  unfold cgRun
  rw [List.range_succ, List.foldl_append]
  rfl

/-- The recomputation of the residual is never reached. -/
theorem cgBody_eq (A M : (J → ℝ) → (J → ℝ)) (b : J → ℝ) (st : CgState J) (epoch : ℕ) :
    cgBody A M b st epoch =
      let al := st.rsold / max (st.p ⬝ᵥ A st.p) 1e-6
      let r := st.r - al • A st.p
      ⟨st.x + al • st.p, r, M r + ((r ⬝ᵥ M r) / max st.rsold 1e-6) • st.p, r ⬝ᵥ M r⟩ := by
  unfold cgBody
  simp only [if_neg (show ¬ epoch + 1 % 5 = 0 by omega)]
  rfl

theorem cgRun_eq_pcg {A M : (J → ℝ) →ₗ[ℝ] (J → ℝ)} {b x0 : J → ℝ} {n : ℕ}
    (h : PcgQuiet 1e-6 A M b x0 n) : ∀ k ≤ n, cgRun A M b x0 k =
      ⟨(pcg A M b x0 k).x, (pcg A M b x0 k).r, (pcg A M b x0 k).p,
        (pcg A M b x0 k).r ⬝ᵥ M (pcg A M b x0 k).r⟩ := by
  intro k
  induction k with
  | zero => intro _; rfl
  | succ k ih =>
    intro hk
    rw [cgRun_succ, ih (by omega), cgBody_eq]
    simp only
    show _ = CgState.mk (pcgStep A M (pcg A M b x0 k)).x (pcgStep A M (pcg A M b x0 k)).r
      (pcgStep A M (pcg A M b x0 k)).p _
    rcases h k (by omega) with h0 | ⟨h1, h2⟩
    · simp only [h0, map_zero, zero_dotProduct, zero_div, zero_smul, sub_zero, add_zero]
      have := pcg_step_zero (A := A) (M := M) h0
      have e : pcg A M b x0 (k + 1) = pcgStep A M (pcg A M b x0 k) := rfl
      rw [e, this]
      simp
    · rw [max_eq_left h1, max_eq_left h2]
      rfl

end code

end FBE
