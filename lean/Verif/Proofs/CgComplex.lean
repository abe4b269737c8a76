import Verif.Spec.CgComplex
import Verif.Proofs.Pcg
import Mathlib.Analysis.Complex.Basic

/-!
# Lemmas on the conjugate gradient method with complex numbers
-/

set_option linter.unusedSectionVars false

namespace FBE

open Spec Matrix
open scoped ComplexOrder

variable {J : Type} [Fintype J]

/-! ### the loop -/

namespace CplxCg

theorem cgRun_succ (A M : (J → ℂ) → (J → ℂ)) (b x0 : J → ℂ) (n : ℕ) :
    cgRun A M b x0 (n + 1) = cgBody A M b (cgRun A M b x0 n) n := by
  unfold cgRun
  rw [List.range_succ, List.foldl_append]
  rfl

theorem cgBody_eq (A M : (J → ℂ) → (J → ℂ)) (b : J → ℂ) (st : CgState J) (epoch : ℕ) :
    cgBody A M b st epoch =
      let al := st.rsold / clampMin (star st.p ⬝ᵥ A st.p) 1e-6
      let r := st.r - al • A st.p
      ⟨st.x + al • st.p, r, M r + ((star r ⬝ᵥ M r) / clampMin st.rsold 1e-6) • st.p, star r ⬝ᵥ M r⟩ := by
  unfold cgBody
  simp only [if_neg (show ¬ epoch + 1 % 5 = 0 by omega)]
  rfl

theorem cgRun_rsold (A M : (J → ℂ) → (J → ℂ)) (b x0 : J → ℂ) (n : ℕ) :
    (cgRun A M b x0 n).rsold = star (cgRun A M b x0 n).r ⬝ᵥ M (cgRun A M b x0 n).r := by
  cases n with
  | zero => rfl
  | succ n => rw [cgRun_succ, cgBody_eq]

theorem cgRun_residual (A : (J → ℂ) →ₗ[ℂ] (J → ℂ)) (M : (J → ℂ) → (J → ℂ)) (b x0 : J → ℂ) (n : ℕ) :
    (cgRun A M b x0 n).r = b - A (cgRun A M b x0 n).x := by
  induction n with
  | zero => rfl
  | succ n ih =>
    rw [cgRun_succ, cgBody_eq]
    dsimp only
    rw [map_add, map_smul, ih]
    abel

end CplxCg

/-! ### real and imaginary parts -/

theorem reIm_add (u v : J → ℂ) : reIm (u + v) = reIm u + reIm v := by
  funext i; cases i <;> simp [reIm]

theorem reIm_sub (u v : J → ℂ) : reIm (u - v) = reIm u - reIm v := by
  funext i; cases i <;> simp [reIm]

theorem reIm_smul (a : ℝ) (v : J → ℂ) : reIm ((a : ℂ) • v) = a • reIm v := by
  funext i; cases i <;> simp [reIm]

theorem reIm_inj {u v : J → ℂ} (h : reIm u = reIm v) : u = v := by
  funext i
  exact Complex.ext (congrFun h (Sum.inl i)) (congrFun h (Sum.inr i))

theorem reIm_dot (u v : J → ℂ) : reIm u ⬝ᵥ reIm v = (star u ⬝ᵥ v).re := by
  simp [dotProduct, reIm, Fintype.sum_sum_type, Complex.re_sum, ← Finset.sum_add_distrib]

theorem reIm_mulVec (T : Matrix J J ℂ) (v : J → ℂ) : reIm (T *ᵥ v) = realMatrix T *ᵥ reIm v := by
  funext i
  cases i with
  | inl i =>
    simp [reIm, realMatrix, Matrix.mulVec, dotProduct, Fintype.sum_sum_type, Complex.re_sum, ← sub_eq_add_neg,
      ← Finset.sum_sub_distrib]
  | inr i =>
    simp only [reIm, realMatrix, Matrix.mulVec, dotProduct, Fintype.sum_sum_type, Complex.im_sum, Sum.elim_inr, Sum.elim_inl,
      Matrix.fromBlocks_apply₂₁, Matrix.fromBlocks_apply₂₂, Matrix.map_apply, ← Finset.sum_add_distrib, Complex.mul_im]
    exact Finset.sum_congr rfl fun _ _ => by ring

theorem star_inner (u v : J → ℂ) : star (star u ⬝ᵥ v) = star v ⬝ᵥ u := by
  simp [dotProduct, mul_comm]

theorem hermitian_swap {T : Matrix J J ℂ} (hT : T.IsHermitian) (u v : J → ℂ) : star (T *ᵥ u) ⬝ᵥ v = star u ⬝ᵥ T *ᵥ v := by
  rw [star_mulVec, hT.eq, ← dotProduct_mulVec]

/-- A Hermitian form is real. -/
theorem hermitian_real {T : Matrix J J ℂ} (hT : T.IsHermitian) (v : J → ℂ) :
    star v ⬝ᵥ T *ᵥ v = (((star v ⬝ᵥ T *ᵥ v).re : ℝ) : ℂ) := by
  refine (Complex.conj_eq_iff_re.1 ?_).symm
  have : star (star v ⬝ᵥ T *ᵥ v) = star v ⬝ᵥ T *ᵥ v := by
    rw [star_inner, hermitian_swap hT]
  exact this

theorem clampMin_real (a : ℝ) : CplxCg.clampMin (a : ℂ) 1e-6 = ((max a 1e-6 : ℝ) : ℂ) := by
  unfold CplxCg.clampMin
  rw [Complex.ofReal_re, Complex.ofReal_im]
  split
  · rename_i h
    rw [max_eq_left (by rcases h with h | h; exacts [h.le, h.1.ge])]
  · rename_i h
    push Not at h
    rw [max_eq_right h.1]

/-- The run with complex numbers is that of the real system. -/
theorem complex_run {T Q : Matrix J J ℂ} (hT : T.IsHermitian) (hQ : Q.IsHermitian) (b x0 : J → ℂ) (n : ℕ) :
    let s := CplxCg.cgRun (T *ᵥ ·) (Q *ᵥ ·) b x0 n
    cgRun (realMatrix T *ᵥ ·) (realMatrix Q *ᵥ ·) (reIm b) (reIm x0) n = ⟨reIm s.x, reIm s.r, reIm s.p, s.rsold.re⟩ := by
  induction n with
  | zero =>
    have e : reIm b - realMatrix T *ᵥ reIm x0 = reIm (b - T *ᵥ x0) := by rw [reIm_sub, reIm_mulVec]
    have e2 : innerProd (reIm (b - T *ᵥ x0)) (reIm (Q *ᵥ (b - T *ᵥ x0))) =
        (star (b - T *ᵥ x0) ⬝ᵥ Q *ᵥ (b - T *ᵥ x0)).re := reIm_dot _ _
    show cgInit _ _ _ _ = _
    unfold cgInit
    dsimp only
    rw [e, ← reIm_mulVec, e2]
    rfl
  | succ n ih =>
    dsimp only at ih ⊢
    rw [FBE.cgRun_succ, ih, FBE.cgBody_eq, CplxCg.cgRun_succ, CplxCg.cgBody_eq]
    dsimp only
    have hrs := CplxCg.cgRun_rsold (T *ᵥ ·) (Q *ᵥ ·) b x0 n
    rw [hermitian_real hQ] at hrs
    set s := CplxCg.cgRun (T *ᵥ ·) (Q *ᵥ ·) b x0 n
    obtain ⟨a, ha⟩ : ∃ a : ℝ, s.rsold = a := ⟨_, hrs⟩
    rw [ha, Complex.ofReal_re, ← reIm_mulVec, reIm_dot, hermitian_real hT s.p, clampMin_real, Complex.ofReal_re, clampMin_real]
    set al := a / max (star s.p ⬝ᵥ T *ᵥ s.p).re 1e-6
    have e1 : (a : ℂ) / ((max (star s.p ⬝ᵥ T *ᵥ s.p).re 1e-6 : ℝ) : ℂ) = (al : ℂ) := by
      rw [← Complex.ofReal_div]
    have e2 : reIm s.r - al • reIm (T *ᵥ s.p) = reIm (s.r - (al : ℂ) • T *ᵥ s.p) := by rw [reIm_sub, reIm_smul]
    rw [e1, e2]
    set r := s.r - (al : ℂ) • T *ᵥ s.p
    rw [← reIm_mulVec, reIm_dot, hermitian_real hQ r, Complex.ofReal_re, ← Complex.ofReal_div, reIm_add, reIm_add, reIm_smul, reIm_smul]

theorem realMatrix_posDef {T : Matrix J J ℂ} (hT : T.PosDef) : (realMatrix T).PosDef := by
  refine Matrix.PosDef.of_dotProduct_mulVec_pos ?_ fun w hw => ?_
  · have h := hT.isHermitian
    have hij : ∀ i j, star (T j i) = T i j := fun i j => congrFun (congrFun h i) j
    ext i j
    rw [Matrix.conjTranspose_apply]
    cases i <;> cases j <;> simp only [realMatrix, Matrix.fromBlocks_apply₁₁, Matrix.fromBlocks_apply₁₂,
      Matrix.fromBlocks_apply₂₁, Matrix.fromBlocks_apply₂₂, Matrix.map_apply, Matrix.neg_apply, star_trivial] <;>
      (rename_i i j; rw [← hij i j]; simp)
  · obtain ⟨v, rfl⟩ : ∃ v, reIm v = w :=
      ⟨fun i => ⟨w (Sum.inl i), w (Sum.inr i)⟩, by funext i; cases i <;> rfl⟩
    have hv : v ≠ 0 := by
      rintro rfl
      exact hw (by funext i; cases i <;> rfl)
    rw [star_trivial, ← reIm_mulVec, reIm_dot]
    exact (Complex.pos_iff.1 (hT.dotProduct_mulVec_pos hv)).1

/-! ### conjugate directions -/

/-- The relations between the vectors of the first `n` iterations. -/
structure ComplexInv (T Q : Matrix J J ℂ) (r p : ℕ → J → ℂ) (n : ℕ) : Prop where
  rp : ∀ i < n, star (r n) ⬝ᵥ p i = 0
  rz : ∀ i < n, star (r n) ⬝ᵥ Q *ᵥ r i = 0
  pp : ∀ i < n, star (p n) ⬝ᵥ T *ᵥ p i = 0
  rpn : star (r n) ⬝ᵥ p n = star (r n) ⬝ᵥ Q *ᵥ r n

theorem posDef_re {T : Matrix J J ℂ} (hT : T.PosDef) {v : J → ℂ} (hv : v ≠ 0) : 0 < (star v ⬝ᵥ T *ᵥ v).re :=
  (Complex.pos_iff.1 (hT.dotProduct_mulVec_pos hv)).1

theorem complex_inv {T Q : Matrix J J ℂ} (hT : T.PosDef) (hQ : Q.PosDef) {r p : ℕ → J → ℂ} {n : ℕ} (hp0 : p 0 = Q *ᵥ r 0)
    (er : ∀ i < n, r (i + 1) = r i - (((star (r i) ⬝ᵥ Q *ᵥ r i).re / (star (p i) ⬝ᵥ T *ᵥ p i).re : ℝ) : ℂ) • T *ᵥ p i)
    (ep : ∀ i < n, p (i + 1) = Q *ᵥ r (i + 1) +
      (((star (r (i + 1)) ⬝ᵥ Q *ᵥ r (i + 1)).re / (star (r i) ⬝ᵥ Q *ᵥ r i).re : ℝ) : ℂ) • p i)
    (hr : ∀ i < n, r i ≠ 0) : ∀ k ≤ n, ComplexInv T Q r p k := by
  have hTh := hT.isHermitian
  have hQh := hQ.isHermitian
  intro k
  induction k using Nat.strong_induction_on with
  | _ k ih =>
    intro hk
    rcases Nat.eq_zero_or_pos k with rfl | hpos
    · exact ⟨fun i hi => absurd hi (by omega), fun i hi => absurd hi (by omega),
        fun i hi => absurd hi (by omega), by rw [hp0]⟩
    obtain ⟨k, rfl⟩ : ∃ j, k = j + 1 := ⟨k - 1, by omega⟩
    have I : ∀ i ≤ k, ComplexInv T Q r p i := fun i hi => ih i (by omega) (by omega)
    have hrs : ∀ i ≤ k, 0 < (star (r i) ⬝ᵥ Q *ᵥ r i).re := fun i hi => posDef_re hQ (hr i (by omega))
    have hpn : ∀ i ≤ k, p i ≠ 0 := fun i hi h => by
      have h1 := (I i hi).rpn
      rw [h, dotProduct_zero] at h1
      have h2 := hrs i hi
      rw [← h1] at h2
      exact lt_irrefl _ h2
    have hpp : ∀ i ≤ k, 0 < (star (p i) ⬝ᵥ T *ᵥ p i).re := fun i hi => posDef_re hT (hpn i hi)
    set al : ℕ → ℝ := fun i => (star (r i) ⬝ᵥ Q *ᵥ r i).re / (star (p i) ⬝ᵥ T *ᵥ p i).re with hald
    set be : ℕ → ℝ := fun i => (star (r (i + 1)) ⬝ᵥ Q *ᵥ r (i + 1)).re / (star (r i) ⬝ᵥ Q *ᵥ r i).re with hbed
    have hal : ∀ i ≤ k, (al i : ℂ) ≠ 0 := fun i hi => Complex.ofReal_ne_zero.2 (div_pos (hrs i hi) (hpp i hi)).ne'
    have sl : ∀ (a : ℝ) (u v : J → ℂ), star ((a : ℂ) • u) ⬝ᵥ v = a * star u ⬝ᵥ v := fun a u v => by
      rw [star_smul, smul_dotProduct, smul_eq_mul]
      simp
    have h1 : ∀ i ≤ k, star (r (k + 1)) ⬝ᵥ p i = 0 := by
      intro i hi
      rw [er k (by omega), star_sub, sub_dotProduct, sl, hermitian_swap hTh]
      rcases Nat.lt_or_ge i k with h | h
      · rw [(I k le_rfl).rp i h, (I k le_rfl).pp i h]
        simp
      · obtain rfl : i = k := by omega
        rw [(I i le_rfl).rpn, hermitian_real hQh, hermitian_real hTh]
        simp only [Complex.ofReal_re]
        rw [← Complex.ofReal_mul, div_mul_cancel₀ _ (hpp i hi).ne', sub_self]
    have h2 : ∀ i ≤ k, star (r (k + 1)) ⬝ᵥ Q *ᵥ r i = 0 := by
      intro i hi
      rcases Nat.eq_zero_or_pos i with rfl | hi0
      · rw [← hp0]
        exact h1 0 (by omega)
      · obtain ⟨j, rfl⟩ : ∃ j, i = j + 1 := ⟨i - 1, by omega⟩
        have : Q *ᵥ r (j + 1) = p (j + 1) - (be j : ℂ) • p j := by rw [ep j (by omega)]; abel
        rw [this, dotProduct_sub, dotProduct_smul, h1 (j + 1) hi, h1 j (by omega)]
        simp
    have hAp : ∀ i ≤ k, T *ᵥ p i = (al i : ℂ)⁻¹ • (r i - r (i + 1)) := by
      intro i hi
      rw [er i (by omega), sub_sub_cancel, smul_smul, inv_mul_cancel₀ (hal i hi), one_smul]
    have hz : ∀ i ≤ k, star (Q *ᵥ r (k + 1)) ⬝ᵥ T *ᵥ p i =
        (al i : ℂ)⁻¹ * (0 - star (r (k + 1)) ⬝ᵥ Q *ᵥ r (i + 1)) := by
      intro i hi
      rw [hAp i hi, dotProduct_smul, dotProduct_sub, hermitian_swap hQh, hermitian_swap hQh, h2 i hi]
      rfl
    refine ⟨fun i hi => h1 i (by omega), fun i hi => h2 i (by omega), fun i hi => ?_, ?_⟩
    · rw [ep k (by omega), star_add, add_dotProduct, sl, hz i (by omega)]
      rcases Nat.lt_or_ge i k with h | h
      · rw [h2 (i + 1) (by omega), (I k le_rfl).pp i h]
        simp
      · obtain rfl : i = k := by omega
        have a1 : ((star (r i) ⬝ᵥ Q *ᵥ r i).re : ℂ) ≠ 0 := Complex.ofReal_ne_zero.2 (hrs i le_rfl).ne'
        have a2 : ((star (p i) ⬝ᵥ T *ᵥ p i).re : ℂ) ≠ 0 := Complex.ofReal_ne_zero.2 (hpp i le_rfl).ne'
        rw [hermitian_real hQh, hermitian_real hTh, hald, Complex.ofReal_div, Complex.ofReal_div]
        simp only [Complex.ofReal_re]
        field_simp
        ring
    · rw [ep k (by omega), dotProduct_add, dotProduct_smul, h1 k le_rfl]
      simp

theorem complex_terminates {T Q : Matrix J J ℂ} (hT : T.PosDef) (hQ : Q.PosDef) {b x0 : J → ℂ} {n : ℕ}
    (hq : ComplexQuiet (T *ᵥ ·) (Q *ᵥ ·) b x0 n) (hn : Fintype.card J ≤ n) :
    (CplxCg.cgRun (T *ᵥ ·) (Q *ᵥ ·) b x0 n).r = 0 := by
  set S := CplxCg.cgRun (T *ᵥ ·) (Q *ᵥ ·) b x0 with hS
  have hTh := hT.isHermitian
  have hQh := hQ.isHermitian
  have hrs : ∀ i, (S i).rsold = (((star (S i).r ⬝ᵥ Q *ᵥ (S i).r).re : ℝ) : ℂ) := fun i => by
    rw [← hermitian_real hQh]
    exact CplxCg.cgRun_rsold _ _ b x0 i
  have hstep : ∀ i, S (i + 1) = CplxCg.cgBody (T *ᵥ ·) (Q *ᵥ ·) b (S i) i := fun i => CplxCg.cgRun_succ _ _ b x0 i
  have hstop : ∀ i, (S i).r = 0 → ∀ d, (S (i + d)).r = 0 := fun i h d => by
    induction d with
    | zero => exact h
    | succ d ih =>
      have h0 := hrs (i + d)
      rw [ih] at h0
      rw [← add_assoc, hstep, CplxCg.cgBody_eq]
      dsimp only
      rw [h0, ih]
      simp
  by_contra hc
  have hr : ∀ i ≤ n, (S i).r ≠ 0 := fun i hi h => by
    obtain ⟨d, rfl⟩ := Nat.exists_eq_add_of_le hi
    exact hc (hstop i h d)
  have hqi : ∀ i < n, S (i + 1) =
      (let al : ℂ := (((star (S i).r ⬝ᵥ Q *ᵥ (S i).r).re / (star (S i).p ⬝ᵥ T *ᵥ (S i).p).re : ℝ) : ℂ)
      let r := (S i).r - al • T *ᵥ (S i).p
      ⟨(S i).x + al • (S i).p, r, Q *ᵥ r + (((star r ⬝ᵥ Q *ᵥ r).re / (star (S i).r ⬝ᵥ Q *ᵥ (S i).r).re : ℝ) : ℂ) • (S i).p,
        star r ⬝ᵥ Q *ᵥ r⟩) := fun i hi => by
    obtain ⟨q1, q2⟩ := (hq i hi).resolve_left (hr i hi.le)
    change 1e-6 ≤ (S i).rsold.re at q2
    change 1e-6 ≤ (star (S i).p ⬝ᵥ T *ᵥ (S i).p).re at q1
    rw [hrs i, Complex.ofReal_re] at q2
    rw [hstep, CplxCg.cgBody_eq]
    dsimp only
    rw [hrs i, hermitian_real hTh (S i).p, clampMin_real, clampMin_real, Complex.ofReal_re, max_eq_left q1, max_eq_left q2,
      ← Complex.ofReal_div]
    set r := (S i).r - (((star (S i).r ⬝ᵥ Q *ᵥ (S i).r).re / (star (S i).p ⬝ᵥ T *ᵥ (S i).p).re : ℝ) : ℂ) • T *ᵥ (S i).p
    rw [Complex.ofReal_div (star r ⬝ᵥ Q *ᵥ r).re, ← hermitian_real hQh r]
  have I := complex_inv hT hQ (r := fun i => (S i).r) (p := fun i => (S i).p) (n := n) rfl
    (fun i hi => by rw [hqi i hi]) (fun i hi => by rw [hqi i hi]) (fun i hi => hr i hi.le)
  have horth : ∀ i j : Fin (n + 1), i ≠ j → star (S i).r ⬝ᵥ Q *ᵥ (S j).r = 0 := by
    intro i j hij
    rcases lt_or_gt_of_ne hij with h | h
    · have h1 := (I j (by omega)).rz i h
      rw [← hermitian_swap hQh, ← star_inner, h1, star_zero]
    · exact (I i (by omega)).rz j h
  have hli : LinearIndependent ℂ fun i : Fin (n + 1) => (S i).r := by
    rw [Fintype.linearIndependent_iff]
    intro g hg i
    have h0 : star (S i).r ⬝ᵥ Q *ᵥ (∑ j : Fin (n + 1), g j • (S j).r) = 0 := by
      rw [hg, Matrix.mulVec_zero, dotProduct_zero]
    rw [Matrix.mulVec_sum, dotProduct_sum, Finset.sum_eq_single i] at h0
    · rw [Matrix.mulVec_smul, dotProduct_smul, smul_eq_mul] at h0
      refine (mul_eq_zero.1 h0).resolve_right fun h => ?_
      have := posDef_re hQ (hr i (by omega))
      rw [h] at this
      exact lt_irrefl _ this
    · intro j _ hj
      rw [Matrix.mulVec_smul, dotProduct_smul, horth i j hj.symm, smul_zero]
    · simp
  have := hli.fintype_card_le_finrank
  simp at this
  omega

/-! ### real data -/

theorem ofReal_dot (u v : J → ℝ) :
    star (fun i => (u i : ℂ)) ⬝ᵥ (fun i => (v i : ℂ)) = ((u ⬝ᵥ v : ℝ) : ℂ) := by
  simp [dotProduct]

theorem ofReal_matrix (A : Matrix J J ℝ) (v : J → ℝ) :
    A.map Complex.ofReal *ᵥ (fun i => (v i : ℂ)) = fun i => (((A *ᵥ v) i : ℝ) : ℂ) := by
  funext i
  simp [Matrix.mulVec, dotProduct]

theorem ofReal_step (u v : J → ℝ) (a : ℝ) :
    (fun i => (u i : ℂ)) - (a : ℂ) • (fun i => (v i : ℂ)) = fun i => ((u - a • v) i : ℂ) := by
  funext i
  simp

theorem ofReal_step' (u v : J → ℝ) (a : ℝ) :
    (fun i => (u i : ℂ)) + (a : ℂ) • (fun i => (v i : ℂ)) = fun i => ((u + a • v) i : ℂ) := by
  funext i
  simp

/-- The run for real arrays that are given as complex ones. -/
theorem real_run (A M : Matrix J J ℝ) (c y0 : J → ℝ) (n : ℕ) :
    CplxCg.cgRun (A.map Complex.ofReal *ᵥ ·) (M.map Complex.ofReal *ᵥ ·) (fun i => (c i : ℂ)) (fun i => (y0 i : ℂ)) n =
      let s := cgRun (A *ᵥ ·) (M *ᵥ ·) c y0 n
      ⟨fun i => (s.x i : ℂ), fun i => (s.r i : ℂ), fun i => (s.p i : ℂ), (s.rsold : ℂ)⟩ := by
  induction n with
  | zero =>
    have e : (fun i => (c i : ℂ)) - (fun i => (((A *ᵥ y0) i : ℝ) : ℂ)) = fun i => ((c - A *ᵥ y0) i : ℂ) := by
      funext i
      simp
    show CplxCg.cgInit _ _ _ _ = _
    unfold CplxCg.cgInit CplxCg.innerProd
    dsimp only
    rw [ofReal_matrix, e, ofReal_matrix, ofReal_dot]
    rfl
  | succ n ih =>
    dsimp only at ih ⊢
    rw [CplxCg.cgRun_succ, ih, CplxCg.cgBody_eq, FBE.cgRun_succ, FBE.cgBody_eq]
    dsimp only
    rw [ofReal_matrix, ofReal_dot, clampMin_real, clampMin_real, ← Complex.ofReal_div, ofReal_step, ofReal_step', ofReal_matrix,
      ofReal_dot, ← Complex.ofReal_div, ofReal_step']

end FBE
