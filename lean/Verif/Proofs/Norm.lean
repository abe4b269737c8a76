import Verif.Proofs.Coherence

/-!
# Normalisation and ranges of the coherences
-/

set_option linter.unusedSectionVars false

namespace FBE

open Spec Matrix

variable {s : List ℕ} {r e c N M : ℕ}

/-- The factor applied by the normalisation. -/
noncomputable def gain (x : Fin N → ℝ) : ℝ := (max (sigNorm x) 1e-6)⁻¹

theorem gain_pos (x : Fin N → ℝ) : 0 < gain x :=
  inv_pos.2 (lt_max_of_lt_right (by norm_num))

theorem preprocess_eq (zm : Bool) (x : Fin N → ℝ) :
    preprocess zm x = fun t => gain (centred zm x) * centred zm x t := by
  funext t
  unfold preprocess normalize gain sigNorm centred removeMean
  cases zm
  · simp only [Bool.false_eq_true, if_false]
    rw [div_eq_mul_inv, mul_comm]
  · simp only [if_true]
    rw [div_eq_mul_inv, mul_comm]

theorem prep_eq (o : Opts) (x : Sig s c N) (m : BIdx s) (k : Fin c) :
    prep o x m k = fun t => gain (centred o.zeroMean (x m k)) * centred o.zeroMean (x m k) t :=
  preprocess_eq _ _

theorem sum_sq_smul (a : ℝ) (x : Fin N → ℝ) : ∑ t, (a * x t) ^ 2 = a ^ 2 * ∑ t, x t ^ 2 := by
  rw [Finset.mul_sum]
  exact Finset.sum_congr rfl fun t _ => by ring

theorem sigNorm_sq (x : Fin N → ℝ) : sigNorm x ^ 2 = ∑ t, x t ^ 2 :=
  Real.sq_sqrt (Finset.sum_nonneg fun _ _ => sq_nonneg _)

theorem sigNorm_nonneg (x : Fin N → ℝ) : 0 ≤ sigNorm x := Real.sqrt_nonneg _

theorem prep_sq_le (o : Opts) (x : Sig s c N) (m : BIdx s) (k : Fin c) :
    ∑ t, prep o x m k t ^ 2 ≤ 1 := by
  rw [prep_eq, sum_sq_smul, ← sigNorm_sq]
  unfold gain
  have h1 := sigNorm_nonneg (centred o.zeroMean (x m k))
  generalize sigNorm (centred o.zeroMean (x m k)) = a at *
  have h2 : a ≤ max a 1e-6 := le_max_left _ _
  have h3 : 0 < max a 1e-6 := lt_max_of_lt_right (by norm_num)
  rw [inv_pow, inv_mul_le_one₀ (by positivity)]
  exact pow_le_pow_left₀ h1 h2 2

theorem prep_sq_eq (o : Opts) (x : Sig s c N) (m : BIdx s) (k : Fin c)
    (h : 1e-6 ≤ sigNorm (centred o.zeroMean (x m k))) : ∑ t, prep o x m k t ^ 2 = 1 := by
  rw [prep_eq, sum_sq_smul, ← sigNorm_sq]
  unfold gain
  rw [max_eq_left h]
  have : 0 < sigNorm (centred o.zeroMean (x m k)) := lt_of_lt_of_le (by norm_num) h
  field_simp

theorem norm_le_one_of_sq {a : ℝ} (h0 : 0 ≤ a) (h : a ^ 2 ≤ 1) : a ≤ 1 := by nlinarith

/-! ### one-dimensional products -/

theorem dot_eq_inner (x y : Fin N → ℝ) : dot x y = inner ℝ (shift N x 0) (shift N y 0) := by
  rw [inner_space]
  unfold dot
  refine Finset.sum_congr rfl fun t _ => ?_
  rw [shift_apply, shift_apply, if_pos (Nat.zero_le _), if_pos (Nat.zero_le _), Nat.sub_zero,
    zpad_val, zpad_val]

/-- Every reference, not shifted. -/
noncomputable def oneFam (D : ℕ) (x : Fin r → Fin N → ℝ) : Fin r → Space D := fun k => shift D (x k) 0

theorem inner_shift_zero (D : ℕ) (hD : N ≤ D) (x y : Fin N → ℝ) :
    inner ℝ (shift D x 0) (shift D y 0) = dot x y := by
  rw [inner_shift D x y 0 0 le_rfl (by omega)]
  unfold corr dot
  refine Finset.sum_congr rfl fun t _ => ?_
  rw [Nat.sub_self, Nat.add_zero, zpad_val, mul_comm]

open Classical in
theorem cohSarOne_eq (D : ℕ) (hD : N ≤ D) (o : Opts) (ref : Sig s r N) (est : Sig s e N) :
    cohSarOne o ref est =
      if ∃ m : BIdx s, (gramD (oneFam D (prep o ref m)) o.load).det = 0 then .error .linAlgError
      else .ok fun m j => quad (oneFam D (prep o ref m)) o.load (shift D (prep o est m j) 0) := by
  have hb : ∀ (m : BIdx s) j, coeffs (oneFam D (prep o ref m)) (shift D (prep o est m j) 0) =
      fun k => dot (prep o ref m k) (prep o est m j) := by
    intro m j
    funext k
    exact inner_shift_zero D hD _ _
  have hg : ∀ m : BIdx s, (of fun k l => dot (prep o ref m k) (prep o ref m l)) =
      gram ℝ (oneFam D (prep o ref m)) := by
    intro m
    ext k l
    rw [gram_apply]
    exact (inner_shift_zero D hD _ _).symm
  have hA : (match o.loadDiag with
      | some d => fun m => (of fun k l => dot (prep o ref m k) (prep o ref m l)) +
          d • (1 : Matrix (Fin r) (Fin r) ℝ)
      | none => fun m => of fun k l => dot (prep o ref m k) (prep o ref m l)) =
      fun m : BIdx s => gramD (oneFam D (prep o ref m)) o.load := by
    funext m
    unfold gramD Opts.load
    cases o.loadDiag with
    | none => simp [hg]
    | some d => simp [hg]
  have key : cohSarOne o ref est = match solveStack
      (fun m : BIdx s => gramD (oneFam D (prep o ref m)) o.load)
      (fun m j k => dot (prep o ref m k) (prep o est m j)) with
      | .error err => .error err
      | .ok sol => .ok fun m j => ∑ k, dot (prep o ref m k) (prep o est m j) * sol m j k := by
    rw [← hA]
    rfl
  rw [key]
  unfold quad solveStack
  simp only [hb]
  by_cases h : ∃ m : BIdx s, (gramD (oneFam D (prep o ref m)) o.load).det = 0
  · rw [if_pos h, if_pos h]
  · rw [if_neg h, if_neg h]
    rfl

theorem gramD_fin_one {D : ℕ} (v : Fin 1 → Space D) (d : ℝ) :
    gramD v d = !![inner ℝ (v 0) (v 0) + d] := by
  ext i j
  fin_cases i; fin_cases j
  show inner ℝ (v 0) (v 0) + d * 1 = _
  rw [mul_one]; rfl

/-- A family with one vector. -/
theorem quad_fin_one {D : ℕ} (v : Fin 1 → Space D) (d : ℝ) (y : Space D) :
    quad v d y = inner ℝ (v 0) y ^ 2 / (inner ℝ (v 0) (v 0) + d) := by
  unfold quad coeffs
  rw [gramD_fin_one]
  simp [Matrix.mulVec, dotProduct]
  ring

/-! ### ranges -/

theorem proj_sq_le {D : ℕ} (K : Submodule ℝ (Space D)) (y : Space D) :
    ‖K.starProjection y‖ ^ 2 ≤ ‖y‖ ^ 2 :=
  pow_le_pow_left₀ (norm_nonneg _) (K.norm_starProjection_apply_le y) 2

theorem quad_le_one {J : Type*} [Fintype J] [DecidableEq J] {D : ℕ} (v : J → Space D) {d : ℝ}
    (hd : 0 ≤ d) (h : (gramD v d).det ≠ 0) {y : Space D} (hy : ‖y‖ ^ 2 ≤ 1) : quad v d y ≤ 1 :=
  ((quad_le_proj v y hd h).trans (proj_sq_le _ _)).trans hy

theorem cohSdrOne_range (x y : Fin N → ℝ) (hx : ∑ t, x t ^ 2 ≤ 1) (hy : ∑ t, y t ^ 2 ≤ 1) :
    dot x y ^ 2 ≤ 1 := by
  have hx' : ‖shift N x 0‖ ≤ 1 := norm_le_one_of_sq (norm_nonneg _)
    (by rwa [norm_shift_sq N x 0 (by omega)])
  have hy' : ‖shift N y 0‖ ≤ 1 := norm_le_one_of_sq (norm_nonneg _)
    (by rwa [norm_shift_sq N y 0 (by omega)])
  have h := abs_real_inner_le_norm (shift N x 0) (shift N y 0)
  rw [← dot_eq_inner] at h
  have h2 : |dot x y| ≤ 1 := h.trans (by nlinarith [norm_nonneg (shift N x 0), norm_nonneg (shift N y 0)])
  rw [← sq_abs]
  exact pow_le_one₀ (abs_nonneg _) h2

theorem nFft_le {N M n : ℕ} (h : nFft N M = .ok n) : N ≤ n := by
  have := nFft_bounds h
  omega

theorem nFft_ne {N M n : ℕ} (h : nFft N M = .ok n) : n ≠ 0 := by
  have := nFft_bounds h
  omega

/-- The circular family always applies. -/
theorem fam_of_nFft {o : Opts} {n : ℕ} (h : nFft N M = .ok n) :
    Fam N M (min o.filterLength n) n (fun x i => cshift n x i) (fun y => cshift n y 0) :=
  fam_cshift (nFft_ne h) (min_le_right _ _)

theorem sdrCohPair_range {B : Backend} (hB : Covered B) {o : Opts} (hdir : o.direct)
    (hload : 0 ≤ o.load) (ref : Sig s r N) (est : Sig s e M) {coh}
    (h : sdrCohPair B o ref est = .ok coh) (m : BIdx s) (k : Fin r) (j : Fin e) :
    0 ≤ coh m k j ∧ coh m k j ≤ 1 := by
  by_cases h0 : o.filterLength = 0
  · rw [sdrCohPair_zero B h0] at h; cases h
  by_cases h1 : o.filterLength = 1
  · by_cases hNM : M = N
    case neg => rw [sdrCohPair_ne B h1 hNM] at h; cases h
    subst hNM
    simp only [sdrCohPair_def] at h; rw [if_neg h0, if_pos h1] at h; cases h
    exact ⟨sq_nonneg _, cohSdrOne_range _ _ (prep_sq_le _ _ _ _) (prep_sq_le _ _ _ _)⟩
  have hcg := hdir.resolve_left h1
  cases hn : nFft N M with
  | error err => rw [sdrCohPair_gen B (by omega)] at h; unfold sdrCohPairGen at h; rw [hn] at h; cases h
  | ok n =>
    have F := fam_of_nFft (o := o) hn
    rw [sdrCohPair_direct hn rfl (by omega) F hB hcg] at h
    split at h
    · cases h
    · rename_i hs
      cases h
      push Not at hs
      have hs' := hs (m, k)
      exact ⟨quad_nonneg _ _ hload hs', quad_le_one _ hload hs' ((F.g_sq_le _).trans (prep_sq_le _ _ _ _))⟩

theorem refFam_eq_comp {D : ℕ} (f : (Fin N → ℝ) → ℕ → Space D) (K : ℕ) (x : Fin r → Fin N → ℝ)
    (k : Fin r) : refFam f K (x k) = allFam f K x ∘ fun l => (l, k) := rfl

/-- Everything about the coherences of `bss_eval_sources` (pairwise). -/
theorem sqCosPair_range {B : Backend} (hB : Covered B) {o : Opts} (hdir : o.direct)
    (hload : 0 ≤ o.load) (ref : Sig s r N) (est : Sig s e M) {sdr sar}
    (h : sqCosPair B o ref est = .ok (sdr, sar)) (m : BIdx s) (k : Fin r) (j : Fin e) :
    0 ≤ sdr m k j ∧ sdr m k j ≤ 1 ∧ 0 ≤ sar m j ∧ sar m j ≤ 1 ∧
      (o.filterLength ≠ 1 ∨ o.load = 0 → sdr m k j ≤ sar m j) := by
  by_cases h0 : o.filterLength = 0
  · rw [sqCosPair_zero B h0] at h; cases h
  by_cases h1 : o.filterLength = 1
  · by_cases hNM : M = N
    case neg => rw [sqCosPair_ne B h1 hNM] at h; cases h
    subst hNM
    simp only [sqCosPair_def] at h; rw [if_neg h0, if_pos h1, cohSarOne_eq M le_rfl] at h
    split at h
    · cases h
    · rename_i hs
      rename_i hs0
      split at hs
      · cases hs
      · rename_i hs1
        cases hs
        cases h
        push Not at hs1
        have hy : ‖shift M (prep o est m j) 0‖ ^ 2 ≤ 1 := by
          rw [norm_shift_sq M _ 0 (by omega)]; exact prep_sq_le _ _ _ _
        refine ⟨sq_nonneg _, cohSdrOne_range _ _ (prep_sq_le _ _ _ _) (prep_sq_le _ _ _ _),
          quad_nonneg _ _ hload (hs1 m), quad_le_one _ hload (hs1 m) hy, fun hor => ?_⟩
        have hl : o.load = 0 := hor.resolve_left (fun h => h h1)
        -- ⟨x, y⟩² ≤ 2 t ⟨x, y⟩ - t² ‖x‖² at t = ⟨x, y⟩
        have key := schur (gramD_posSemidef (oneFam M (prep o ref m)) hload)
          (mulVec_inv (hs1 m) (coeffs (oneFam M (prep o ref m)) (shift M (prep o est m j) 0)))
          (Pi.single k (dot (prep o ref m k) (prep o est m j)))
        rw [gramD_mulVec, hl, zero_smul, add_zero, coeffs_dot] at key
        rw [dotProduct_comm, coeffs_dot] at key
        simp only [Pi.single_apply, ite_smul, zero_smul, Finset.sum_ite_eq', Finset.mem_univ,
          if_true] at key
        rw [real_inner_smul_left, real_inner_smul_left, real_inner_smul_right] at key
        have e1 : inner ℝ (oneFam M (prep o ref m) k) (shift M (prep o est m j) 0) =
          dot (prep o ref m k) (prep o est m j) := inner_shift_zero M le_rfl _ _
        have e2 : inner ℝ (oneFam M (prep o ref m) k) (oneFam M (prep o ref m) k) ≤ 1 := by
          unfold oneFam
          rw [real_inner_self_eq_norm_sq, norm_shift_sq M _ 0 (by omega)]
          exact prep_sq_le _ _ _ _
        rw [e1] at key
        show dot (prep o ref m k) (prep o est m j) ^ 2 ≤ quad _ _ _
        unfold quad
        rw [hl]
        refine le_trans ?_ key
        nlinarith [sq_nonneg (dot (prep o ref m k) (prep o est m j))]
  have hcg := hdir.resolve_left h1
  cases hn : nFft N M with
  | error err => rw [sqCosPair_gen B (by omega)] at h; unfold sqCosPairGen at h; rw [hn] at h; cases h
  | ok n =>
    by_cases hLn : o.filterLength ≤ n
    · have F := fam_of_nFft (o := o) hn
      rw [sqCosPair_direct hn rfl (by omega) F hLn hB hcg] at h
      split at h
      · cases h
      · rename_i hs
        cases h
        push Not at hs
        have hs1 := hs.1 (m, k)
        have hs2 := hs.2 m
        have hy : ‖cshift n (prep o est m j) 0‖ ^ 2 ≤ 1 := (F.g_sq_le _).trans (prep_sq_le _ _ _ _)
        refine ⟨quad_nonneg _ _ hload hs1, quad_le_one _ hload hs1 hy,
          quad_nonneg _ _ hload hs2, quad_le_one _ hload hs2 hy, fun _ => ?_⟩
        exact quad_mono _ _ (fun l => (l, k)) (fun a b hab => (Prod.mk.inj hab).1) hload hs2 hs1
    · rw [sqCosPair_gen B (by omega)] at h; unfold sqCosPairGen at h
      rw [hn] at h
      have hne := nFft_ne hn
      have hK : min o.filterLength (min o.filterLength n + min o.filterLength n) ≠
        min o.filterLength n := by omega
      simp only at h
      rw [if_pos hK] at h
      cases h

end FBE
