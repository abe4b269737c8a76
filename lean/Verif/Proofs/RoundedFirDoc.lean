import Verif.Proofs.RoundedFir
import Verif.Proofs.RoundedPerm
import Verif.Proofs.AngleDoc

/-!
# The computed coherence against the documented quantities
-/

namespace FBE.Rounded

open Spec Matrix

variable {p N K : ℕ}

theorem sum_smul_shifts (D : ℕ) (x : Fin N → ℝ) (h : Fin K → ℝ) (t : Fin D) :
    (∑ i, h i • shifts D K x i) t = filtered h x t := by
  simp [shifts, shift_apply, filtered]

theorem conditioned_coercive {μ l : ℝ} {x : Fin N → ℝ} (h : Conditioned K μ l x) :
    Coercive (shifts (N + K - 1) K (unitSig x)) μ l := by
  intro w
  have h1 := h w
  rw [gramD_quad]
  have h2 : ‖∑ i, w i • shifts (N + K - 1) K (unitSig x) i‖ ^ 2 =
      ∑ t ∈ Finset.range (N + K - 1), filtered w (unitSig x) t ^ 2 := by
    have := energy_eq_sum (∑ i, w i • shifts (N + K - 1) K (unitSig x) i)
    unfold energy at this
    rw [this, Finset.sum_range]
    exact Finset.sum_congr rfl fun t _ => by rw [sum_smul_shifts]
  have h3 : w ⬝ᵥ w = ∑ i, w i ^ 2 := Finset.sum_congr rfl fun i _ => (sq _).symm
  rw [h2, h3]
  exact h1

/-- The least regularised residual, for any family. -/
theorem quad_least_fam {J : Type} [Fintype J] [DecidableEq J] {D : ℕ} {v : J → Space D} {u : Space D} (hu1 : ‖u‖ ^ 2 = 1) {μ : ℝ}
    (hμ : 0 ≤ μ) (hdet : (gramD v μ).det ≠ 0) :
    IsLeast (Set.range fun w : J → ℝ => energy (u - ∑ i, w i • v i) + μ * ∑ i, w i ^ 2) (1 - quad v μ u) := by
  have hcost : ∀ w : J → ℝ, energy (u - ∑ i, w i • v i) + μ * ∑ i, w i ^ 2 =
      1 - (2 * (coeffs v u ⬝ᵥ w) - w ⬝ᵥ (gramD v μ *ᵥ w)) := fun w => by
    rw [gramD_quad, coeffs_dot]
    have h3 : w ⬝ᵥ w = ∑ i, w i ^ 2 := Finset.sum_congr rfl fun i _ => (sq _).symm
    rw [h3]
    unfold energy
    rw [norm_sub_sq_real, hu1, real_inner_comm]
    ring
  constructor
  · refine ⟨(gramD v μ)⁻¹ *ᵥ coeffs v u, ?_⟩
    dsimp only
    rw [hcost, mulVec_inv hdet]
    unfold quad
    rw [dotProduct_comm ((gramD v μ)⁻¹ *ᵥ coeffs v u)]
    ring
  · rintro _ ⟨w, rfl⟩
    dsimp only
    rw [hcost]
    have := schur (gramD_posSemidef v hμ) (mulVec_inv hdet (coeffs v u)) w
    unfold quad
    linarith

theorem norm_shift_unit {D : ℕ} (hD : N ≤ D) {y : Fin N → ℝ} (hy : 0 < sigNorm y) : ‖shift D (unitSig y) 0‖ ^ 2 = 1 := by
  rw [norm_shift_sq _ _ _ (by omega)]
  have := Real.sq_sqrt (Finset.sum_nonneg fun t (_ : t ∈ Finset.univ) => sq_nonneg (unitSig y t))
  rw [← this]
  change sigNorm (unitSig y) ^ 2 = 1
  rw [sigNorm_unitSig hy, one_pow]

/-- The least regularised residual. -/
theorem quad_least {μ l : ℝ} (hμ : 0 ≤ μ) (hl : 0 < l) {x y : Fin N → ℝ} (hK : 1 ≤ K) (h : Conditioned K μ l x)
    (hy : 0 < sigNorm y) : IsLeast (Set.range (regularisedResidual (K := K) μ x y))
      (1 - quad (shifts (N + K - 1) K (unitSig x)) μ (shift (N + K - 1) (unitSig y) 0)) := by
  have h1 := quad_least_fam (norm_shift_unit (D := N + K - 1) (by omega) hy) hμ ((conditioned_coercive h).det_ne_zero hl)
  have h2 : regularisedResidual (K := K) μ x y = fun w => energy (shift (N + K - 1) (unitSig y) 0 -
      ∑ i, w i • shifts (N + K - 1) K (unitSig x) i) + μ * ∑ i, w i ^ 2 := by
    funext w
    unfold regularisedResidual
    rw [residualOne_eq]
    rfl
  rw [h2]
  exact h1

/-- Without regularisation: the projection. -/
theorem quad_doc {l : ℝ} (hl : 0 < l) {x y : Fin N → ℝ} (h : Conditioned K 0 l x) (hx : 0 < sigNorm x)
    (hy : 0 < sigNorm y) :
    quad (shifts (N + K - 1) K (unitSig x)) 0 (shift (N + K - 1) (unitSig y) 0) * sigNorm y ^ 2 =
      energy ((spanOne (N + K - 1) K x).starProjection (shift (N + K - 1) y 0)) := by
  have hdet := (conditioned_coercive h).det_ne_zero hl
  rw [gramD_zero] at hdet
  rw [quad_eq_proj _ _ hdet]
  have h1 : famSpan (shifts (N + K - 1) K (unitSig x)) = spanOne (N + K - 1) K x := by
    have e : unitSig x = fun t => (sigNorm x)⁻¹ * x t := by funext t; unfold unitSig; rw [div_eq_inv_mul]
    rw [e]
    exact spanOne_smul (N + K - 1) K (inv_ne_zero hx.ne') x
  have h2 : shift (N + K - 1) (unitSig y) 0 = (sigNorm y)⁻¹ • shift (N + K - 1) y 0 := by
    have e : unitSig y = fun t => (sigNorm y)⁻¹ * y t := by funext t; unfold unitSig; rw [div_eq_inv_mul]
    rw [e, shift_smul]
  rw [h1, h2, map_smul, norm_smul, mul_pow, Real.norm_eq_abs, sq_abs]
  unfold energy
  field_simp

/-- One tap. -/
theorem quad_one {D : ℕ} (hD : N ≤ D) {x y : Fin N → ℝ} (hx : sigNorm x = 1) :
    quad (shifts D 1 x) 0 (shift D y 0) = (∑ t, x t * y t) ^ 2 := by
  have hG : gramD (shifts D 1 x) 0 = 1 := by
    rw [gramD_zero]
    ext i j
    have hij : i = j := Subsingleton.elim _ _
    subst hij
    rw [Matrix.one_apply_eq]
    show inner ℝ (shifts D 1 x i) (shifts D 1 x i) = 1
    rw [real_inner_self_eq_norm_sq, shifts_norm (by omega) hx, one_pow]
  unfold quad
  rw [hG, inv_one, one_mulVec]
  unfold dotProduct
  rw [Fin.sum_univ_one, ← sq]
  congr 1
  show inner ℝ (shift D x 0) (shift D y 0) = _
  rw [inner_shift D x y 0 0 le_rfl (by omega)]
  unfold corr
  refine Finset.sum_congr rfl fun t _ => ?_
  rw [Nat.sub_self, Nat.add_zero, zpad_val, mul_comm]

theorem sum_mul_le_sigNorm (x y : Fin N → ℝ) : |∑ t, x t * y t| ≤ sigNorm x * sigNorm y := by
  refine (Finset.abs_sum_le_sum_abs _ _).trans ?_
  have := Real.sum_mul_le_sqrt_mul_sqrt Finset.univ (fun t => |x t|) (fun t => |y t|)
  simp only [sq_abs, ← abs_mul] at this
  exact this

theorem sum_abs_mul_le_sigNorm (x y : Fin N → ℝ) : ∑ t, |x t * y t| ≤ sigNorm x * sigNorm y := by
  have := Real.sum_mul_le_sqrt_mul_sqrt Finset.univ (fun t => |x t|) (fun t => |y t|)
  simp only [sq_abs, ← abs_mul] at this
  exact this

/-- A sum over the samples of preprocessed signals. -/
theorem dot_close {A : Accuracy} {x y x' y' : Fin N → ℝ} (hx : sigNorm x = 1)
    (hy : sigNorm y = 1) {B : ℝ} (hB0 : (A.k + 4) * unit p ≤ B) (hB : B ≤ 0.0053)
    (hx' : sigNorm (fun t => x' t - x t) ≤ 3 * B) (hy' : sigNorm (fun t => y' t - y t) ≤ 3 * B)
    {c : ℝ} (hc : IsDot (2 ^ (-p : ℤ)) x' y' A.k Finset.univ c) : |c - ∑ t, x t * y t| ≤ 7.11 * B := by
  have hu0 := unit_pos (p := p)
  have hk0 : (0 : ℝ) ≤ A.k := Nat.cast_nonneg _
  have hku0 : 0 ≤ (A.k : ℝ) * unit p := by positivity
  have hB00 : 0 ≤ B := by linarith
  have h1 := hc.err' (u := unit p) hu0.le (by linarith)
  have nx : sigNorm x' ≤ 1 + 3 * B := (sigNorm_le_of_sub x' x).trans (by linarith)
  have ny : sigNorm y' ≤ 1 + 3 * B := (sigNorm_le_of_sub y' y).trans (by linarith)
  have n0 : sigNorm x' * sigNorm y' ≤ 1.04 := by
    calc _ ≤ (1 + 3 * B) * (1 + 3 * B) := mul_le_mul nx ny (sigNorm_nonneg' _) (by positivity)
      _ ≤ _ := by nlinarith
  have h2 : |c - ∑ t, x' t * y' t| ≤ 1.051 * (A.k * unit p) := by
    refine h1.trans ?_
    have := mul_le_mul_of_nonneg_left ((sum_abs_mul_le_sigNorm x' y').trans n0) (by positivity : 0 ≤ 1.01 * (A.k * unit p))
    linarith
  have h3 : |∑ t, x' t * y' t - ∑ t, x t * y t| ≤ 6.05 * B := by
    have e : ∑ t, x' t * y' t - ∑ t, x t * y t = ∑ t, (x' t - x t) * y' t + ∑ t, x t * (y' t - y t) := by
      rw [← Finset.sum_sub_distrib, ← Finset.sum_add_distrib]
      exact Finset.sum_congr rfl fun t _ => by ring
    rw [e]
    refine (abs_add_le _ _).trans ?_
    have a1 := sum_mul_le_sigNorm (fun t => x' t - x t) y'
    have a2 := sum_mul_le_sigNorm x (fun t => y' t - y t)
    have a3 : sigNorm (fun t => x' t - x t) * sigNorm y' ≤ 3 * B * (1 + 3 * B) :=
      mul_le_mul hx' ny (sigNorm_nonneg' _) (by positivity)
    rw [hx, one_mul] at a2
    nlinarith
  have := abs_sub_le c (∑ t, x' t * y' t) (∑ t, x t * y t)
  linarith

theorem IsOneTapCoherence.close {E : Machine p} {A : Accuracy} {x y x' y' : Fin N → ℝ} (hx : sigNorm x = 1)
    (hy : sigNorm y = 1) {B : ℝ} (hB0 : (A.k + 4) * unit p ≤ B) (hB : B ≤ 0.0053)
    (hx' : sigNorm (fun t => x' t - x t) ≤ 3 * B) (hy' : sigNorm (fun t => y' t - y t) ≤ 3 * B)
    {coh : ℝ} (h : IsOneTapCoherence E A x' y' coh) : |coh - (∑ t, x t * y t) ^ 2| ≤ 15 * B := by
  obtain ⟨c, hc, rfl⟩ := h
  have hu0 := unit_pos (p := p)
  have hk0 : (0 : ℝ) ≤ A.k := Nat.cast_nonneg _
  have hku0 : 0 ≤ (A.k : ℝ) * unit p := by positivity
  have hB00 : 0 ≤ B := by linarith
  have h4 := dot_close hx hy hB0 hB hx' hy' hc
  set q := ∑ t, x t * y t
  have hq : |q| ≤ 1 := by
    have := sum_mul_le_sigNorm x y
    rwa [hx, hy, one_mul] at this
  have h5 : |c + q| ≤ 2.04 := by
    have e : c + q = (c - q) + 2 * q := by ring
    rw [e]
    refine (abs_add_le _ _).trans ?_
    rw [abs_mul, abs_two]
    linarith
  have h6 : |c * c - q ^ 2| ≤ 14.51 * B := by
    have e : c * c - q ^ 2 = (c - q) * (c + q) := by ring
    rw [e, abs_mul]
    calc _ ≤ 7.11 * B * 2.04 := mul_le_mul h4 h5 (abs_nonneg _) (by positivity)
      _ ≤ _ := by linarith
  have h7 : |E.fl (c * c) - c * c| ≤ unit p * |c * c| := E.fl_nearest.rel _
  have h8 : |c * c| ≤ 1.1 := by
    have := abs_add_le (c * c - q ^ 2) (q ^ 2)
    rw [sub_add_cancel] at this
    have hq2 : |q ^ 2| ≤ 1 := by rw [abs_pow]; exact pow_le_one₀ (abs_nonneg _) hq
    linarith
  have h9 : unit p * |c * c| ≤ unit p * 1.1 := by gcongr
  have := abs_sub_le (E.fl (c * c)) (c * c) (q ^ 2)
  linarith

/-- The coherence of `sdr_loss`. -/
theorem IsSdrCoherence.close {E : Machine p} {A : Accuracy} (hp : 11 ≤ p) (hK : 1 ≤ K) (hfit : FilterFits N K) {zm : Bool}
    {load : Option ℝ} (hload : 0 ≤ load.getD 0) {x y : Fin N → ℝ} (hx : 3e-6 ≤ sigNorm (centred zm x))
    (hy : 3e-6 ≤ sigNorm (centred zm y)) {ρ : ℝ} (hρ : 1 ≤ ρ) (hρx : sigNorm x ≤ ρ * sigNorm (centred zm x))
    (hρy : sigNorm y ≤ ρ * sigNorm (centred zm y)) {l : ℝ} (hl : 0 < l)
    (hco : Conditioned K (effectiveLoad K load) l (centred zm x))
    (hδ : firErr p A.k K ρ A.fft A.solve (effectiveLoad K load) l ≤ 1 / 4) {coh : ℝ}
    (h : IsSdrCoherence E A K zm load x y coh) :
    |coh - quad (shifts (N + K - 1) K (unitSig (centred zm x))) (effectiveLoad K load)
        (shift (N + K - 1) (unitSig (centred zm y)) 0)| ≤
      firErr p A.k K ρ A.fft A.solve (effectiveLoad K load) l := by
  obtain ⟨xc, yc, x', y', hxc, hyc, hx', hy', hcoh⟩ := h
  have hu0 := unit_pos (p := p)
  have hk0 : (0 : ℝ) ≤ A.k := Nat.cast_nonneg _
  have hSx : 0 < sigNorm (centred zm x) := lt_of_lt_of_le (by norm_num) hx
  have hSy : 0 < sigNorm (centred zm y) := lt_of_lt_of_le (by norm_num) hy
  have nx := sigNorm_unitSig hSx
  have ny := sigNorm_unitSig hSy
  have hμ0 : 0 ≤ effectiveLoad K load := by unfold effectiveLoad; split <;> simp [hload]
  have hl1 : l ≤ 1 + effectiveLoad K load := coercive_le (by omega) hK nx (conditioned_coercive hco)
  have hfft := A.fft_nonneg
  have hsol := A.solve_nonneg
  have hkρ : (A.k + 4) * unit p ≤ (A.k + 4) * ρ * unit p := by
    have : (A.k + 4 : ℝ) ≤ (A.k + 4) * ρ := le_mul_of_one_le_right (by linarith) hρ
    gcongr
  have hB0 : 0 ≤ (A.k + 4) * ρ * unit p := by positivity
  have hC1 : 1 ≤ (K : ℝ) * (1 + effectiveLoad K load) / l := by
    have : (1 : ℝ) ≤ K := by exact_mod_cast hK
    rw [le_div_iff₀ hl, one_mul]
    nlinarith
  have hδ' : 48 * ((A.k + 4) * ρ * unit p) + 24 * A.fft + 2 * A.solve ≤
      firErr p A.k K ρ A.fft A.solve (effectiveLoad K load) l := by
    unfold firErr
    exact le_mul_of_one_le_left (by positivity) hC1
  have hB : (A.k + 4) * ρ * unit p ≤ 0.0053 := by linarith
  have px := prep_close hp hxc hx' hx hρ hρx hB
  have py := prep_close hp hyc hy' hy hρ hρy hB
  by_cases hK1 : K = 1
  · subst hK1
    rw [if_pos rfl] at hcoh
    have hμ : effectiveLoad 1 load = 0 := if_pos rfl
    have h1 := hcoh.close nx ny hkρ hB px py
    rw [hμ] at hδ' ⊢
    rw [quad_one (by omega) nx]
    linarith
  · rw [if_neg hK1] at hcoh
    have hμ : effectiveLoad K load = load.getD 0 := if_neg hK1
    rw [hμ] at hl1 hco hδ ⊢
    exact hcoh.close hp (by omega) hfit hload nx ny hρ px py hl hl1 (conditioned_coercive hco) hδ

theorem effectiveLoad_nonneg (K : ℕ) {load : Option ℝ} (hload : 0 ≤ load.getD 0) : 0 ≤ effectiveLoad K load := by
  unfold effectiveLoad; split <;> simp [hload]

theorem prep_small {A : Accuracy} (hK : 1 ≤ K) {ρ μ l : ℝ} (hρ : 1 ≤ ρ) (hl : 0 < l) (hl1 : l ≤ 1 + μ)
    (hδ : firErr p A.k K ρ A.fft A.solve μ l ≤ 1 / 4) : (A.k + 4) * ρ * unit p ≤ 0.0053 := by
  have hfft := A.fft_nonneg
  have hsol := A.solve_nonneg
  have hk0 : (0 : ℝ) ≤ A.k := Nat.cast_nonneg _
  have hu0 := unit_pos (p := p)
  have hB0 : 0 ≤ (A.k + 4) * ρ * unit p := by positivity
  have hC1 : 1 ≤ (K : ℝ) * (1 + μ) / l := by
    have : (1 : ℝ) ≤ K := by exact_mod_cast hK
    rw [le_div_iff₀ hl, one_mul]
    nlinarith
  have hδ' : 48 * ((A.k + 4) * ρ * unit p) + 24 * A.fft + 2 * A.solve ≤ firErr p A.k K ρ A.fft A.solve μ l := by
    unfold firErr
    exact le_mul_of_one_le_left (by positivity) hC1
  linarith

/-- The squared coherence is between zero and one. -/
theorem quad_mem {μ l : ℝ} (hμ : 0 ≤ μ) (hl : 0 < l) {x y : Fin N → ℝ} (hK : 1 ≤ K) (h : Conditioned K μ l x)
    (hy : 0 < sigNorm y) :
    0 ≤ quad (shifts (N + K - 1) K (unitSig x)) μ (shift (N + K - 1) (unitSig y) 0) ∧
      quad (shifts (N + K - 1) K (unitSig x)) μ (shift (N + K - 1) (unitSig y) 0) ≤ 1 := by
  have hdet := (conditioned_coercive h).det_ne_zero hl
  refine ⟨quad_nonneg _ _ hμ hdet, quad_le_one_of_norm _ hμ hdet ?_⟩
  have h1 := norm_shift_sq (N + K - 1) (unitSig y) 0 (by omega)
  have h2 := Real.sq_sqrt (Finset.sum_nonneg fun t (_ : t ∈ Finset.univ) => sq_nonneg (unitSig y t))
  rw [← h2] at h1
  change _ = sigNorm (unitSig y) ^ 2 at h1
  rw [sigNorm_unitSig hy, one_pow] at h1
  have h0 : (0 : ℝ) ≤ ‖shift (N + K - 1) (unitSig y) 0‖ := norm_nonneg _
  nlinarith

theorem unit_le_firErr {k : ℕ} (hK : 1 ≤ K) {ρ ε ε' μ l : ℝ} (hρ : 1 ≤ ρ) (hε : 0 ≤ ε) (hε' : 0 ≤ ε') (hl : 0 < l)
    (hl1 : l ≤ 1 + μ) : (2 : ℝ) ^ (1 - p : ℤ) ≤ firErr p k K ρ ε ε' μ l := by
  have hu0 := unit_pos (p := p)
  have hup : (2 : ℝ) ^ (1 - p : ℤ) = 2 * unit p := by
    unfold unit; rw [sub_eq_add_neg, zpow_add₀ (by norm_num)]; norm_num
  have hk0 : (0 : ℝ) ≤ k := Nat.cast_nonneg _
  have hkρ : (k + 4) * unit p ≤ (k + 4) * ρ * unit p := by
    have : (k + 4 : ℝ) ≤ (k + 4) * ρ := le_mul_of_one_le_right (by linarith) hρ
    gcongr
  have hC1 : 1 ≤ (K : ℝ) * (1 + μ) / l := by
    have : (1 : ℝ) ≤ K := by exact_mod_cast hK
    rw [le_div_iff₀ hl, one_mul]
    nlinarith
  have hku0 : 0 ≤ (k : ℝ) * unit p := by positivity
  have hB0 : 0 ≤ (k + 4) * ρ * unit p := by positivity
  have : 48 * ((k + 4) * ρ * unit p) + 24 * ε + 2 * ε' ≤ firErr p k K ρ ε ε' μ l := by
    unfold firErr
    exact le_mul_of_one_le_left (by positivity) hC1
  rw [hup]
  linarith

/-- The decibel value. -/
theorem IsSdrLoss.close {E : Machine p} {A : Accuracy} (hp : 11 ≤ p) (hK : 1 ≤ K) (hfit : FilterFits N K) {zm : Bool}
    {load : Option ℝ} (hload : 0 ≤ load.getD 0) {d : ℝ} (hd : 0 ≤ d) (hd' : d ≤ 1000) {x y : Fin N → ℝ}
    (hx : 3e-6 ≤ sigNorm (centred zm x))
    (hy : 3e-6 ≤ sigNorm (centred zm y)) {ρ : ℝ} (hρ : 1 ≤ ρ) (hρx : sigNorm x ≤ ρ * sigNorm (centred zm x))
    (hρy : sigNorm y ≤ ρ * sigNorm (centred zm y)) {l : ℝ} (hl : 0 < l)
    (hco : Conditioned K (effectiveLoad K load) l (centred zm x))
    {δ : ℝ} (hδ : firErr p A.k K ρ A.fft A.solve (effectiveLoad K load) l ≤ δ)
    (hlim : 2 * (δ + 2 ^ (-40 : ℤ)) * ((10 : ℝ) ^ (d / 10) + 1) ≤ 1) {v : XR}
    (h : IsSdrLoss E A K zm load (some d) y x v) :
    ∃ w, v = .fin w ∧ Representable p w ∧
      |w - -limitedSdr d K (effectiveLoad K load) (centred zm x) (centred zm y)| ≤
        10 * (δ + 2 ^ (-40 : ℤ)) * ((10 : ℝ) ^ (d / 10) + 3) + 2 ^ (5 - p : ℤ) * (d + 1) := by
  obtain ⟨coh, hcoh, rfl⟩ := h
  have hSx : 0 < sigNorm (centred zm x) := lt_of_lt_of_le (by norm_num) hx
  have hSy : 0 < sigNorm (centred zm y) := lt_of_lt_of_le (by norm_num) hy
  have nx := sigNorm_unitSig hSx
  have hμ0 := effectiveLoad_nonneg K hload
  have hl1 : l ≤ 1 + effectiveLoad K load := coercive_le (D := N + K - 1) (by omega) hK nx (conditioned_coercive hco)
  have hup : (2 : ℝ) ^ (1 - p : ℤ) ≤ δ := (unit_le_firErr hK hρ A.fft_nonneg A.solve_nonneg hl hl1).trans hδ
  have hδ0 : 0 < δ := lt_of_lt_of_le (by positivity) hup
  have hG : (1 : ℝ) ≤ 10 ^ (d / 10) := Real.one_le_rpow (by norm_num) (by positivity)
  have h40 : (0 : ℝ) < 2 ^ (-40 : ℤ) := by positivity
  have hδ4 : δ ≤ 1 / 4 := by nlinarith
  have hc := (hcoh.close hp hK hfit hload hx hy hρ hρx hρy hl hco (hδ.trans hδ4)).trans hδ
  have hle : leastResidual K (effectiveLoad K load) (centred zm x) (centred zm y) = _ :=
    (quad_least hμ0 hl hK hco hSy).csInf_eq
  obtain ⟨hq0, hq1⟩ := quad_mem (y := centred zm y) hμ0 hl hK hco hSy
  obtain ⟨w, h1, h2, h3⟩ := clamped_close_of E hp hd hd' hup hlim one_pos hq0 hq1 hc
  refine ⟨w, h1, h2, ?_⟩
  unfold limitedSdr
  rw [hle, sub_sub_cancel]
  simpa only [mul_one] using h3

/-- There is an outcome. -/
theorem exists_sdrLoss (E : Machine p) {A : Accuracy} (hp : 11 ≤ p) (hN : N ≤ A.k) (hKk : K ≤ A.k) (hK : 1 ≤ K)
    (hfit : FilterFits N K) {zm : Bool}
    {load : Option ℝ} (hload : 0 ≤ load.getD 0) (cd : Option ℝ) {x y : Fin N → ℝ} (hx : 3e-6 ≤ sigNorm (centred zm x))
    (hy : 3e-6 ≤ sigNorm (centred zm y)) {ρ : ℝ} (hρ : 1 ≤ ρ) (hρx : sigNorm x ≤ ρ * sigNorm (centred zm x))
    (hρy : sigNorm y ≤ ρ * sigNorm (centred zm y)) {l : ℝ} (hl : 0 < l)
    (hco : Conditioned K (effectiveLoad K load) l (centred zm x))
    (hδ : firErr p A.k K ρ A.fft A.solve (effectiveLoad K load) l ≤ 1 / 4) :
    ∃ v, IsSdrLoss E A K zm load cd y x v := by
  have hSx : 0 < sigNorm (centred zm x) := lt_of_lt_of_le (by norm_num) hx
  have hSy : 0 < sigNorm (centred zm y) := lt_of_lt_of_le (by norm_num) hy
  have nx := sigNorm_unitSig hSx
  have ny := sigNorm_unitSig hSy
  have hl1 : l ≤ 1 + effectiveLoad K load := coercive_le (D := N + K - 1) (by omega) hK nx (conditioned_coercive hco)
  have hN0 : 0 < N := by
    rcases Nat.eq_zero_or_pos N with h0 | h0
    · subst h0
      simp [sigNorm] at nx
    · exact h0
  have hdot : ∀ a b : Fin N → ℝ, ∃ c, IsDot (2 ^ (-p : ℤ)) a b A.k Finset.univ c := fun a b => by
    obtain ⟨c, hc⟩ := exists_isDot (u := 2 ^ (-p : ℤ)) (by positivity) a b Finset.univ ⟨⟨0, hN0⟩, Finset.mem_univ _⟩
    rw [Finset.card_univ, Fintype.card_fin] at hc
    exact ⟨c, hc.mono hN⟩
  have hnorm : ∀ a : Fin N → ℝ, ∃ a', IsNormalized E A.k a a' := fun a => by
    obtain ⟨q, hq⟩ := hdot a a
    exact ⟨_, q, √q, hq, by rw [sub_self, abs_zero]; positivity, fun t => rfl⟩
  have hcen : ∀ a : Fin N → ℝ, ∃ a', IsCentred E A.k zm a a' := fun a => by
    cases zm with
    | false => exact ⟨a, by unfold IsCentred; rw [if_neg (by simp)]⟩
    | true =>
      obtain ⟨q, hq⟩ := hdot a (fun _ => 1)
      refine ⟨fun t => E.fl (a t - q / N), ?_⟩
      unfold IsCentred
      rw [if_pos rfl]
      exact ⟨q, q / N, hq, by rw [sub_self, abs_zero]; positivity, fun t => rfl⟩
  obtain ⟨xc, hxc⟩ := hcen x
  obtain ⟨yc, hyc⟩ := hcen y
  obtain ⟨x', hx'⟩ := hnorm xc
  obtain ⟨y', hy'⟩ := hnorm yc
  suffices h : ∃ coh, if K = 1 then IsOneTapCoherence E A x' y' coh else IsFirCoherence E A K load x' y' coh by
    obtain ⟨coh, h⟩ := h
    exact ⟨_, coh, ⟨xc, yc, x', y', hxc, hyc, hx', hy', h⟩, rfl⟩
  by_cases hK1 : K = 1
  · obtain ⟨c, hc⟩ := hdot x' y'
    exact ⟨_, by rw [if_pos hK1]; exact ⟨c, hc, rfl⟩⟩
  · have hμ : effectiveLoad K load = load.getD 0 := if_neg hK1
    have hB := prep_small hK hρ hl hl1 hδ
    have px := prep_close hp hxc hx' hx hρ hρx hB
    have py := prep_close hp hyc hy' hy hρ hρy hB
    rw [hμ] at hl1 hco hδ
    set n := fftSize N with hn
    let X : ℕ → ℂ := fun f => (rfft n (List.ofFn x')).getD f 0
    let Y : ℕ → ℂ := fun f => (rfft n (List.ofFn y')).getD f 0
    let Z : ℕ → ℂ := fun f => (starRingEnd ℂ) (X f) * X f
    let W : ℕ → ℂ := fun f => (starRingEnd ℂ) (X f) * Y f
    let acf : ℕ → ℝ := fun t => (irfft n ((List.range (n / 2 + 1)).map Z)).getD t 0
    let xcorr : ℕ → ℝ := fun t => (irfft n ((List.range (n / 2 + 1)).map W)).getD t 0
    have hfft := A.fft_nonneg
    have hst : IsStats p A n x' y' acf xcorr := by
      refine ⟨X, Y, ?_, ?_, ⟨Z, ?_, ?_⟩, ⟨W, ?_, ?_⟩⟩
      · unfold IsRfft
        simp only [X, sub_self, norm_zero]
        simp only [ne_eq, OfNat.ofNat_ne_zero, not_false_eq_true, zero_pow, Finset.sum_const_zero]
        positivity
      · unfold IsRfft
        simp only [Y, sub_self, norm_zero]
        simp only [ne_eq, OfNat.ofNat_ne_zero, not_false_eq_true, zero_pow, Finset.sum_const_zero]
        positivity
      · intro f; simp only [Z, sub_self, norm_zero]; positivity
      · intro t _; simp only [acf, sub_self, abs_zero]; positivity
      · intro f; simp only [W, sub_self, norm_zero]; positivity
      · intro t _; simp only [xcorr, sub_self, abs_zero]; positivity
    have hdet := hst.det_ne_zero (E := E) hp (by omega) hfit hload nx ny hρ px py hl hl1 (conditioned_coercive hco) hδ
    obtain ⟨c, hc⟩ := exists_isDot (u := 2 ^ (-p : ℤ)) (by positivity) (fun i : Fin K => xcorr i)
      ((flToeplitz K (loaded E load acf))⁻¹ *ᵥ fun i : Fin K => xcorr i) Finset.univ ⟨⟨0, hK⟩, Finset.mem_univ _⟩
    rw [Finset.card_univ, Fintype.card_fin] at hc
    refine ⟨c, ?_⟩
    rw [if_neg hK1]
    refine ⟨acf, xcorr, _, hst, ⟨0, ?_, fun B hB i j => ?_⟩, hc.mono hKk⟩
    · rw [add_zero]
      exact mulVec_inv hdet _
    · rw [Matrix.zero_apply, abs_zero]
      have := (abs_nonneg _).trans (hB i j)
      have := A.solve_nonneg
      positivity

theorem limitedDb_scale {d c : ℝ} (hc : 0 < c) (a b : ℝ) : limitedDb d (a * c) (b * c) = limitedDb d a b := by
  unfold limitedDb
  have h1 : b * c * (10 : ℝ) ^ (d / 10) ≤ a * c ↔ b * (10 : ℝ) ^ (d / 10) ≤ a := by
    rw [show b * c * (10 : ℝ) ^ (d / 10) = b * (10 : ℝ) ^ (d / 10) * c from by ring]
    exact mul_le_mul_iff_left₀ hc
  have h2 : a * c * (10 : ℝ) ^ (d / 10) ≤ b * c ↔ a * (10 : ℝ) ^ (d / 10) ≤ b := by
    rw [show a * c * (10 : ℝ) ^ (d / 10) = a * (10 : ℝ) ^ (d / 10) * c from by ring]
    exact mul_le_mul_iff_left₀ hc
  simp only [h1, h2]
  rw [mul_div_mul_right _ _ hc.ne']

/-- Limited decibels are clipped decibels. -/
theorem clip_dbRatio {d a b : ℝ} (hd : 0 ≤ d) (ha : 0 ≤ a) (hb : 0 ≤ b) (hab : 0 < a + b) :
    clip d (dbRatio a b) = .fin (limitedDb d a b) := by
  have hG : (0 : ℝ) < 10 ^ (d / 10) := by positivity
  unfold dbRatio limitedDb
  rcases hb.lt_or_eq with hb0 | hb0
  · rw [if_neg hb0.ne']
    rcases ha.lt_or_eq with ha0 | ha0
    · rw [if_neg ha0.ne']
      have hl : ∀ t : ℝ, 10 * Real.logb 10 t = 10 * Real.logb 10 t := fun _ => rfl
      have e1 : b * (10 : ℝ) ^ (d / 10) ≤ a ↔ d ≤ 10 * Real.logb 10 (a / b) := by
        rw [← le_div_iff₀' hb0, ← Real.le_logb_iff_rpow_le (by norm_num) (by positivity)]
        constructor <;> intro h <;> linarith
      have e2 : a * (10 : ℝ) ^ (d / 10) ≤ b ↔ 10 * Real.logb 10 (a / b) ≤ -d := by
        rw [← le_div_iff₀' ha0, ← Real.le_logb_iff_rpow_le (by norm_num) (by positivity), ← inv_div a b, Real.logb_inv]
        constructor <;> intro h <;> linarith
      simp only [e1, e2, clip]
      split_ifs with h1 h2
      · rw [min_eq_left h1, max_eq_right (by linarith)]
      · rw [min_eq_right (by linarith), max_eq_left h2]
      · rw [min_eq_right (by linarith), max_eq_right (by linarith)]
    · subst ha0
      rw [if_pos rfl, if_neg (not_le.2 (by positivity)), if_pos (by simpa using hb)]
      rfl
  · subst hb0
    rw [if_pos rfl, if_neg (by linarith : ¬ a = 0), if_pos (by simpa using ha)]
    rfl

/-- Without regularisation: the documented SDR. -/
theorem clip_docSdr {d : ℝ} (hd : 0 ≤ d) {r : ℕ} (hK : 1 ≤ K) {l : ℝ} (hl : 0 < l) {x : Fin r → Fin N → ℝ} {i : Fin r}
    {y : Fin N → ℝ} (h : Conditioned K 0 l (x i)) (hx : 0 < sigNorm (x i)) (hy : 0 < sigNorm y) :
    clip d (docSdr K x i y) = .fin (limitedSdr d K 0 (x i) y) := by
  have hle : leastResidual K 0 (x i) y = _ := (quad_least le_rfl hl hK h hy).csInf_eq
  obtain ⟨hq0, hq1⟩ := quad_mem (y := y) le_rfl hl hK h hy
  have hq := quad_doc hl h hx hy
  unfold limitedSdr
  rw [hle, sub_sub_cancel]
  set q := quad (shifts (N + K - 1) K (unitSig (x i))) 0 (shift (N + K - 1) (unitSig y) 0)
  have hs : 0 < sigNorm y ^ 2 := by positivity
  have he := energy_sub_proj (spanOne (N + K - 1) K (x i)) (shift (N + K - 1) y 0)
  rw [energy_shift _ (by omega), ← hq] at he
  unfold docSdr
  dsimp only
  rw [he, ← hq, clip_dbRatio hd (by positivity) (by nlinarith) (by linarith), ← limitedDb_scale hs q]
  congr 2
  ring

end FBE.Rounded
