import Verif.Spec.Steepness
import Verif.Props.C73_BackwardPit
import Verif.Proofs.Perturb

/-!
The norms of the gradients.
-/

namespace FBE.Steepness

open Classical FBE.Spec FBE.Backward FBE.Props XR Matrix

variable {N T r e n K : ℕ}

theorem ten_rpow_half {q : ℝ} (hq : 0 < q) : (10 : ℝ) ^ (10 * Real.logb 10 q / 20) = √q := by
  have h : 10 * Real.logb 10 q / 20 = Real.logb 10 q * (1 / 2) := by ring
  rw [h, Real.rpow_mul (by norm_num), Real.rpow_logb (by norm_num) (by norm_num) hq, ← Real.sqrt_eq_rpow]

theorem steepness_loss {v : ℝ} (h0 : 0 < v) (h1 : v < 1) :
    steepness (10 * Real.logb 10 ((1 - v) / v)) = 20 / Real.log 10 / √(v * (1 - v)) := by
  have q0 : 0 < (1 - v) / v := div_pos (by linarith) h0
  have hn : -(10 * Real.logb 10 ((1 - v) / v)) = 10 * Real.logb 10 (v / (1 - v)) := by
    rw [← inv_div v (1 - v), Real.logb_inv]
    ring
  unfold steepness
  rw [hn, ten_rpow_half q0, ten_rpow_half (div_pos h0 (by linarith)), Real.sqrt_div (by linarith), Real.sqrt_div h0.le,
    Real.sqrt_mul h0.le]
  have a := Real.sqrt_pos.2 h0
  have b := Real.sqrt_pos.2 (show 0 < 1 - v by linarith)
  have a2 := Real.sq_sqrt h0.le
  have b2 := Real.sq_sqrt (show 0 ≤ 1 - v by linarith)
  have hl := log_ten
  field_simp
  linarith

theorem inside_iff {d v : ℝ} (h0 : 0 < v) (h1 : v < 1) :
    (epsOf (some d) ≤ v ∧ v ≤ 1 - epsOf (some d)) ↔ |10 * Real.logb 10 ((1 - v) / v)| ≤ d := by
  have he : epsOf (some d) = dbClampEps d := rfl
  have p0 := dbClampEps_pos d
  have p1 := dbClampEps_lt d
  have hval : negDb v = fin (10 * Real.logb 10 ((1 - v) / v)) := by
    unfold negDb
    rw [if_neg h0.ne', if_neg h1.ne]
  have hx : coherenceToNegSdr none (fin v) = fin (10 * Real.logb 10 ((1 - v) / v)) := by
    rw [coherenceToNegSdr_fin, cclamp_none h0.le h1.le, hval]
  constructor
  · intro h
    by_contra hc
    have := dbSlope_saturated (d := d) (v := v) (Or.inr (Or.inr ⟨_, hx, not_le.1 hc⟩))
    unfold dbSlope at this
    rw [if_pos h] at this
    have hl := log_ten
    have : 10 / Real.log 10 / (v * (1 - v)) > 0 := by
      have : 0 < 1 - v := by linarith
      positivity
    linarith
  · intro h
    obtain ⟨b1, b2⟩ := abs_le.1 h
    rw [he]
    have q0 : 0 < (1 - v) / v := div_pos (by linarith) h0
    have l1 : Real.logb 10 ((1 - v) / v) ≤ d / 10 := by linarith
    have l2 : -(d / 10) ≤ Real.logb 10 ((1 - v) / v) := by linarith
    rw [Real.logb_le_iff_le_rpow (by norm_num) q0] at l1
    rw [Real.le_logb_iff_rpow_le (by norm_num) q0] at l2
    have hd : dbClampEps d = (10 : ℝ) ^ (-(d / 10)) / (1 + (10 : ℝ) ^ (-(d / 10))) := by
      unfold dbClampEps
      rw [neg_div]
    have ep : 0 < (10 : ℝ) ^ (-(d / 10)) := by positivity
    have hm : (10 : ℝ) ^ (d / 10) * (10 : ℝ) ^ (-(d / 10)) = 1 := by
      rw [← Real.rpow_add (by norm_num)]
      simp
    rw [div_le_iff₀ h0] at l1
    rw [le_div_iff₀ h0] at l2
    have l3 : (1 - v) * (10 : ℝ) ^ (-(d / 10)) ≤ v := by nlinarith
    rw [hd]
    constructor
    · rw [div_le_iff₀ (by linarith)]
      nlinarith
    · rw [le_sub_iff_add_le, ← le_sub_iff_add_le', div_le_iff₀ (by linarith)]
      nlinarith

/-- The slope in the coherence gives the steepness. -/
theorem slope_steep (cl : Option ℝ) {v : ℝ} (h0 : 0 ≤ v) (h1 : v ≤ 1) :
    |dbSlope cl v| * (2 * √(v * (1 - v))) = steepAt cl (coherenceToNegSdr none (fin v)) := by
  rw [coherenceToNegSdr_fin, cclamp_none h0 h1]
  unfold negDb
  split
  · rename_i h
    rw [h]
    simp [steepAt]
  split
  · rename_i h
    rw [h]
    simp [steepAt]
  rename_i h2 h3
  have v0 : 0 < v := lt_of_le_of_ne h0 (Ne.symm h2)
  have v1 : v < 1 := lt_of_le_of_ne h1 h3
  have hin : (epsOf cl ≤ v ∧ v ≤ 1 - epsOf cl) ↔ ∀ d, cl = some d → |10 * Real.logb 10 ((1 - v) / v)| ≤ d := by
    cases cl with
    | none =>
      have : epsOf none = 0 := rfl
      rw [this]
      exact ⟨fun _ d h => (Option.some_ne_none d h.symm).elim, fun _ => ⟨h0, by linarith⟩⟩
    | some d =>
      rw [inside_iff v0 v1]
      exact ⟨fun h d' hd => (Option.some.inj hd) ▸ h, fun h => h d rfl⟩
  unfold dbSlope
  show _ = if _ then _ else _
  by_cases hc : epsOf cl ≤ v ∧ v ≤ 1 - epsOf cl
  · rw [if_pos hc, if_pos (hin.1 hc), steepness_loss v0 v1]
    have hp : 0 < v * (1 - v) := mul_pos v0 (by linarith)
    have hl := log_ten
    rw [abs_neg, abs_of_pos (by positivity)]
    have hs := Real.sqrt_pos.2 hp
    have h2 := Real.sq_sqrt hp.le
    generalize √(v * (1 - v)) = q at *
    rw [← h2]
    field_simp
    norm_num
  · rw [if_neg hc, if_neg fun h => hc (hin.2 h)]
    simp

theorem steepness_mono {x y : ℝ} (h : |x| ≤ y) : steepness x ≤ steepness y := by
  unfold steepness
  refine mul_le_mul_of_nonneg_left ?_ (by have := log_ten; positivity)
  have hy : 0 ≤ y := (abs_nonneg x).trans h
  have key : ∀ z : ℝ, 0 ≤ z → z ≤ y → (10 : ℝ) ^ (z / 20) + (10 : ℝ) ^ (-z / 20) ≤ (10 : ℝ) ^ (y / 20) + (10 : ℝ) ^ (-y / 20) := by
    intro z hz hzy
    have a1 : (1 : ℝ) ≤ (10 : ℝ) ^ (z / 20) := Real.one_le_rpow (by norm_num) (by positivity)
    have a2 : (10 : ℝ) ^ (z / 20) ≤ (10 : ℝ) ^ (y / 20) := Real.rpow_le_rpow_of_exponent_le (by norm_num) (by linarith)
    have b1 : (10 : ℝ) ^ (z / 20) * (10 : ℝ) ^ (-z / 20) = 1 := by
      rw [← Real.rpow_add (by norm_num), neg_div, add_neg_cancel, Real.rpow_zero]
    have b2 : (10 : ℝ) ^ (y / 20) * (10 : ℝ) ^ (-y / 20) = 1 := by
      rw [← Real.rpow_add (by norm_num), neg_div, add_neg_cancel, Real.rpow_zero]
    have c1 : 0 < (10 : ℝ) ^ (-z / 20) := by positivity
    have c2 : 0 < (10 : ℝ) ^ (-y / 20) := by positivity
    generalize (10 : ℝ) ^ (z / 20) = a at *
    generalize (10 : ℝ) ^ (y / 20) = b at *
    have e1 := eq_inv_of_mul_eq_one_right b1
    have e2 := eq_inv_of_mul_eq_one_right b2
    rw [e1, e2]
    have hb : 1 ≤ b := a1.trans a2
    have : (b + b⁻¹) - (a + a⁻¹) = (b - a) * (a * b - 1) / (a * b) := by
      have : a ≠ 0 := by linarith
      have : b ≠ 0 := by linarith
      field_simp
      ring
    have h3 : 0 ≤ (b - a) * (a * b - 1) / (a * b) := by
      apply div_nonneg (mul_nonneg (by linarith) (by nlinarith)) (by nlinarith)
    linarith
  rcases abs_cases x with ⟨hx, -⟩ | ⟨hx, -⟩
  · exact key x (by rw [← hx]; exact abs_nonneg x) (by rw [← hx]; exact h)
  · have := key (-x) (by rw [← hx]; exact abs_nonneg x) (by rw [← hx]; exact h)
    rw [neg_neg] at this
    linarith

theorem steepness_zero : steepness 0 = 40 / Real.log 10 := by
  unfold steepness
  norm_num
  ring

theorem steepness_least (y : ℝ) : 40 / Real.log 10 ≤ steepness y := by
  rw [← steepness_zero]
  unfold steepness
  refine mul_le_mul_of_nonneg_left ?_ (by have := log_ten; positivity)
  have b1 : (10 : ℝ) ^ (y / 20) * (10 : ℝ) ^ (-y / 20) = 1 := by
    rw [← Real.rpow_add (by norm_num), neg_div, add_neg_cancel, Real.rpow_zero]
  have c1 : 0 < (10 : ℝ) ^ (-y / 20) := by positivity
  have c2 : 0 < (10 : ℝ) ^ (y / 20) := by positivity
  simp only [zero_div, neg_zero, Real.rpow_zero]
  nlinarith [sq_nonneg ((10 : ℝ) ^ (y / 20) - (10 : ℝ) ^ (-y / 20))]

theorem steepness_nonneg (y : ℝ) : 0 ≤ steepness y :=
  le_trans (by have := log_ten; positivity) (steepness_least y)

theorem steepAt_nonneg (cl : Option ℝ) (x : XR) : 0 ≤ steepAt cl x := by
  cases x with
  | fin y =>
    unfold steepAt
    dsimp only
    split
    · exact steepness_nonneg y
    · exact le_rfl
  | _ => exact le_rfl

theorem steepAt_clamped (d : ℝ) (x : XR) : steepAt (some d) x ≤ steepness d := by
  cases x with
  | fin y =>
    unfold steepAt
    dsimp only
    split
    · rename_i h
      exact steepness_mono (h d rfl)
    · exact steepness_nonneg d
  | _ => exact steepness_nonneg d

/-! ### Mean removal and normalisation -/

theorem sum_centred_sq_le (zm : Bool) (x : Fin N → ℝ) : ∑ t, centred zm x t ^ 2 ≤ ∑ t, x t ^ 2 := by
  unfold centred
  cases zm
  · exact le_rfl
  · simp only [if_true]
    rcases Nat.eq_zero_or_pos N with h | h
    · subst h
      simp
    · have hN : (N : ℝ) ≠ 0 := by exact_mod_cast h.ne'
      have : ∑ t, (x t - (∑ u, x u) / N) ^ 2 = ∑ t, x t ^ 2 - (∑ u, x u) ^ 2 / N := by
        simp only [sub_sq, Finset.sum_add_distrib, Finset.sum_sub_distrib, Finset.sum_const, Finset.card_univ, Fintype.card_fin,
          nsmul_eq_mul, ← Finset.sum_mul, ← Finset.mul_sum]
        field_simp
        ring
      rw [this]
      have : 0 ≤ (∑ u, x u) ^ 2 / (N : ℝ) := by positivity
      linarith

theorem sum_centred (x : Fin N → ℝ) : ∑ t, centred true x t = 0 := by
  unfold centred
  rcases Nat.eq_zero_or_pos N with h | h
  · subst h
    simp
  · have hN : (N : ℝ) ≠ 0 := by exact_mod_cast h.ne'
    simp only [if_true, Finset.sum_sub_distrib, Finset.sum_const, Finset.card_univ, Fintype.card_fin, nsmul_eq_mul]
    field_simp
    ring

theorem centred_self {x : Fin N → ℝ} {zm : Bool} (h : zm = true → ∑ t, x t = 0) : centred zm x = x := by
  unfold centred
  cases zm
  · rfl
  · rw [h rfl]
    simp

theorem preprocess_audible {zm : Bool} {x : Fin N → ℝ} (h : 1e-6 ≤ sigNorm (centred zm x)) (t : Fin N) :
    preprocess zm x t = centred zm x t / sigNorm (centred zm x) := by
  have : preprocess zm x t = centred zm x t / max (sigNorm (centred zm x)) 1e-6 := rfl
  rw [this, max_eq_left h]

theorem preprocess_sq {zm : Bool} {x : Fin N → ℝ} (h : 1e-6 ≤ sigNorm (centred zm x)) : ∑ t, preprocess zm x t ^ 2 = 1 := by
  simp only [preprocess_audible h, div_pow, ← Finset.sum_div]
  have hn : sigNorm (centred zm x) ^ 2 = ∑ t, centred zm x t ^ 2 := Real.sq_sqrt (Finset.sum_nonneg fun _ _ => sq_nonneg _)
  rw [← hn]
  have : sigNorm (centred zm x) ≠ 0 := by
    have : (0 : ℝ) < 1e-6 := by norm_num
    linarith
  field_simp

theorem sum_preprocess (x : Fin N → ℝ) : ∑ t, preprocess true x t = 0 := by
  have : ∀ t, preprocess true x t = centred true x t / max (sigNorm (centred true x)) 1e-6 := fun _ => rfl
  simp only [this, ← Finset.sum_div, sum_centred, zero_div]

theorem normR_audible {zm : Bool} {x : Fin N → ℝ} (h : 1e-6 ≤ sigNorm (centred zm x)) (γ : Fin N → ℝ) (t : Fin N) :
    normR (centred zm x) γ t = (γ t - (∑ u, γ u * preprocess zm x u) * preprocess zm x t) / sigNorm (centred zm x) := by
  have h0 : sigNorm (centred zm x) ≠ 0 := by
    have : (0 : ℝ) < 1e-6 := by norm_num
    linarith
  unfold normR
  rw [max_eq_left h, if_pos h, if_neg h0]
  simp only [preprocess_audible h]
  have e1 : ∑ u, -γ u * (centred zm x u / sigNorm (centred zm x) / sigNorm (centred zm x)) =
      -(∑ u, γ u * (centred zm x u / sigNorm (centred zm x))) / sigNorm (centred zm x) := by
    rw [neg_div, Finset.sum_div, ← Finset.sum_neg_distrib]
    exact Finset.sum_congr rfl fun u _ => by ring
  rw [e1]
  ring

theorem normR_sq {zm : Bool} {x : Fin N → ℝ} (h : 1e-6 ≤ sigNorm (centred zm x)) (γ : Fin N → ℝ) :
    ∑ t, normR (centred zm x) γ t ^ 2 =
      (∑ t, γ t ^ 2 - (∑ u, γ u * preprocess zm x u) ^ 2) / sigNorm (centred zm x) ^ 2 := by
  simp only [normR_audible h, div_pow, ← Finset.sum_div]
  congr 1
  have hp := preprocess_sq h
  generalize hA : ∑ u, γ u * preprocess zm x u = A
  have : ∀ t, (γ t - A * preprocess zm x t) ^ 2 = γ t ^ 2 - 2 * A * (γ t * preprocess zm x t) + A ^ 2 * preprocess zm x t ^ 2 :=
    fun t => by ring
  simp only [this, Finset.sum_add_distrib, Finset.sum_sub_distrib, ← Finset.mul_sum, hA, hp]
  ring

/-- The norm of the gradient of a signal, from the gradient `γ` of the normalised signal. -/
theorem prepR_sq_le {zm : Bool} {x : Fin N → ℝ} (h : 1e-6 ≤ sigNorm (centred zm x)) (γ : Fin N → ℝ) :
    ∑ t, prepR zm x γ t ^ 2 ≤
      (∑ t, γ t ^ 2 - (∑ u, γ u * preprocess zm x u) ^ 2) / sigNorm (centred zm x) ^ 2 := by
  rw [← normR_sq h]
  exact sum_centred_sq_le _ _

theorem prepR_sq {zm : Bool} {x : Fin N → ℝ} (h : 1e-6 ≤ sigNorm (centred zm x)) {γ : Fin N → ℝ}
    (hγ : zm = true → ∑ t, γ t = 0) : ∑ t, prepR zm x γ t ^ 2 =
      (∑ t, γ t ^ 2 - (∑ u, γ u * preprocess zm x u) ^ 2) / sigNorm (centred zm x) ^ 2 := by
  rw [← normR_sq h]
  unfold prepR
  rw [centred_self]
  intro hz
  simp only [normR_audible h, ← Finset.sum_div, Finset.sum_sub_distrib, ← Finset.mul_sum, hγ hz]
  subst hz
  rw [sum_preprocess]
  simp

theorem prepR_sum {κ : Type} [Fintype κ] (zm : Bool) (x : Fin N → ℝ) (γ : κ → Fin N → ℝ) (t : Fin N) :
    prepR zm x (fun t => ∑ k, γ k t) t = ∑ k, prepR zm x (γ k) t := by
  have hn : normR (centred zm x) (fun t => ∑ k, γ k t) = fun t => ∑ k, normR (centred zm x) (γ k) t := by
    funext t
    unfold normR
    rw [Finset.sum_add_distrib, ← Finset.sum_div, ← Finset.sum_mul]
    congr 2
    split
    · rw [Finset.sum_comm]
      refine Finset.sum_congr rfl fun u _ => ?_
      rw [← Finset.sum_mul, Finset.sum_neg_distrib]
    · simp
  unfold prepR
  rw [hn]
  have := congrFun (map_sum (centredCLM zm N) (fun k => normR (centred zm x) (γ k)) Finset.univ) t
  rw [Finset.sum_apply] at this
  simp only [centredCLM_apply] at this
  rw [← this]
  congr 2
  funext t
  rw [Finset.sum_apply]

/-! ### Norms -/

theorem sigNorm_eq (x : Fin N → ℝ) : sigNorm x = ‖(WithLp.toLp 2 x : Space N)‖ := by
  rw [EuclideanSpace.norm_eq]
  unfold sigNorm
  congr 1
  exact Finset.sum_congr rfl fun t _ => by rw [Real.norm_eq_abs, sq_abs]

theorem sigNorm_sum_le {κ : Type} [Fintype κ] (γ : κ → Fin N → ℝ) : sigNorm (fun t => ∑ k, γ k t) ≤ ∑ k, sigNorm (γ k) := by
  simp only [sigNorm_eq]
  have : (WithLp.toLp 2 fun t => ∑ k, γ k t : Space N) = ∑ k, WithLp.toLp 2 (γ k) := by
    ext t
    simp
  rw [this]
  exact norm_sum_le _ _

/-- The gradient of one pair, from that of the normalised signal. -/
theorem prepR_len_le {zm : Bool} {x : Fin N → ℝ} (h : 1e-6 ≤ sigNorm (centred zm x)) {γ : Fin N → ℝ} {q : ℝ}
    (hq : ∑ t, γ t ^ 2 - (∑ u, γ u * preprocess zm x u) ^ 2 ≤ q) : sigNorm (prepR zm x γ) ≤ √q / sigNorm (centred zm x) := by
  have h0 : 0 < sigNorm (centred zm x) := lt_of_lt_of_le (by norm_num) h
  rw [← Real.sqrt_sq h0.le, ← Real.sqrt_div']
  · refine Real.sqrt_le_sqrt ((prepR_sq_le h γ).trans ?_)
    exact div_le_div_of_nonneg_right hq (by positivity)
  · positivity

theorem prepR_len {zm : Bool} {x : Fin N → ℝ} (h : 1e-6 ≤ sigNorm (centred zm x)) {γ : Fin N → ℝ}
    (hγ : zm = true → ∑ t, γ t = 0) {q : ℝ}
    (hq : ∑ t, γ t ^ 2 - (∑ u, γ u * preprocess zm x u) ^ 2 = q) : sigNorm (prepR zm x γ) = √q / sigNorm (centred zm x) := by
  have h0 : 0 < sigNorm (centred zm x) := lt_of_lt_of_le (by norm_num) h
  rw [← Real.sqrt_sq h0.le, ← Real.sqrt_div' _ (by positivity), ← hq, ← prepR_sq h hγ]
  rfl

/-! ### One tap -/

section one

variable {cl : Option ℝ} {zm : Bool} {R : Fin r → Fin N → ℝ} {x : Fin N → ℝ}

theorem dot_range {p R : Fin N → ℝ} (hp : ∑ t, p t ^ 2 ≤ 1) (hR : ∑ t, R t ^ 2 ≤ 1) : 0 ≤ dot R p ^ 2 ∧ dot R p ^ 2 ≤ 1 :=
  ⟨sq_nonneg _, cohSdrOne_range _ _ hR hp⟩

/-- The gradient of the normalised signal for one pair, and its part orthogonal to the signal. -/
theorem one_pair (a s : ℝ) (R p : Fin N → ℝ) :
    ∑ t, (a * s * (2 * dot R p) * R t) ^ 2 - (∑ u, a * s * (2 * dot R p) * R u * p u) ^ 2 =
      (|a| * |s| * 2) ^ 2 * (dot R p ^ 2 * (∑ t, R t ^ 2 - dot R p ^ 2)) := by
  have h1 : ∑ u, a * s * (2 * dot R p) * R u * p u = a * s * (2 * dot R p) * dot R p := by
    have : ∀ b : ℝ, b * dot R p = ∑ u, b * R u * p u := by
      intro b
      have h0 : dot R p = ∑ u, R u * p u := rfl
      rw [h0, Finset.mul_sum]
      exact Finset.sum_congr rfl fun u _ => by ring
    exact (this _).symm
  rw [h1]
  simp only [mul_pow, ← Finset.mul_sum, sq_abs]
  ring

theorem sqrt_pair (a s v : ℝ) : √((|a| * |s| * 2) ^ 2 * (v * (1 - v))) = |a| * (|s| * (2 * √(v * (1 - v)))) := by
  rw [Real.sqrt_mul (by positivity), Real.sqrt_sq (by positivity)]
  ring

theorem chan_len_le (h : 1e-6 ≤ sigNorm (centred zm x)) (hR : ∀ k, ∑ t, R k t ^ 2 ≤ 1) (w : Fin r → ℝ) :
    sigNorm (chanR cl zm R w x) ≤
      (∑ k, |w k| * steepAt cl (coherenceToNegSdr none (fin (dot (R k) (preprocess zm x) ^ 2)))) / sigNorm (centred zm x) := by
  unfold chanR
  have : prepR zm x (fun t => ∑ k, w k * dbSlope cl (dot (R k) (preprocess zm x) ^ 2) * (2 * dot (R k) (preprocess zm x)) * R k t) =
      fun t => ∑ k, prepR zm x
        (fun t => w k * dbSlope cl (dot (R k) (preprocess zm x) ^ 2) * (2 * dot (R k) (preprocess zm x)) * R k t) t := by
    funext t
    exact prepR_sum zm x _ t
  rw [this]
  refine (sigNorm_sum_le _).trans ?_
  rw [Finset.sum_div]
  refine Finset.sum_le_sum fun k _ => ?_
  have hr := dot_range (preprocess_sq h).le (hR k)
  rw [← slope_steep cl hr.1 hr.2, ← sqrt_pair]
  refine prepR_len_le h ?_
  rw [one_pair]
  refine mul_le_mul_of_nonneg_left (mul_le_mul_of_nonneg_left ?_ hr.1) (by positivity)
  linarith [hR k]

theorem chan_len (h : 1e-6 ≤ sigNorm (centred zm x)) {k : Fin r} (hR : ∑ t, R k t ^ 2 = 1) (hz : zm = true → ∑ t, R k t = 0)
    {w : Fin r → ℝ} (hw : ∀ k', k' ≠ k → w k' = 0) : sigNorm (chanR cl zm R w x) =
      |w k| * steepAt cl (coherenceToNegSdr none (fin (dot (R k) (preprocess zm x) ^ 2))) / sigNorm (centred zm x) := by
  have hr := dot_range (preprocess_sq h).le hR.le
  unfold chanR
  rw [← slope_steep cl hr.1 hr.2, ← sqrt_pair]
  have hs : (fun t => ∑ k, w k * dbSlope cl (dot (R k) (preprocess zm x) ^ 2) * (2 * dot (R k) (preprocess zm x)) * R k t) =
      fun t => w k * dbSlope cl (dot (R k) (preprocess zm x) ^ 2) * (2 * dot (R k) (preprocess zm x)) * R k t := by
    funext t
    refine Finset.sum_eq_single k (fun k' _ hk => ?_) fun hk => absurd (Finset.mem_univ _) hk
    rw [hw k' hk]
    ring
  rw [hs]
  refine prepR_len h (fun hzm => ?_) ?_
  · rw [← Finset.mul_sum, hz hzm, mul_zero]
  · rw [one_pair, hR]

end one

/-! ### Several taps -/

section several

variable {cl : Option ℝ} {zm : Bool} {d : ℝ}

theorem gramD_cshift (hn : n ≠ 0) (hK : K ≤ n) (d : ℝ) (x : Fin N → ℝ) :
    gramD (fun l : Fin K => cshift n x l) d = acfM n K d x := by
  have F := fam_cshift (N := N) (M := N) hn hK
  ext i j
  have hg : gramD (fun l : Fin K => cshift n x l) d i j =
      inner ℝ (cshift n x i) (cshift n x j) + d * (1 : Matrix (Fin K) (Fin K) ℝ) i j := rfl
  rw [hg]
  unfold acfM
  congr 1
  · rcases le_total i.val j.val with h | h
    · rw [max_eq_right h, min_eq_left h]
      exact F.gram x x i j h j.2
    · rw [max_eq_left h, min_eq_right h, real_inner_comm]
      exact F.gram x x j i h i.2
  · by_cases h : i = j
    · subst h
      simp
    · rw [Matrix.one_apply_ne h, if_neg, mul_zero]
      intro h2
      apply h
      apply Fin.ext
      rcases le_total i.val j.val with h3 | h3
      · rw [max_eq_right h3, min_eq_left h3] at h2
        omega
      · rw [max_eq_left h3, min_eq_right h3] at h2
        omega

theorem coeffs_cshift (hn : n ≠ 0) (hK : K ≤ n) (x : Fin N → ℝ) (y : Fin T → ℝ) :
    coeffs (fun l : Fin K => cshift n x l) (cshift n y 0) = xcV n K x y := by
  funext l
  exact (fam_cshift (N := N) (M := T) hn hK).cross x y l l.2

theorem firCoh_quad (hn : n ≠ 0) (hK : K ≤ n) (d : ℝ) (x : Fin N → ℝ) (y : Fin T → ℝ) :
    firCoh n K d x y = quad (fun l : Fin K => cshift n x l) d (cshift n y 0) := by
  unfold firCoh invQuad quad
  rw [gramD_cshift hn hK, coeffs_cshift hn hK]
  rfl

theorem acfM_transpose (d : ℝ) (x : Fin N → ℝ) : (acfM n K d x)ᵀ = acfM n K d x := by
  ext i j
  show acfM n K d x j i = acfM n K d x i j
  unfold acfM
  rw [max_comm, min_comm]

/-- The gradient of the normalised estimate, for one pair, in a direction. -/
theorem estLin_inner (hn : n ≠ 0) (hK : K ≤ n) (hT : T ≤ n) (d : ℝ) (x : Fin r → Fin N → ℝ) (y v : Fin T → ℝ) (g : Fin r → ℝ) :
    ∑ t, estLin n K d x y g t * v t = ∑ k, 2 * g k *
      inner ℝ (∑ l, ((acfM n K d (x k))⁻¹ *ᵥ xcV n K (x k) y) l • cshift n (x k) l) (cshift n v 0) := by
  unfold estLin
  rw [estBack_adjoint hn hK hT]
  refine Finset.sum_congr rfl fun k _ => ?_
  rw [← coeffs_dot, coeffs_cshift hn hK]
  have h3 : (fun i => g k * xcV n K (x k) y i) = g k • xcV n K (x k) y := rfl
  unfold xcorrGrad dotProduct
  rw [h3, mulVec_smul, acfM_transpose, Finset.mul_sum]
  refine Finset.sum_congr rfl fun l _ => ?_
  simp only [Pi.smul_apply, smul_eq_mul]
  unfold xcV
  ring

theorem estLin_sum (hn : n ≠ 0) (hK : K ≤ n) (hT : T ≤ n) (d : ℝ) (x : Fin r → Fin N → ℝ) (y : Fin T → ℝ) (g : Fin r → ℝ) :
    estLin n K d x y g = fun t => ∑ k, estLin (r := 1) n K d (fun _ => x k) y (fun _ => g k) t := by
  funext t
  have key : ∀ {r' : ℕ} (x : Fin r' → Fin N → ℝ) (g : Fin r' → ℝ), estLin n K d x y g t = ∑ u, estLin n K d x y g u * Pi.single (M := fun _ => ℝ) t 1 u := by
    intro r' x g
    rw [Finset.sum_eq_single t (fun u _ hu => by rw [Pi.single_eq_of_ne hu, mul_zero]) fun h => absurd (Finset.mem_univ _) h,
      Pi.single_eq_same, mul_one]
  rw [key, estLin_inner hn hK hT]
  refine Finset.sum_congr rfl fun k _ => ?_
  rw [key, estLin_inner hn hK hT, Fin.sum_univ_one]

/-- The gradient of the normalised estimate for one pair, and its part orthogonal to the estimate. -/
theorem fir_pair (hn : n ≠ 0) (hK : K ≤ n) (hT : T ≤ n) (hd : 0 ≤ d) {x : Fin N → ℝ} (hdet : (acfM n K d x).det ≠ 0)
    (y : Fin T → ℝ) (g : ℝ) :
    ∑ t, estLin (r := 1) n K d (fun _ => x) y (fun _ => g) t ^ 2 -
        (∑ t, estLin (r := 1) n K d (fun _ => x) y (fun _ => g) t * y t) ^ 2 ≤
      (|g| * 2) ^ 2 * (firCoh n K d x y * (1 - firCoh n K d x y)) := by
  set h := (acfM n K d x)⁻¹ *ᵥ xcV n K x y with hh
  set z := ∑ l, h l • cshift n x l with hz
  set γ := estLin (r := 1) n K d (fun _ => x) y (fun _ => g) with hγ
  have F := fam_cshift (N := N) (M := T) hn hK
  have i1 : ∀ v : Fin T → ℝ, ∑ t, γ t * v t = 2 * g * inner ℝ z (cshift n v 0) := by
    intro v
    rw [hγ, estLin_inner hn hK hT, Fin.sum_univ_one]
  have c1 : firCoh n K d x y = inner ℝ z (cshift n y 0) := by
    rw [hz, ← coeffs_dot, coeffs_cshift hn hK]
    rfl
  have c2 : firCoh n K d x y = ‖z‖ ^ 2 + d * (h ⬝ᵥ h) := by
    have hq := gramD_quad (fun l : Fin K => cshift n x l) d h
    rw [gramD_cshift hn hK, hh, mulVec_inv hdet, ← hh] at hq
    rw [← hz] at hq
    rw [← hq, dotProduct_comm]
    rfl
  have hhh : 0 ≤ h ⬝ᵥ h := Finset.sum_nonneg fun _ _ => mul_self_nonneg _
  have hzc : ‖z‖ ^ 2 ≤ firCoh n K d x y := by
    rw [c2]
    nlinarith [mul_nonneg hd hhh]
  have i2 : ∑ t, γ t ^ 2 = 2 * g * inner ℝ z (cshift n γ 0) := by
    rw [← i1]
    exact Finset.sum_congr rfl fun t _ => sq _
  have hS : 0 ≤ ∑ t, γ t ^ 2 := Finset.sum_nonneg fun _ _ => sq_nonneg _
  have i3 : (∑ t, γ t ^ 2) ^ 2 ≤ (|g| * 2) ^ 2 * ‖z‖ ^ 2 * ∑ t, γ t ^ 2 := by
    have a1 := abs_real_inner_le_norm z (cshift n γ 0)
    have a2 : inner ℝ z (cshift n γ 0) ^ 2 ≤ ‖z‖ ^ 2 * ‖cshift n γ 0‖ ^ 2 := by
      rw [← sq_abs, ← mul_pow]
      exact pow_le_pow_left₀ (abs_nonneg _) a1 2
    have a3 := F.g_sq_le γ
    have e1 : (∑ t, γ t ^ 2) ^ 2 = (|g| * 2) ^ 2 * inner ℝ z (cshift n γ 0) ^ 2 := by
      rw [i2, mul_pow, mul_pow, mul_pow, sq_abs]
      ring
    rw [e1, mul_assoc]
    refine mul_le_mul_of_nonneg_left (a2.trans ?_) (by positivity)
    exact mul_le_mul_of_nonneg_left a3 (by positivity)
  have i4 : ∑ t, γ t ^ 2 ≤ (|g| * 2) ^ 2 * ‖z‖ ^ 2 := by
    rcases hS.eq_or_lt with h0 | h0
    · rw [← h0]
      positivity
    · rw [sq] at i3
      exact le_of_mul_le_mul_right i3 h0
  have i5 : (∑ t, γ t * y t) ^ 2 = (|g| * 2) ^ 2 * firCoh n K d x y ^ 2 := by
    rw [i1, ← c1, mul_pow, mul_pow, mul_pow, sq_abs]
    ring
  rw [i5]
  nlinarith [sq_nonneg (|g| * 2), mul_le_mul_of_nonneg_left hzc (sq_nonneg (|g| * 2))]

theorem firCoh_range (hn : n ≠ 0) (hK : K ≤ n) (hd : 0 ≤ d) {x : Fin N → ℝ} (hdet : (acfM n K d x).det ≠ 0) {y : Fin T → ℝ}
    (hy : ∑ t, y t ^ 2 ≤ 1) : 0 ≤ firCoh n K d x y ∧ firCoh n K d x y ≤ 1 := by
  have F := fam_cshift (N := N) (M := T) hn hK
  rw [firCoh_quad hn hK]
  rw [← gramD_cshift hn hK] at hdet
  exact ⟨quad_nonneg _ _ hd hdet, quad_le_one _ hd hdet ((F.g_sq_le _).trans hy)⟩

theorem fir_len_le (hn : n ≠ 0) (hK : K ≤ n) (hT : T ≤ n) (hd : 0 ≤ d) {x : Fin r → Fin N → ℝ}
    (hdet : ∀ k, (acfM n K d (x k)).det ≠ 0) {y : Fin T → ℝ} (h : 1e-6 ≤ sigNorm (centred zm y)) (w : Fin r → ℝ) :
    sigNorm (prepR zm y (estLin n K d x (preprocess zm y) fun k => w k * dbSlope cl (firCoh n K d (x k) (preprocess zm y)))) ≤
      (∑ k, |w k| * steepAt cl (coherenceToNegSdr none (fin (firCoh n K d (x k) (preprocess zm y))))) / sigNorm (centred zm y) := by
  rw [estLin_sum hn hK hT]
  have : ∀ γ : Fin r → Fin T → ℝ, prepR zm y (fun t => ∑ k, γ k t) = fun t => ∑ k, prepR zm y (γ k) t := by
    intro γ
    funext t
    exact prepR_sum zm y _ t
  rw [this]
  refine (sigNorm_sum_le _).trans ?_
  rw [Finset.sum_div]
  refine Finset.sum_le_sum fun k _ => ?_
  have hr := firCoh_range hn hK hd (hdet k) (preprocess_sq h).le
  rw [← slope_steep cl hr.1 hr.2, ← sqrt_pair]
  refine prepR_len_le h ?_
  refine (fir_pair hn hK hT hd (hdet k) _ _).trans (le_of_eq ?_)
  rw [abs_mul]

end several

/-! ### The matched pairs -/

section matched

variable {s : List ℕ} {perm : BIdx s → Fin (min r e) → ℕ} {m : BIdx s} {P : Pairing r e}

theorem permGrad_at (h : Describes (perm m) P) (v : BIdx s → Fin (min r e) → ℝ) (k : Fin r) (j : Fin e) :
    permGrad perm v m k j = ∑ i, if P.ref i = k ∧ P.est i = j then v m i else 0 := by
  have hc : ∀ i, (if e < r then perm m i = k.val ∧ i.val = j.val else i.val = k.val ∧ perm m i = j.val) ↔
      (P.ref i = k ∧ P.est i = j) := by
    intro i
    split
    · rename_i hlt
      obtain ⟨h1, h2⟩ := h.ref hlt i
      rw [Fin.ext_iff, Fin.ext_iff, h1, h2]
    · rename_i hlt
      obtain ⟨h1, h2⟩ := h.est (not_lt.1 hlt) i
      rw [Fin.ext_iff, Fin.ext_iff, h1, h2]
  unfold permGrad
  simp only [hc]

theorem permGrad_pair (h : Describes (perm m) P) (v : BIdx s → Fin (min r e) → ℝ) (i : Fin (min r e)) :
    permGrad perm v m (P.ref i) (P.est i) = v m i := by
  rw [permGrad_at h, Finset.sum_eq_single i (fun i' _ hi => if_neg fun h2 => hi (P.ref_inj h2.1))
    fun hi => absurd (Finset.mem_univ _) hi, if_pos ⟨rfl, rfl⟩]

theorem permGrad_est (h : Describes (perm m) P) (v : BIdx s → Fin (min r e) → ℝ) {k : Fin r} {j : Fin e}
    (hk : ∀ i, P.est i = j → P.ref i ≠ k) : permGrad perm v m k j = 0 := by
  rw [permGrad_at h]
  exact Finset.sum_eq_zero fun i _ => if_neg fun h2 => hk i h2.2 h2.1

end matched

end FBE.Steepness
