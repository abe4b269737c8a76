import Mathlib.Analysis.Calculus.FDeriv.Mul
import Mathlib.Analysis.SpecialFunctions.Sqrt
import Verif.Model.Backward
import Verif.Proofs.Gradient

/-!
The backward pass: finite gradients are derivatives, and NaN spreads.
-/

set_option linter.unusedSectionVars false

namespace FBE.Backward

open Spec XR Filter Topology

variable {s : List ℕ} {r e c N : ℕ}

/-! ### Extended numbers -/

theorem add_nan (x : XR) : add x nan = nan := by cases x <;> rfl

theorem nan_add (x : XR) : add nan x = nan := by cases x <;> rfl

theorem nan_mul (x : XR) : mul nan x = nan := by cases x <;> rfl

theorem mul_nan (x : XR) : mul x nan = nan := by cases x <;> rfl

theorem nan_div (x : XR) : div nan x = nan := by cases x <;> rfl

theorem zero_add' (x : XR) : add (fin 0) x = x := by
  cases x <;> simp [add]

theorem foldl_nan (l : List XR) : l.foldl add nan = nan := by
  induction l with
  | nil => rfl
  | cons a l ih => rw [List.foldl_cons, nan_add, ih]

theorem foldl_mem_nan {l : List XR} (h : nan ∈ l) (a : XR) : l.foldl add a = nan := by
  induction l generalizing a with
  | nil => cases h
  | cons b l ih =>
    rw [List.foldl_cons]
    rcases List.mem_cons.1 h with h | h
    · rw [← h, add_nan, foldl_nan]
    · exact ih h _

theorem xsum_nan {n : ℕ} {f : Fin n → XR} (k : Fin n) (h : f k = nan) : xsum f = nan :=
  foldl_mem_nan (by rw [← h]; exact List.mem_ofFn.2 ⟨k, rfl⟩) _

theorem foldl_fin (l : List ℝ) (a : ℝ) : (l.map fin).foldl add (fin a) = fin (a + l.sum) := by
  induction l generalizing a with
  | nil => simp
  | cons b l ih =>
    rw [List.map_cons, List.foldl_cons, List.sum_cons]
    show List.foldl add (fin (a + b)) _ = _
    rw [ih]
    congr 1
    ring

theorem xsum_fin {n : ℕ} (f : Fin n → ℝ) : xsum (fun k => fin (f k)) = fin (∑ k, f k) := by
  unfold xsum
  have : List.ofFn (fun k => fin (f k)) = (List.ofFn f).map fin := by
    rw [List.map_ofFn]; rfl
  rw [this, foldl_fin, List.sum_ofFn, zero_add]

theorem xsum_one (f : Fin 1 → XR) : xsum f = f 0 := by
  unfold xsum
  simp [zero_add']

/-! ### The decibel stage -/

/-- The derivative of the loss with respect to the coherence. -/
noncomputable def dbSlope (cl : Option ℝ) (v : ℝ) : ℝ :=
  if epsOf cl ≤ v ∧ v ≤ 1 - epsOf cl then -(10 / Real.log 10 / (v * (1 - v))) else 0

theorem log_ten : 0 < Real.log 10 := Real.log_pos (by norm_num)

theorem decibelGrad_eq (cl : Option ℝ) (v : ℝ) (g : XR) : decibelGrad cl v g =
    clampGrad (epsOf cl) (1 - epsOf cl) v
      (let ratio := div (fin (1 - cclamp cl v)) (fin (cclamp cl v))
       let gRatio := div (mul g (fin 10)) (mul ratio (fin (Real.log 10)))
       add (neg (div gRatio (fin (cclamp cl v)))) (mul (neg gRatio) (div ratio (fin (cclamp cl v))))) := by
  cases cl <;> rfl

/-- Between 0 and 1 the gradient is finite. -/
theorem decibelGrad_fin {cl : Option ℝ} {v : ℝ} (h0 : 0 < cclamp cl v) (h1 : cclamp cl v < 1) (w : ℝ) :
    decibelGrad cl v (fin w) = fin (w * dbSlope cl v) := by
  rw [decibelGrad_eq]
  unfold dbSlope clampGrad
  by_cases h : epsOf cl ≤ v ∧ v ≤ 1 - epsOf cl
  · rw [if_pos h, if_pos h]
    have hv : cclamp cl v = v := by
      unfold cclamp
      rw [max_eq_left h.1, min_eq_left h.2]
    rw [hv] at h0 h1 ⊢
    have hl := log_ten
    have e1 : div (fin (1 - v)) (fin v) = fin ((1 - v) / v) := by
      show (if v = 0 then _ else _) = _
      rw [if_neg h0.ne']
    have hp : (1 - v) / v * Real.log 10 ≠ 0 :=
      mul_ne_zero (div_ne_zero (by linarith) h0.ne') hl.ne'
    have e2 : div (mul (fin w) (fin 10)) (mul (fin ((1 - v) / v)) (fin (Real.log 10))) =
        fin (w * 10 / ((1 - v) / v * Real.log 10)) := by
      show (if (1 - v) / v * Real.log 10 = 0 then _ else _) = _
      rw [if_neg hp]
    have e3 : ∀ a : ℝ, div (fin a) (fin v) = fin (a / v) := by
      intro a
      show (if v = 0 then _ else _) = _
      rw [if_neg h0.ne']
    dsimp only
    rw [e1, e2, e3, e3]
    show fin (-(_ : ℝ) + -(_ : ℝ) * _) = _
    congr 1
    have h3 : (1 - v) ≠ 0 := by linarith
    have h4 := h0.ne'
    have h5 := hl.ne'
    field_simp
    ring
  · rw [if_neg h, if_neg h, mul_zero]

/-- At 0 and 1 the gradient is NaN, whatever arrives. -/
theorem decibelGrad_nan {v : ℝ} (h : v = 0 ∨ v = 1) (w : ℝ) : decibelGrad none v (fin w) = nan := by
  rw [decibelGrad_eq]
  have he : epsOf none = 0 := rfl
  have hc : cclamp none v = v := by
    rcases h with rfl | rfl <;> exact cclamp_none (by norm_num) (by norm_num)
  have hm : epsOf none ≤ v ∧ v ≤ 1 - epsOf none := by
    rw [he]
    rcases h with rfl | rfl <;> norm_num
  unfold clampGrad
  rw [if_pos hm, hc]
  rcases h with rfl | rfl
  · dsimp only
    have e1 : div (fin (1 - 0)) (fin 0) = pinf := by
      simp [div, signInf]
    have e2 : mul pinf (fin (Real.log 10)) = pinf := by
      simp [mul, signInf, log_ten]
    rw [e1, e2]
    have e3 : div (mul (fin w) (fin 10)) pinf = fin 0 := rfl
    have e4 : div (fin 0) (fin 0) = nan := by simp [div, signInf]
    rw [e3, e4]
    exact nan_add _
  · dsimp only
    have e1 : div (fin (1 - 1)) (fin 1) = fin 0 := by
      simp [div]
    rw [e1]
    have e2 : div (mul (fin w) (fin 10)) (mul (fin 0) (fin (Real.log 10))) = signInf (w * 10) := by
      simp [div, mul]
    have e3 : div (fin 0) (fin 1) = fin 0 := by simp [div]
    rw [e2, e3]
    have : mul (neg (signInf (w * 10))) (fin 0) = nan := by
      unfold signInf
      split
      · simp [neg, mul, signInf]
      · split <;> simp [neg, mul, signInf]
    rw [this]
    exact add_nan _

theorem cclamp_some_inside (d v : ℝ) : 0 < cclamp (some d) v ∧ cclamp (some d) v < 1 := by
  have h0 := dbClampEps_pos d
  have h1 := dbClampEps_lt d
  unfold cclamp
  have he : epsOf (some d) = dbClampEps d := rfl
  rw [he]
  exact ⟨lt_min (lt_max_of_lt_right h0) (by linarith), lt_of_le_of_lt (min_le_right _ _) (by linarith)⟩

/-- Where the coherence is not at a bound, the loss is differentiable with the slope used by torch. -/
theorem loss_hasDerivAt {cl : Option ℝ} {v : ℝ} (h0 : 0 < cclamp cl v) (h1 : cclamp cl v < 1)
    (hb : v ≠ epsOf cl ∧ v ≠ 1 - epsOf cl) :
    ∃ φ : ℝ → ℝ, (∀ᶠ x in 𝓝 v, coherenceToNegSdr cl (fin x) = fin (φ x)) ∧ HasDerivAt φ (dbSlope cl v) v := by
  by_cases h : epsOf cl ≤ v ∧ v ≤ 1 - epsOf cl
  · have a0 := lt_of_le_of_ne h.1 (Ne.symm hb.1)
    have a1 := lt_of_le_of_ne h.2 hb.2
    have he := epsOf_nonneg cl
    refine ⟨fun x => 10 * Real.logb 10 ((1 - x) / x), ?_, ?_⟩
    · filter_upwards [lt_mem_nhds a0, gt_mem_nhds a1] with x x0 x1
      exact loss_inside x0 x1
    · have v0 : 0 < v := by linarith
      have v1 : 0 < 1 - v := by linarith
      have hd : HasDerivAt (fun x : ℝ => 10 / Real.log 10 * (Real.log (1 - x) - Real.log x))
          (10 / Real.log 10 * ((-1) / (1 - v) - 1 / v)) v := by
        have d1 : HasDerivAt (fun x : ℝ => Real.log (1 - x)) ((-1) / (1 - v)) v := by
          have := ((hasDerivAt_const v (1 : ℝ)).sub (hasDerivAt_id v)).log v1.ne'
          simpa using this
        have d2 : HasDerivAt (fun x : ℝ => Real.log x) (1 / v) v := (hasDerivAt_id v).log v0.ne'
        exact (d1.sub d2).const_mul _
      have hs : dbSlope cl v = 10 / Real.log 10 * ((-1) / (1 - v) - 1 / v) := by
        unfold dbSlope
        rw [if_pos h]
        have := log_ten.ne'
        have h3 := v0.ne'
        have h4 := v1.ne'
        field_simp
        ring
      rw [hs]
      refine hd.congr_of_eventuallyEq ?_
      filter_upwards [lt_mem_nhds v0, gt_mem_nhds (show v < 1 by linarith)] with x x0 x1
      have x1 : 1 - x ≠ 0 := by linarith
      rw [← Real.log_div_log, Real.log_div x1 x0.ne']
      ring
  · have hs : dbSlope cl v = 0 := by unfold dbSlope; rw [if_neg h]
    have hloc : ∀ᶠ x in 𝓝 v, cclamp cl x = cclamp cl v := by
      by_cases h2 : v < epsOf cl
      · filter_upwards [gt_mem_nhds h2] with x hx
        unfold cclamp
        rw [max_eq_right hx.le, max_eq_right h2.le]
      · have h3 : 1 - epsOf cl < v := by
          by_contra h4
          exact h ⟨not_lt.1 h2, not_lt.1 h4⟩
        filter_upwards [lt_mem_nhds h3] with x hx
        unfold cclamp
        rw [min_eq_right (le_max_of_le_left hx.le), min_eq_right (le_max_of_le_left h3.le)]
    refine ⟨fun _ => 10 * Real.logb 10 ((1 - cclamp cl v) / cclamp cl v), ?_, ?_⟩
    · filter_upwards [hloc] with x hx
      rw [coherenceToNegSdr_fin, hx]
      unfold negDb
      rw [if_neg h0.ne', if_neg h1.ne]
    · rw [hs]
      exact hasDerivAt_const _ _

/-! ### Mean removal and normalisation -/

/-- `normalizeGrad` on finite gradients. -/
noncomputable def normR (x γ : Fin N → ℝ) : Fin N → ℝ :=
  fun t => γ t / max (sigNorm x) 1e-6 +
    (if 1e-6 ≤ sigNorm x then ∑ u, -γ u * (x u / max (sigNorm x) 1e-6 / max (sigNorm x) 1e-6) else 0) *
      (if sigNorm x = 0 then 0 else x t / sigNorm x)

theorem normalizeGrad_fin (x γ : Fin N → ℝ) : normalizeGrad x (fun t => fin (γ t)) = fun t => fin (normR x γ t) := by
  funext t
  have hd : (max (√(∑ u, x u ^ 2)) 1e-6 : ℝ) ≠ 0 := (lt_max_of_lt_right (by norm_num)).ne'
  unfold normalizeGrad normR sigNorm
  dsimp only
  have e1 : ∀ u, mul (neg (fin (γ u))) (fin (x u / max (√(∑ u, x u ^ 2)) 1e-6 / max (√(∑ u, x u ^ 2)) 1e-6)) =
    fin (-γ u * (x u / max (√(∑ u, x u ^ 2)) 1e-6 / max (√(∑ u, x u ^ 2)) 1e-6)) := fun _ => rfl
  simp only [e1]
  rw [xsum_fin]
  have e2 : div (fin (γ t)) (fin (max (√(∑ u, x u ^ 2)) 1e-6)) = fin (γ t / max (√(∑ u, x u ^ 2)) 1e-6) := by
    show (if _ then _ else _) = _
    rw [if_neg hd]
  rw [e2]
  split <;> rfl

theorem normalizeGrad_nan (x : Fin N → ℝ) {g : Fin N → XR} (h : ∀ t, g t = nan) (t : Fin N) :
    normalizeGrad x g t = nan := by
  unfold normalizeGrad
  rw [h t, nan_div, nan_add]

/-- `preprocessGrad` on finite gradients. -/
noncomputable def prepR (zm : Bool) (x γ : Fin N → ℝ) : Fin N → ℝ :=
  centred zm (normR (centred zm x) γ)

theorem preprocessGrad_fin (zm : Bool) (x γ : Fin N → ℝ) :
    preprocessGrad zm x (fun t => fin (γ t)) = fun t => fin (prepR zm x γ t) := by
  funext t
  have hN : (N : ℝ) ≠ 0 := by
    have := t.pos
    exact_mod_cast this.ne'
  unfold preprocessGrad prepR
  cases zm
  · simp only [Bool.false_eq_true, if_false, normalizeGrad_fin]
    rfl
  · simp only [if_true, normalizeGrad_fin]
    have hc : centred true x = removeMean x := rfl
    rw [hc]
    unfold meanGrad
    dsimp only
    have e1 : ∀ u, neg (fin (normR (removeMean x) γ u)) = fin (-normR (removeMean x) γ u) := fun _ => rfl
    simp only [e1]
    rw [xsum_fin]
    have e2 : ∀ a : ℝ, div (fin a) (fin N) = fin (a / N) := by
      intro a
      show (if _ then _ else _) = _
      rw [if_neg hN]
    rw [e2]
    show fin (_ + _) = fin _
    congr 1
    unfold centred
    simp only [if_true, Finset.sum_neg_distrib]
    ring

theorem preprocessGrad_nan (zm : Bool) (x : Fin N → ℝ) {g : Fin N → XR} (h : ∀ t, g t = nan) (t : Fin N) :
    preprocessGrad zm x g t = nan := by
  unfold preprocessGrad
  cases zm
  · simp only [Bool.false_eq_true, if_false]
    exact normalizeGrad_nan x h t
  · simp only [if_true]
    unfold meanGrad
    rw [normalizeGrad_nan _ h t, nan_add]

/-- Mean removal as a linear map. -/
noncomputable def centredCLM (zm : Bool) (N : ℕ) : (Fin N → ℝ) →L[ℝ] (Fin N → ℝ) :=
  LinearMap.toContinuousLinearMap
    { toFun := centred zm
      map_add' := centred_add' zm
      map_smul' := centred_smul' zm }

theorem centredCLM_apply (zm : Bool) (x : Fin N → ℝ) : centredCLM zm N x = centred zm x := rfl

/-- Mean removal is symmetric. -/
theorem centred_adjoint (zm : Bool) (x y : Fin N → ℝ) :
    ∑ t, x t * centred zm y t = ∑ t, centred zm x t * y t := by
  unfold centred
  cases zm
  · rfl
  · simp only [if_true, mul_sub, sub_mul, Finset.sum_sub_distrib, ← Finset.sum_mul, ← Finset.mul_sum]
    ring

/-- The derivative of the normalisation. -/
theorem hasFDerivAt_normalize {x : Fin N → ℝ} (h : sigNorm x ≠ 1e-6) :
    ∃ D : (Fin N → ℝ) →L[ℝ] (Fin N → ℝ), HasFDerivAt normalize D x ∧
      ∀ γ v, ∑ t, γ t * D v t = ∑ t, normR x γ t * v t := by
  have hcont : Continuous (sigNorm (N := N)) := continuous_sigNorm
  rcases lt_or_gt_of_ne h with h | h
  · -- below the threshold: division by a constant
    refine ⟨(1e-6 : ℝ)⁻¹ • ContinuousLinearMap.id ℝ _, ?_, ?_⟩
    · refine ((1e-6 : ℝ)⁻¹ • ContinuousLinearMap.id ℝ (Fin N → ℝ)).hasFDerivAt.congr_of_eventuallyEq ?_
      filter_upwards [hcont.continuousAt.eventually (gt_mem_nhds h)] with y hy
      funext t
      show y t / max (sigNorm y) 1e-6 = (1e-6 : ℝ)⁻¹ * y t
      rw [max_eq_right hy.le, div_eq_inv_mul]
    · intro γ v
      refine Finset.sum_congr rfl fun t _ => ?_
      unfold normR
      rw [if_neg (not_le.2 h), zero_mul, add_zero, max_eq_right h.le]
      show γ t * ((1e-6 : ℝ)⁻¹ * v t) = _
      rw [div_eq_mul_inv]
      ring
  · have hn : 0 < sigNorm x := lt_trans (by norm_num) h
    have hS : HasFDerivAt (fun y : Fin N → ℝ => ∑ t, y t ^ 2)
        (∑ t, (2 * x t) • ContinuousLinearMap.proj (R := ℝ) (φ := fun _ : Fin N => ℝ) t) x := by
      refine HasFDerivAt.fun_sum fun t _ => ?_
      have := ((ContinuousLinearMap.proj (R := ℝ) (φ := fun _ : Fin N => ℝ) t).hasFDerivAt (x := x)).pow 2
      simpa using this
    have hSx : ∑ t, x t ^ 2 ≠ 0 := by
      rw [← sigNorm_sq]
      positivity
    have hn' := hS.sqrt hSx
    have hi := (hasDerivAt_inv (show √(∑ t, x t ^ 2) ≠ 0 from hn.ne')).comp_hasFDerivAt x hn'
    have hp : ∀ t, HasFDerivAt (fun y : Fin N → ℝ => y t) (ContinuousLinearMap.proj (R := ℝ) (φ := fun _ : Fin N => ℝ) t) x :=
      fun t => (ContinuousLinearMap.proj (R := ℝ) (φ := fun _ : Fin N => ℝ) t).hasFDerivAt
    have hall := hasFDerivAt_pi.2 fun t => (hp t).mul hi
    refine ⟨_, hall.congr_of_eventuallyEq ?_, ?_⟩
    · filter_upwards [hcont.continuousAt.eventually (lt_mem_nhds h)] with y hy
      funext t
      show y t / max (sigNorm y) 1e-6 = y t * (sigNorm y)⁻¹
      rw [max_eq_left (le_of_lt hy), div_eq_mul_inv]
    · intro γ v
      have hval : ∀ t, (ContinuousLinearMap.pi fun t => x t • (-(√(∑ t, x t ^ 2) ^ 2)⁻¹ • (1 / (2 * √(∑ t, x t ^ 2))) •
          ∑ t, (2 * x t) • ContinuousLinearMap.proj (R := ℝ) (φ := fun _ : Fin N => ℝ) t) +
          (√(∑ t, x t ^ 2))⁻¹ • ContinuousLinearMap.proj (R := ℝ) (φ := fun _ : Fin N => ℝ) t) v t =
          v t / sigNorm x - x t * (∑ u, x u * v u) / sigNorm x ^ 3 := by
        intro t
        have hs : √(∑ t, x t ^ 2) = sigNorm x := rfl
        rw [hs]
        simp only [ContinuousLinearMap.pi_apply, add_apply, smul_apply,
          sum_apply, ContinuousLinearMap.proj_apply, smul_eq_mul, mul_assoc, ← Finset.mul_sum]
        have := hn.ne'
        field_simp
        ring
      have hD : ∀ t, γ t * _ = γ t * _ := fun t => congrArg (γ t * ·) (hval t)
      refine (Finset.sum_congr rfl fun t _ => hD t).trans ?_
      unfold normR
      simp only [if_pos (le_of_lt h), max_eq_left (le_of_lt h), if_neg hn.ne', add_mul, mul_sub,
        Finset.sum_add_distrib, Finset.sum_sub_distrib]
      have e1 : ∑ t, γ t * (v t / sigNorm x) = ∑ t, γ t / sigNorm x * v t :=
        Finset.sum_congr rfl fun t _ => by ring
      have e2 : ∑ t, γ t * (x t * (∑ u, x u * v u) / sigNorm x ^ 3) =
          (∑ t, γ t * x t) * (∑ u, x u * v u) / sigNorm x ^ 3 := by
        rw [Finset.sum_mul, Finset.sum_div]
        exact Finset.sum_congr rfl fun t _ => by ring
      have e3 : ∑ u, -γ u * (x u / sigNorm x / sigNorm x) = -(∑ t, γ t * x t) / sigNorm x ^ 2 := by
        rw [← Finset.sum_neg_distrib, Finset.sum_div]
        exact Finset.sum_congr rfl fun t _ => by ring
      have e4 : ∑ t, -(∑ t, γ t * x t) / sigNorm x ^ 2 * (x t / sigNorm x) * v t =
          -(∑ t, γ t * x t) * (∑ u, x u * v u) / sigNorm x ^ 3 := by
        rw [Finset.mul_sum, Finset.sum_div]
        refine Finset.sum_congr rfl fun t _ => ?_
        field_simp
      rw [e1, e2, e3, e4]
      ring

/-- The derivative of mean removal and normalisation. -/
theorem hasFDerivAt_preprocess {zm : Bool} {x : Fin N → ℝ} (h : sigNorm (centred zm x) ≠ 1e-6) :
    ∃ D : (Fin N → ℝ) →L[ℝ] (Fin N → ℝ), HasFDerivAt (preprocess zm) D x ∧
      ∀ γ v, ∑ t, γ t * D v t = ∑ t, prepR zm x γ t * v t := by
  obtain ⟨D, hD, hg⟩ := hasFDerivAt_normalize h
  refine ⟨D ∘L centredCLM zm N, ?_, fun γ v => ?_⟩
  · have := HasFDerivAt.comp x (f := centredCLM zm N) (g := normalize) hD (centredCLM zm N).hasFDerivAt
    have he : preprocess zm = normalize ∘ (centredCLM zm N : (Fin N → ℝ) → Fin N → ℝ) := by
      funext y
      show normalize _ = normalize (centred zm y)
      congr 1
    rw [he]
    exact this
  · show ∑ t, γ t * D (centred zm v) t = _
    rw [hg, centred_adjoint]
    rfl

/-! ### The whole pass -/

/-- The gradient of one channel `x` compared with the normalised signals `R`, when the losses are used with
weights `w`. -/
noncomputable def chanGrad (cl : Option ℝ) (zm : Bool) (R : Fin r → Fin N → ℝ) (w : Fin r → ℝ)
    (x : Fin N → ℝ) : Fin N → XR :=
  preprocessGrad zm x fun t => xsum fun k =>
    mul (mul (decibelGrad cl (dot (R k) (preprocess zm x) ^ 2) (fin (w k))) (fin (2 * dot (R k) (preprocess zm x))))
      (fin (R k t))

theorem gradEst_eq (o : Opts) (ref : Sig s r N) (est : Sig s e N) (w : BIdx s → Fin r → Fin e → ℝ) (m : BIdx s)
    (j : Fin e) : gradEst o ref est w m j = chanGrad o.clampDb o.zeroMean (prep o ref m) (fun k => w m k j) (est m j) :=
  rfl

theorem dot_comm' (x y : Fin N → ℝ) : dot x y = dot y x :=
  Finset.sum_congr rfl fun _ _ => mul_comm _ _

theorem gradRef_eq (o : Opts) (ref : Sig s r N) (est : Sig s e N) (w : BIdx s → Fin r → Fin e → ℝ) (m : BIdx s)
    (k : Fin r) : gradRef o ref est w m k = chanGrad o.clampDb o.zeroMean (prep o est m) (w m k) (ref m k) := by
  unfold gradRef chanGrad innerGrad
  dsimp only
  congr 1
  funext t
  congr 1
  funext j
  rw [dot_comm' (prep o ref m k)]
  rfl

theorem gradEstDiag_eq (o : Opts) (ref est : Sig s c N) (w : BIdx s → Fin c → ℝ) (m : BIdx s) (k : Fin c) :
    gradEstDiag o ref est w m k =
      chanGrad (r := 1) o.clampDb o.zeroMean (fun _ => prep o ref m k) (fun _ => w m k) (est m k) := by
  unfold gradEstDiag chanGrad
  congr 1
  funext t
  rw [xsum_one]
  rfl

theorem gradRefDiag_eq (o : Opts) (ref est : Sig s c N) (w : BIdx s → Fin c → ℝ) (m : BIdx s) (k : Fin c) :
    gradRefDiag o ref est w m k =
      chanGrad (r := 1) o.clampDb o.zeroMean (fun _ => prep o est m k) (fun _ => w m k) (ref m k) := by
  unfold gradRefDiag chanGrad innerGradDiag
  congr 1
  funext t
  rw [xsum_one, dot_comm' (prep o ref m k)]
  rfl

/-- The gradient of one channel, when it is finite. -/
noncomputable def chanR (cl : Option ℝ) (zm : Bool) (R : Fin r → Fin N → ℝ) (w : Fin r → ℝ) (x : Fin N → ℝ) :
    Fin N → ℝ :=
  prepR zm x fun t => ∑ k, w k * dbSlope cl (dot (R k) (preprocess zm x) ^ 2) * (2 * dot (R k) (preprocess zm x)) * R k t

theorem chanGrad_fin {cl : Option ℝ} {zm : Bool} {R : Fin r → Fin N → ℝ} {x : Fin N → ℝ}
    (h : ∀ k, 0 < cclamp cl (dot (R k) (preprocess zm x) ^ 2) ∧ cclamp cl (dot (R k) (preprocess zm x) ^ 2) < 1)
    (w : Fin r → ℝ) : chanGrad cl zm R w x = fun t => fin (chanR cl zm R w x t) := by
  unfold chanGrad chanR
  rw [← preprocessGrad_fin]
  congr 1
  funext t
  rw [← xsum_fin]
  congr 1
  funext k
  rw [decibelGrad_fin (h k).1 (h k).2]
  rfl

theorem chanGrad_nan {zm : Bool} {R : Fin r → Fin N → ℝ} {x : Fin N → ℝ} {k : Fin r}
    (h : dot (R k) (preprocess zm x) ^ 2 = 0 ∨ dot (R k) (preprocess zm x) ^ 2 = 1) (w : Fin r → ℝ) (t : Fin N) :
    chanGrad none zm R w x t = nan := by
  unfold chanGrad
  refine preprocessGrad_nan _ _ (fun t => xsum_nan k ?_) t
  rw [decibelGrad_nan h, nan_mul, nan_mul]

/-- The finite gradient is the derivative of the weighted sum of the losses. -/
theorem chan_hasFDerivAt {cl : Option ℝ} {zm : Bool} {R : Fin r → Fin N → ℝ} {x : Fin N → ℝ}
    (h : ∀ k, 0 < cclamp cl (dot (R k) (preprocess zm x) ^ 2) ∧ cclamp cl (dot (R k) (preprocess zm x) ^ 2) < 1)
    (hb : ∀ k, dot (R k) (preprocess zm x) ^ 2 ≠ epsOf cl ∧ dot (R k) (preprocess zm x) ^ 2 ≠ 1 - epsOf cl)
    (hx : sigNorm (centred zm x) ≠ 1e-6) (w : Fin r → ℝ) :
    ∃ (F : (Fin N → ℝ) → Fin r → ℝ) (F' : (Fin N → ℝ) →L[ℝ] ℝ),
      (∀ᶠ y in 𝓝 x, ∀ k, coherenceToNegSdr cl (fin (dot (R k) (preprocess zm y) ^ 2)) = fin (F y k)) ∧
      HasFDerivAt (fun y => ∑ k, w k * F y k) F' x ∧ ∀ v, F' v = ∑ t, chanR cl zm R w x t * v t := by
  choose φ h1 h2 using fun k => loss_hasDerivAt (h k).1 (h k).2 (hb k)
  obtain ⟨D, hD, hg⟩ := hasFDerivAt_preprocess hx
  have hu : ∀ k, HasFDerivAt (fun y => dot (R k) (preprocess zm y))
      (∑ t, R k t • (ContinuousLinearMap.proj (R := ℝ) (φ := fun _ : Fin N => ℝ) t ∘L D)) x := by
    intro k
    refine HasFDerivAt.fun_sum fun t _ => ?_
    exact (((ContinuousLinearMap.proj (R := ℝ) (φ := fun _ : Fin N => ℝ) t).hasFDerivAt).comp x hD).const_mul (R k t)
  have hq : ∀ k, HasFDerivAt (fun y => dot (R k) (preprocess zm y) ^ 2)
      ((2 * dot (R k) (preprocess zm x)) • (∑ t, R k t • (ContinuousLinearMap.proj (R := ℝ) (φ := fun _ : Fin N => ℝ) t ∘L D))) x := by
    intro k
    have := (hu k).pow 2
    simpa using this
  have hF : HasFDerivAt (fun y => ∑ k, w k * φ k (dot (R k) (preprocess zm y) ^ 2))
      (∑ k, w k • dbSlope cl (dot (R k) (preprocess zm x) ^ 2) • (2 * dot (R k) (preprocess zm x)) •
        (∑ t, R k t • (ContinuousLinearMap.proj (R := ℝ) (φ := fun _ : Fin N => ℝ) t ∘L D))) x := by
    refine HasFDerivAt.fun_sum fun k _ => ?_
    exact ((h2 k).comp_hasFDerivAt x (hq k)).const_mul (w k)
  refine ⟨fun y k => φ k (dot (R k) (preprocess zm y) ^ 2), _, ?_, hF, fun v => ?_⟩
  · rw [eventually_all]
    exact fun k => (hq k).continuousAt.eventually (h1 k)
  · unfold chanR
    rw [← hg]
    simp only [sum_apply, smul_apply, ContinuousLinearMap.comp_apply,
      ContinuousLinearMap.proj_apply, smul_eq_mul, Finset.mul_sum, Finset.sum_mul]
    rw [Finset.sum_comm]
    refine Finset.sum_congr rfl fun t _ => Finset.sum_congr rfl fun k _ => ?_
    ring

end FBE.Backward
