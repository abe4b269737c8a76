import Verif.Proofs.BackwardFft
import Verif.Proofs.Backward
import Verif.Proofs.Smooth
import Verif.Proofs.Norm
import Verif.Proofs.Diag

/-!
The backward pass for filters of several taps gives the derivatives of the coherences.
-/

set_option linter.unusedSectionVars false

namespace FBE.Backward

open Spec XR Filter Topology Matrix

variable {s : List ℕ} {r e c N M K n : ℕ}

/-! ### The derivative of `b · A⁻¹ b` -/

section quad

variable {X : Type*} [NormedAddCommGroup X] [NormedSpace ℝ X] {x0 : X} {J : Type} [Fintype J] [DecidableEq J]

/-- The quadratic form `b · A⁻¹ b`. -/
noncomputable def invQuad (A : Matrix J J ℝ) (b : J → ℝ) : ℝ := ∑ l, b l * (A⁻¹ *ᵥ b) l

theorem hasFDerivAt_invQuad {A : X → Matrix J J ℝ} {b : X → J → ℝ} {A' : J → J → X →L[ℝ] ℝ} {b' : J → X →L[ℝ] ℝ}
    (hA : ∀ i j, HasFDerivAt (fun x => A x i j) (A' i j) x0) (hc : ∀ i j, ContDiffAt ℝ 1 (fun x => A x i j) x0)
    (hb : ∀ i, HasFDerivAt (fun x => b x i) (b' i) x0) (hd : (A x0).det ≠ 0) :
    ∃ q' : X →L[ℝ] ℝ, HasFDerivAt (fun x => invQuad (A x) (b x)) q' x0 ∧
      ∀ v, q' v = ∑ l, b' l v * ((A x0)⁻¹ *ᵥ b x0) l +
        ∑ l, ((A x0)ᵀ⁻¹ *ᵥ b x0) l * (b' l v - ∑ m, A' l m v * ((A x0)⁻¹ *ᵥ b x0) m) := by
  have hs : ∀ l, DifferentiableAt ℝ (fun x => ((A x)⁻¹ *ᵥ b x) l) x0 := by
    intro l
    show DifferentiableAt ℝ (fun x => ∑ m, (A x)⁻¹ l m * b x m) x0
    refine DifferentiableAt.fun_sum fun m _ => ?_
    exact ((contDiffAt_inv hc hd l m).differentiableAt (by norm_num)).mul (hb m).differentiableAt
  have hS : ∀ l, ∃ S : X →L[ℝ] ℝ, HasFDerivAt (fun x => ((A x)⁻¹ *ᵥ b x) l) S x0 := fun l => ⟨_, (hs l).hasFDerivAt⟩
  choose S hS using hS
  have hev : ∀ᶠ x in 𝓝 x0, (A x).det ≠ 0 := (contDiffAt_det hc).continuousAt.eventually_ne hd
  have h1 : ∀ l, HasFDerivAt (fun x => ∑ m, A x l m * ((A x)⁻¹ *ᵥ b x) m)
      (∑ m, (A x0 l m • S m + ((A x0)⁻¹ *ᵥ b x0) m • A' l m)) x0 := fun l =>
    HasFDerivAt.fun_sum fun m _ => (hA l m).mul (hS m)
  have h2 : ∀ l, ∑ m, (A x0 l m • S m + ((A x0)⁻¹ *ᵥ b x0) m • A' l m) = b' l := by
    intro l
    refine (h1 l).unique ((hb l).congr_of_eventuallyEq ?_)
    filter_upwards [hev] with x hx
    have : (A x *ᵥ ((A x)⁻¹ *ᵥ b x)) l = b x l := by
      rw [mulVec_mulVec, mul_nonsing_inv _ (isUnit_iff_ne_zero.2 hx), one_mulVec]
    exact this
  have h3 : ∀ m, b x0 m = ∑ l, A x0 l m * ((A x0)ᵀ⁻¹ *ᵥ b x0) l := by
    intro m
    have : ((A x0)ᵀ *ᵥ ((A x0)ᵀ⁻¹ *ᵥ b x0)) m = b x0 m := by
      rw [mulVec_mulVec, mul_nonsing_inv _ (isUnit_iff_ne_zero.2 (by rwa [det_transpose])), one_mulVec]
    exact this.symm
  refine ⟨_, HasFDerivAt.fun_sum fun l _ => (hb l).mul (hS l), fun v => ?_⟩
  have h4 : ∀ l, b' l v - ∑ m, A' l m v * ((A x0)⁻¹ *ᵥ b x0) m = ∑ m, A x0 l m * S m v := by
    intro l
    have := congrArg (fun f : X →L[ℝ] ℝ => f v) (h2 l)
    simp only [_root_.sum_apply, _root_.add_apply, _root_.smul_apply, smul_eq_mul, Finset.sum_add_distrib] at this
    rw [← this]
    have hcm : ∑ m, A' l m v * ((A x0)⁻¹ *ᵥ b x0) m = ∑ m, ((A x0)⁻¹ *ᵥ b x0) m * A' l m v :=
      Finset.sum_congr rfl fun m _ => mul_comm _ _
    rw [hcm]
    ring
  simp only [h4, _root_.sum_apply, _root_.add_apply, _root_.smul_apply, smul_eq_mul, Finset.sum_add_distrib]
  rw [add_comm]
  congr 1
  · exact Finset.sum_congr rfl fun m _ => mul_comm _ _
  · simp only [Finset.mul_sum]
    rw [Finset.sum_comm]
    refine Finset.sum_congr rfl fun m _ => ?_
    rw [h3 m, Finset.sum_mul]
    exact Finset.sum_congr rfl fun l _ => by ring

end quad

/-! ### Correlations -/

/-- A sample of the padded signal. -/
noncomputable def zpadCLM (N u : ℕ) : (Fin N → ℝ) →L[ℝ] ℝ :=
  if h : u < N then ContinuousLinearMap.proj (R := ℝ) (φ := fun _ : Fin N => ℝ) ⟨u, h⟩ else 0

theorem zpadCLM_apply (x : Fin N → ℝ) (u : ℕ) : zpadCLM N u x = zpad x u := by
  unfold zpadCLM zpad
  split <;> rfl

theorem hasFDerivAt_zpad (x : Fin N → ℝ) (u : ℕ) : HasFDerivAt (fun x : Fin N → ℝ => zpad x u) (zpadCLM N u) x := by
  have : (fun x : Fin N → ℝ => zpad x u) = zpadCLM N u := by
    funext y
    rw [zpadCLM_apply]
  rw [this]
  exact (zpadCLM N u).hasFDerivAt

theorem hasFDerivAt_circ_second (n : ℕ) (x : Fin N → ℝ) (y : Fin M → ℝ) (l : ℕ) :
    ∃ D : (Fin M → ℝ) →L[ℝ] ℝ, HasFDerivAt (fun y => circ n x y l) D y ∧ ∀ v, D v = circ n x v l := by
  refine ⟨_, HasFDerivAt.fun_sum fun u _ => (hasFDerivAt_zpad y ((u + l) % n)).const_mul (zpad x u), fun v => ?_⟩
  simp only [_root_.sum_apply, _root_.smul_apply, smul_eq_mul, zpadCLM_apply]
  rfl

theorem hasFDerivAt_circ_first (n : ℕ) (x : Fin N → ℝ) (y : Fin M → ℝ) (l : ℕ) :
    ∃ D : (Fin N → ℝ) →L[ℝ] ℝ, HasFDerivAt (fun x => circ n x y l) D x ∧ ∀ v, D v = circ n v y l := by
  refine ⟨_, HasFDerivAt.fun_sum fun u _ => (hasFDerivAt_zpad x u).mul_const (zpad y ((u + l) % n)), fun v => ?_⟩
  simp only [_root_.sum_apply, _root_.smul_apply, smul_eq_mul, zpadCLM_apply]
  exact Finset.sum_congr rfl fun u _ => mul_comm _ _

theorem hasFDerivAt_circ_auto (n : ℕ) (x : Fin N → ℝ) (l : ℕ) :
    ∃ D : (Fin N → ℝ) →L[ℝ] ℝ, HasFDerivAt (fun x => circ n x x l) D x ∧ ∀ v, D v = circ n x v l + circ n v x l := by
  refine ⟨_, HasFDerivAt.fun_sum fun u _ => (hasFDerivAt_zpad x u).mul (hasFDerivAt_zpad x ((u + l) % n)), fun v => ?_⟩
  simp only [_root_.sum_apply, _root_.add_apply, _root_.smul_apply, smul_eq_mul, zpadCLM_apply, Finset.sum_add_distrib]
  unfold circ
  congr 1
  exact Finset.sum_congr rfl fun u _ => mul_comm _ _

/-- `R_mat`, with the loaded diagonal. -/
noncomputable def acfM (n K : ℕ) (d : ℝ) (x : Fin N → ℝ) : Matrix (Fin K) (Fin K) ℝ :=
  fun i j => circ n x x (max i.val j - min i.val j) + if max i.val j - min i.val j = 0 then d else 0

/-- `xcorr`. -/
noncomputable def xcV (n K : ℕ) (x : Fin N → ℝ) (y : Fin M → ℝ) : Fin K → ℝ := fun l => circ n x y l

/-- The coherence. -/
noncomputable def firCoh (n K : ℕ) (d : ℝ) (x : Fin N → ℝ) (y : Fin M → ℝ) : ℝ := invQuad (acfM n K d x) (xcV n K x y)

theorem contDiff_acfM (d : ℝ) (i j : Fin K) : ContDiff ℝ 1 fun x : Fin N → ℝ => acfM n K d x i j := by
  unfold acfM circ
  refine ContDiff.add (ContDiff.sum fun u _ => ?_) contDiff_const
  exact (contDiff_zpad u).mul (contDiff_zpad _)

theorem eventually_acfM {d : ℝ} {x : Fin N → ℝ} (hd : (acfM n K d x).det ≠ 0) : ∀ᶠ y in 𝓝 x, (acfM n K d y).det ≠ 0 :=
  (contDiffAt_det fun i j => (contDiff_acfM d i j).contDiffAt).continuousAt.eventually_ne hd

/-- The derivative for the estimate. -/
theorem firCoh_hasFDerivAt_est {d : ℝ} {x : Fin N → ℝ} (hd : (acfM n K d x).det ≠ 0) (y : Fin M → ℝ) :
    ∃ q' : (Fin M → ℝ) →L[ℝ] ℝ, HasFDerivAt (firCoh n K d x) q' y ∧
      ∀ g v, g * q' v =
        ∑ l : Fin K, xcorrGrad (acfM n K d x) (xcV n K x y) ((acfM n K d x)⁻¹ *ᵥ xcV n K x y) g l * circ n x v l := by
  choose D hD hv using fun l : Fin K => hasFDerivAt_circ_second n x y l
  obtain ⟨q', h1, h2⟩ := hasFDerivAt_invQuad (x0 := y) (A := fun _ => acfM n K d x) (b := fun y => xcV n K x y)
    (A' := fun _ _ => 0) (fun i j => hasFDerivAt_const _ _) (fun i j => contDiffAt_const) hD hd
  refine ⟨q', h1, fun g v => ?_⟩
  have h3 : (fun i => g * xcV n K x y i) = g • xcV n K x y := rfl
  rw [h2]
  unfold xcorrGrad
  rw [h3, mulVec_smul, mul_add, Finset.mul_sum, Finset.mul_sum, ← Finset.sum_add_distrib]
  refine Finset.sum_congr rfl fun l _ => ?_
  simp only [hv, _root_.zero_apply, zero_mul, Finset.sum_const_zero, sub_zero, Pi.smul_apply, smul_eq_mul]
  ring

/-- The derivative for the reference. -/
theorem firCoh_hasFDerivAt_ref {d : ℝ} {x : Fin N → ℝ} (hd : (acfM n K d x).det ≠ 0) (y : Fin M → ℝ) :
    ∃ q' : (Fin N → ℝ) →L[ℝ] ℝ, HasFDerivAt (fun x => firCoh n K d x y) q' x ∧
      ∀ g v, g * q' v =
        ∑ l : Fin K, xcorrGrad (acfM n K d x) (xcV n K x y) ((acfM n K d x)⁻¹ *ᵥ xcV n K x y) g l * circ n v y l -
        ∑ i : Fin K, ∑ j : Fin K, (((acfM n K d x)ᵀ⁻¹ *ᵥ fun i => g * xcV n K x y i) i * ((acfM n K d x)⁻¹ *ᵥ xcV n K x y) j) *
          (circ n x v (max i.val j - min i.val j) + circ n v x (max i.val j - min i.val j)) := by
  choose D hD hv using fun l : Fin K => hasFDerivAt_circ_first n x y l
  choose E hE hw using fun i j : Fin K => hasFDerivAt_circ_auto n x (max i.val j - min i.val j)
  obtain ⟨q', h1, h2⟩ := hasFDerivAt_invQuad (x0 := x) (A := fun x => acfM n K d x) (b := fun x => xcV n K x y)
    (A' := E) (fun i j => (hE i j).add_const _) (fun i j => (contDiff_acfM d i j).contDiffAt) hD hd
  refine ⟨q', h1, fun g v => ?_⟩
  have h3 : (fun i => g * xcV n K x y i) = g • xcV n K x y := rfl
  rw [h2]
  unfold xcorrGrad
  rw [h3, mulVec_smul, mul_add, Finset.mul_sum, Finset.mul_sum, ← Finset.sum_add_distrib, ← Finset.sum_sub_distrib]
  refine Finset.sum_congr rfl fun l _ => ?_
  simp only [hv, hw, Pi.smul_apply, smul_eq_mul]
  have h4 : ∀ a : ℝ, ∑ j : Fin K, g * a * ((acfM n K d x)⁻¹ *ᵥ xcV n K x y) j *
      (circ n x v (max l.val j - min l.val j) + circ n v x (max l.val j - min l.val j)) =
      g * a * ∑ j : Fin K, (circ n x v (max l.val j - min l.val j) + circ n v x (max l.val j - min l.val j)) *
        ((acfM n K d x)⁻¹ *ᵥ xcV n K x y) j := by
    intro a
    rw [Finset.mul_sum]
    exact Finset.sum_congr rfl fun j _ => by ring
  rw [h4]
  ring

/-- `estBack` is the gradient of the normalised estimate. -/
theorem estBack_adjoint (hn : n ≠ 0) (hK : K ≤ n) (hM : M ≤ n) (x : Fin r → Fin N → ℝ) (gxc : Fin r → Fin K → ℝ)
    (v : Fin M → ℝ) : ∑ t, estBack n x gxc t * v t = ∑ k, ∑ l, gxc k l * circ n (x k) v l := by
  have h1 : ∀ t : Fin M, estBack n x gxc t * v t =
      ∑ k, rfftGrad n (fun f => irfftGrad n K (gxc k) f * spectrum n (x k) f) t * v t := by
    intro t
    unfold estBack
    rw [rfftGrad_sum, Finset.sum_mul]
  simp only [h1]
  rw [Finset.sum_comm]
  exact Finset.sum_congr rfl fun k _ => adjoint_second hn hK hM _ _ _

/-- `refBack` is the gradient of the normalised reference. -/
theorem refBack_adjoint (hn : n ≠ 0) (hK : K ≤ n) (hN : N ≤ n) (x : Fin N → ℝ) (y : Fin e → Fin M → ℝ)
    (gxc : Fin e → Fin K → ℝ) (gacf : Fin K → ℝ) (v : Fin N → ℝ) :
    ∑ t, refBack n x y gxc gacf t * v t = ∑ j, ∑ l, gxc j l * circ n v (y j) l +
      ∑ l, gacf l * (circ n x v l + circ n v x l) := by
  have h1 : ∀ t : Fin N, refBack n x y gxc gacf t * v t =
      ∑ j, rfftGrad n (fun f => (starRingEnd ℂ) (irfftGrad n K (gxc j) f) * spectrum n (y j) f) t * v t +
        rfftGrad n (fun f => ((2 * (irfftGrad n K gacf f).re : ℝ) : ℂ) * spectrum n x f) t * v t := by
    intro t
    unfold refBack
    rw [rfftGrad_add, rfftGrad_sum, add_mul, Finset.sum_mul]
    simp only [map_mul, Complex.conj_conj]
  simp only [h1]
  rw [Finset.sum_add_distrib, Finset.sum_comm, adjoint_auto hn hK hN]
  congr 1
  exact Finset.sum_congr rfl fun j _ => adjoint_first hn hK hN _ _ _

/-- The gradient of the normalised estimate `y`, if the derivatives by the coherences are `g`. -/
theorem est_total (hn : n ≠ 0) (hK : K ≤ n) (hM : M ≤ n) {d : ℝ} {x : Fin r → Fin N → ℝ} (y : Fin M → ℝ)
    (hd : ∀ k, (acfM n K d (x k)).det ≠ 0) :
    ∃ q' : Fin r → (Fin M → ℝ) →L[ℝ] ℝ, (∀ k, HasFDerivAt (firCoh n K d (x k)) (q' k) y) ∧
      ∀ (g : Fin r → ℝ) v, ∑ t, estBack n x (fun k => xcorrGrad (acfM n K d (x k)) (xcV n K (x k) y)
        ((acfM n K d (x k))⁻¹ *ᵥ xcV n K (x k) y) (g k)) t * v t = ∑ k, g k * q' k v := by
  choose q' h1 h2 using fun k => firCoh_hasFDerivAt_est (hd k) y
  refine ⟨q', h1, fun g v => ?_⟩
  rw [estBack_adjoint hn hK hM]
  exact Finset.sum_congr rfl fun k _ => (h2 k _ _).symm

/-- The gradient of the normalised reference `x`, if the derivatives by the coherences are `g`. -/
theorem ref_total (hn : n ≠ 0) (hK : K ≤ n) (hN : N ≤ n) {d : ℝ} {x : Fin N → ℝ} (y : Fin e → Fin M → ℝ)
    (hd : (acfM n K d x).det ≠ 0) :
    ∃ q' : Fin e → (Fin N → ℝ) →L[ℝ] ℝ, (∀ j, HasFDerivAt (fun x => firCoh n K d x (y j)) (q' j) x) ∧
      ∀ (g : Fin e → ℝ) v, ∑ t, refBack n x y (fun j => xcorrGrad (acfM n K d x) (xcV n K x (y j))
        ((acfM n K d x)⁻¹ *ᵥ xcV n K x (y j)) (g j))
        (toeplitzGrad (matGrad (acfM n K d x) (fun j => xcV n K x (y j))
          (fun j => (acfM n K d x)⁻¹ *ᵥ xcV n K x (y j)) g)) t * v t = ∑ j, g j * q' j v := by
  choose q' h1 h2 using fun j => firCoh_hasFDerivAt_ref hd (y j)
  refine ⟨q', h1, fun g v => ?_⟩
  rw [refBack_adjoint hn hK hN]
  simp only [h2, Finset.sum_sub_distrib]
  rw [sub_eq_add_neg]
  congr 1
  rw [toeplitzGrad_adjoint _ fun l => circ n x v l + circ n v x l]
  rw [Finset.sum_comm (s := (Finset.univ : Finset (Fin e))), ← Finset.sum_neg_distrib]
  refine Finset.sum_congr rfl fun a _ => ?_
  rw [Finset.sum_comm (s := (Finset.univ : Finset (Fin e))), ← Finset.sum_neg_distrib]
  refine Finset.sum_congr rfl fun b _ => ?_
  unfold matGrad
  rw [neg_mul, Finset.sum_mul]

/-! ### The whole pass -/

/-- `Q k` of the normalised channel `x`: decibels and weighted sum. -/
theorem chan_total {cl : Option ℝ} {zm : Bool} {x : Fin N → ℝ} {Q : Fin r → (Fin N → ℝ) → ℝ}
    {Q' : Fin r → (Fin N → ℝ) →L[ℝ] ℝ} (hQ : ∀ k, HasFDerivAt (Q k) (Q' k) (preprocess zm x))
    (h : ∀ k, 0 < cclamp cl (Q k (preprocess zm x)) ∧ cclamp cl (Q k (preprocess zm x)) < 1)
    (hb : ∀ k, Q k (preprocess zm x) ≠ epsOf cl ∧ Q k (preprocess zm x) ≠ 1 - epsOf cl)
    (hx : sigNorm (centred zm x) ≠ 1e-6) (w : Fin r → ℝ) {γ : Fin N → ℝ}
    (hγ : ∀ v, ∑ t, γ t * v t = ∑ k, w k * dbSlope cl (Q k (preprocess zm x)) * Q' k v) :
    ∃ (F : (Fin N → ℝ) → Fin r → ℝ) (F' : (Fin N → ℝ) →L[ℝ] ℝ),
      (∀ᶠ y in 𝓝 x, ∀ k, coherenceToNegSdr cl (fin (Q k (preprocess zm y))) = fin (F y k)) ∧
      HasFDerivAt (fun y => ∑ k, w k * F y k) F' x ∧ ∀ v, F' v = ∑ t, prepR zm x γ t * v t := by
  choose φ h1 h2 using fun k => loss_hasDerivAt (h k).1 (h k).2 (hb k)
  obtain ⟨D, hD, hg⟩ := hasFDerivAt_preprocess hx
  have hq : ∀ k, HasFDerivAt (fun y => Q k (preprocess zm y)) (Q' k ∘L D) x := fun k =>
    HasFDerivAt.comp x (f := preprocess zm) (g := Q k) (hQ k) hD
  have hF : HasFDerivAt (fun y => ∑ k, w k * φ k (Q k (preprocess zm y)))
      (∑ k, w k • dbSlope cl (Q k (preprocess zm x)) • (Q' k ∘L D)) x := by
    refine HasFDerivAt.fun_sum fun k _ => ?_
    exact ((h2 k).comp_hasFDerivAt x (hq k)).const_mul (w k)
  refine ⟨fun y k => φ k (Q k (preprocess zm y)), _, ?_, hF, fun v => ?_⟩
  · rw [eventually_all]
    exact fun k => (hq k).continuousAt.eventually (h1 k)
  · rw [← hg, hγ]
    simp only [_root_.sum_apply, _root_.smul_apply, ContinuousLinearMap.comp_apply, smul_eq_mul]
    exact Finset.sum_congr rfl fun k _ => by ring

/-- The same for all channels. -/
theorem sig_total {cl : Option ℝ} {zm : Bool} {x : Sig s e N} {Q : BIdx s → Fin e → Fin r → (Fin N → ℝ) → ℝ}
    {Q' : BIdx s → Fin e → Fin r → (Fin N → ℝ) →L[ℝ] ℝ}
    (hQ : ∀ m j k, HasFDerivAt (Q m j k) (Q' m j k) (preprocess zm (x m j)))
    (h : ∀ m j k, 0 < cclamp cl (Q m j k (preprocess zm (x m j))) ∧ cclamp cl (Q m j k (preprocess zm (x m j))) < 1)
    (hb : ∀ m j k, Q m j k (preprocess zm (x m j)) ≠ epsOf cl ∧ Q m j k (preprocess zm (x m j)) ≠ 1 - epsOf cl)
    (hx : ∀ m j, sigNorm (centred zm (x m j)) ≠ 1e-6) (w : BIdx s → Fin e → Fin r → ℝ) {γ : BIdx s → Fin e → Fin N → ℝ}
    (hγ : ∀ m j v, ∑ t, γ m j t * v t = ∑ k, w m j k * dbSlope cl (Q m j k (preprocess zm (x m j))) * Q' m j k v) :
    ∃ (F : BIdx s → Fin e → (Fin N → ℝ) → Fin r → ℝ) (F' : Sig s e N →L[ℝ] ℝ),
      (∀ᶠ y in 𝓝 x, ∀ m j k, coherenceToNegSdr cl (fin (Q m j k (preprocess zm (y m j)))) = fin (F m j (y m j) k)) ∧
      HasFDerivAt (fun y : Sig s e N => ∑ m, ∑ j, ∑ k, w m j k * F m j (y m j) k) F' x ∧
      ∀ v, F' v = ∑ m, ∑ j, ∑ t, prepR zm (x m j) (γ m j) t * v m j t := by
  choose F F' h1 h2 h3 using fun m j => chan_total (hQ m j) (h m j) (hb m j) (hx m j) (w m j) (hγ m j)
  let P : BIdx s → Fin e → Sig s e N →L[ℝ] (Fin N → ℝ) := fun m j =>
    ContinuousLinearMap.proj (R := ℝ) (φ := fun _ : Fin e => Fin N → ℝ) j ∘L
      ContinuousLinearMap.proj (R := ℝ) (φ := fun _ : BIdx s => Fin e → Fin N → ℝ) m
  refine ⟨F, ∑ m, ∑ j, F' m j ∘L P m j, ?_, ?_, ?_⟩
  · rw [eventually_all]
    intro m
    rw [eventually_all]
    intro j
    have : ContinuousAt (fun y : Sig s e N => y m j) x := (P m j).continuous.continuousAt
    exact this.eventually (h1 m j)
  · refine HasFDerivAt.fun_sum fun m _ => HasFDerivAt.fun_sum fun j _ => ?_
    exact HasFDerivAt.comp x (f := P m j) (g := fun y => ∑ k, w m j k * F m j y k) (h2 m j) (P m j).hasFDerivAt
  · intro v
    simp only [_root_.sum_apply, ContinuousLinearMap.comp_apply, h3]
    rfl

/-! ### The forward pass -/

section fwd

variable {o : Opts}

theorem fftSize_ne (h : nFft N M = .ok n) : n ≠ 0 := by
  have := nFft_bounds h
  omega

theorem toeplitz_acfM (hn : n ≠ 0) (hL : 1 ≤ o.filterLength) (ref : Sig s r N) (m : BIdx s) (k : Fin r) :
    toeplitz torchBackend (min o.filterLength n) (sdrAcf o n ref m k) =
      acfM n (min o.filterLength n) o.load (prep o ref m k) := by
  have hl : (sdrAcf o n ref m k).length = min o.filterLength n := by
    unfold sdrAcf
    rw [length_addHead, length_acf1]
  ext i j
  have hi := i.isLt
  have hj := j.isLt
  rw [toeplitz_apply (Or.inl rfl) hl]
  unfold sdrAcf acfM
  rw [getD_addHead _ _ _, acf1_get n _ hn _ _ (by omega) (by omega)]
  · rfl
  · intro hnil
    have := congrArg List.length hnil
    rw [length_acf1, List.length_nil] at this
    omega

theorem vec_xcV (hn : n ≠ 0) (ref : Sig s r N) (est : Sig s e M) (m : BIdx s) (k : Fin r) (j : Fin e) :
    vec (min o.filterLength n) (sdrXcorr o n ref est m k j) =
      xcV n (min o.filterLength n) (prep o ref m k) (prep o est m j) := by
  funext l
  have hl := l.isLt
  unfold vec sdrXcorr xcV
  rw [xcorr1_get n _ hn _ _ _ (by omega) (by omega)]

open Classical in
theorem forward_eq (hn : nFft N M = .ok n) (hL : 1 ≤ o.filterLength) (ref : Sig s r N) (est : Sig s e M) :
    forward o ref est =
      if ∃ i : BIdx s × Fin r, (acfM n (min o.filterLength n) o.load (prep o ref i.1 i.2)).det = 0 then .error .linAlgError
      else .ok ⟨n, min o.filterLength n, fun m k => acfM n (min o.filterLength n) o.load (prep o ref m k),
        fun m k j => xcV n (min o.filterLength n) (prep o ref m k) (prep o est m j), fun m k j =>
        (acfM n (min o.filterLength n) o.load (prep o ref m k))⁻¹ *ᵥ xcV n (min o.filterLength n) (prep o ref m k) (prep o est m j)⟩ := by
  unfold forward
  rw [hn]
  have h0 := fftSize_ne hn
  simp only [toeplitz_acfM h0 hL, vec_xcV h0, solveStack]
  by_cases h : ∃ i : BIdx s × Fin r, (acfM n (min o.filterLength n) o.load (prep o ref i.1 i.2)).det = 0
  · rw [if_pos h, if_pos h]
  · rw [if_neg h, if_neg h]

open Classical in
theorem forwardDiag_eq (hn : nFft N M = .ok n) (hL : 1 ≤ o.filterLength) (ref : Sig s c N) (est : Sig s c M) :
    forwardDiag o ref est =
      if ∃ i : BIdx s × Fin c, (acfM n (min o.filterLength n) o.load (prep o ref i.1 i.2)).det = 0 then .error .linAlgError
      else .ok ⟨n, min o.filterLength n, fun m k => acfM n (min o.filterLength n) o.load (prep o ref m k),
        fun m k _ => xcV n (min o.filterLength n) (prep o ref m k) (prep o est m k), fun m k _ =>
        (acfM n (min o.filterLength n) o.load (prep o ref m k))⁻¹ *ᵥ xcV n (min o.filterLength n) (prep o ref m k) (prep o est m k)⟩ := by
  unfold forwardDiag
  rw [hn]
  have h0 := fftSize_ne hn
  simp only [toeplitz_acfM h0 hL, vec_xcV h0, solveStack]
  by_cases h : ∃ i : BIdx s × Fin c, (acfM n (min o.filterLength n) o.load (prep o ref i.1 i.2)).det = 0
  · rw [if_pos h, if_pos h]
  · rw [if_neg h, if_neg h]

open Classical in
theorem cohPair_fir (hn : nFft N M = .ok n) (hL : 2 ≤ o.filterLength) (hcg : o.useCgIter = none) (ref : Sig s r N)
    (est : Sig s e M) : sdrCohPair torchBackend o ref est =
      if ∃ i : BIdx s × Fin r, (acfM n (min o.filterLength n) o.load (prep o ref i.1 i.2)).det = 0 then .error .linAlgError
      else .ok fun m k j => firCoh n (min o.filterLength n) o.load (prep o ref m k) (prep o est m j) := by
  rw [sdrCohPair_unfold hn rfl hL, hcg]
  have h0 := fftSize_ne hn
  simp only [toeplitz_acfM h0 (show 1 ≤ o.filterLength by omega), vec_xcV h0, solveStack]
  by_cases h : ∃ i : BIdx s × Fin r, (acfM n (min o.filterLength n) o.load (prep o ref i.1 i.2)).det = 0
  · rw [if_pos h, if_pos h]
  · rw [if_neg h, if_neg h]
    rfl

open Classical in
theorem cohDiag_fir (hn : nFft N M = .ok n) (hL : 2 ≤ o.filterLength) (hcg : o.useCgIter = none) (ref : Sig s c N)
    (est : Sig s c M) : sdrCohDiag torchBackend o ref est =
      if ∃ i : BIdx s × Fin c, (acfM n (min o.filterLength n) o.load (prep o ref i.1 i.2)).det = 0 then .error .linAlgError
      else .ok fun m k => firCoh n (min o.filterLength n) o.load (prep o ref m k) (prep o est m k) := by
  rw [sdrCohDiag_unfold hn rfl hL, hcg]
  have h0 := fftSize_ne hn
  have hsv : torchBackend.stackedVectors = true := rfl
  simp only [toeplitz_acfM h0 (show 1 ≤ o.filterLength by omega), vec_xcV h0, solveVecs, hsv, if_true, solveStack]
  by_cases h : ∃ i : BIdx s × Fin c, (acfM n (min o.filterLength n) o.load (prep o ref i.1 i.2)).det = 0
  · rw [if_pos h, if_pos h]
  · rw [if_neg h, if_neg h]
    rfl

end fwd

/-! ### Lifting -/

theorem lift_fin {κ : Type} {g : κ → XR} {γ : κ → ℝ} (h : ∀ k, g k = fin (γ k)) (f : (κ → ℝ) → Fin N → ℝ) :
    lift g f = fun t => fin (f γ t) := by
  unfold lift
  have : ∀ k, (g k).toReal?.isSome := fun k => by rw [h]; rfl
  rw [if_pos this]
  have h2 : (fun k => (g k).toReal?.getD 0) = γ := by
    funext k
    rw [h]
    rfl
  rw [h2]

theorem lift_nan {κ : Type} {g : κ → XR} {k : κ} (h : g k = nan) (f : (κ → ℝ) → Fin N → ℝ) (t : Fin N) :
    lift g f t = nan := by
  unfold lift
  rw [if_neg]
  intro hk
  have := hk k
  rw [h] at this
  cases this

end FBE.Backward
