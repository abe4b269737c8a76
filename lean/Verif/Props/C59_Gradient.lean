import Verif.Proofs.Gradient
import Verif.Props.C52_Convergence

/-!
# C59: the loss is smooth, and its gradient

The documentation offers `sdr_loss` as a training objective.  Away from the threshold of the
normalisation and from the bounds of `clamp_db`, every loss is a smooth function of the samples; its
derivative in the estimates is explicit, vanishes along rescaling (and along constant offsets with
`zero_mean`), and with `filter_length=1` never vanishes altogether: there are no stationary points.
-/

set_option linter.unusedSectionVars false

namespace FBE.Props

open Spec XR Filter Topology

variable {s : List ℕ} {r e c N : ℕ} {B : Backend} {o : Opts}

/-- **C59**, smoothness in references and estimates. -/
theorem C59_smooth (hB : Covered B) (hdir : o.direct) {ref : Sig s r N} {est : Sig s e N} {M}
    (h : sdrLossPair B o est ref = .ok M)
    (hr : ∀ m k, sigNorm (centred o.zeroMean (ref m k)) ≠ 1e-6)
    (he : ∀ m j, sigNorm (centred o.zeroMean (est m j)) ≠ 1e-6)
    {m : BIdx s} {k : Fin r} {j : Fin e} {x : ℝ} (hx : M m k j = fin x) (hcl : ∀ d, o.clampDb = some d → |x| < d) :
    ∃ f : Sig s r N × Sig s e N → ℝ, f (ref, est) = x ∧
      (∀ᶠ p in 𝓝 (ref, est), ∃ M', sdrLossPair B o p.2 p.1 = .ok M' ∧ M' m k j = fin (f p)) ∧
      ∀ ν : WithTop ℕ∞, ContDiffAt ℝ ν f (ref, est) := by
  obtain ⟨coh, hc, rfl⟩ := sdrLossPair_entry h
  obtain ⟨G, rfl, h2, h3⟩ := sdrCohPair_smooth (ν := ⊤) hB hdir hc (contDiffAt_prep hr) (contDiffAt_prep he)
  obtain ⟨i0, i1⟩ := coh_inside hx hcl
  have he0 := epsOf_nonneg o.clampDb
  have hx : coherenceToNegSdr o.clampDb (fin (G (ref, est) m k j)) = fin x := hx
  rw [loss_inside i0 i1] at hx
  refine ⟨fun p => 10 * Real.logb 10 ((1 - G p m k j) / G p m k j), by cases hx; rfl, ?_, ?_⟩
  · have hcont := (h3 m k j).continuousAt
    filter_upwards [h2, hcont.eventually (lt_mem_nhds i0), hcont.eventually (gt_mem_nhds i1)] with p p1 p2 p3
    refine ⟨fun m k j => coherenceToNegSdr o.clampDb (fin (G p m k j)), ?_, loss_inside p2 p3⟩
    unfold sdrLossPair
    rw [p1]
  · intro ν
    have h4 : ContDiffAt ℝ ν (fun p => G p m k j) (ref, est) := (h3 m k j).of_le le_top
    have hv : G (ref, est) m k j ≠ 0 := by linarith
    have hq : ContDiffAt ℝ ν (fun p => (1 - G p m k j) / G p m k j) (ref, est) :=
      (contDiffAt_const.sub h4).div h4 hv
    have hlog := hq.log (div_ne_zero (by linarith) hv)
    unfold Real.logb
    exact contDiffAt_const.mul (hlog.div_const _)

/-- `f` is the loss of estimate `j` for reference `k`, for all estimates near `est`. -/
def LossNear (B : Backend) (o : Opts) (ref : Sig s r N) (est : Sig s e N) (m : BIdx s) (k : Fin r) (j : Fin e)
    (f : Sig s e N → ℝ) : Prop :=
  ∀ᶠ p in 𝓝 est, ∃ M, sdrLossPair B o p ref = .ok M ∧ M m k j = fin (f p)

theorem LossNear.eventuallyEq {ref : Sig s r N} {est : Sig s e N} {m : BIdx s} {k : Fin r} {j : Fin e}
    {f g : Sig s e N → ℝ} (hf : LossNear B o ref est m k j f) (hg : LossNear B o ref est m k j g) : f =ᶠ[𝓝 est] g := by
  filter_upwards [hf, hg] with p ⟨M, h1, h2⟩ ⟨M', h3, h4⟩
  rw [h1] at h3
  cases h3
  rw [h2] at h4
  exact XR.fin.inj h4

/-- The part of the estimate explained by the reference. -/
noncomputable def target (o : Opts) (ref : Sig s r N) (est : Sig s e N) (m : BIdx s) (k : Fin r) (j : Fin e) :
    Space (N + o.filterLength - 1) :=
  (spanOne (N + o.filterLength - 1) o.filterLength (centred o.zeroMean (ref m k))).starProjection
    (shift _ (centred o.zeroMean (est m j)) 0)

/-- The rest of the estimate. -/
noncomputable def distortion (o : Opts) (ref : Sig s r N) (est : Sig s e N) (m : BIdx s) (k : Fin r) (j : Fin e) :
    Space (N + o.filterLength - 1) :=
  shift _ (centred o.zeroMean (est m j)) 0 - target o ref est m k j

/-- The conditions of the theorems below: a covered back end, a direct solve without loading, filters that
fit, an estimate above the threshold of the normalisation and a reference not below it (`filter_length=1`),
and a finite loss strictly between the bounds of `clamp_db`. -/
structure Regular (B : Backend) (o : Opts) (ref : Sig s r N) (est : Sig s e N) (m : BIdx s) (k : Fin r) (j : Fin e) :
    Prop where
  covered : Covered B
  direct : o.direct
  load : o.load = 0
  fits : FilterFits N o.filterLength
  audible : 1e-6 < sigNorm (centred o.zeroMean (est m j))
  refOk : o.filterLength = 1 → Audible (centred o.zeroMean (ref m k))
  inside : ∃ M x, sdrLossPair B o est ref = .ok M ∧ M m k j = fin x ∧ ∀ d, o.clampDb = some d → |x| < d

theorem target_ne_zero {ref : Sig s r N} {est : Sig s e N} {m : BIdx s} {k : Fin r} {j : Fin e}
    (H : Regular B o ref est m k j) : target o ref est m k j ≠ 0 ∧ distortion o ref est m k j ≠ 0 ∧
      o.filterLength ≠ 0 ∧ ∃ f, LossNear B o ref est m k j f ∧ f = fun p => 10 * Real.logb 10
        (‖distortion o ref p m k j‖ ^ 2 / ‖target o ref p m k j‖ ^ 2) := by
  obtain ⟨M, x, h, hx, hcl⟩ := H.inside
  obtain ⟨coh, hc, rfl⟩ := sdrLossPair_entry h
  obtain ⟨G, rfl, h2, h3⟩ := sdrCohPair_cont H.covered hc
  obtain ⟨i0, i1⟩ := coh_inside hx hcl
  have hL : o.filterLength ≠ 0 := by
    intro h0
    simp only [sdrCohPair_def] at hc; unfold sdrCohPairGen at hc; rw [if_pos h0] at hc; cases hc
  have he0 := epsOf_nonneg o.clampDb
  have hcts : ContinuousAt (fun p : Sig s e N => (ref, p)) est := by fun_prop
  have g1 : ∀ᶠ p in 𝓝 est, sdrCohPair B o ref p = .ok (G (ref, p)) := hcts.eventually h2
  have gc : ContinuousAt (fun p : Sig s e N => G (ref, p) m k j) est :=
    ContinuousAt.comp (g := fun p => G p m k j) (h3 m k j) hcts
  have ga : ∀ᶠ p in 𝓝 est, 1e-6 < sigNorm (centred o.zeroMean (p m j)) := by
    have : Continuous fun p : Sig s e N => sigNorm (centred o.zeroMean (p m j)) :=
      continuous_sigNorm.comp ((contDiff_centred (ν := 0) o.zeroMean).continuous.comp
        ((continuous_apply j).comp (continuous_apply m)))
    exact this.continuousAt.eventually (lt_mem_nhds H.audible)
  have key : ∀ p : Sig s e N, sdrCohPair B o ref p = .ok (G (ref, p)) → 1e-6 < sigNorm (centred o.zeroMean (p m j)) →
      0 < G (ref, p) m k j → G (ref, p) m k j < 1 →
      target o ref p m k j ≠ 0 ∧ distortion o ref p m k j ≠ 0 ∧
      (1 - G (ref, p) m k j) / G (ref, p) m k j = ‖distortion o ref p m k j‖ ^ 2 / ‖target o ref p m k j‖ ^ 2 := by
    intro p hp ha hv0 hv1
    have hv := sdrCohPair_proj H.covered H.direct H.load H.fits (D := N + o.filterLength - 1) (by omega) ref p hp m k j
      fun h1 => Or.inl (H.refOk h1)
    obtain ⟨hg, hE⟩ := gain_sq_energy (D := N + o.filterLength - 1) (by omega) (y := centred o.zeroMean (p m j)) ha.le
    have hsub := energy_sub_proj (spanOne (N + o.filterLength - 1) o.filterLength (centred o.zeroMean (ref m k)))
      (shift _ (centred o.zeroMean (p m j)) 0)
    have hv' : G (ref, p) m k j = gain (centred o.zeroMean (p m j)) ^ 2 * ‖target o ref p m k j‖ ^ 2 := hv
    have hsub' : ‖distortion o ref p m k j‖ ^ 2 =
      energy (shift (N + o.filterLength - 1) (centred o.zeroMean (p m j)) 0) - ‖target o ref p m k j‖ ^ 2 := hsub
    have hgp : 0 < gain (centred o.zeroMean (p m j)) ^ 2 := pow_pos (gain_pos _) 2
    have h1v : 1 - G (ref, p) m k j = gain (centred o.zeroMean (p m j)) ^ 2 * ‖distortion o ref p m k j‖ ^ 2 := by
      rw [hsub', hv', mul_sub, hg]
    refine ⟨fun h => ?_, fun h => ?_, ?_⟩
    · rw [h] at hv'
      simp at hv'
      linarith
    · rw [h] at h1v
      simp at h1v
      linarith
    · rw [h1v, hv', mul_div_mul_left _ _ hgp.ne']
  obtain ⟨k1, k2, -⟩ := key est hc H.audible (by linarith) (by linarith)
  refine ⟨k1, k2, hL, _, ?_, rfl⟩
  filter_upwards [g1, ga, gc.eventually (lt_mem_nhds i0), gc.eventually (gt_mem_nhds i1)] with p p1 p2 p3 p4
  refine ⟨fun m k j => coherenceToNegSdr o.clampDb (fin (G (ref, p) m k j)), ?_, ?_⟩
  · unfold sdrLossPair
    rw [p1]
  · show coherenceToNegSdr o.clampDb (fin (G (ref, p) m k j)) = _
    rw [loss_inside p3 p4, (key p p1 p2 (by linarith) (by linarith)).2.2]

/-- **C59**, the gradient: with `e` the distortion and `t` the target, the derivative of the loss when
the estimates change by `v` is `20 / ln 10 * (⟨e, v⟩ / |e|² - ⟨t, v⟩ / |t|²)`, with `v` standing for the
(centred) channel that the loss is about: other channels do not matter. -/
theorem C59_gradient {ref : Sig s r N} {est : Sig s e N} {m : BIdx s} {k : Fin r} {j : Fin e}
    (H : Regular B o ref est m k j) :
    (∃ f, LossNear B o ref est m k j f) ∧ ∀ f, LossNear B o ref est m k j f →
      ∃ f' : Sig s e N →L[ℝ] ℝ, HasFDerivAt f f' est ∧ ∀ v, f' v = 20 / Real.log 10 *
        (inner ℝ (distortion o ref est m k j) (shift _ (centred o.zeroMean (v m j)) 0) / ‖distortion o ref est m k j‖ ^ 2 -
          inner ℝ (target o ref est m k j) (shift _ (centred o.zeroMean (v m j)) 0) / ‖target o ref est m k j‖ ^ 2) := by
  obtain ⟨h1, h2, -, g, hg, rfl⟩ := target_ne_zero H
  refine ⟨⟨_, hg⟩, fun f hf => ?_⟩
  obtain ⟨f', hf', hv⟩ := hasFDerivAt_ratio
    (spanOne (N + o.filterLength - 1) o.filterLength (centred o.zeroMean (ref m k)))
    (chanCLM o.zeroMean (N + o.filterLength - 1) m j) est h1 h2
  exact ⟨f', hf'.congr_of_eventuallyEq (hf.eventuallyEq hg), hv⟩

/-- **C59**, rescaling: the derivative vanishes along the estimate itself. -/
theorem C59_rescaling {ref : Sig s r N} {est : Sig s e N} {m : BIdx s} {k : Fin r} {j : Fin e}
    (H : Regular B o ref est m k j) {f} (hf : LossNear B o ref est m k j f) {f' : Sig s e N →L[ℝ] ℝ}
    (hf' : HasFDerivAt f f' est) {v : Sig s e N} {a : ℝ} (hv : v m j = a • est m j) : f' v = 0 := by
  obtain ⟨h1, h2, -⟩ := target_ne_zero H
  obtain ⟨g', hg', hgv⟩ := (C59_gradient H).2 f hf
  rw [hf'.unique hg', hgv, hv, centred_smul']
  have hs : shift (N + o.filterLength - 1) (a • centred o.zeroMean (est m j)) 0 =
    a • (distortion o ref est m k j + target o ref est m k j) := by
    unfold distortion
    rw [sub_add_cancel]
    exact shift_smul _ a _ 0
  have ho : inner ℝ (distortion o ref est m k j) (target o ref est m k j) = 0 :=
    Submodule.starProjection_inner_eq_zero _ _ (Submodule.starProjection_apply_mem _ _)
  rw [hs, inner_smul_right, inner_smul_right, inner_add_right, inner_add_right, ho,
    real_inner_comm (distortion o ref est m k j) (target o ref est m k j), ho,
    real_inner_self_eq_norm_sq, real_inner_self_eq_norm_sq]
  have n1 := norm_ne_zero_iff.2 h1
  have n2 := norm_ne_zero_iff.2 h2
  field_simp
  ring

/-- **C59**, offsets: with `zero_mean` the derivative vanishes along constant signals. -/
theorem C59_offset {ref : Sig s r N} {est : Sig s e N} {m : BIdx s} {k : Fin r} {j : Fin e}
    (H : Regular B o ref est m k j) (hzm : o.zeroMean = true) {f} (hf : LossNear B o ref est m k j f)
    {f' : Sig s e N →L[ℝ] ℝ} (hf' : HasFDerivAt f f' est) {v : Sig s e N} {a : ℝ} (hv : ∀ t, v m j t = a) :
    f' v = 0 := by
  obtain ⟨g', hg', hgv⟩ := (C59_gradient H).2 f hf
  have hz : centred o.zeroMean (v m j) = 0 := by
    funext t
    have hN : (N : ℝ) ≠ 0 := by
      have := t.pos
      exact_mod_cast this.ne'
    unfold centred
    rw [hzm]
    simp only [if_true, hv, Finset.sum_const, Finset.card_univ, Fintype.card_fin, nsmul_eq_mul, Pi.zero_apply]
    field_simp
    ring
  have hs : shift (N + o.filterLength - 1) (0 : Fin N → ℝ) 0 = 0 := by
    have := shift_smul (N + o.filterLength - 1) 0 (0 : Fin N → ℝ) 0
    rw [zero_smul] at this
    rw [← this]
    congr 1
    funext t
    simp
  rw [hf'.unique hg', hgv, hz, hs, inner_zero_right, inner_zero_right]
  simp

/-- **C59**, other channels: the derivative only depends on the channel of the estimate. -/
theorem C59_other_channels {ref : Sig s r N} {est : Sig s e N} {m : BIdx s} {k : Fin r} {j : Fin e}
    (H : Regular B o ref est m k j) {f} (hf : LossNear B o ref est m k j f) {f' : Sig s e N →L[ℝ] ℝ}
    (hf' : HasFDerivAt f f' est) {v : Sig s e N} (hv : v m j = 0) : f' v = 0 :=
  C59_rescaling H hf hf' (a := 0) (by rw [hv, zero_smul])

/-- **C59**, towards the reference: the derivative along the reference is the negated correlation of
estimate and reference, up to a positive factor. -/
theorem C59_towards_reference {ref : Sig s r N} {est : Sig s e N} {m : BIdx s} {k : Fin r} {j : Fin e}
    (H : Regular B o ref est m k j) {f} (hf : LossNear B o ref est m k j f) {f' : Sig s e N →L[ℝ] ℝ}
    (hf' : HasFDerivAt f f' est) {v : Sig s e N} (hv : v m j = ref m k) :
    f' v = -(20 / Real.log 10 / ‖target o ref est m k j‖ ^ 2) *
      ∑ t, centred o.zeroMean (est m j) t * centred o.zeroMean (ref m k) t := by
  obtain ⟨h1, h2, hL, -⟩ := target_ne_zero H
  obtain ⟨g', hg', hgv⟩ := (C59_gradient H).2 f hf
  have hmem : shift (N + o.filterLength - 1) (centred o.zeroMean (ref m k)) 0 ∈
      spanOne (N + o.filterLength - 1) o.filterLength (centred o.zeroMean (ref m k)) :=
    Submodule.subset_span ⟨⟨0, by omega⟩, rfl⟩
  have i1 : inner ℝ (distortion o ref est m k j)
      (shift (N + o.filterLength - 1) (centred o.zeroMean (ref m k)) 0) = 0 :=
    Submodule.starProjection_inner_eq_zero _ _ hmem
  have i2 : inner ℝ (target o ref est m k j)
      (shift (N + o.filterLength - 1) (centred o.zeroMean (ref m k)) 0) =
      ∑ t, centred o.zeroMean (est m j) t * centred o.zeroMean (ref m k) t := by
    have h3 := inner_shift_zero (N + o.filterLength - 1) (by omega) (centred o.zeroMean (est m j)) (centred o.zeroMean (ref m k))
    have h4 : shift (N + o.filterLength - 1) (centred o.zeroMean (est m j)) 0 =
      distortion o ref est m k j + target o ref est m k j := by
      unfold distortion
      rw [sub_add_cancel]
    rw [h4, inner_add_left, i1, zero_add] at h3
    exact h3
  rw [hf'.unique hg', hgv, hv, i1, i2]
  ring

/-- **C59**, no stationary points: with `filter_length=1` the derivative is not zero. -/
theorem C59_no_stationary {ref : Sig s r N} {est : Sig s e N} {m : BIdx s} {k : Fin r} {j : Fin e}
    (H : Regular B o ref est m k j) (h1 : o.filterLength = 1) {f} (hf : LossNear B o ref est m k j f)
    {f' : Sig s e N →L[ℝ] ℝ} (hf' : HasFDerivAt f f' est) : f' ≠ 0 := by
  intro h0
  obtain ⟨ht, -, -⟩ := target_ne_zero H
  have hv := C59_towards_reference H hf hf' (v := fun _ _ => ref m k) rfl
  rw [h0] at hv
  have hlog : Real.log 10 ≠ 0 := (Real.log_pos (by norm_num)).ne'
  have hn := norm_ne_zero_iff.2 ht
  have hz : ∑ t, centred o.zeroMean (est m j) t * centred o.zeroMean (ref m k) t = 0 := by
    have hp : -(20 / Real.log 10 / ‖target o ref est m k j‖ ^ 2) ≠ 0 := by
      refine neg_ne_zero.2 (div_ne_zero (div_ne_zero (by norm_num) hlog) (pow_ne_zero 2 hn))
    exact (mul_eq_zero.1 hv.symm).resolve_left hp
  apply ht
  unfold target
  rw [Submodule.starProjection_apply_eq_zero_iff]
  intro u hu
  unfold spanOne at hu
  induction hu using Submodule.span_induction with
  | mem u hu =>
    obtain ⟨l, rfl⟩ := hu
    have hl : (l : ℕ) = 0 := by have := l.2; omega
    simp only [hl]
    rw [real_inner_comm, inner_shift_zero _ (by omega)]
    exact hz
  | zero => exact inner_zero_left _
  | add u w _ _ h3 h4 => rw [inner_add_left, h3, h4, add_zero]
  | smul a u _ h3 => rw [inner_smul_left, h3, mul_zero]

/-- **C59**, stationary points with longer filters: the derivative vanishes exactly where the first
`N` samples of the target are a multiple of the estimate. -/
theorem C59_stationary {ref : Sig s r N} {est : Sig s e N} {m : BIdx s} {k : Fin r} {j : Fin e}
    (H : Regular B o ref est m k j) (hzm : o.zeroMean = false) {f} (hf : LossNear B o ref est m k j f)
    {f' : Sig s e N →L[ℝ] ℝ} (hf' : HasFDerivAt f f' est) :
    f' = 0 ↔ ∃ a : ℝ, ∀ (t : Fin N) (ht : t.val < N + o.filterLength - 1),
      target o ref est m k j ⟨t, ht⟩ = a * est m j t := by
  obtain ⟨ht, he, hL, -⟩ := target_ne_zero H
  obtain ⟨g', hg', hgv⟩ := (C59_gradient H).2 f hf
  have hD : N ≤ N + o.filterLength - 1 := by omega
  have hc : ∀ x : Fin N → ℝ, centred o.zeroMean x = x := fun x => by rw [hzm]; rfl
  have hlog : (20 : ℝ) / Real.log 10 ≠ 0 := div_ne_zero (by norm_num) (Real.log_pos (by norm_num)).ne'
  have n1 : ‖target o ref est m k j‖ ^ 2 ≠ 0 := pow_ne_zero 2 (norm_ne_zero_iff.2 ht)
  have n2 : ‖distortion o ref est m k j‖ ^ 2 ≠ 0 := pow_ne_zero 2 (norm_ne_zero_iff.2 he)
  have hy : ∀ (t : Fin N) (ht : t.val < N + o.filterLength - 1), distortion o ref est m k j ⟨t, ht⟩ =
      est m j t - target o ref est m k j ⟨t, ht⟩ := by
    intro t ht
    unfold distortion
    rw [hc]
    show shift _ (est m j) 0 ⟨t, ht⟩ - _ = _
    have : shift (N + o.filterLength - 1) (est m j) 0 ⟨t, ht⟩ = est m j t := zpad_val (est m j) t
    rw [this]
    rfl
  have hval : ∀ v, f' v = 20 / Real.log 10 * ∑ t : Fin N,
      (distortion o ref est m k j ⟨t, lt_of_lt_of_le t.2 hD⟩ / ‖distortion o ref est m k j‖ ^ 2 -
        target o ref est m k j ⟨t, lt_of_lt_of_le t.2 hD⟩ / ‖target o ref est m k j‖ ^ 2) * v m j t := by
    intro v
    rw [hf'.unique hg', hgv, hc, inner_shift_coord hD, inner_shift_coord hD, Finset.sum_div, Finset.sum_div,
      ← Finset.sum_sub_distrib]
    congr 1
    exact Finset.sum_congr rfl fun t _ => by ring
  constructor
  · intro h0
    refine ⟨‖target o ref est m k j‖ ^ 2 / (‖target o ref est m k j‖ ^ 2 + ‖distortion o ref est m k j‖ ^ 2),
      fun t hlt => ?_⟩
    have h1 := hval fun _ _ => Pi.single t 1
    rw [h0, Finset.sum_eq_single t (fun u _ hu => by rw [Pi.single_eq_of_ne hu, mul_zero]) (fun h => absurd (Finset.mem_univ _) h),
      Pi.single_eq_same, mul_one, hy] at h1
    have h2 := (mul_eq_zero.1 h1.symm).resolve_left hlog
    have hpos : ‖target o ref est m k j‖ ^ 2 + ‖distortion o ref est m k j‖ ^ 2 ≠ 0 := by positivity
    rw [div_sub_div _ _ n2 n1, div_eq_zero_iff] at h2
    have h3 := h2.resolve_right (mul_ne_zero n2 n1)
    rw [div_mul_eq_mul_div, eq_div_iff hpos]
    linear_combination -h3
  · rintro ⟨a, ha⟩
    have hval' : ∀ v, f' v = 20 / Real.log 10 * (((1 - a) / ‖distortion o ref est m k j‖ ^ 2 -
        a / ‖target o ref est m k j‖ ^ 2) * ∑ t : Fin N, est m j t * v m j t) := by
      intro v
      rw [hval]
      congr 1
      rw [Finset.mul_sum]
      refine Finset.sum_congr rfl fun t _ => ?_
      rw [hy, ha]
      ring
    have h0 := C59_rescaling H hf hf' (v := est) (a := 1) (one_smul _ _).symm
    have hpos : ∑ t : Fin N, est m j t * est m j t ≠ 0 := by
      intro hz
      have h1 := H.audible
      rw [hc] at h1
      unfold sigNorm at h1
      simp only [sq] at h1
      rw [hz, Real.sqrt_zero] at h1
      norm_num at h1
    rw [hval'] at h0
    have h1 := ((mul_eq_zero.1 h0).resolve_left hlog)
    have h2 := (mul_eq_zero.1 h1).resolve_right hpos
    ext v
    rw [hval', h2]
    simp

theorem ex_regular (m : BIdx []) : Regular torchBackend Ex.opts Ex.ref Ex.est m 0 0 where
  covered := Ex.covered
  direct := Ex.direct
  load := Ex.load
  fits := Ex.fits
  audible := by
    show (1e-6 : ℝ) < sigNorm (cen Ex.opts Ex.est _ 0)
    rw [Ex.cen_eq]
    have h : (1 : ℝ) ≤ sigNorm (Ex.est m 0) := by
      unfold sigNorm
      rw [Real.one_le_sqrt]
      simp [Fin.sum_univ_three, Ex.est]
    exact lt_of_lt_of_le (by norm_num) h
  refOk h := absurd h (by decide)
  inside := ⟨_, _, ex_losses, rfl, fun d h => by cases h⟩

example (m : BIdx []) : ∃ (f : Sig [] 2 3 → ℝ) (f' : Sig [] 2 3 →L[ℝ] ℝ), LossNear torchBackend Ex.opts Ex.ref Ex.est m 0 0 f ∧
    HasFDerivAt f f' Ex.est ∧ f' (fun _ j _ => if j = 1 then 1 else 0) = 0 ∧
    (f' = 0 ↔ ∃ a : ℝ, ∀ (t : Fin 3) (ht : t.val < 3 + Ex.opts.filterLength - 1),
      target Ex.opts Ex.ref Ex.est m 0 0 ⟨t, ht⟩ = a * Ex.est m 0 t) := by
  obtain ⟨f, hf⟩ := (C59_gradient (ex_regular m)).1
  obtain ⟨f', hf', -⟩ := (C59_gradient (ex_regular m)).2 f hf
  exact ⟨f, f', hf, hf', C59_other_channels (ex_regular m) hf hf' (funext fun _ => if_neg (by decide)),
    C59_stationary (ex_regular m) rfl hf hf'⟩

/-- The derivative of the concrete case, towards the reference. -/
example (m : BIdx []) : ∃ (f : Sig [] 2 3 → ℝ) (f' : Sig [] 2 3 →L[ℝ] ℝ), LossNear torchBackend Ex.opts Ex.ref Ex.est m 0 0 f ∧ HasFDerivAt f f' Ex.est ∧
    f' (fun _ _ => Ex.ref m 0) < 0 ∧ f' Ex.est = 0 := by
  obtain ⟨f, hf⟩ := (C59_gradient (ex_regular m)).1
  obtain ⟨f', hf', -⟩ := (C59_gradient (ex_regular m)).2 f hf
  refine ⟨f, f', hf, hf', ?_, C59_rescaling (ex_regular m) hf hf' (a := 1) (one_smul _ _).symm⟩
  rw [C59_towards_reference (ex_regular m) hf hf' (v := fun _ _ => Ex.ref m 0) rfl]
  have h1 : ∑ t, centred Ex.opts.zeroMean (Ex.est m 0) t * centred Ex.opts.zeroMean (Ex.ref m 0) t = 2 := by
    have e1 : centred Ex.opts.zeroMean (Ex.est m 0) = Ex.est m 0 := Ex.cen_eq Ex.est m 0
    have e2 : centred Ex.opts.zeroMean (Ex.ref m 0) = Ex.ref m 0 := Ex.cen_eq Ex.ref m 0
    rw [e1, e2]
    simp [Fin.sum_univ_three, Ex.est, Ex.ref]
  rw [h1]
  have h2 : 0 < ‖target Ex.opts Ex.ref Ex.est m 0 0‖ ^ 2 :=
    pow_pos (norm_pos_iff.2 (target_ne_zero (ex_regular m)).1) 2
  have h3 : 0 < Real.log 10 := Real.log_pos (by norm_num)
  have : 0 < 20 / Real.log 10 / ‖target Ex.opts Ex.ref Ex.est m 0 0‖ ^ 2 := by positivity
  linarith

/-- Smoothness in the concrete case. -/
example : ∃ f : Sig [] 2 3 × Sig [] 2 3 → ℝ, ∀ ν : WithTop ℕ∞, ContDiffAt ℝ ν f (Ex.ref, Ex.est) := by
  have hn : ∀ (x : Sig [] 2 3) (m : BIdx []) (k : Fin 2) (t : Fin 3), 1 ≤ x m k t →
      sigNorm (centred Ex.opts.zeroMean (x m k)) ≠ 1e-6 := by
    intro x m k t ht h
    have e1 : centred Ex.opts.zeroMean (x m k) = x m k := Ex.cen_eq x m k
    have h1 : 1 ≤ ∑ t, x m k t ^ 2 := by
      have := Finset.single_le_sum (f := fun t => x m k t ^ 2) (fun t _ => sq_nonneg _) (Finset.mem_univ t)
      nlinarith
    have h2 : (1 : ℝ) ≤ sigNorm (x m k) := Real.one_le_sqrt.2 h1
    rw [e1] at h
    rw [h] at h2
    norm_num at h2
  obtain ⟨f, -, -, h⟩ := C59_smooth (m := ()) (k := 0) (j := 0) Ex.covered Ex.direct ex_losses
    (fun m k => by
      fin_cases k
      · exact hn _ _ _ 0 (by simp [Ex.ref])
      · exact hn _ _ _ 2 (by simp [Ex.ref]))
    (fun m k => by
      fin_cases k
      · exact hn _ _ _ 0 (by simp [Ex.est])
      · exact hn _ _ _ 2 (by simp [Ex.est])) rfl (fun d h => by cases h)
  exact ⟨f, h⟩

/-! A case with `filter_length=1` and `zero_mean=True`. -/

noncomputable def optsOne : Opts := { filterLength := 1, zeroMean := true, clampDb := some 30 }
noncomputable def refOne : Sig [] 1 3 := fun _ _ => ![1, -1, 0]
noncomputable def estOne : Sig [] 1 3 := fun _ _ => ![3, 0, 0]

theorem one_cen (m : BIdx []) : centred optsOne.zeroMean (refOne m 0) = ![1, -1, 0] ∧
    centred optsOne.zeroMean (estOne m 0) = ![2, -1, -1] := by
  have hz : optsOne.zeroMean = true := rfl
  constructor <;>
  · funext t
    unfold centred
    rw [hz]
    fin_cases t <;> simp [refOne, estOne, Fin.sum_univ_three] <;> norm_num

theorem one_coh (m : BIdx []) : ∃ coh, sdrCohPair torchBackend optsOne refOne estOne = .ok coh ∧ coh m 0 0 = 3 / 4 := by
  obtain ⟨c1, c2⟩ := one_cen m
  refine ⟨cohSdrOnePair optsOne refOne estOne, ?_, ?_⟩
  · simp only [sdrCohPair_def]; unfold sdrCohPairGen
    rw [if_neg (by decide)]
    exact if_pos rfl
  · have a1 : Audible (![1, -1, 0] : Fin 3 → ℝ) := Ex.audible _ 0 (by simp)
    have a2 : Audible (![2, -1, -1] : Fin 3 → ℝ) := Ex.audible _ 0 (by simp)
    have g1 := gain_sq_energy (D := 3) le_rfl a1
    have g2 := gain_sq_energy (D := 3) le_rfl a2
    rw [energy_shift 3 le_rfl, sigNorm_sq] at g1 g2
    simp [Fin.sum_univ_three] at g1 g2
    show dot (prep optsOne refOne m 0) (prep optsOne estOne m 0) ^ 2 = 3 / 4
    rw [prep_eq, prep_eq, c1, c2]
    unfold dot
    simp [Fin.sum_univ_three]
    have e1 : gain (![1, -1, 0] : Fin 3 → ℝ) ^ 2 = 1 / 2 := by linarith [g1]
    have e2 : gain (![2, -1, -1] : Fin 3 → ℝ) ^ 2 = 1 / 6 := by linarith [g2]
    linear_combination (9 * gain (![2, -1, -1] : Fin 3 → ℝ) ^ 2) * e1 + 9 / 2 * e2

theorem one_regular (m : BIdx []) : Regular torchBackend optsOne refOne estOne m 0 0 where
  covered := Ex.covered
  direct := Or.inl rfl
  load := rfl
  fits := by
    show 1 + 3 ≤ 2 ^ Nat.clog 2 5 + 1
    decide
  audible := by
    rw [(one_cen m).2]
    have h : (1 : ℝ) ≤ sigNorm (![2, -1, -1] : Fin 3 → ℝ) := by
      unfold sigNorm
      rw [Real.one_le_sqrt]
      simp [Fin.sum_univ_three]
      norm_num
    exact lt_of_lt_of_le (by norm_num) h
  refOk _ := by
    rw [(one_cen m).1]
    exact Ex.audible _ 0 (by simp)
  inside := by
    obtain ⟨coh, h, hv⟩ := one_coh m
    refine ⟨_, -(10 * Real.logb 10 3), by unfold sdrLossPair; rw [h], ?_, ?_⟩
    · show coherenceToNegSdr (some 30) (fin (coh m 0 0)) = _
      have he : dbClampEps 30 ≤ 1 / 1000 := by
        unfold dbClampEps
        rw [show (-30 / 10 : ℝ) = ((-3 : ℤ) : ℝ) by norm_num, Real.rpow_intCast]
        norm_num
      rw [hv, loss_inside (show dbClampEps 30 < 3 / 4 by linarith) (show 3 / 4 < 1 - dbClampEps 30 by linarith)]
      congr 1
      rw [show (1 - 3 / 4 : ℝ) / (3 / 4) = 3⁻¹ by norm_num, Real.logb_inv]
      ring
    · intro d hd
      have hd : (30 : ℝ) = d := by injection hd
      rw [← hd, abs_neg]
      have h1 : Real.logb 10 3 < 1 := by
        rw [Real.logb_lt_iff_lt_rpow (by norm_num) (by norm_num)]
        norm_num
      have h2 : 0 < Real.logb 10 3 := Real.logb_pos (by norm_num) (by norm_num)
      rw [abs_of_pos (by linarith)]
      linarith

example (m : BIdx []) : ∃ (f : Sig [] 1 3 → ℝ) (f' : Sig [] 1 3 →L[ℝ] ℝ),
    LossNear torchBackend optsOne refOne estOne m 0 0 f ∧ HasFDerivAt f f' estOne ∧ f' ≠ 0 ∧ f' (fun _ _ _ => 1) = 0 := by
  obtain ⟨f, hf⟩ := (C59_gradient (one_regular m)).1
  obtain ⟨f', hf', -⟩ := (C59_gradient (one_regular m)).2 f hf
  exact ⟨f, f', hf, hf', C59_no_stationary (one_regular m) rfl hf hf',
    C59_offset (one_regular m) rfl hf hf' (a := 1) fun _ => rfl⟩

end FBE.Props
