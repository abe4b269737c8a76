import Verif.Proofs.Backward
import Verif.Proofs.Equal
import Verif.Props.C59_Gradient

/-!
# C71: the gradients computed by torch for the scale-invariant loss

`sdr_loss` and `si_sdr_loss` are meant to be minimised with `loss.backward()`.  With `clamp_db` the
gradients of estimates and references are finite for all signals (silence and perfect estimates
included) and are the derivatives of the loss, except exactly at the threshold of the normalisation and at the bounds;
beyond the bounds they vanish.  Without `clamp_db` a single infinite loss makes all gradients of its
estimate and of its reference NaN, even if this loss is given the weight zero (a pair that the permutation
does not use); a silent or a perfect estimate does it.
-/

set_option linter.unusedSectionVars false

namespace FBE.Props

open Spec XR Filter Topology Backward

variable {s : List ℕ} {r e c N : ℕ} {o : Opts}

theorem lossPair_one (h1 : o.filterLength = 1) (ref : Sig s r N) (est : Sig s e N) :
    sdrLossPair torchBackend o est ref = .ok fun m k j =>
      coherenceToNegSdr o.clampDb (fin (dot (prep o ref m k) (prep o est m j) ^ 2)) := by
  unfold sdrLossPair
  rw [sdrCohPair_def, if_neg (by omega), if_pos h1]
  rfl

theorem lossDiag_one (h1 : o.filterLength = 1) (ref est : Sig s c N) :
    sdrLossDiag torchBackend o est ref = .ok fun m k =>
      coherenceToNegSdr o.clampDb (fin (dot (prep o ref m k) (prep o est m k) ^ 2)) := by
  unfold sdrLossDiag
  rw [sdrCohDiag_def, if_neg (by omega), if_pos h1]
  rfl

/-- The gradients of a channel are all finite. -/
def FiniteGrad (g : Fin N → XR) : Prop := ∀ t, ∃ x, g t = fin x

/-- **C71**, finite gradients with `clamp_db`. -/
theorem C71_clamped_finite {d : ℝ} (hcl : o.clampDb = some d) (ref : Sig s r N) (est : Sig s e N)
    (w : BIdx s → Fin r → Fin e → ℝ) (m : BIdx s) :
    (∀ j, FiniteGrad (gradEst o ref est w m j)) ∧ ∀ k, FiniteGrad (gradRef o ref est w m k) := by
  refine ⟨fun j t => ?_, fun k t => ?_⟩
  · rw [gradEst_eq, hcl, chanGrad_fin fun k => cclamp_some_inside d _]
    exact ⟨_, rfl⟩
  · rw [gradRef_eq, hcl, chanGrad_fin fun k => cclamp_some_inside d _]
    exact ⟨_, rfl⟩

/-- **C71**, finite gradients with `clamp_db`, `pairwise=False`. -/
theorem C71_clamped_finite_diag {d : ℝ} (hcl : o.clampDb = some d) (ref est : Sig s c N)
    (w : BIdx s → Fin c → ℝ) (m : BIdx s) (k : Fin c) :
    FiniteGrad (gradEstDiag o ref est w m k) ∧ FiniteGrad (gradRefDiag o ref est w m k) := by
  refine ⟨fun t => ?_, fun t => ?_⟩
  · rw [gradEstDiag_eq, hcl, chanGrad_fin fun k => cclamp_some_inside d _]
    exact ⟨_, rfl⟩
  · rw [gradRefDiag_eq, hcl, chanGrad_fin fun k => cclamp_some_inside d _]
    exact ⟨_, rfl⟩

theorem negDb_inf {v : ℝ} (h0 : 0 ≤ v) (h1 : v ≤ 1) (h : coherenceToNegSdr none (fin v) = pinf ∨
    coherenceToNegSdr none (fin v) = ninf) : v = 0 ∨ v = 1 := by
  rw [coherenceToNegSdr_fin, cclamp_none h0 h1] at h
  unfold negDb at h
  by_contra hn
  rw [not_or] at hn
  rw [if_neg hn.1, if_neg hn.2] at h
  rcases h with h | h <;> cases h

theorem negDb_finite {v x : ℝ} (h : coherenceToNegSdr none (fin v) = fin x) :
    0 < cclamp none v ∧ cclamp none v < 1 := by
  have h0 := cclamp_nonneg none v
  have h1 := cclamp_le none v
  rw [coherenceToNegSdr_fin] at h
  unfold negDb at h
  constructor
  · refine lt_of_le_of_ne h0 fun hz => ?_
    rw [if_pos hz.symm] at h
    cases h
  · refine lt_of_le_of_ne h1 fun hz => ?_
    rw [if_neg (by rw [hz]; norm_num), if_pos hz] at h
    cases h

theorem dot_sq_le (ref : Sig s r N) (est : Sig s e N) (m : BIdx s) (k : Fin r) (j : Fin e) :
    dot (prep o ref m k) (prep o est m j) ^ 2 ≤ 1 :=
  cohSdrOne_range _ _ (prep_sq_le _ _ _ _) (prep_sq_le _ _ _ _)

/-- **C71**, NaN: without `clamp_db`, an infinite loss of the pair `(k, j)` makes every gradient of
estimate `j` and of reference `k` NaN, whatever the weights of the losses. -/
theorem C71_nan (h1 : o.filterLength = 1) (hcl : o.clampDb = none) {ref : Sig s r N} {est : Sig s e N} {M}
    (h : sdrLossPair torchBackend o est ref = .ok M) {m : BIdx s} {k : Fin r} {j : Fin e}
    (hinf : M m k j = pinf ∨ M m k j = ninf) (w : BIdx s → Fin r → Fin e → ℝ) (t : Fin N) :
    gradEst o ref est w m j t = nan ∧ gradRef o ref est w m k t = nan := by
  rw [lossPair_one h1] at h
  cases h
  rw [hcl] at hinf
  have hv := negDb_inf (sq_nonneg _) (dot_sq_le ref est m k j) hinf
  rw [gradEst_eq, gradRef_eq, hcl]
  refine ⟨chanGrad_nan (k := k) hv _ t, chanGrad_nan (k := j) ?_ _ t⟩
  rw [dot_comm' (prep o ref m k)] at hv
  exact hv

/-- **C71**, NaN for `pairwise=False`. -/
theorem C71_nan_diag (h1 : o.filterLength = 1) (hcl : o.clampDb = none) {ref est : Sig s c N} {M}
    (h : sdrLossDiag torchBackend o est ref = .ok M) {m : BIdx s} {k : Fin c}
    (hinf : M m k = pinf ∨ M m k = ninf) (w : BIdx s → Fin c → ℝ) (t : Fin N) :
    gradEstDiag o ref est w m k t = nan ∧ gradRefDiag o ref est w m k t = nan := by
  rw [lossDiag_one h1] at h
  cases h
  have hinf : coherenceToNegSdr o.clampDb (fin (dot (prep o ref m k) (prep o est m k) ^ 2)) = pinf ∨
    coherenceToNegSdr o.clampDb (fin (dot (prep o ref m k) (prep o est m k) ^ 2)) = ninf := hinf
  rw [hcl] at hinf
  have hv := negDb_inf (sq_nonneg _) (dot_sq_le ref est m k k) hinf
  rw [gradEstDiag_eq, gradRefDiag_eq, hcl]
  refine ⟨chanGrad_nan (R := fun _ => prep o ref m k) (k := 0) hv _ t,
    chanGrad_nan (R := fun _ => prep o est m k) (k := 0) ?_ _ t⟩
  rw [dot_comm' (prep o ref m k)] at hv
  exact hv

/-- **C71**, finite losses: without `clamp_db`, the gradients of an estimate (a reference) are finite if
its losses for all references (estimates) are. -/
theorem C71_finite (h1 : o.filterLength = 1) (hcl : o.clampDb = none) {ref : Sig s r N} {est : Sig s e N} {M}
    (h : sdrLossPair torchBackend o est ref = .ok M) (w : BIdx s → Fin r → Fin e → ℝ) (m : BIdx s) :
    (∀ j, (∀ k, ∃ x, M m k j = fin x) → FiniteGrad (gradEst o ref est w m j)) ∧
      ∀ k, (∀ j, ∃ x, M m k j = fin x) → FiniteGrad (gradRef o ref est w m k) := by
  rw [lossPair_one h1] at h
  cases h
  refine ⟨fun j hf t => ?_, fun k hf t => ?_⟩
  · rw [gradEst_eq, hcl, chanGrad_fin fun k => ?_]
    · exact ⟨_, rfl⟩
    · obtain ⟨x, hx⟩ := hf k
      rw [hcl] at hx
      exact negDb_finite hx
  · rw [gradRef_eq, hcl, chanGrad_fin fun j => ?_]
    · exact ⟨_, rfl⟩
    · obtain ⟨x, hx⟩ := hf j
      have hx : coherenceToNegSdr o.clampDb (fin (dot (prep o ref m k) (prep o est m j) ^ 2)) = fin x := hx
      rw [hcl, dot_comm' (prep o ref m k)] at hx
      exact negDb_finite hx

/-- **C71**, silence: without `clamp_db`, all gradients of an estimate that is zero (constant with
`zero_mean`), and of all references compared with it, are NaN. -/
theorem C71_silent (h1 : o.filterLength = 1) (hcl : o.clampDb = none) {ref : Sig s r N} {est : Sig s e N}
    {m : BIdx s} {j : Fin e} (hs : centred o.zeroMean (est m j) = 0) (k : Fin r)
    (w : BIdx s → Fin r → Fin e → ℝ) (t : Fin N) :
    gradEst o ref est w m j t = nan ∧ gradRef o ref est w m k t = nan := by
  refine C71_nan h1 hcl (lossPair_one h1 ref est) (Or.inl ?_) w t
  have hp : prep o est m j = 0 := by
    rw [prep_eq, hs]
    funext t
    simp
  have hd : dot (prep o ref m k) (prep o est m j) ^ 2 = 0 := by
    rw [hp]
    simp [dot]
  rw [hd, hcl, coherenceToNegSdr_fin, cclamp_none le_rfl zero_le_one]
  simp [negDb]

/-- **C71**, perfect estimates: without `clamp_db`, all gradients of a multiple of a reference are NaN. -/
theorem C71_perfect (h1 : o.filterLength = 1) (hcl : o.clampDb = none) {ref : Sig s r N} {est : Sig s e N}
    {m : BIdx s} {k : Fin r} {j : Fin e} {a : ℝ} (hp : est m j = a • ref m k)
    (hr : 1e-6 ≤ sigNorm (centred o.zeroMean (ref m k))) (he : 1e-6 ≤ sigNorm (centred o.zeroMean (est m j)))
    (w : BIdx s → Fin r → Fin e → ℝ) (t : Fin N) :
    gradEst o ref est w m j t = nan ∧ gradRef o ref est w m k t = nan := by
  refine C71_nan h1 hcl (lossPair_one h1 ref est) (Or.inr ?_) w t
  have hd : dot (prep o ref m k) (prep o est m j) ^ 2 = 1 := by
    have e1 := prep_sq_eq o ref m k hr
    have e2 := prep_sq_eq o est m j he
    rw [prep_eq, prep_eq, hp, centred_smul']
    rw [prep_eq] at e1
    rw [prep_eq, hp, centred_smul'] at e2
    generalize gain (a • centred o.zeroMean (ref m k)) = b at *
    generalize gain (centred o.zeroMean (ref m k)) = b' at *
    generalize centred o.zeroMean (ref m k) = x at *
    simp only [Pi.smul_apply, smul_eq_mul] at e2
    have e3 : dot (fun t => b' * x t) (fun t => b * (a • x) t) = b' * b * a * ∑ t, x t ^ 2 := by
      unfold dot
      rw [Finset.mul_sum]
      refine Finset.sum_congr rfl fun t _ => ?_
      simp only [Pi.smul_apply, smul_eq_mul]
      ring
    rw [sum_sq_smul] at e1
    have e4 : (b * a) ^ 2 * ∑ t, x t ^ 2 = 1 := by
      rw [← e2, ← sum_sq_smul]
      exact Finset.sum_congr rfl fun t _ => by ring
    rw [e3]
    linear_combination (b * a) ^ 2 * (∑ t, x t ^ 2) * e1 + e4
  rw [hd, hcl, coherenceToNegSdr_fin, cclamp_none zero_le_one le_rfl]
  simp [negDb]

/-! ### Gradients are derivatives -/

/-- The loss without clamping is finite (`clamp_db=None`) or different from both bounds. -/
def OffBounds (clampDb : Option ℝ) (x : XR) : Prop :=
  match clampDb with
  | none => ∃ y, x = fin y
  | some d => x ≠ fin d ∧ x ≠ fin (-d)

theorem OffBounds.inside {cl : Option ℝ} {v : ℝ} (h : OffBounds cl (coherenceToNegSdr none (fin v))) :
    (0 < cclamp cl v ∧ cclamp cl v < 1) ∧ v ≠ epsOf cl ∧ v ≠ 1 - epsOf cl := by
  cases cl with
  | none =>
    obtain ⟨y, hy⟩ := h
    have h1 := negDb_finite hy
    have he : epsOf none = 0 := rfl
    rw [he]
    refine ⟨h1, ?_, ?_⟩
    · rintro rfl
      rw [cclamp_none le_rfl zero_le_one] at h1
      exact lt_irrefl _ h1.1
    · rintro rfl
      rw [cclamp_none (by norm_num) (by norm_num)] at h1
      linarith [h1.2]
  | some d =>
    have h0 := dbClampEps_pos d
    have h1 := dbClampEps_lt d
    have he : epsOf (some d) = dbClampEps d := rfl
    rw [he]
    refine ⟨cclamp_some_inside d v, ?_, ?_⟩
    · rintro rfl
      refine h.1 ?_
      rw [coherenceToNegSdr_fin, cclamp_none h0.le h1.le, negDb_eps]
    · rintro rfl
      refine h.2 ?_
      rw [coherenceToNegSdr_fin, cclamp_none (by linarith) (by linarith), negDb_symm, negDb_eps]
      rfl

/-- One channel of every batch item compared with `r` normalised signals. -/
theorem total_hasFDerivAt {cl : Option ℝ} {zm : Bool} {R : BIdx s → Fin e → Fin r → Fin N → ℝ} {x : Sig s e N}
    (h : ∀ m j k, OffBounds cl (coherenceToNegSdr none (fin (dot (R m j k) (preprocess zm (x m j)) ^ 2))))
    (hx : ∀ m j, sigNorm (centred zm (x m j)) ≠ 1e-6) (w : BIdx s → Fin e → Fin r → ℝ) :
    ∃ (F : BIdx s → Fin e → (Fin N → ℝ) → Fin r → ℝ) (F' : Sig s e N →L[ℝ] ℝ),
      (∀ᶠ y in 𝓝 x, ∀ m j k, coherenceToNegSdr cl (fin (dot (R m j k) (preprocess zm (y m j)) ^ 2)) = fin (F m j (y m j) k)) ∧
      HasFDerivAt (fun y : Sig s e N => ∑ m, ∑ j, ∑ k, w m j k * F m j (y m j) k) F' x ∧
      (∀ m j, chanGrad cl zm (R m j) (w m j) (x m j) = fun t => fin (chanR cl zm (R m j) (w m j) (x m j) t)) ∧
      ∀ v, F' v = ∑ m, ∑ j, ∑ t, chanR cl zm (R m j) (w m j) (x m j) t * v m j t := by
  choose F F' h1 h2 h3 using fun m j => chan_hasFDerivAt (fun k => (h m j k).inside.1) (fun k => (h m j k).inside.2)
    (hx m j) (w m j)
  let P : BIdx s → Fin e → Sig s e N →L[ℝ] (Fin N → ℝ) := fun m j =>
    ContinuousLinearMap.proj (R := ℝ) (φ := fun _ : Fin e => Fin N → ℝ) j ∘L
      ContinuousLinearMap.proj (R := ℝ) (φ := fun _ : BIdx s => Fin e → Fin N → ℝ) m
  refine ⟨F, ∑ m, ∑ j, F' m j ∘L P m j, ?_, ?_, fun m j => chanGrad_fin (fun k => (h m j k).inside.1) _, ?_⟩
  · rw [eventually_all]
    intro m
    rw [eventually_all]
    intro j
    have : ContinuousAt (fun y : Sig s e N => y m j) x := (P m j).continuous.continuousAt
    exact this.eventually (h1 m j)
  · refine HasFDerivAt.fun_sum fun m _ => HasFDerivAt.fun_sum fun j _ => ?_
    exact HasFDerivAt.comp x (f := P m j) (g := fun y => ∑ k, w m j k * F m j y k) (h2 m j) (P m j).hasFDerivAt
  · intro v
    simp only [sum_apply, ContinuousLinearMap.comp_apply, h3]
    rfl

/-- `f` is the sum of the losses with weights `w`, as a function of the estimates near `est`. -/
def LossOfEst {T : ℕ} (o : Opts) (ref : Sig s r N) (est : Sig s e T) (w : BIdx s → Fin r → Fin e → ℝ)
    (f : Sig s e T → ℝ) : Prop :=
  ∀ᶠ p in 𝓝 est, ∃ (M : BIdx s → Fin r → Fin e → XR) (x : BIdx s → Fin r → Fin e → ℝ), sdrLossPair torchBackend o p ref = .ok M ∧ (∀ m k j, M m k j = fin (x m k j)) ∧
    f p = ∑ m, ∑ k, ∑ j, w m k j * x m k j

/-- `f` is the sum of the losses with weights `w`, as a function of the references near `ref`. -/
def LossOfRef {T : ℕ} (o : Opts) (ref : Sig s r N) (est : Sig s e T) (w : BIdx s → Fin r → Fin e → ℝ)
    (f : Sig s r N → ℝ) : Prop :=
  ∀ᶠ p in 𝓝 ref, ∃ (M : BIdx s → Fin r → Fin e → XR) (x : BIdx s → Fin r → Fin e → ℝ), sdrLossPair torchBackend o est p = .ok M ∧ (∀ m k j, M m k j = fin (x m k j)) ∧
    f p = ∑ m, ∑ k, ∑ j, w m k j * x m k j

/-- The same for `pairwise=False`: `f` is a function of references and estimates. -/
def LossDiag {T : ℕ} (o : Opts) (ref : Sig s c N) (est : Sig s c T) (w : BIdx s → Fin c → ℝ) (x : ℝ) : Prop :=
  ∃ (M : BIdx s → Fin c → XR) (y : BIdx s → Fin c → ℝ), sdrLossDiag torchBackend o est ref = .ok M ∧ (∀ m k, M m k = fin (y m k)) ∧ x = ∑ m, ∑ k, w m k * y m k

/-- The gradients `g` are finite and are the derivative of `f` at `x`. -/
def IsGradient (f : Sig s c N → ℝ) (x : Sig s c N) (g : BIdx s → Fin c → Fin N → XR) : Prop :=
  ∃ (γ : BIdx s → Fin c → Fin N → ℝ) (f' : Sig s c N →L[ℝ] ℝ), (∀ m k t, g m k t = fin (γ m k t)) ∧
    HasFDerivAt f f' x ∧ ∀ v, f' v = ∑ m, ∑ k, ∑ t, γ m k t * v m k t

/-- **C71**, the gradients of the estimates are the derivatives of the losses. -/
theorem C71_gradient_est (h1 : o.filterLength = 1) {ref : Sig s r N} {est : Sig s e N} {M}
    (h : sdrLossPair torchBackend { o with clampDb := none } est ref = .ok M)
    (hb : ∀ m k j, OffBounds o.clampDb (M m k j))
    (hx : ∀ m j, sigNorm (centred o.zeroMean (est m j)) ≠ 1e-6) (w : BIdx s → Fin r → Fin e → ℝ) :
    ∃ f, LossOfEst o ref est w f ∧ IsGradient f est (gradEst o ref est w) := by
  rw [lossPair_one (o := { o with clampDb := none }) h1] at h
  cases h
  obtain ⟨F, F', a1, a2, a3, a4⟩ := total_hasFDerivAt (cl := o.clampDb) (zm := o.zeroMean)
    (R := fun m _ => prep o ref m) (x := est) (fun m j k => hb m k j) hx fun m j k => w m k j
  refine ⟨_, ?_, _, F', fun m j t => congrFun (a3 m j) t, a2, a4⟩
  unfold LossOfEst
  filter_upwards [a1] with p hp
  refine ⟨_, fun m k j => F m j (p m j) k, lossPair_one h1 ref p, fun m k j => hp m j k, ?_⟩
  exact Finset.sum_congr rfl fun m _ => Finset.sum_comm

/-- **C71**, the gradients of the references are the derivatives of the losses. -/
theorem C71_gradient_ref (h1 : o.filterLength = 1) {ref : Sig s r N} {est : Sig s e N} {M}
    (h : sdrLossPair torchBackend { o with clampDb := none } est ref = .ok M)
    (hb : ∀ m k j, OffBounds o.clampDb (M m k j))
    (hx : ∀ m k, sigNorm (centred o.zeroMean (ref m k)) ≠ 1e-6) (w : BIdx s → Fin r → Fin e → ℝ) :
    ∃ f, LossOfRef o ref est w f ∧ IsGradient f ref (gradRef o ref est w) := by
  rw [lossPair_one (o := { o with clampDb := none }) h1] at h
  cases h
  obtain ⟨F, F', a1, a2, a3, a4⟩ := total_hasFDerivAt (cl := o.clampDb) (zm := o.zeroMean)
    (R := fun m _ => prep o est m) (x := ref) (fun m k j => by
      rw [dot_comm']
      exact hb m k j) hx fun m k j => w m k j
  refine ⟨_, ?_, _, F', fun m k t => ?_, a2, a4⟩
  · unfold LossOfRef
    filter_upwards [a1] with p hp
    refine ⟨_, fun m k j => F m k (p m k) j, lossPair_one h1 p est, fun m k j => ?_, rfl⟩
    rw [dot_comm']
    exact hp m k j
  · rw [gradRef_eq]
    exact congrFun (a3 m k) t

/-- **C71**, the gradients for `pairwise=False`, of estimates and of references. -/
theorem C71_gradient_diag (h1 : o.filterLength = 1) {ref est : Sig s c N} {M}
    (h : sdrLossDiag torchBackend { o with clampDb := none } est ref = .ok M)
    (hb : ∀ m k, OffBounds o.clampDb (M m k)) (w : BIdx s → Fin c → ℝ) :
    ((∀ m k, sigNorm (centred o.zeroMean (est m k)) ≠ 1e-6) →
      ∃ f, (∀ᶠ p in 𝓝 est, LossDiag o ref p w (f p)) ∧ IsGradient f est (gradEstDiag o ref est w)) ∧
    ((∀ m k, sigNorm (centred o.zeroMean (ref m k)) ≠ 1e-6) →
      ∃ f, (∀ᶠ p in 𝓝 ref, LossDiag o p est w (f p)) ∧ IsGradient f ref (gradRefDiag o ref est w)) := by
  rw [lossDiag_one (o := { o with clampDb := none }) h1] at h
  cases h
  constructor
  · intro hx
    obtain ⟨F, F', a1, a2, a3, a4⟩ := total_hasFDerivAt (r := 1) (cl := o.clampDb) (zm := o.zeroMean)
      (R := fun m k _ => prep o ref m k) (x := est) (fun m k _ => hb m k) hx fun m k _ => w m k
    refine ⟨_, ?_, _, F', fun m k t => ?_, a2, a4⟩
    · filter_upwards [a1] with p hp
      refine ⟨_, fun m k => F m k (p m k) 0, lossDiag_one h1 ref p, fun m k => hp m k 0, ?_⟩
      simp
    · rw [gradEstDiag_eq]
      exact congrFun (a3 m k) t
  · intro hx
    obtain ⟨F, F', a1, a2, a3, a4⟩ := total_hasFDerivAt (r := 1) (cl := o.clampDb) (zm := o.zeroMean)
      (R := fun m k _ => prep o est m k) (x := ref) (fun m k _ => by
        rw [dot_comm']
        exact hb m k) hx fun m k _ => w m k
    refine ⟨_, ?_, _, F', fun m k t => ?_, a2, a4⟩
    · filter_upwards [a1] with p hp
      refine ⟨_, fun m k => F m k (p m k) 0, lossDiag_one h1 p est, fun m k => ?_, ?_⟩
      · rw [dot_comm']
        exact hp m k 0
      · simp
    · rw [gradRefDiag_eq]
      exact congrFun (a3 m k) t

/-- A loss beyond the bounds does not depend on the coherence. -/
theorem dbSlope_saturated {d v : ℝ} (hk : coherenceToNegSdr none (fin v) = pinf ∨ coherenceToNegSdr none (fin v) = ninf ∨
    ∃ y, coherenceToNegSdr none (fin v) = fin y ∧ d < |y|) : dbSlope (some d) v = 0 := by
  unfold dbSlope
  rw [if_neg]
  rintro ⟨v0, v1⟩
  have he : epsOf (some d) = dbClampEps d := rfl
  rw [he] at v0 v1
  have p0 := dbClampEps_pos d
  rw [coherenceToNegSdr_fin, cclamp_none (by linarith) (by linarith)] at hk
  have hne : v ≠ 0 ∧ v ≠ 1 := ⟨by linarith, by linarith⟩
  have hval : negDb v = fin (10 * Real.logb 10 ((1 - v) / v)) := by
    unfold negDb
    rw [if_neg hne.1, if_neg hne.2]
  rw [hval] at hk
  rcases hk with hk | hk | ⟨y, hy, hlt⟩
  · cases hk
  · cases hk
  · have a1 := negDb_anti p0.le v0 (by linarith)
    have a2 := negDb_anti (by linarith) v1 (by linarith)
    rw [negDb_eps, hval, hy] at a1
    rw [negDb_symm, negDb_eps, hval, hy] at a2
    have b1 : y ≤ d := EReal.coe_le_coe_iff.1 a1
    have b2 : -d ≤ y := EReal.coe_le_coe_iff.1 a2
    exact absurd hlt (not_lt.2 (abs_le.2 ⟨b2, b1⟩))

theorem prepR_zero (zm : Bool) (x : Fin N → ℝ) : prepR zm x (fun _ => 0) = 0 := by
  have hn : ∀ x : Fin N → ℝ, normR x (fun _ => 0) = 0 := by
    intro x
    funext t
    unfold normR
    simp
  unfold prepR
  rw [hn]
  have := centred_smul' zm 0 (0 : Fin N → ℝ)
  simpa using this

/-- **C71**, beyond the bounds: an estimate all of whose losses exceed the bounds of `clamp_db` gets the
gradient zero. -/
theorem C71_saturated (h1 : o.filterLength = 1) {d : ℝ} (hcl : o.clampDb = some d) {ref : Sig s r N}
    {est : Sig s e N} {M} (h : sdrLossPair torchBackend { o with clampDb := none } est ref = .ok M) {m : BIdx s}
    {j : Fin e} (hb : ∀ k, M m k j = pinf ∨ M m k j = ninf ∨ ∃ x, M m k j = fin x ∧ d < |x|)
    (w : BIdx s → Fin r → Fin e → ℝ) (t : Fin N) : gradEst o ref est w m j t = fin 0 := by
  rw [lossPair_one (o := { o with clampDb := none }) h1] at h
  cases h
  have hs : ∀ k, dbSlope (some d) (dot (prep o ref m k) (preprocess o.zeroMean (est m j)) ^ 2) = 0 :=
    fun k => dbSlope_saturated (hb k)
  rw [gradEst_eq, hcl, chanGrad_fin fun k => cclamp_some_inside d _]
  have hz : chanR (some d) o.zeroMean (prep o ref m) (fun k => w m k j) (est m j) = 0 := by
    unfold chanR
    simp only [hs, mul_zero, zero_mul, Finset.sum_const_zero]
    exact prepR_zero _ _
  rw [hz]
  rfl

/-! ### Concrete cases -/

/-- Options of `si_sdr_loss` with the default `clamp_db=None`. -/
noncomputable def optsNone : Opts := { filterLength := 1, zeroMean := true, clampDb := none }

theorem one_loss (m : BIdx []) : dot (prep optsOne refOne m 0) (prep optsOne estOne m 0) ^ 2 = 3 / 4 := by
  obtain ⟨coh, h, hv⟩ := one_coh m
  simp only [sdrCohPair_def] at h
  rw [if_neg (by decide), if_pos (by rfl)] at h
  cases h
  exact hv

theorem logb_three : 0 < Real.logb 10 3 ∧ Real.logb 10 3 < 1 := by
  refine ⟨Real.logb_pos (by norm_num) (by norm_num), ?_⟩
  rw [Real.logb_lt_iff_lt_rpow (by norm_num) (by norm_num)]
  norm_num

theorem one_value : coherenceToNegSdr none (fin (3 / 4)) = fin (-(10 * Real.logb 10 3)) := by
  have he : epsOf none = 0 := rfl
  rw [loss_inside (by rw [he]; norm_num) (by rw [he]; norm_num), show (1 - 3 / 4 : ℝ) / (3 / 4) = 3⁻¹ by norm_num, Real.logb_inv]
  congr 1
  ring

theorem one_off (cl : Option ℝ) (hcl : cl = none ∨ cl = some 30) :
    OffBounds cl (coherenceToNegSdr none (fin (3 / 4))) := by
  obtain ⟨l0, l1⟩ := logb_three
  rw [one_value]
  rcases hcl with rfl | rfl
  · exact ⟨_, rfl⟩
  · constructor
    · intro h
      have := XR.fin.inj h
      linarith
    · intro h
      have := XR.fin.inj h
      linarith

/-- The gradient of an ordinary estimate, with and without `clamp_db`. -/
example : (∃ f, LossOfEst optsOne refOne estOne (fun _ _ _ => 1) f ∧
      IsGradient f estOne (gradEst optsOne refOne estOne fun _ _ _ => 1)) ∧
    ∃ f, LossOfEst optsNone refOne estOne (fun _ _ _ => 1) f ∧
      IsGradient f estOne (gradEst optsNone refOne estOne fun _ _ _ => 1) := by
  have ha : ∀ (m : BIdx []) (j : Fin 1), sigNorm (centred true (estOne m j)) ≠ 1e-6 := by
    intro m j
    have h := (one_regular m).audible
    rw [Subsingleton.elim j 0]
    exact h.ne'
  have hv : ∀ (m : BIdx []) (k j : Fin 1), dot (prep optsOne refOne m k) (prep optsOne estOne m j) ^ 2 = 3 / 4 := by
    intro m k j
    rw [Subsingleton.elim k 0, Subsingleton.elim j 0]
    exact one_loss m
  constructor
  · refine C71_gradient_est rfl (lossPair_one rfl _ _) (fun m k j => ?_) ha _
    show OffBounds (some 30) (coherenceToNegSdr none (fin (dot (prep optsOne refOne m k) (prep optsOne estOne m j) ^ 2)))
    rw [hv]
    exact one_off _ (Or.inr rfl)
  · refine C71_gradient_est rfl (lossPair_one rfl _ _) (fun m k j => ?_) ha _
    show OffBounds none (coherenceToNegSdr none (fin (dot (prep optsOne refOne m k) (prep optsOne estOne m j) ^ 2)))
    rw [hv]
    exact one_off _ (Or.inl rfl)

/-- The same for `pairwise=False` and for the references. -/
example : (∃ f, LossOfRef optsOne refOne estOne (fun _ _ _ => 1) f ∧
      IsGradient f refOne (gradRef optsOne refOne estOne fun _ _ _ => 1)) ∧
    ∃ f, (∀ᶠ p in 𝓝 estOne, LossDiag optsOne refOne p (fun _ _ => 1) (f p)) ∧
      IsGradient f estOne (gradEstDiag optsOne refOne estOne fun _ _ => 1) := by
  have ha : ∀ (m : BIdx []) (j : Fin 1), sigNorm (centred true (estOne m j)) ≠ 1e-6 := by
    intro m j
    have h := (one_regular m).audible
    rw [Subsingleton.elim j 0]
    exact h.ne'
  have hr : ∀ (m : BIdx []) (k : Fin 1), sigNorm (centred true (refOne m k)) ≠ 1e-6 := by
    intro m k
    rw [Subsingleton.elim k 0, show centred true (refOne m 0) = _ from (one_cen m).1]
    have h : (1 : ℝ) ≤ sigNorm (![1, -1, 0] : Fin 3 → ℝ) := by
      unfold sigNorm
      rw [Real.one_le_sqrt]
      simp [Fin.sum_univ_three]
    intro h2
    rw [h2] at h
    norm_num at h
  have hv : ∀ (m : BIdx []) (k j : Fin 1), dot (prep optsOne refOne m k) (prep optsOne estOne m j) ^ 2 = 3 / 4 := by
    intro m k j
    rw [Subsingleton.elim k 0, Subsingleton.elim j 0]
    exact one_loss m
  constructor
  · refine C71_gradient_ref rfl (lossPair_one rfl _ _) (fun m k j => ?_) hr _
    show OffBounds (some 30) (coherenceToNegSdr none (fin (dot (prep optsOne refOne m k) (prep optsOne estOne m j) ^ 2)))
    rw [hv]
    exact one_off _ (Or.inr rfl)
  · refine (C71_gradient_diag (o := optsOne) rfl (lossDiag_one rfl _ _) (fun m k => ?_) _).1 ha
    show OffBounds (some 30) (coherenceToNegSdr none (fin (dot (prep optsOne refOne m k) (prep optsOne estOne m k) ^ 2)))
    rw [hv]
    exact one_off _ (Or.inr rfl)

/-- A silent estimate: NaN without `clamp_db` (for the reference too), zero with it. -/
example (m : BIdx []) (t : Fin 3) :
    gradEst optsNone refOne (e := 2) (fun _ => ![![3, 0, 0], 0]) (fun _ _ _ => 0) m 1 t = nan ∧
    gradRef optsNone refOne (e := 2) (fun _ => ![![3, 0, 0], 0]) (fun _ _ _ => 0) m 0 t = nan ∧
    gradEst optsOne refOne (e := 2) (fun _ => ![![3, 0, 0], 0]) (fun _ _ _ => 1) m 1 t = fin 0 := by
  have hz : centred true (0 : Fin 3 → ℝ) = 0 := by
    have := centred_smul' true 0 (0 : Fin 3 → ℝ)
    simpa using this
  obtain ⟨h1, h2⟩ := C71_silent (o := optsNone) rfl rfl (ref := refOne) (est := fun _ => ![![3, 0, 0], 0]) (m := m) (j := 1)
    hz 0 (fun _ _ _ => 0) t
  refine ⟨h1, h2, C71_saturated (d := 30) rfl rfl (lossPair_one rfl _ _) (fun k => Or.inl ?_) _ t⟩
  have hp : prep optsOne (fun _ : BIdx [] => ![![3, 0, 0], 0]) m 1 = 0 := by
    rw [prep_eq]
    show (fun t => gain (centred true (0 : Fin 3 → ℝ)) * centred true (0 : Fin 3 → ℝ) t) = 0
    rw [hz]
    funext t
    simp
  show coherenceToNegSdr none (fin (dot (prep optsOne refOne m k) (prep optsOne (fun _ : BIdx [] => ![![3, 0, 0], 0]) m 1) ^ 2)) = pinf
  rw [hp, show dot (prep optsOne refOne m k) 0 ^ 2 = 0 by simp [dot], coherenceToNegSdr_fin, cclamp_none le_rfl zero_le_one]
  simp [negDb]

/-- A perfect estimate. -/
example (m : BIdx []) (t : Fin 3) : gradEst optsNone refOne refOne (fun _ _ _ => 1) m 0 t = nan := by
  have ha : 1e-6 ≤ sigNorm (centred optsNone.zeroMean (refOne m 0)) := (one_regular m).refOk rfl
  exact (C71_perfect rfl rfl (a := 1) (one_smul ℝ _).symm ha ha _ t).1

/-- Finite losses without `clamp_db`. -/
example (m : BIdx []) : FiniteGrad (gradEst optsNone refOne estOne (fun _ _ _ => 1) m 0) := by
  refine (C71_finite rfl rfl (lossPair_one rfl _ _) _ m).1 0 fun k => ⟨-(10 * Real.logb 10 3), ?_⟩
  show coherenceToNegSdr none (fin (dot (prep optsOne refOne m k) (prep optsOne estOne m 0) ^ 2)) = _
  rw [Subsingleton.elim k 0, one_loss m]
  exact one_value

end FBE.Props
