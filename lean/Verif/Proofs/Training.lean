import Verif.Spec.Training
import Verif.Props.C07_C08_C40_Invariance
import Verif.Props.C88_BackwardBssCg
import Mathlib.Analysis.Calculus.LocalExtr.Basic
import Mathlib.Analysis.Calculus.Deriv.Slope

/-!
# Steps against a gradient
-/

namespace FBE

open Classical FBE.Spec FBE.Props FBE.Backward Filter Topology

variable {s : List ℕ} {r e c N T : ℕ} {o : Opts}

namespace Training

/-- `f` touches the loss from above at `est`. -/
def Touches (R : Sig s c N → ℝ → Prop) (est : Sig s c N) (f : Sig s c N → ℝ) : Prop :=
  R est (f est) ∧ ∀ᶠ p in 𝓝 est, ∃ y, R p y ∧ y ≤ f p

theorem touches_of {R : Sig s c N → ℝ → Prop} {est : Sig s c N} {f : Sig s c N → ℝ} (h : ∀ᶠ p in 𝓝 est, R p (f p)) :
    Touches R est f := ⟨h.self_of_nhds, h.mono fun _ hp => ⟨_, hp, le_rfl⟩⟩

theorem hasDerivAt_line {f : Sig s c N → ℝ} {f' : Sig s c N →L[ℝ] ℝ} {x : Sig s c N} (hf : HasFDerivAt f f' x) (v : Sig s c N) :
    HasDerivAt (fun u : ℝ => f (x + u • v)) (f' v) 0 := by
  have h1 : HasDerivAt (fun u : ℝ => x + u • v) v 0 := by
    have := ((hasDerivAt_id (0 : ℝ)).smul_const v).const_add x
    simpa using this
  have h2 : HasFDerivAt f f' (x + (0 : ℝ) • v) := by simpa using hf
  exact h2.comp_hasDerivAt (0 : ℝ) h1

theorem tendsto_line (x v : Sig s c N) : Tendsto (fun u : ℝ => x + u • v) (𝓝 0) (𝓝 x) := by
  have : Continuous fun u : ℝ => x + u • v := by fun_prop
  simpa using this.tendsto 0

/-- The derivative vanishes along a direction in which the loss does not change. -/
theorem stationary {R : Sig s c N → ℝ → Prop} (hfun : ∀ p y y', R p y → R p y' → y = y') {est : Sig s c N} {f : Sig s c N → ℝ}
    (hR : Touches R est f) {f' : Sig s c N →L[ℝ] ℝ} (hf : HasFDerivAt f f' est) {v : Sig s c N}
    (hinv : ∀ᶠ u : ℝ in 𝓝 0, ∀ y, R (est + u • v) y → R est y) : f' v = 0 := by
  have hd := hasDerivAt_line hf v
  have hmin : IsLocalMin (fun u : ℝ => f (est + u • v)) 0 := by
    filter_upwards [hinv, (tendsto_line est v).eventually hR.2] with u h1 ⟨y, h2, h3⟩
    have := hfun _ _ _ (h1 y h2) hR.1
    simpa using this ▸ h3
  exact hmin.hasDerivAt_eq_zero hd

theorem lowers {R : Sig s c N → ℝ → Prop} {est γ : Sig s c N} {f : Sig s c N → ℝ} (hR : Touches R est f) {f' : Sig s c N →L[ℝ] ℝ}
    (hf : HasFDerivAt f f' est) (hγ : ∀ v : Sig s c N, f' v = ∑ m, ∑ j, ∑ t, γ m j t * v m j t) : Lowers R γ est := by
  refine ⟨_, hR.1, fun a ha => ?_⟩
  set S := ∑ m, ∑ j, ∑ t, γ m j t ^ 2 with hS
  have hS0 : 0 ≤ S := Finset.sum_nonneg fun m _ => Finset.sum_nonneg fun j _ => Finset.sum_nonneg fun t _ => sq_nonneg _
  rcases hS0.eq_or_lt with h0 | h0
  · refine ⟨1, one_pos, fun η _ _ => ⟨f est, ?_, ?_⟩⟩
    · have hz : descend η γ est = est := by
        funext m j t
        have h1 := (Finset.sum_eq_zero_iff_of_nonneg fun m _ => Finset.sum_nonneg fun j _ => Finset.sum_nonneg fun t _ =>
          sq_nonneg (γ m j t)).1 h0.symm m (Finset.mem_univ _)
        have h2 := (Finset.sum_eq_zero_iff_of_nonneg fun j _ => Finset.sum_nonneg fun t _ =>
          sq_nonneg (γ m j t)).1 h1 j (Finset.mem_univ _)
        have h3 := (Finset.sum_eq_zero_iff_of_nonneg fun t _ => sq_nonneg (γ m j t)).1 h2 t (Finset.mem_univ _)
        have h4 : γ m j t = 0 := by simpa using h3
        simp [descend, h4]
      rw [hz]
      exact hR.1
    · rw [← h0]
      simp
  have hd := hasDerivAt_line hf (-γ)
  have hv : f' (-γ) = -S := by
    rw [hγ, hS, ← Finset.sum_neg_distrib]
    refine Finset.sum_congr rfl fun m _ => ?_
    rw [← Finset.sum_neg_distrib]
    refine Finset.sum_congr rfl fun j _ => ?_
    rw [← Finset.sum_neg_distrib]
    refine Finset.sum_congr rfl fun t _ => ?_
    show γ m j t * -γ m j t = _
    ring
  rw [hv] at hd
  have hlt : -S < -(a * S) := by nlinarith
  have hs := (hasDerivAt_iff_tendsto_slope.1 hd).eventually (eventually_lt_nhds hlt)
  have hs' : ∀ᶠ u : ℝ in 𝓝 0, u ≠ 0 → slope (fun u : ℝ => f (est + u • -γ)) 0 u < -(a * S) :=
    eventually_nhdsWithin_iff.1 hs
  obtain ⟨δ, hδ, hball⟩ := Metric.eventually_nhds_iff.1 (hs'.and ((tendsto_line est (-γ)).eventually hR.2))
  refine ⟨δ, hδ, fun η h1 h2 => ?_⟩
  obtain ⟨h3, y', h4, h5⟩ := hball (y := η) (by rw [Real.dist_eq, sub_zero, abs_of_pos h1]; exact h2)
  have h6 := h3 h1.ne'
  have e1 : est + η • -γ = descend η γ est := by
    funext m j t
    show est m j t + η * -γ m j t = est m j t - η * γ m j t
    ring
  rw [e1] at h4 h5
  refine ⟨y', h4, ?_⟩
  rw [slope_def_field, div_lt_iff₀ (by linarith)] at h6
  rw [e1] at h6
  have e2 : est + (0 : ℝ) • -γ = est := by simp
  rw [e2] at h6
  linarith

/-- The signal of one channel, zeros in the others. -/
noncomputable def only (m : BIdx s) (j : Fin c) (x : Fin N → ℝ) : Sig s c N :=
  fun m' j' t => if m' = m ∧ j' = j then x t else 0

theorem sum_only (γ : Sig s c N) (m : BIdx s) (j : Fin c) (x : Fin N → ℝ) :
    ∑ m', ∑ j', ∑ t, γ m' j' t * only m j x m' j' t = ∑ t, γ m j t * x t := by
  rw [Finset.sum_eq_single m, Finset.sum_eq_single j]
  · simp [only]
  · intro j' _ h
    exact Finset.sum_eq_zero fun t _ => by simp [only, h]
  · simp
  · intro m' _ h
    exact Finset.sum_eq_zero fun j' _ => Finset.sum_eq_zero fun t _ => by simp [only, h]
  · simp

theorem growsLouder {γ est : Sig s c N} {m : BIdx s} {j : Fin c} (h : ∑ t, γ m j t * est m j t = 0) : GrowsLouder γ est m j := by
  intro η
  have e : ∀ t, descend η γ est m j t ^ 2 = est m j t ^ 2 + (η * γ m j t) ^ 2 - 2 * η * (γ m j t * est m j t) := fun t => by
    show (est m j t - η * γ m j t) ^ 2 = _
    ring
  simp only [e]
  rw [Finset.sum_sub_distrib, Finset.sum_add_distrib, ← Finset.mul_sum, h]
  ring

theorem keepsMean {γ est : Sig s c N} {m : BIdx s} {j : Fin c} (h : ∑ t, γ m j t = 0) : KeepsMean γ est m j := by
  intro η
  show ∑ t, (est m j t - η * γ m j t) = _
  rw [Finset.sum_sub_distrib, ← Finset.mul_sum, h]
  ring

/-- Estimates with the same normalised form. -/
def SamePrep (o : Opts) (est est' : Sig s c N) : Prop := ∀ m j, prep o est' m j = prep o est m j

theorem SamePrep.same {ref : Sig s r N} {est est' : Sig s e T} (h : SamePrep o est est') :
    Same torchBackend o ref est ref est' :=
  same_of_prep (α := fun _ _ => 1) (β := fun _ _ => 1) (fun _ _ => one_mul 1) (fun _ _ => one_mul 1)
    (fun m k => by simp) (fun m j => by simp [h m j])

theorem samePrep_line (est : Sig s c N) (m : BIdx s) (j : Fin c) (hq : 1e-6 < sigNorm (centred o.zeroMean (est m j))) :
    ∀ᶠ u : ℝ in 𝓝 0, SamePrep o est (est + u • only m j (est m j)) := by
  have hc : Tendsto (fun u : ℝ => (1 + u) * sigNorm (centred o.zeroMean (est m j))) (𝓝 0)
      (𝓝 ((1 + 0) * sigNorm (centred o.zeroMean (est m j)))) :=
    Continuous.tendsto (f := fun u : ℝ => (1 + u) * sigNorm (centred o.zeroMean (est m j))) (by fun_prop) 0
  have hev := hc.eventually (eventually_gt_nhds (by rw [add_zero, one_mul]; exact hq))
  have h1 : ∀ᶠ u : ℝ in 𝓝 0, -1 < u := eventually_gt_nhds (by norm_num)
  filter_upwards [hev, h1] with u hu hu1
  intro m' j'
  rw [prep_eq, prep_eq]
  by_cases h : m' = m ∧ j' = j
  · obtain ⟨rfl, rfl⟩ := h
    have e1 : (est + u • only m' j' (est m' j')) m' j' = fun t => (1 + u) * est m' j' t := by
      funext t
      show est m' j' t + u * (if m' = m' ∧ j' = j' then est m' j' t else 0) = _
      rw [if_pos ⟨rfl, rfl⟩]
      ring
    rw [e1, centred_smul]
    funext t
    have hpos : 0 < 1 + u := by linarith
    have hn : 0 < sigNorm (centred o.zeroMean (est m' j')) := lt_trans (by norm_num) hq
    unfold gain
    rw [sigNorm_smul, abs_of_pos hpos, max_eq_left hu.le, max_eq_left hq.le]
    field_simp
  · have e1 : (est + u • only m j (est m j)) m' j' = est m' j' := by
      funext t
      show est m' j' t + u * (if m' = m ∧ j' = j then est m j t else 0) = _
      rw [if_neg h]
      ring
    rw [e1]

theorem samePrep_offset (hz : o.zeroMean = true) (est : Sig s c N) (m : BIdx s) (j : Fin c) (u : ℝ) :
    SamePrep o est (est + u • only m j fun _ => 1) := by
  intro m' j'
  have e1 : est + u • only m j (fun _ => 1) = offset (fun m' j' => if m' = m ∧ j' = j then u else 0) est := by
    funext m' j' t
    show est m' j' t + u * (if m' = m ∧ j' = j then 1 else 0) = est m' j' t + (if m' = m ∧ j' = j then u else 0)
    split_ifs <;> ring
  rw [e1, prep_offset hz]

/-- The step for a loss that depends on the normalised estimates only. -/
theorem goodStep {R : Sig s c N → ℝ → Prop} (hfun : ∀ p y y', R p y → R p y' → y = y')
    (hinv : ∀ p p' : Sig s c N, SamePrep o p p' → ∀ y, R p' y → R p y) {est : Sig s c N} {f : Sig s c N → ℝ} {g}
    (hR : Touches R est f) (hg : IsGradient f est g) :
    GoodStep o.zeroMean (fun m j => sigNorm (centred o.zeroMean (est m j)) ≤ 1e-6) R g est := by
  obtain ⟨γ, f', h1, h2, h3⟩ := hg
  refine ⟨γ, h1, lowers hR h2 h3, fun m j hq => growsLouder ?_, fun hz m j => keepsMean ?_⟩
  · rw [← sum_only γ m j (est m j), ← h3]
    exact stationary hfun hR h2 ((samePrep_line est m j (not_le.1 hq)).mono fun u hu => hinv _ _ hu)
  · have := stationary hfun hR h2 (v := only m j fun _ => 1)
      (Eventually.of_forall fun u => hinv _ _ (samePrep_offset hz est m j u))
    rw [h3, sum_only] at this
    simpa using this

end Training

end FBE
