import Verif.Proofs.Volume
import Verif.Props.C59_Gradient

/-!
# C97: gradients of signals at another volume
-/

namespace FBE.Props

open Classical FBE.Spec FBE.Backward FBE.Volume XR

variable {s : List ℕ} {r e c N M it : ℕ} {o : Opts}

section pairs

variable {ref ref' : Sig s r N} {est est' : Sig s e M} {a : BIdx s → Fin r → ℝ} {b : BIdx s → Fin e → ℝ}

/-- **C97**, `sdr_loss` with `filter_length=1` and `si_sdr_loss`, all pairs. -/
theorem C97_si_pairwise {est est' : Sig s e N} (hr : AtVolume o.zeroMean a ref ref') (he : AtVolume o.zeroMean b est est')
    (w : BIdx s → Fin r → Fin e → ℝ) : gradEst o ref' est' w = dividedBy b (gradEst o ref est w) ∧
      gradRef o ref' est' w = dividedBy a (gradRef o ref est w) := by
  have h : innerGrad o ref' est' w = innerGrad o ref est w := by
    unfold innerGrad
    rw [prep_volume hr, prep_volume he]
  constructor
  · funext m j
    unfold gradEst
    rw [h, prep_volume hr, preprocessGrad_volume he]
    rfl
  · funext m k
    unfold gradRef
    rw [h, prep_volume he, preprocessGrad_volume hr]
    rfl

/-- **C97**, `sdr_loss` with longer filters and the direct solver, all pairs; exceptions included. -/
theorem C97_sdr_pairwise (hr : AtVolume o.zeroMean a ref ref') (he : AtVolume o.zeroMean b est est')
    (w : BIdx s → Fin r → Fin e → ℝ) : gradEstFir o ref' est' w = (gradEstFir o ref est w).map (dividedBy b) ∧
      gradRefFir o ref' est' w = (gradRefFir o ref est w).map (dividedBy a) := by
  have h : forward o ref' est' = forward o ref est := by
    unfold forward sdrAcf sdrXcorr
    rw [prep_volume hr, prep_volume he]
  constructor
  · unfold gradEstFir
    rw [h, prep_volume hr]
    cases forward o ref est with
    | error err => rfl
    | ok F =>
      show Except.ok _ = Except.ok _
      congr 1
      funext m j
      exact preprocessGrad_volume he m j _
  · unfold gradRefFir
    rw [h, prep_volume hr, prep_volume he]
    cases forward o ref est with
    | error err => rfl
    | ok F =>
      show Except.ok _ = Except.ok _
      congr 1
      funext m k
      exact preprocessGrad_volume hr m k _

/-- **C97**, `sdr_loss` with `use_cg_iter`, all pairs; exceptions included. -/
theorem C97_iterative_pairwise (hr : AtVolume o.zeroMean a ref ref') (he : AtVolume o.zeroMean b est est')
    (w : BIdx s → Fin r → Fin e → ℝ) : gradEstCg o it ref' est' w = (gradEstCg o it ref est w).map (dividedBy b) ∧
      gradRefCg o it ref' est' w = (gradRefCg o it ref est w).map (dividedBy a) := by
  have h1 : ∀ n, sdrAcf o n ref' = sdrAcf o n ref := fun n => by
    unfold sdrAcf
    rw [prep_volume hr]
  have h2 : ∀ n, sdrXcorr o n ref' est' = sdrXcorr o n ref est := fun n => by
    unfold sdrXcorr
    rw [prep_volume hr, prep_volume he]
  constructor
  · unfold gradEstCg
    simp only [h1, h2, prep_volume hr]
    cases nFft N M with
    | error err => rfl
    | ok n =>
      show Except.ok _ = Except.ok _
      congr 1
      funext m j
      exact preprocessGrad_volume he m j _
  · unfold gradRefCg
    simp only [h1, h2, prep_volume hr, prep_volume he]
    cases nFft N M with
    | error err => rfl
    | ok n =>
      show Except.ok _ = Except.ok _
      congr 1
      funext m k
      exact preprocessGrad_volume hr m k _

theorem same_volume (hr : AtVolume o.zeroMean a ref ref') (he : AtVolume o.zeroMean b est est') :
    Same torchBackend o ref est ref' est' :=
  same_of_prep (α := fun _ _ => 1) (β := fun _ _ => 1) (fun _ _ => one_mul 1) (fun _ _ => one_mul 1)
    (fun m k => by simp [prep_volume hr]) (fun m j => by simp [prep_volume he])

theorem pitWeights_volume (hr : AtVolume o.zeroMean a ref ref') (he : AtVolume o.zeroMean b est est') (cs : Bool)
    (v : BIdx s → Fin (min r e) → ℝ) : pitWeights o cs ref' est' v = pitWeights o cs ref est v := by
  unfold pitWeights
  rw [sdrLossPair_same (Or.inl rfl) (same_volume hr he)]

/-- **C97**, `sdr` and `sdr_pit_loss` (`cs`) with `filter_length=1`. -/
theorem C97_pit_si {est est' : Sig s e N} (hr : AtVolume o.zeroMean a ref ref') (he : AtVolume o.zeroMean b est est') (cs : Bool)
    (v : BIdx s → Fin (min r e) → ℝ) : gradEstPit o cs ref' est' v = (gradEstPit o cs ref est v).map (dividedBy b) ∧
      gradRefPit o cs ref' est' v = (gradRefPit o cs ref est v).map (dividedBy a) := by
  unfold gradEstPit gradRefPit
  rw [pitWeights_volume hr he]
  cases pitWeights o cs ref est v with
  | error err => exact ⟨rfl, rfl⟩
  | ok w => exact ⟨congrArg Except.ok (C97_si_pairwise hr he w).1, congrArg Except.ok (C97_si_pairwise hr he w).2⟩

/-- **C97**, `sdr` and `sdr_pit_loss` (`cs`) with longer filters and the direct solver. -/
theorem C97_pit (hr : AtVolume o.zeroMean a ref ref') (he : AtVolume o.zeroMean b est est') (cs : Bool)
    (v : BIdx s → Fin (min r e) → ℝ) : gradEstFirPit o cs ref' est' v = (gradEstFirPit o cs ref est v).map (dividedBy b) ∧
      gradRefFirPit o cs ref' est' v = (gradRefFirPit o cs ref est v).map (dividedBy a) := by
  unfold gradEstFirPit gradRefFirPit
  rw [pitWeights_volume hr he]
  cases pitWeights o cs ref est v with
  | error err => exact ⟨rfl, rfl⟩
  | ok w => exact C97_sdr_pairwise hr he w

/-- **C97**, `sdr` and `sdr_pit_loss` (`cs`) with `use_cg_iter`. -/
theorem C97_pit_iterative (hr : AtVolume o.zeroMean a ref ref') (he : AtVolume o.zeroMean b est est') (cs : Bool)
    (v : BIdx s → Fin (min r e) → ℝ) : gradEstCgPit o it cs ref' est' v = (gradEstCgPit o it cs ref est v).map (dividedBy b) ∧
      gradRefCgPit o it cs ref' est' v = (gradRefCgPit o it cs ref est v).map (dividedBy a) := by
  unfold gradEstCgPit gradRefCgPit
  rw [pitWeights_volume hr he]
  cases pitWeights o cs ref est v with
  | error err => exact ⟨rfl, rfl⟩
  | ok w => exact C97_iterative_pairwise hr he w

theorem bssPass_volume (hr : AtVolume o.zeroMean a ref ref') (he : AtVolume o.zeroMean b est est') :
    bssPass o ref' est' = bssPass o ref est := by
  have h1 : passFir o ref' est' = passFir o ref est := by
    unfold passFir bssAcfSdr bssAcf xcorrFlat sdrXcorr
    rw [prep_volume hr, prep_volume he]
  unfold bssPass
  rw [h1]
  split_ifs with h0 h1 h2
  · rfl
  · subst h2
    show passOne o ref' est' = passOne o ref est
    unfold passOne
    rw [prep_volume hr, prep_volume he]
  · rfl
  · rfl
  · rfl

theorem passCg_volume (hr : AtVolume o.zeroMean a ref ref') (he : AtVolume o.zeroMean b est est') (warm : Bool) :
    passCg warm o it ref' est' = passCg warm o it ref est := by
  unfold passCg bssAcfSdr bssAcf sdrXcorr
  rw [prep_volume hr, prep_volume he]

theorem gradEstBss_volume (he : AtVolume o.zeroMean b est est') (P : BssPass s r e N M) (W : BssWeights (BIdx s × Fin r × Fin e)) :
    gradEstBss o P est' W = dividedBy b (gradEstBss o P est W) := by
  funext m j
  exact preprocessGrad_volume he m j _

theorem gradRefBss_volume (hr : AtVolume o.zeroMean a ref ref') (P : BssPass s r e N M) (W : BssWeights (BIdx s × Fin r × Fin e)) :
    gradRefBss o P ref' W = dividedBy a (gradRefBss o P ref W) := by
  funext m k
  exact preprocessGrad_volume hr m k _

/-- **C97**, losses made of the values of `bss_eval_sources`, direct solver; exceptions included. -/
theorem C97_bss_eval_perm (hr : AtVolume o.zeroMean a ref ref') (he : AtVolume o.zeroMean b est est')
    (v : BssWeights (BIdx s × Fin (min r e))) :
    bssBackward o ref' est' v = (bssBackward o ref est v).map fun g => (dividedBy b g.1, dividedBy a g.2) := by
  unfold bssBackward
  rw [bssPass_volume hr he]
  cases bssPass o ref est with
  | error err => rfl
  | ok P =>
    dsimp only
    split
    · rfl
    · rw [gradEstBss_volume he, gradRefBss_volume hr]
      rfl

/-- **C97**, losses made of the values of `bss_eval_sources`, with `use_cg_iter`; exceptions included. -/
theorem C97_bss_eval_perm_iterative (hr : AtVolume o.zeroMean a ref ref') (he : AtVolume o.zeroMean b est est')
    (v : BssWeights (BIdx s × Fin (min r e))) :
    bssBackwardCg o it ref' est' v = (bssBackwardCg o it ref est v).map fun g => (dividedBy b g.1, dividedBy a g.2) := by
  unfold bssBackwardCg
  rw [passCg_volume hr he]
  cases passCg true o it ref est with
  | error err => rfl
  | ok P =>
    dsimp only
    split
    · rfl
    · rw [gradEstBss_volume he, gradRefBss_volume hr]
      rfl

end pairs

section aligned

variable {ref ref' : Sig s c N} {est est' : Sig s c M} {a b : BIdx s → Fin c → ℝ}

/-- **C97**, `sdr_loss` with `filter_length=1` and `si_sdr_loss`, channel by channel. -/
theorem C97_si {est est' : Sig s c N} (hr : AtVolume o.zeroMean a ref ref') (he : AtVolume o.zeroMean b est est')
    (w : BIdx s → Fin c → ℝ) : gradEstDiag o ref' est' w = dividedBy b (gradEstDiag o ref est w) ∧
      gradRefDiag o ref' est' w = dividedBy a (gradRefDiag o ref est w) := by
  have h : innerGradDiag o ref' est' w = innerGradDiag o ref est w := by
    unfold innerGradDiag
    rw [prep_volume hr, prep_volume he]
  constructor
  · funext m j
    unfold gradEstDiag
    rw [h, prep_volume hr, preprocessGrad_volume he]
    rfl
  · funext m k
    unfold gradRefDiag
    rw [h, prep_volume he, preprocessGrad_volume hr]
    rfl

/-- **C97**, `sdr_loss` with longer filters and the direct solver, channel by channel; exceptions included. -/
theorem C97_sdr (hr : AtVolume o.zeroMean a ref ref') (he : AtVolume o.zeroMean b est est')
    (w : BIdx s → Fin c → ℝ) : gradEstFirDiag o ref' est' w = (gradEstFirDiag o ref est w).map (dividedBy b) ∧
      gradRefFirDiag o ref' est' w = (gradRefFirDiag o ref est w).map (dividedBy a) := by
  have h : forwardDiag o ref' est' = forwardDiag o ref est := by
    unfold forwardDiag sdrAcf sdrXcorr
    rw [prep_volume hr, prep_volume he]
  constructor
  · unfold gradEstFirDiag
    rw [h, prep_volume hr]
    cases forwardDiag o ref est with
    | error err => rfl
    | ok F =>
      show Except.ok _ = Except.ok _
      congr 1
      funext m j
      exact preprocessGrad_volume he m j _
  · unfold gradRefFirDiag
    rw [h, prep_volume hr, prep_volume he]
    cases forwardDiag o ref est with
    | error err => rfl
    | ok F =>
      show Except.ok _ = Except.ok _
      congr 1
      funext m k
      exact preprocessGrad_volume hr m k _

/-- **C97**, `sdr_loss` with `use_cg_iter`, channel by channel; exceptions included. -/
theorem C97_iterative (hr : AtVolume o.zeroMean a ref ref') (he : AtVolume o.zeroMean b est est')
    (w : BIdx s → Fin c → ℝ) : gradEstCgDiag o it ref' est' w = (gradEstCgDiag o it ref est w).map (dividedBy b) ∧
      gradRefCgDiag o it ref' est' w = (gradRefCgDiag o it ref est w).map (dividedBy a) := by
  have h1 : ∀ n, sdrAcf o n ref' = sdrAcf o n ref := fun n => by
    unfold sdrAcf
    rw [prep_volume hr]
  have h2 : ∀ n, sdrXcorr o n ref' est' = sdrXcorr o n ref est := fun n => by
    unfold sdrXcorr
    rw [prep_volume hr, prep_volume he]
  constructor
  · unfold gradEstCgDiag
    simp only [h1, h2, prep_volume hr]
    cases nFft N M with
    | error err => rfl
    | ok n =>
      show Except.ok _ = Except.ok _
      congr 1
      funext m j
      exact preprocessGrad_volume he m j _
  · unfold gradRefCgDiag
    simp only [h1, h2, prep_volume hr, prep_volume he]
    cases nFft N M with
    | error err => rfl
    | ok n =>
      show Except.ok _ = Except.ok _
      congr 1
      funext m k
      exact preprocessGrad_volume hr m k _

theorem gradBssDiag_volume (hr : AtVolume o.zeroMean a ref ref') (he : AtVolume o.zeroMean b est est') (P : BssPass s c c N M)
    (W : BssWeights (BIdx s × Fin c)) : gradEstBssDiag o P est' W = dividedBy b (gradEstBssDiag o P est W) ∧
      gradRefBssDiag o P ref' W = dividedBy a (gradRefBssDiag o P ref W) := by
  constructor
  · funext m j
    exact preprocessGrad_volume he m j _
  · funext m k
    exact preprocessGrad_volume hr m k _

/-- **C97**, losses made of the values of `bss_eval_sources(compute_permutation=False)`, direct solver; exceptions included. -/
theorem C97_bss_eval (hr : AtVolume o.zeroMean a ref ref') (he : AtVolume o.zeroMean b est est') (v : BssWeights (BIdx s × Fin c)) :
    bssBackwardDiag o ref' est' v = (bssBackwardDiag o ref est v).map fun g => (dividedBy b g.1, dividedBy a g.2) := by
  unfold bssBackwardDiag
  rw [bssPass_volume hr he]
  cases bssPass o ref est with
  | error err => rfl
  | ok P =>
    dsimp only
    rw [(gradBssDiag_volume hr he P _).1, (gradBssDiag_volume hr he P _).2]
    rfl

/-- **C97**, losses made of the values of `bss_eval_sources(compute_permutation=False)`, with `use_cg_iter`; exceptions included. -/
theorem C97_bss_eval_iterative (hr : AtVolume o.zeroMean a ref ref') (he : AtVolume o.zeroMean b est est')
    (v : BssWeights (BIdx s × Fin c)) :
    bssBackwardCgDiag o it ref' est' v = (bssBackwardCgDiag o it ref est v).map fun g => (dividedBy b g.1, dividedBy a g.2) := by
  unfold bssBackwardCgDiag
  rw [passCg_volume hr he]
  cases passCg false o it ref est with
  | error err => rfl
  | ok P =>
    dsimp only
    rw [(gradBssDiag_volume hr he P _).1, (gradBssDiag_volume hr he P _).2]
    rfl

end aligned

theorem step_volume {b : ℝ} (hb : 0 < b) {est γ : Sig s c N} {g : BIdx s → Fin c → Fin N → XR} (hg : FiniteValues g γ) :
    ∃ γ', FiniteValues (dividedBy (fun _ _ => b) g) γ' ∧
      ∀ η, descend (b ^ 2 * η) γ' (fun m k t => b * est m k t) = fun m k t => b * descend η γ est m k t := by
  refine ⟨fun m k t => γ m k t / b, fun m k t => ?_, fun η => ?_⟩
  · unfold dividedBy
    rw [hg m k t, div_fin hb.ne']
  · funext m k t
    show b * est m k t - b ^ 2 * η * (γ m k t / b) = b * (est m k t - η * γ m k t)
    field_simp

theorem atVolume_smul {zm : Bool} {b : ℝ} (hb : 0 < b) {x : Sig s c N} (h1 : ∀ m k, 1e-6 ≤ sigNorm (centred zm (x m k)))
    (h2 : ∀ m k, 1e-6 ≤ b * sigNorm (centred zm (x m k))) : AtVolume zm (fun _ _ => b) x (fun m k t => b * x m k t) where
  pos _ _ := hb
  before := h1
  after m k := by
    rw [centred_smul, sigNorm_smul, abs_of_pos hb]
    exact h2 m k
  eq m k := ⟨0, fun _ => rfl, fun t => (add_zero _).symm⟩

/-- **C97**, `sdr_loss` with longer filters, channel by channel: a step with learning rate `η` from the estimates, and a step with learning rate
`b² η` from the estimates at `b` times the volume, lead to the same estimates at the two volumes. -/
theorem C97_sdr_step {b : ℝ} (hb : 0 < b) {ref : Sig s c N} {est : Sig s c M} {w : BIdx s → Fin c → ℝ} {g γ}
    (hr : ∀ m k, 1e-6 ≤ sigNorm (centred o.zeroMean (ref m k)))
    (h1 : ∀ m k, 1e-6 ≤ sigNorm (centred o.zeroMean (est m k))) (h2 : ∀ m k, 1e-6 ≤ b * sigNorm (centred o.zeroMean (est m k)))
    (hg : gradEstFirDiag o ref est w = .ok g) (hγ : FiniteValues g γ) :
    ∃ g' γ', gradEstFirDiag o ref (fun m k t => b * est m k t) w = .ok g' ∧ FiniteValues g' γ' ∧
      ∀ η, descend (b ^ 2 * η) γ' (fun m k t => b * est m k t) = fun m k t => b * descend η γ est m k t := by
  obtain ⟨γ', h3, h4⟩ := step_volume hb (est := est) hγ
  refine ⟨_, γ', ?_, h3, h4⟩
  have ha : AtVolume o.zeroMean (fun _ _ => 1) ref ref :=
    ⟨fun _ _ => one_pos, hr, hr, fun m k => ⟨0, fun _ => rfl, fun t => by rw [one_mul, add_zero]⟩⟩
  rw [(C97_sdr ha (atVolume_smul hb h1 h2) w).1, hg]
  rfl

/-- **C97**, `sdr_loss` with `filter_length=1` and `si_sdr_loss`, channel by channel: the same for the steps. -/
theorem C97_si_step {b : ℝ} (hb : 0 < b) {ref est : Sig s c N} {w : BIdx s → Fin c → ℝ} {γ}
    (hr : ∀ m k, 1e-6 ≤ sigNorm (centred o.zeroMean (ref m k)))
    (h1 : ∀ m k, 1e-6 ≤ sigNorm (centred o.zeroMean (est m k))) (h2 : ∀ m k, 1e-6 ≤ b * sigNorm (centred o.zeroMean (est m k)))
    (hγ : FiniteValues (gradEstDiag o ref est w) γ) :
    ∃ γ', FiniteValues (gradEstDiag o ref (fun m k t => b * est m k t) w) γ' ∧
      ∀ η, descend (b ^ 2 * η) γ' (fun m k t => b * est m k t) = fun m k t => b * descend η γ est m k t := by
  obtain ⟨γ', h3, h4⟩ := step_volume hb (est := est) hγ
  have ha : AtVolume o.zeroMean (fun _ _ => 1) ref ref :=
    ⟨fun _ _ => one_pos, hr, hr, fun m k => ⟨0, fun _ => rfl, fun t => by rw [one_mul, add_zero]⟩⟩
  rw [← (C97_si ha (atVolume_smul hb h1 h2) w).1] at h3
  exact ⟨γ', h3, h4⟩

/-! ### examples -/

theorem ex_loud (m : BIdx []) (k : Fin 2) : 1 ≤ sigNorm (centred false (Ex.est m k)) ∧ 1 ≤ sigNorm (centred false (Ex.ref m k)) := by
  have key : ∀ x : Fin 3 → ℝ, 1 ≤ ∑ t, x t ^ 2 → 1 ≤ sigNorm (centred false x) := by
    intro x hx
    show 1 ≤ √(∑ t, x t ^ 2)
    rwa [Real.one_le_sqrt]
  constructor <;> refine key _ ?_ <;> fin_cases k <;> simp [Ex.est, Ex.ref, Fin.sum_univ_three]

/-- References half as loud and estimates three times as loud. -/
theorem ex_volume : AtVolume false (fun _ _ => 1 / 2) Ex.ref (fun m k t => 1 / 2 * Ex.ref m k t) ∧
    AtVolume false (fun _ _ => 3) Ex.est (fun m k t => 3 * Ex.est m k t) := by
  refine ⟨atVolume_smul (by norm_num) (fun m k => ?_) fun m k => ?_, atVolume_smul (by norm_num) (fun m k => ?_) fun m k => ?_⟩
  all_goals
    have := ex_loud m k
    linarith

/-- An estimate twice as loud and at another offset. -/
theorem one_volume : AtVolume true (fun _ _ => 1) refOne refOne ∧
    AtVolume true (fun _ _ => 2) estOne (fun m k t => 2 * estOne m k t + 5) := by
  have hr : ∀ (m : BIdx []) (k : Fin 1), 1e-6 ≤ sigNorm (centred true (refOne m k)) := fun m k => by
    rw [Subsingleton.elim k 0]
    exact (one_regular m).refOk rfl
  have he : ∀ (m : BIdx []) (k : Fin 1), 1e-6 ≤ sigNorm (centred true (estOne m k)) := fun m k => by
    rw [Subsingleton.elim k 0]
    exact (one_regular m).audible.le
  refine ⟨⟨fun _ _ => one_pos, hr, hr, fun m k => ⟨0, fun _ => rfl, fun t => by rw [one_mul, add_zero]⟩⟩,
    ⟨fun _ _ => two_pos, he, fun m k => ?_, fun m k => ⟨5, fun h => (by cases h), fun t => rfl⟩⟩⟩
  rw [centred_line (zm := true) (d := 5) (fun h => (by cases h)) (fun t => rfl), sigNorm_smul, abs_of_pos two_pos]
  linarith [he m k]

example (w : BIdx [] → Fin 1 → Fin 1 → ℝ) : gradEst optsOne refOne (fun m k t => 2 * estOne m k t + 5) w =
    dividedBy (fun _ _ => 2) (gradEst optsOne refOne estOne w) :=
  (C97_si_pairwise (o := optsOne) one_volume.1 one_volume.2 w).1

example (w : BIdx [] → Fin 1 → ℝ) : gradEstDiag optsOne refOne (fun m k t => 2 * estOne m k t + 5) w =
    dividedBy (fun _ _ => 2) (gradEstDiag optsOne refOne estOne w) :=
  (C97_si (o := optsOne) one_volume.1 one_volume.2 w).1

/-- All gradients of the example: they exist (C72, C73, C85, C88), and at the other volumes they are divided. -/
example (w : BIdx [] → Fin 2 → Fin 2 → ℝ) : ∃ gE gR, gradEstFir (Ex.clamped none) Ex.ref Ex.est w = .ok gE ∧
    gradRefFir (Ex.clamped none) Ex.ref Ex.est w = .ok gR ∧
    gradEstFir (Ex.clamped none) (fun m k t => 1 / 2 * Ex.ref m k t) (fun m k t => 3 * Ex.est m k t) w = .ok (dividedBy (fun _ _ => 3) gE) ∧
    gradRefFir (Ex.clamped none) (fun m k t => 1 / 2 * Ex.ref m k t) (fun m k t => 3 * Ex.est m k t) w =
      .ok (dividedBy (fun _ _ => 1 / 2) gR) := by
  obtain ⟨gE, gR, h1, h2, -⟩ := C72_finite (o := Ex.clamped none) (by decide) rfl rfl (Ex.sdrLossPair_cl _) w
  obtain ⟨h3, h4⟩ := C97_sdr_pairwise (o := Ex.clamped none) ex_volume.1 ex_volume.2 w
  rw [h1] at h3
  rw [h2] at h4
  exact ⟨gE, gR, h1, h2, h3, h4⟩

example (w : BIdx [] → Fin 2 → ℝ) : ∃ γ g' γ', gradEstFirDiag (Ex.clamped none) Ex.ref (fun m k t => 3 * Ex.est m k t) w = .ok g' ∧
    FiniteValues g' γ' ∧ ∀ η, descend (3 ^ 2 * η) γ' (fun m k t => 3 * Ex.est m k t) = fun m k t => 3 * descend η γ Ex.est m k t := by
  have h4 : OffBounds none (coherenceToNegSdr none (fin (4 / 5))) := by
    have := fifth_off none (Or.inl rfl) True
    rwa [if_pos trivial] at this
  obtain ⟨f, g, -, h1, γ, f', h2, -⟩ := (C72_gradient_diag (o := Ex.clamped none) (by norm_num) (by decide) rfl (Ex.sdrLossDiag_cl none)
    (fun _ _ => h4) w).1 fun m j => (ex_norm m j).1
  obtain ⟨g', γ', h5, h6, h7⟩ := C97_sdr_step (o := Ex.clamped none) (b := 3) (by norm_num)
    (fun m k => le_trans (by norm_num) (ex_loud m k).2) (fun m k => le_trans (by norm_num) (ex_loud m k).1)
    (fun m k => by
      show 1e-6 ≤ 3 * sigNorm (centred false (Ex.est m k))
      linarith [(ex_loud m k).1]) h1 h2
  exact ⟨γ, g', γ', h5, h6, h7⟩

end FBE.Props
