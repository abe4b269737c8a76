import Verif.Proofs.BackwardFir
import Verif.Proofs.ExampleRuns
import Verif.Props.C71_Backward
import Verif.Props.C32_C34_Failures
import Verif.Props.C54_C56_FilterLength

/-!
# C72: the gradients computed by torch for filters of several taps

The statements of C71 for `sdr_loss` with `filter_length >= 2` and the direct solver
(`use_cg_iter=None`), for references and estimates of any lengths.  The backward pass runs through the solution of the
linear systems, the Toeplitz matrices and the transforms.
-/

set_option linter.unusedSectionVars false

namespace FBE.Props

open Spec XR Filter Topology Backward Matrix

variable {s : List ℕ} {r e c N T n : ℕ} {o : Opts}

/-- The gradient of the normalised estimate `y`, if the derivatives by the coherences are `g`. -/
noncomputable def estLin (n K : ℕ) (d : ℝ) (x : Fin r → Fin N → ℝ) (y : Fin T → ℝ) (g : Fin r → ℝ) : Fin T → ℝ :=
  estBack n x fun k => xcorrGrad (acfM n K d (x k)) (xcV n K (x k) y) ((acfM n K d (x k))⁻¹ *ᵥ xcV n K (x k) y) (g k)

/-- The gradient of the normalised reference `x`, if the derivatives by the coherences are `g`. -/
noncomputable def refLin (n K : ℕ) (d : ℝ) (x : Fin N → ℝ) (y : Fin e → Fin T → ℝ) (g : Fin e → ℝ) : Fin N → ℝ :=
  refBack n x y (fun j => xcorrGrad (acfM n K d x) (xcV n K x (y j)) ((acfM n K d x)⁻¹ *ᵥ xcV n K x (y j)) (g j))
    (toeplitzGrad (matGrad (acfM n K d x) (fun j => xcV n K x (y j)) (fun j => (acfM n K d x)⁻¹ *ᵥ xcV n K x (y j)) g))

section run

variable {ref : Sig s r N} {est : Sig s e T}

theorem gradEstFir_eq (hL : 2 ≤ o.filterLength) (hn : nFft N T = .ok n)
    (hd : ∀ m k, (acfM n (min o.filterLength n) o.load (prep o ref m k)).det ≠ 0) (w : BIdx s → Fin r → Fin e → ℝ) :
    gradEstFir o ref est w = .ok fun m j => preprocessGrad o.zeroMean (est m j) <|
      lift (fun k => decibelGrad o.clampDb
        (firCoh n (min o.filterLength n) o.load (prep o ref m k) (prep o est m j)) (fin (w m k j)))
        (estLin n (min o.filterLength n) o.load (prep o ref m) (prep o est m j)) := by
  unfold gradEstFir
  rw [forward_eq hn (by omega), if_neg (by push Not; exact fun i => hd i.1 i.2)]
  rfl

theorem gradRefFir_eq (hL : 2 ≤ o.filterLength) (hn : nFft N T = .ok n)
    (hd : ∀ m k, (acfM n (min o.filterLength n) o.load (prep o ref m k)).det ≠ 0) (w : BIdx s → Fin r → Fin e → ℝ) :
    gradRefFir o ref est w = .ok fun m k => preprocessGrad o.zeroMean (ref m k) <|
      lift (fun j => decibelGrad o.clampDb
        (firCoh n (min o.filterLength n) o.load (prep o ref m k) (prep o est m j)) (fin (w m k j)))
        (refLin n (min o.filterLength n) o.load (prep o ref m k) (prep o est m)) := by
  unfold gradRefFir
  rw [forward_eq hn (by omega), if_neg (by push Not; exact fun i => hd i.1 i.2)]
  rfl

/-- What is known when the loss is returned. -/
theorem lossPair_fir (hL : 2 ≤ o.filterLength) (hcg : o.useCgIter = none) {V}
    (h : sdrLossPair torchBackend o est ref = .ok V) :
    ∃ n, nFft N T = .ok n ∧ (∀ m k, (acfM n (min o.filterLength n) o.load (prep o ref m k)).det ≠ 0) ∧
      V = fun m k j => coherenceToNegSdr o.clampDb
        (fin (firCoh n (min o.filterLength n) o.load (prep o ref m k) (prep o est m j))) := by
  unfold sdrLossPair at h
  cases hn : nFft N T with
  | error err =>
    rw [sdrCohPair_gen torchBackend hL] at h
    unfold sdrCohPairGen at h
    rw [hn] at h
    cases h
  | ok n =>
    rw [cohPair_fir hn hL hcg] at h
    split at h
    · rename_i h2
      split at h2
      · cases h
      · cases h2
    · rename_i h2
      split at h2
      · cases h2
      · rename_i hd
        push Not at hd
        cases h2
        cases h
        exact ⟨n, rfl, fun m k => hd (m, k), rfl⟩

theorem lossPair_fir_of (hL : 2 ≤ o.filterLength) (hcg : o.useCgIter = none) (hn : nFft N T = .ok n)
    (hd : ∀ m k, (acfM n (min o.filterLength n) o.load (prep o ref m k)).det ≠ 0) :
    sdrLossPair torchBackend o est ref = .ok fun m k j => coherenceToNegSdr o.clampDb
        (fin (firCoh n (min o.filterLength n) o.load (prep o ref m k) (prep o est m j))) := by
  unfold sdrLossPair
  rw [cohPair_fir hn hL hcg, if_neg (by push Not; exact fun i => hd i.1 i.2)]

end run

section runDiag

variable {ref : Sig s c N} {est : Sig s c T}

theorem gradEstFirDiag_eq (hL : 2 ≤ o.filterLength) (hn : nFft N T = .ok n)
    (hd : ∀ m k, (acfM n (min o.filterLength n) o.load (prep o ref m k)).det ≠ 0) (w : BIdx s → Fin c → ℝ) :
    gradEstFirDiag o ref est w = .ok fun m k => preprocessGrad o.zeroMean (est m k) <|
      lift (fun _ : Fin 1 => decibelGrad o.clampDb
        (firCoh n (min o.filterLength n) o.load (prep o ref m k) (prep o est m k)) (fin (w m k)))
        (estLin n (min o.filterLength n) o.load (fun _ => prep o ref m k) (prep o est m k)) := by
  unfold gradEstFirDiag
  rw [forwardDiag_eq hn (by omega), if_neg (by push Not; exact fun i => hd i.1 i.2)]
  rfl

theorem gradRefFirDiag_eq (hL : 2 ≤ o.filterLength) (hn : nFft N T = .ok n)
    (hd : ∀ m k, (acfM n (min o.filterLength n) o.load (prep o ref m k)).det ≠ 0) (w : BIdx s → Fin c → ℝ) :
    gradRefFirDiag o ref est w = .ok fun m k => preprocessGrad o.zeroMean (ref m k) <|
      lift (fun _ : Fin 1 => decibelGrad o.clampDb
        (firCoh n (min o.filterLength n) o.load (prep o ref m k) (prep o est m k)) (fin (w m k)))
        (refLin n (min o.filterLength n) o.load (prep o ref m k) (fun _ => prep o est m k)) := by
  unfold gradRefFirDiag
  rw [forwardDiag_eq hn (by omega), if_neg (by push Not; exact fun i => hd i.1 i.2)]
  rfl

theorem lossDiag_fir (hL : 2 ≤ o.filterLength) (hcg : o.useCgIter = none) {V}
    (h : sdrLossDiag torchBackend o est ref = .ok V) :
    ∃ n, nFft N T = .ok n ∧ (∀ m k, (acfM n (min o.filterLength n) o.load (prep o ref m k)).det ≠ 0) ∧
      V = fun m k => coherenceToNegSdr o.clampDb
        (fin (firCoh n (min o.filterLength n) o.load (prep o ref m k) (prep o est m k))) := by
  unfold sdrLossDiag at h
  cases hn : nFft N T with
  | error err =>
    rw [sdrCohDiag_gen torchBackend hL] at h
    unfold sdrCohDiagGen at h
    rw [hn] at h
    cases h
  | ok n =>
    rw [cohDiag_fir hn hL hcg] at h
    split at h
    · rename_i h2
      split at h2
      · cases h
      · cases h2
    · rename_i h2
      split at h2
      · cases h2
      · rename_i hd
        push Not at hd
        cases h2
        cases h
        exact ⟨n, rfl, fun m k => hd (m, k), rfl⟩

theorem lossDiag_fir_of (hL : 2 ≤ o.filterLength) (hcg : o.useCgIter = none) (hn : nFft N T = .ok n)
    (hd : ∀ m k, (acfM n (min o.filterLength n) o.load (prep o ref m k)).det ≠ 0) :
    sdrLossDiag torchBackend o est ref = .ok fun m k => coherenceToNegSdr o.clampDb
        (fin (firCoh n (min o.filterLength n) o.load (prep o ref m k) (prep o est m k))) := by
  unfold sdrLossDiag
  rw [cohDiag_fir hn hL hcg, if_neg (by push Not; exact fun i => hd i.1 i.2)]

end runDiag

theorem finite_of {zm : Bool} {x : Fin N → ℝ} {κ : Type} {cl : Option ℝ} {v w : κ → ℝ}
    (h : ∀ k, 0 < cclamp cl (v k) ∧ cclamp cl (v k) < 1) (f : (κ → ℝ) → Fin N → ℝ) :
    preprocessGrad zm x (lift (fun k => decibelGrad cl (v k) (fin (w k))) f) =
      fun t => fin (prepR zm x (f fun k => w k * dbSlope cl (v k)) t) := by
  rw [lift_fin fun k => decibelGrad_fin (h k).1 (h k).2 (w k), preprocessGrad_fin]

theorem nan_of {zm : Bool} {x : Fin N → ℝ} {κ : Type} {v w : κ → ℝ} {k : κ} (h : v k = 0 ∨ v k = 1)
    (f : (κ → ℝ) → Fin N → ℝ) (t : Fin N) :
    preprocessGrad zm x (lift (fun k => decibelGrad none (v k) (fin (w k))) f) t = nan :=
  preprocessGrad_nan _ _ (fun t => lift_nan (k := k) (decibelGrad_nan h (w k)) _ t) t

/-- **C72**, finite gradients with `clamp_db`. -/
theorem C72_clamped_finite (hL : 2 ≤ o.filterLength) (hcg : o.useCgIter = none) {d : ℝ} (hcl : o.clampDb = some d)
    {ref : Sig s r N} {est : Sig s e T} {V} (h : sdrLossPair torchBackend o est ref = .ok V)
    (w : BIdx s → Fin r → Fin e → ℝ) :
    ∃ gE gR, gradEstFir o ref est w = .ok gE ∧ gradRefFir o ref est w = .ok gR ∧
      (∀ m j, FiniteGrad (gE m j)) ∧ ∀ m k, FiniteGrad (gR m k) := by
  obtain ⟨n, hn, hd, -⟩ := lossPair_fir hL hcg h
  refine ⟨_, _, gradEstFir_eq hL hn hd w, gradRefFir_eq hL hn hd w, fun m j => ?_, fun m k => ?_⟩
  all_goals
    rw [hcl, finite_of fun _ => cclamp_some_inside d _]
    exact fun t => ⟨_, rfl⟩

/-- **C72**, finite gradients with `clamp_db`, `pairwise=False`. -/
theorem C72_clamped_finite_diag (hL : 2 ≤ o.filterLength) (hcg : o.useCgIter = none) {d : ℝ} (hcl : o.clampDb = some d)
    {ref : Sig s c N} {est : Sig s c T} {V} (h : sdrLossDiag torchBackend o est ref = .ok V)
    (w : BIdx s → Fin c → ℝ) :
    ∃ gE gR, gradEstFirDiag o ref est w = .ok gE ∧ gradRefFirDiag o ref est w = .ok gR ∧
      ∀ m k, FiniteGrad (gE m k) ∧ FiniteGrad (gR m k) := by
  obtain ⟨n, hn, hd, -⟩ := lossDiag_fir hL hcg h
  refine ⟨_, _, gradEstFirDiag_eq hL hn hd w, gradRefFirDiag_eq hL hn hd w, fun m k => ⟨?_, ?_⟩⟩
  all_goals
    rw [hcl, finite_of fun _ => cclamp_some_inside d _]
    exact fun t => ⟨_, rfl⟩

/-- **C72**, NaN: without `clamp_db`, an infinite loss of the pair `(k, j)` makes every gradient of
estimate `j` and of reference `k` NaN, whatever the weights of the losses. -/
theorem C72_nan (hL : 2 ≤ o.filterLength) (hcg : o.useCgIter = none) (hcl : o.clampDb = none) (hload : 0 ≤ o.load)
    {ref : Sig s r N} {est : Sig s e T} {V} (h : sdrLossPair torchBackend o est ref = .ok V)
    (w : BIdx s → Fin r → Fin e → ℝ) :
    ∃ gE gR, gradEstFir o ref est w = .ok gE ∧ gradRefFir o ref est w = .ok gR ∧
      ∀ m k j, V m k j = pinf ∨ V m k j = ninf → (∀ t, gE m j t = nan) ∧ ∀ t, gR m k t = nan := by
  obtain ⟨n, hn, hd, rfl⟩ := lossPair_fir hL hcg h
  refine ⟨_, _, gradEstFir_eq hL hn hd w, gradRefFir_eq hL hn hd w, fun m k j hinf => ?_⟩
  have hc : sdrCohPair torchBackend o ref est = .ok fun m k j =>
      firCoh n (min o.filterLength n) o.load (prep o ref m k) (prep o est m j) := by
    rw [cohPair_fir hn hL hcg, if_neg (by push Not; exact fun i => hd i.1 i.2)]
  have hr := sdrCohPair_range (Or.inl rfl) (Or.inr hcg) hload ref est hc m k j
  dsimp only at hinf
  rw [hcl] at hinf
  have hv := negDb_inf hr.1 hr.2 hinf
  rw [hcl]
  exact ⟨nan_of (k := k) hv _, nan_of (k := j) hv _⟩

/-- **C72**, NaN for `pairwise=False`. -/
theorem C72_nan_diag (hL : 2 ≤ o.filterLength) (hcg : o.useCgIter = none) (hcl : o.clampDb = none) (hload : 0 ≤ o.load)
    {ref : Sig s c N} {est : Sig s c T} {V} (h : sdrLossDiag torchBackend o est ref = .ok V)
    (w : BIdx s → Fin c → ℝ) :
    ∃ gE gR, gradEstFirDiag o ref est w = .ok gE ∧ gradRefFirDiag o ref est w = .ok gR ∧
      ∀ m k, V m k = pinf ∨ V m k = ninf → ∀ t t', gE m k t = nan ∧ gR m k t' = nan := by
  obtain ⟨n, hn, hd, rfl⟩ := lossDiag_fir hL hcg h
  refine ⟨_, _, gradEstFirDiag_eq hL hn hd w, gradRefFirDiag_eq hL hn hd w, fun m k hinf => ?_⟩
  have hc : sdrCohPair torchBackend o ref est = .ok fun m k j =>
      firCoh n (min o.filterLength n) o.load (prep o ref m k) (prep o est m j) := by
    rw [cohPair_fir hn hL hcg, if_neg (by push Not; exact fun i => hd i.1 i.2)]
  have hr := sdrCohPair_range (Or.inl rfl) (Or.inr hcg) hload ref est hc m k k
  dsimp only at hinf
  rw [hcl] at hinf
  have hv := negDb_inf hr.1 hr.2 hinf
  rw [hcl]
  exact fun t t' => ⟨nan_of (κ := Fin 1) (v := fun _ => _) (w := fun _ => _) (k := 0) hv _ t,
    nan_of (κ := Fin 1) (v := fun _ => _) (w := fun _ => _) (k := 0) hv _ t'⟩

/-- **C72**, finite losses: without `clamp_db`, the gradients of an estimate (a reference) are finite if
its losses for all references (estimates) are. -/
theorem C72_finite (hL : 2 ≤ o.filterLength) (hcg : o.useCgIter = none) (hcl : o.clampDb = none)
    {ref : Sig s r N} {est : Sig s e T} {V} (h : sdrLossPair torchBackend o est ref = .ok V)
    (w : BIdx s → Fin r → Fin e → ℝ) :
    ∃ gE gR, gradEstFir o ref est w = .ok gE ∧ gradRefFir o ref est w = .ok gR ∧
      ∀ m, (∀ j, (∀ k, ∃ x, V m k j = fin x) → FiniteGrad (gE m j)) ∧
        ∀ k, (∀ j, ∃ x, V m k j = fin x) → FiniteGrad (gR m k) := by
  obtain ⟨n, hn, hd, rfl⟩ := lossPair_fir hL hcg h
  refine ⟨_, _, gradEstFir_eq hL hn hd w, gradRefFir_eq hL hn hd w, fun m => ⟨fun j hf => ?_, fun k hf => ?_⟩⟩
  · rw [hcl] at hf ⊢
    rw [finite_of fun k => ?_]
    · exact fun t => ⟨_, rfl⟩
    · obtain ⟨x, hx⟩ := hf k
      exact negDb_finite hx
  · rw [hcl] at hf ⊢
    rw [finite_of fun j => ?_]
    · exact fun t => ⟨_, rfl⟩
    · obtain ⟨x, hx⟩ := hf j
      exact negDb_finite hx

/-- **C72**, silence: without `clamp_db`, all gradients of an estimate that is zero (constant with
`zero_mean`), and of all references compared with it, are NaN. -/
theorem C72_silent (hL : 2 ≤ o.filterLength) (hcg : o.useCgIter = none) (hcl : o.clampDb = none)
    {ref : Sig s r N} {est : Sig s e T} {V} (h : sdrLossPair torchBackend o est ref = .ok V) {m : BIdx s} {j : Fin e}
    (hs : centred o.zeroMean (est m j) = 0) (w : BIdx s → Fin r → Fin e → ℝ) :
    ∃ gE gR, gradEstFir o ref est w = .ok gE ∧ gradRefFir o ref est w = .ok gR ∧
      ∀ k, (∀ t, gE m j t = nan) ∧ ∀ t, gR m k t = nan := by
  obtain ⟨n, hn, hd, rfl⟩ := lossPair_fir hL hcg h
  refine ⟨_, _, gradEstFir_eq hL hn hd w, gradRefFir_eq hL hn hd w, fun k => ?_⟩
  have hp : prep o est m j = 0 := by
    rw [prep_eq, hs]
    funext t
    simp
  have hz : ∀ u, zpad (0 : Fin T → ℝ) u = 0 := by
    intro u
    unfold zpad
    split <;> rfl
  have hv : firCoh n (min o.filterLength n) o.load (prep o ref m k) (prep o est m j) = 0 := by
    rw [hp]
    unfold firCoh invQuad xcV circ
    simp [hz]
  rw [hcl]
  exact ⟨nan_of (k := k) (Or.inl hv) _, nan_of (k := j) (Or.inl hv) _⟩

/-- **C72**, the gradients of the estimates are the derivatives of the losses. -/
theorem C72_gradient_est (hN : 0 < N) (hL : 2 ≤ o.filterLength) (hcg : o.useCgIter = none) {ref : Sig s r N}
    {est : Sig s e T} {V} (h : sdrLossPair torchBackend { o with clampDb := none } est ref = .ok V)
    (hb : ∀ m k j, OffBounds o.clampDb (V m k j))
    (hx : ∀ m j, sigNorm (centred o.zeroMean (est m j)) ≠ 1e-6) (w : BIdx s → Fin r → Fin e → ℝ) :
    ∃ f g, LossOfEst o ref est w f ∧ gradEstFir o ref est w = .ok g ∧ IsGradient f est g := by
  obtain ⟨n, hn, hd, rfl⟩ := lossPair_fir (o := { o with clampDb := none }) hL hcg h
  have hd : ∀ m k, (acfM n (min o.filterLength n) o.load (prep o ref m k)).det ≠ 0 := hd
  have hb : ∀ m k j, OffBounds o.clampDb (coherenceToNegSdr none
    (fin (firCoh n (min o.filterLength n) o.load (prep o ref m k) (prep o est m j)))) := hb
  have hnb := nFft_bounds hn
  choose Q' q1 q2 using fun m j => est_total (fftSize_ne hn) (min_le_right o.filterLength n) (show T ≤ n by omega)
    (x := prep o ref m) (prep o est m j) (hd m)
  obtain ⟨F, F', a1, a2, a3⟩ := sig_total (cl := o.clampDb) (zm := o.zeroMean) (x := est)
    (Q := fun m j k => firCoh n (min o.filterLength n) o.load (prep o ref m k)) q1 (fun m j k => (hb m k j).inside.1)
    (fun m j k => (hb m k j).inside.2) hx (fun m j k => w m k j)
    (γ := fun m j => estLin n (min o.filterLength n) o.load (prep o ref m) (prep o est m j)
      fun k => w m k j * dbSlope o.clampDb (firCoh n (min o.filterLength n) o.load (prep o ref m k) (prep o est m j)))
    fun m j v => q2 m j _ v
  refine ⟨_, _, ?_, gradEstFir_eq hL hn hd w, _, F', fun m j t => ?_, a2, a3⟩
  · unfold LossOfEst
    filter_upwards [a1] with p hp
    refine ⟨_, fun m k j => F m j (p m j) k, lossPair_fir_of hL hcg hn hd, fun m k j => hp m j k, ?_⟩
    exact Finset.sum_congr rfl fun m _ => Finset.sum_comm
  · exact congrFun (finite_of (fun k => (hb m k j).inside.1) _) t

/-- **C72**, the gradients of the references are the derivatives of the losses. -/
theorem C72_gradient_ref (hL : 2 ≤ o.filterLength) (hcg : o.useCgIter = none) {ref : Sig s r N}
    {est : Sig s e T} {V} (h : sdrLossPair torchBackend { o with clampDb := none } est ref = .ok V)
    (hb : ∀ m k j, OffBounds o.clampDb (V m k j))
    (hx : ∀ m k, sigNorm (centred o.zeroMean (ref m k)) ≠ 1e-6) (w : BIdx s → Fin r → Fin e → ℝ) :
    ∃ f g, LossOfRef o ref est w f ∧ gradRefFir o ref est w = .ok g ∧ IsGradient f ref g := by
  obtain ⟨n, hn, hd, rfl⟩ := lossPair_fir (o := { o with clampDb := none }) hL hcg h
  have hd : ∀ m k, (acfM n (min o.filterLength n) o.load (prep o ref m k)).det ≠ 0 := hd
  have hb : ∀ m k j, OffBounds o.clampDb (coherenceToNegSdr none
    (fin (firCoh n (min o.filterLength n) o.load (prep o ref m k) (prep o est m j)))) := hb
  have hnb := nFft_bounds hn
  choose Q' q1 q2 using fun m k => ref_total (fftSize_ne hn) (min_le_right o.filterLength n) (show N ≤ n by omega)
    (x := prep o ref m k) (prep o est m) (hd m k)
  obtain ⟨F, F', a1, a2, a3⟩ := sig_total (cl := o.clampDb) (zm := o.zeroMean) (x := ref)
    (Q := fun m _ j x => firCoh n (min o.filterLength n) o.load x (prep o est m j)) q1 (fun m k j => (hb m k j).inside.1)
    (fun m k j => (hb m k j).inside.2) hx (fun m k j => w m k j)
    (γ := fun m k => refLin n (min o.filterLength n) o.load (prep o ref m k) (prep o est m)
      fun j => w m k j * dbSlope o.clampDb (firCoh n (min o.filterLength n) o.load (prep o ref m k) (prep o est m j)))
    fun m k v => q2 m k _ v
  refine ⟨_, _, ?_, gradRefFir_eq hL hn hd w, _, F', fun m k t => ?_, a2, a3⟩
  · have hc : ∀ m k, Tendsto (fun p : Sig s r N => prep o p m k) (𝓝 ref) (𝓝 (prep o ref m k)) := by
      intro m k
      have h1 : Continuous fun p : Sig s r N => prep o p m k :=
        (continuous_apply k).comp ((continuous_apply m).comp (continuous_prep (o := o)))
      exact h1.tendsto ref
    have hdet : ∀ᶠ p in 𝓝 ref, ∀ m k, (acfM n (min o.filterLength n) o.load (prep o p m k)).det ≠ 0 := by
      rw [eventually_all]
      intro m
      rw [eventually_all]
      exact fun k => (hc m k).eventually (eventually_acfM (hd m k))
    unfold LossOfRef
    filter_upwards [a1, hdet] with p hp hdp
    exact ⟨_, fun m k j => F m k (p m k) j, lossPair_fir_of hL hcg hn hdp, fun m k j => hp m k j, rfl⟩
  · exact congrFun (finite_of (fun j => (hb m k j).inside.1) _) t

/-- **C72**, the gradients for `pairwise=False`, of estimates and of references. -/
theorem C72_gradient_diag (hN : 0 < N) (hL : 2 ≤ o.filterLength) (hcg : o.useCgIter = none) {ref : Sig s c N}
    {est : Sig s c T} {V} (h : sdrLossDiag torchBackend { o with clampDb := none } est ref = .ok V)
    (hb : ∀ m k, OffBounds o.clampDb (V m k)) (w : BIdx s → Fin c → ℝ) :
    ((∀ m k, sigNorm (centred o.zeroMean (est m k)) ≠ 1e-6) →
      ∃ f g, (∀ᶠ p in 𝓝 est, LossDiag o ref p w (f p)) ∧ gradEstFirDiag o ref est w = .ok g ∧ IsGradient f est g) ∧
    ((∀ m k, sigNorm (centred o.zeroMean (ref m k)) ≠ 1e-6) →
      ∃ f g, (∀ᶠ p in 𝓝 ref, LossDiag o p est w (f p)) ∧ gradRefFirDiag o ref est w = .ok g ∧ IsGradient f ref g) := by
  obtain ⟨n, hn, hd, rfl⟩ := lossDiag_fir (o := { o with clampDb := none }) hL hcg h
  have hd : ∀ m k, (acfM n (min o.filterLength n) o.load (prep o ref m k)).det ≠ 0 := hd
  have hb : ∀ m k, OffBounds o.clampDb (coherenceToNegSdr none
    (fin (firCoh n (min o.filterLength n) o.load (prep o ref m k) (prep o est m k)))) := hb
  have hnb := nFft_bounds hn
  constructor
  · intro hx
    choose Q' q1 q2 using fun m k => est_total (r := 1) (fftSize_ne hn) (min_le_right o.filterLength n) (show T ≤ n by omega)
      (x := fun _ => prep o ref m k) (prep o est m k) (fun _ => hd m k)
    obtain ⟨F, F', a1, a2, a3⟩ := sig_total (r := 1) (cl := o.clampDb) (zm := o.zeroMean) (x := est)
      (Q := fun m k _ => firCoh n (min o.filterLength n) o.load (prep o ref m k)) q1 (fun m k _ => (hb m k).inside.1)
      (fun m k _ => (hb m k).inside.2) hx (fun m k _ => w m k)
      (γ := fun m k => estLin n (min o.filterLength n) o.load (fun _ => prep o ref m k) (prep o est m k)
        fun _ => w m k * dbSlope o.clampDb (firCoh n (min o.filterLength n) o.load (prep o ref m k) (prep o est m k)))
      fun m k v => q2 m k _ v
    refine ⟨_, _, ?_, gradEstFirDiag_eq hL hn hd w, _, F', fun m k t => ?_, a2, a3⟩
    · filter_upwards [a1] with p hp
      refine ⟨_, fun m k => F m k (p m k) 0, lossDiag_fir_of hL hcg hn hd, fun m k => hp m k 0, ?_⟩
      simp
    · exact congrFun (finite_of (κ := Fin 1) (v := fun _ => _) (w := fun _ => _) (fun _ => (hb m k).inside.1) _) t
  · intro hx
    choose Q' q1 q2 using fun m k => ref_total (e := 1) (fftSize_ne hn) (min_le_right o.filterLength n) (show N ≤ n by omega)
      (x := prep o ref m k) (fun _ => prep o est m k) (hd m k)
    obtain ⟨F, F', a1, a2, a3⟩ := sig_total (r := 1) (cl := o.clampDb) (zm := o.zeroMean) (x := ref)
      (Q := fun m k _ x => firCoh n (min o.filterLength n) o.load x (prep o est m k)) q1 (fun m k _ => (hb m k).inside.1)
      (fun m k _ => (hb m k).inside.2) hx (fun m k _ => w m k)
      (γ := fun m k => refLin n (min o.filterLength n) o.load (prep o ref m k) (fun _ => prep o est m k)
        fun _ => w m k * dbSlope o.clampDb (firCoh n (min o.filterLength n) o.load (prep o ref m k) (prep o est m k)))
      fun m k v => q2 m k _ v
    refine ⟨_, _, ?_, gradRefFirDiag_eq hL hn hd w, _, F', fun m k t => ?_, a2, a3⟩
    · have hc : ∀ m k, Tendsto (fun p : Sig s c N => prep o p m k) (𝓝 ref) (𝓝 (prep o ref m k)) := by
        intro m k
        have h1 : Continuous fun p : Sig s c N => prep o p m k :=
          (continuous_apply k).comp ((continuous_apply m).comp (continuous_prep (o := o)))
        exact h1.tendsto ref
      have hdet : ∀ᶠ p in 𝓝 ref, ∀ m k, (acfM n (min o.filterLength n) o.load (prep o p m k)).det ≠ 0 := by
        rw [eventually_all]
        intro m
        rw [eventually_all]
        exact fun k => (hc m k).eventually (eventually_acfM (hd m k))
      filter_upwards [a1, hdet] with p hp hdp
      refine ⟨_, fun m k => F m k (p m k) 0, lossDiag_fir_of hL hcg hn hdp, fun m k => hp m k 0, ?_⟩
      simp
    · exact congrFun (finite_of (κ := Fin 1) (v := fun _ => _) (w := fun _ => _) (fun _ => (hb m k).inside.1) _) t

theorem estLin_zero (n K : ℕ) (d : ℝ) (x : Fin r → Fin N → ℝ) (y : Fin T → ℝ) : estLin n K d x y (fun _ => 0) = fun _ => 0 := by
  funext t
  unfold estLin estBack xcorrGrad irfftGrad rfftGrad
  have h0 : (fun _ : Fin K => (0 : ℝ)) = 0 := rfl
  simp [h0, mulVec_zero]

/-- **C72**, beyond the bounds: an estimate all of whose losses exceed the bounds of `clamp_db` gets the
gradient zero. -/
theorem C72_saturated (hL : 2 ≤ o.filterLength) (hcg : o.useCgIter = none) {d : ℝ} (hcl : o.clampDb = some d)
    {ref : Sig s r N} {est : Sig s e T} {V} (h : sdrLossPair torchBackend { o with clampDb := none } est ref = .ok V)
    (w : BIdx s → Fin r → Fin e → ℝ) : ∃ g, gradEstFir o ref est w = .ok g ∧
      ∀ m j, (∀ k, V m k j = pinf ∨ V m k j = ninf ∨ ∃ x, V m k j = fin x ∧ d < |x|) → ∀ t, g m j t = fin 0 := by
  obtain ⟨n, hn, hd, rfl⟩ := lossPair_fir (o := { o with clampDb := none }) hL hcg h
  have hd : ∀ m k, (acfM n (min o.filterLength n) o.load (prep o ref m k)).det ≠ 0 := hd
  refine ⟨_, gradEstFir_eq hL hn hd w, fun m j hb t => ?_⟩
  have hs : ∀ k, dbSlope (some d) (firCoh n (min o.filterLength n) o.load (prep o ref m k) (prep o est m j)) = 0 :=
    fun k => dbSlope_saturated (hb k)
  rw [hcl, finite_of fun _ => cclamp_some_inside d _]
  simp only [hs, mul_zero]
  rw [estLin_zero, prepR_zero]
  rfl

/-! ### Concrete cases -/

theorem fifth_off (cl : Option ℝ) (hcl : cl = none ∨ cl = some 30) (b : Prop) [Decidable b] :
    OffBounds cl (coherenceToNegSdr none (fin (if b then 4 / 5 else 1 / 5))) := by
  have he : epsOf none = 0 := rfl
  have l0 : 0 < Real.logb 10 4 := Real.logb_pos (by norm_num) (by norm_num)
  have l1 : Real.logb 10 4 < 1 := by
    rw [Real.logb_lt_iff_lt_rpow (by norm_num) (by norm_num)]
    norm_num
  have hv : ∃ y : ℝ, |y| < 30 ∧ coherenceToNegSdr none (fin (if b then 4 / 5 else 1 / 5)) = fin y := by
    split
    · refine ⟨_, ?_, loss_inside (by rw [he]; norm_num) (by rw [he]; norm_num)⟩
      rw [show (1 - 4 / 5 : ℝ) / (4 / 5) = 4⁻¹ by norm_num, Real.logb_inv, abs_lt]
      constructor <;> linarith
    · refine ⟨_, ?_, loss_inside (by rw [he]; norm_num) (by rw [he]; norm_num)⟩
      rw [show (1 - 1 / 5 : ℝ) / (1 / 5) = 4 by norm_num, abs_lt]
      constructor <;> linarith
  obtain ⟨y, hy, hv⟩ := hv
  rw [hv]
  rw [abs_lt] at hy
  rcases hcl with rfl | rfl
  · exact ⟨_, rfl⟩
  · constructor
    · intro h
      have := XR.fin.inj h
      linarith
    · intro h
      have := XR.fin.inj h
      linarith

theorem ex_norm (m : BIdx []) (k : Fin 2) : sigNorm (centred false (Ex.est m k)) ≠ 1e-6 ∧
    sigNorm (centred false (Ex.ref m k)) ≠ 1e-6 := by
  have key : ∀ x : Fin 3 → ℝ, 1 ≤ ∑ t, x t ^ 2 → sigNorm (centred false x) ≠ 1e-6 := by
    intro x hx h
    have h1 : (1 : ℝ) ≤ sigNorm x := by
      unfold sigNorm
      rwa [Real.one_le_sqrt]
    have h2 : centred false x = x := rfl
    rw [h2] at h
    rw [h] at h1
    norm_num at h1
  constructor <;> refine key _ ?_ <;> fin_cases k <;> simp [Ex.est, Ex.ref, Fin.sum_univ_three]

/-- Two references and two estimates, filters of two taps: the gradients are the derivatives, with and
without `clamp_db`. -/
example (cl : Option ℝ) (hcl : cl = none ∨ cl = some 30) (w : BIdx [] → Fin 2 → Fin 2 → ℝ) :
    (∃ f g, LossOfEst (Ex.clamped cl) Ex.ref Ex.est w f ∧ gradEstFir (Ex.clamped cl) Ex.ref Ex.est w = .ok g ∧
      IsGradient f Ex.est g) ∧
    ∃ f g, LossOfRef (Ex.clamped cl) Ex.ref Ex.est w f ∧ gradRefFir (Ex.clamped cl) Ex.ref Ex.est w = .ok g ∧
      IsGradient f Ex.ref g :=
  ⟨C72_gradient_est (o := Ex.clamped cl) (by norm_num) le_rfl rfl (Ex.sdrLossPair_cl none)
      (fun _ _ _ => fifth_off cl hcl _) (fun m j => (ex_norm m j).1) w,
    C72_gradient_ref (o := Ex.clamped cl) le_rfl rfl (Ex.sdrLossPair_cl none)
      (fun _ _ _ => fifth_off cl hcl _) (fun m k => (ex_norm m k).2) w⟩

/-- The same for `pairwise=False`. -/
example (w : BIdx [] → Fin 2 → ℝ) :
    (∃ f g, (∀ᶠ p in 𝓝 Ex.est, LossDiag (Ex.clamped none) Ex.ref p w (f p)) ∧
      gradEstFirDiag (Ex.clamped none) Ex.ref Ex.est w = .ok g ∧ IsGradient f Ex.est g) ∧
    ∃ f g, (∀ᶠ p in 𝓝 Ex.ref, LossDiag (Ex.clamped none) p Ex.est w (f p)) ∧
      gradRefFirDiag (Ex.clamped none) Ex.ref Ex.est w = .ok g ∧ IsGradient f Ex.ref g := by
  have h := C72_gradient_diag (o := Ex.clamped none) (by norm_num) (by decide) rfl (Ex.sdrLossDiag_cl none)
    (fun _ _ => by
      have := fifth_off none (Or.inl rfl) True
      rwa [if_pos trivial] at this) w
  exact ⟨h.1 fun m k => (ex_norm m k).1, h.2 fun m k => (ex_norm m k).2⟩

/-- Finite gradients with and without `clamp_db`. -/
example (cl : Option ℝ) (w : BIdx [] → Fin 2 → Fin 2 → ℝ) :
    ∃ gE gR, gradEstFir (Ex.clamped cl) Ex.ref Ex.est w = .ok gE ∧ gradRefFir (Ex.clamped cl) Ex.ref Ex.est w = .ok gR ∧
      (∀ m j, FiniteGrad (gE m j)) ∧ ∀ m k, FiniteGrad (gR m k) := by
  cases cl with
  | some d => exact C72_clamped_finite (o := Ex.clamped (some d)) le_rfl rfl rfl (Ex.sdrLossPair_cl _) w
  | none =>
    obtain ⟨gE, gR, h1, h2, h3⟩ := C72_finite (o := Ex.clamped none) (by decide) rfl rfl (Ex.sdrLossPair_cl _) w
    have hf : ∀ k j : Fin 2, ∃ x, coherenceToNegSdr none (fin (if k = j then 4 / 5 else 1 / 5)) = fin x :=
      fun k j => fifth_off none (Or.inl rfl) (k = j)
    exact ⟨gE, gR, h1, h2, fun m j => (h3 m).1 j fun k => hf k j, fun m k => (h3 m).2 k fun j => hf k j⟩

example (d : ℝ) (w : BIdx [] → Fin 2 → ℝ) :
    ∃ gE gR, gradEstFirDiag (Ex.clamped (some d)) Ex.ref Ex.est w = .ok gE ∧
      gradRefFirDiag (Ex.clamped (some d)) Ex.ref Ex.est w = .ok gR ∧ ∀ m k, FiniteGrad (gE m k) ∧ FiniteGrad (gR m k) :=
  C72_clamped_finite_diag (o := Ex.clamped (some d)) le_rfl rfl rfl (Ex.sdrLossDiag_cl _) w

/-- Everything is perfect with the default filter length: all gradients are NaN. -/
example (w : BIdx [] → Fin 1 → Fin 1 → ℝ) :
    ∃ gE gR, gradEstFir {} clickRef clickEst w = .ok gE ∧ gradRefFir {} clickRef clickEst w = .ok gR ∧
      ∀ m, (∀ t, gE m 0 t = nan) ∧ ∀ t, gR m 0 t = nan := by
  obtain ⟨L, h⟩ := click_ok
  have h' : sdrLossPair torchBackend {} clickEst clickRef = .ok L :=
    (C54_saturates (o := {}) (L := 7) (L' := 512) (by norm_num) (by norm_num) (by decide) (by decide) clickRef
      clickEst).sdr_loss.trans h
  obtain ⟨gE, gR, h1, h2, h3⟩ := C72_nan (o := {}) (by decide) rfl rfl le_rfl h' w
  exact ⟨gE, gR, h1, h2, fun m => h3 m 0 0 (Or.inr ((C54_default (Or.inl rfl) (by norm_num) clickRef clickEst).2
    (by norm_num) L h' m 0 0 (click_audible m 0)))⟩

example (w : BIdx [] → Fin 1 → ℝ) :
    ∃ gE gR, gradEstFirDiag { filterLength := 7 } clickRef clickEst w = .ok gE ∧
      gradRefFirDiag { filterLength := 7 } clickRef clickEst w = .ok gR ∧ ∀ m t t', gE m 0 t = nan ∧ gR m 0 t' = nan := by
  obtain ⟨L, h⟩ := click_ok
  obtain ⟨coh, hc, -⟩ := sdrLossPair_entry h
  have h' : ∃ L', sdrLossDiag torchBackend { filterLength := 7 } clickEst clickRef = .ok L' := by
    unfold sdrLossDiag
    rw [sdrCohDiag_eq _ _ (Or.inr (Or.inr rfl)), hc]
    exact ⟨_, rfl⟩
  obtain ⟨L', h'⟩ := h'
  obtain ⟨gE, gR, h1, h2, h3⟩ := C72_nan_diag (o := { filterLength := 7 }) (by decide) rfl rfl le_rfl h' w
  exact ⟨gE, gR, h1, h2, fun m => h3 m 0 (Or.inr (C54_everything_perfect_aligned (o := { filterLength := 7 }) (Or.inl rfl)
    rfl rfl rfl (fun d hd => by cases hd) (by decide) (by decide) h' m 0 (click_audible m 0)))⟩

/-- A silent estimate: NaN without `clamp_db`, zero with it. -/
example (w : BIdx [] → Fin 2 → Fin 2 → ℝ) :
    (∃ gE gR, gradEstFir Ex.opts Ex.ref (fun _ => ![![2, 0, 1], 0]) w = .ok gE ∧
      gradRefFir Ex.opts Ex.ref (fun _ => ![![2, 0, 1], 0]) w = .ok gR ∧
      ∀ m k, (∀ t, gE m 1 t = nan) ∧ ∀ t, gR m k t = nan) ∧
    ∃ g, gradEstFir (Ex.clamped (some 30)) Ex.ref (fun _ => ![![2, 0, 1], 0]) w = .ok g ∧ ∀ m t, g m 1 t = fin 0 := by
  have hz : ∀ m : BIdx [], centred Ex.opts.zeroMean ((fun _ => ![![2, 0, 1], 0] : Sig [] 2 3) m 1) = 0 := fun _ => rfl
  obtain ⟨V, hV⟩ : ∃ V, sdrLossPair torchBackend Ex.opts (fun _ => ![![2, 0, 1], 0] : Sig [] 2 3) Ex.ref = .ok V := by
    obtain ⟨V, h⟩ := Ex.sdrLossPair_ok
    obtain ⟨n, hn, hd, -⟩ := lossPair_fir (o := Ex.opts) (by decide) rfl h
    exact ⟨_, lossPair_fir_of (o := Ex.opts) (by decide) rfl hn hd⟩
  constructor
  · obtain ⟨gE, gR, h1, h2, h3⟩ := C72_silent (o := Ex.opts) (by decide) rfl rfl hV (m := ()) (hz ()) w
    exact ⟨gE, gR, h1, h2, fun m => h3⟩
  · obtain ⟨g, h1, h2⟩ := C72_saturated (o := Ex.clamped (some 30)) (by decide) rfl rfl hV w
    refine ⟨g, h1, fun m => h2 m 1 fun k => Or.inl ?_⟩
    exact C33_silent_sdr_loss Ex.clampOk hV (hz m) k

end FBE.Props
