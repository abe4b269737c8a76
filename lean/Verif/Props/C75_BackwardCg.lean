import Verif.Proofs.BackwardCg
import Verif.Proofs.ExampleCg
import Verif.Props.C26_C30_ConjugateGradient
import Verif.Props.C73_BackwardPit

/-!
# C75: the gradients computed by torch through the iterative solver

The statements of C71 and C72 for `sdr_loss` with `filter_length >= 2` and `use_cg_iter=n`.  The backward pass runs
through all iterations in reverse, the safeguards of the divisions, the operator, the preconditioner and the
transforms.
-/

set_option linter.unusedSectionVars false

namespace FBE.Props

open Spec XR Filter Topology Backward Matrix

variable {s : List ℕ} {r e c N T n it : ℕ} {o : Opts}

section run

variable {ref : Sig s r N} {est : Sig s e T}

theorem gradEstCg_eq (hn : nFft N T = .ok n) (w : BIdx s → Fin r → Fin e → ℝ) :
    gradEstCg o it ref est w = .ok fun m j => preprocessGrad o.zeroMean (est m j) <|
      lift (fun k => decibelGrad o.clampDb
        (cgCoh n (min o.filterLength n) o.load it (prep o ref m k) (prep o est m j)) (fin (w m k j)))
        (estLinCg n (min o.filterLength n) o.load it (prep o ref m) (prep o est m j)) := by
  unfold gradEstCg
  rw [hn]
  have h0 := fftSize_ne hn
  simp only [sdrAcf_acfV h0, vec_xcV h0]
  rfl

theorem gradRefCg_eq (hn : nFft N T = .ok n) (w : BIdx s → Fin r → Fin e → ℝ) :
    gradRefCg o it ref est w = .ok fun m k => preprocessGrad o.zeroMean (ref m k) <|
      lift (fun j => decibelGrad o.clampDb
        (cgCoh n (min o.filterLength n) o.load it (prep o ref m k) (prep o est m j)) (fin (w m k j)))
        (refLinCg n (min o.filterLength n) o.load it (prep o ref m k) (prep o est m)) := by
  unfold gradRefCg
  rw [hn]
  have h0 := fftSize_ne hn
  simp only [sdrAcf_acfV h0, vec_xcV h0]
  rfl

/-- What is known when the loss is returned. -/
theorem lossPair_cg (hL : 2 ≤ o.filterLength) (hcg : o.useCgIter = some it) {V}
    (h : sdrLossPair torchBackend o est ref = .ok V) :
    ∃ n, nFft N T = .ok n ∧ V = fun m k j => coherenceToNegSdr o.clampDb
        (fin (cgCoh n (min o.filterLength n) o.load it (prep o ref m k) (prep o est m j))) := by
  unfold sdrLossPair at h
  cases hn : nFft N T with
  | error err =>
    rw [sdrCohPair_gen torchBackend hL] at h
    unfold sdrCohPairGen at h
    rw [hn] at h
    cases h
  | ok n =>
    rw [cohPair_cg hn hL hcg] at h
    cases h
    exact ⟨n, rfl, rfl⟩

theorem lossPair_cg_of (hL : 2 ≤ o.filterLength) (hcg : o.useCgIter = some it) (hn : nFft N T = .ok n) :
    sdrLossPair torchBackend o est ref = .ok fun m k j => coherenceToNegSdr o.clampDb
        (fin (cgCoh n (min o.filterLength n) o.load it (prep o ref m k) (prep o est m j))) := by
  unfold sdrLossPair
  rw [cohPair_cg hn hL hcg]

end run

section runDiag

variable {ref : Sig s c N} {est : Sig s c T}

theorem gradEstCgDiag_eq (hn : nFft N T = .ok n) (w : BIdx s → Fin c → ℝ) :
    gradEstCgDiag o it ref est w = .ok fun m k => preprocessGrad o.zeroMean (est m k) <|
      lift (fun _ : Fin 1 => decibelGrad o.clampDb
        (cgCoh n (min o.filterLength n) o.load it (prep o ref m k) (prep o est m k)) (fin (w m k)))
        (estLinCg n (min o.filterLength n) o.load it (fun _ => prep o ref m k) (prep o est m k)) := by
  unfold gradEstCgDiag
  rw [hn]
  have h0 := fftSize_ne hn
  simp only [sdrAcf_acfV h0, vec_xcV h0]
  rfl

theorem gradRefCgDiag_eq (hn : nFft N T = .ok n) (w : BIdx s → Fin c → ℝ) :
    gradRefCgDiag o it ref est w = .ok fun m k => preprocessGrad o.zeroMean (ref m k) <|
      lift (fun _ : Fin 1 => decibelGrad o.clampDb
        (cgCoh n (min o.filterLength n) o.load it (prep o ref m k) (prep o est m k)) (fin (w m k)))
        (refLinCg n (min o.filterLength n) o.load it (prep o ref m k) (fun _ => prep o est m k)) := by
  unfold gradRefCgDiag
  rw [hn]
  have h0 := fftSize_ne hn
  simp only [sdrAcf_acfV h0, vec_xcV h0]
  rfl

theorem lossDiag_cg (hL : 2 ≤ o.filterLength) (hcg : o.useCgIter = some it) {V}
    (h : sdrLossDiag torchBackend o est ref = .ok V) :
    ∃ n, nFft N T = .ok n ∧ V = fun m k => coherenceToNegSdr o.clampDb
        (fin (cgCoh n (min o.filterLength n) o.load it (prep o ref m k) (prep o est m k))) := by
  unfold sdrLossDiag at h
  cases hn : nFft N T with
  | error err =>
    rw [sdrCohDiag_gen torchBackend hL] at h
    unfold sdrCohDiagGen at h
    rw [hn] at h
    cases h
  | ok n =>
    rw [cohDiag_cg hn hL hcg] at h
    cases h
    exact ⟨n, rfl, rfl⟩

theorem lossDiag_cg_of (hL : 2 ≤ o.filterLength) (hcg : o.useCgIter = some it) (hn : nFft N T = .ok n) :
    sdrLossDiag torchBackend o est ref = .ok fun m k => coherenceToNegSdr o.clampDb
        (fin (cgCoh n (min o.filterLength n) o.load it (prep o ref m k) (prep o est m k))) := by
  unfold sdrLossDiag
  rw [cohDiag_cg hn hL hcg]

end runDiag

/-- **C75**, finite gradients with `clamp_db`. -/
theorem C75_clamped_finite (hL : 2 ≤ o.filterLength) (hcg : o.useCgIter = some it) {d : ℝ} (hcl : o.clampDb = some d)
    {ref : Sig s r N} {est : Sig s e T} {V} (h : sdrLossPair torchBackend o est ref = .ok V)
    (w : BIdx s → Fin r → Fin e → ℝ) :
    ∃ gE gR, gradEstCg o it ref est w = .ok gE ∧ gradRefCg o it ref est w = .ok gR ∧
      (∀ m j, FiniteGrad (gE m j)) ∧ ∀ m k, FiniteGrad (gR m k) := by
  obtain ⟨n, hn, -⟩ := lossPair_cg hL hcg h
  refine ⟨_, _, gradEstCg_eq hn w, gradRefCg_eq hn w, fun m j => ?_, fun m k => ?_⟩
  all_goals
    rw [hcl, finite_of fun _ => cclamp_some_inside d _]
    exact fun t => ⟨_, rfl⟩

/-- **C75**, finite gradients with `clamp_db`, `pairwise=False`. -/
theorem C75_clamped_finite_diag (hL : 2 ≤ o.filterLength) (hcg : o.useCgIter = some it) {d : ℝ} (hcl : o.clampDb = some d)
    {ref : Sig s c N} {est : Sig s c T} {V} (h : sdrLossDiag torchBackend o est ref = .ok V)
    (w : BIdx s → Fin c → ℝ) :
    ∃ gE gR, gradEstCgDiag o it ref est w = .ok gE ∧ gradRefCgDiag o it ref est w = .ok gR ∧
      ∀ m k, FiniteGrad (gE m k) ∧ FiniteGrad (gR m k) := by
  obtain ⟨n, hn, -⟩ := lossDiag_cg hL hcg h
  refine ⟨_, _, gradEstCgDiag_eq hn w, gradRefCgDiag_eq hn w, fun m k => ⟨?_, ?_⟩⟩
  all_goals
    rw [hcl, finite_of fun _ => cclamp_some_inside d _]
    exact fun t => ⟨_, rfl⟩

/-- **C75**, finite losses: without `clamp_db`, the gradients of an estimate (a reference) are finite if
its losses for all references (estimates) are. -/
theorem C75_finite (hL : 2 ≤ o.filterLength) (hcg : o.useCgIter = some it) (hcl : o.clampDb = none)
    {ref : Sig s r N} {est : Sig s e T} {V} (h : sdrLossPair torchBackend o est ref = .ok V)
    (w : BIdx s → Fin r → Fin e → ℝ) :
    ∃ gE gR, gradEstCg o it ref est w = .ok gE ∧ gradRefCg o it ref est w = .ok gR ∧
      ∀ m, (∀ j, (∀ k, ∃ x, V m k j = fin x) → FiniteGrad (gE m j)) ∧
        ∀ k, (∀ j, ∃ x, V m k j = fin x) → FiniteGrad (gR m k) := by
  obtain ⟨n, hn, rfl⟩ := lossPair_cg hL hcg h
  refine ⟨_, _, gradEstCg_eq hn w, gradRefCg_eq hn w, fun m => ⟨fun j hf => ?_, fun k hf => ?_⟩⟩
  · rw [hcl] at hf ⊢
    rw [finite_of fun k => ?_]
    · exact fun t => ⟨_, rfl⟩
    · obtain ⟨x, hx⟩ := hf k
      exact negDb_finite hx
  · rw [hcl] at hf ⊢
    rw [finite_of fun j => ?_]
    · exact fun t => ⟨_, rfl⟩
    · obtain ⟨x, hx⟩ := hf j
      exact negDb_finite hx

/-- **C75**, silence: without `clamp_db`, all gradients of an estimate that is zero (constant with
`zero_mean`), and of all references compared with it, are NaN. -/
theorem C75_silent (hL : 2 ≤ o.filterLength) (hcg : o.useCgIter = some it) (hcl : o.clampDb = none)
    {ref : Sig s r N} {est : Sig s e T} {V} (h : sdrLossPair torchBackend o est ref = .ok V) {m : BIdx s} {j : Fin e}
    (hs : centred o.zeroMean (est m j) = 0) (w : BIdx s → Fin r → Fin e → ℝ) :
    ∃ gE gR, gradEstCg o it ref est w = .ok gE ∧ gradRefCg o it ref est w = .ok gR ∧
      ∀ k, (∀ t, gE m j t = nan) ∧ ∀ t, gR m k t = nan := by
  obtain ⟨n, hn, rfl⟩ := lossPair_cg hL hcg h
  refine ⟨_, _, gradEstCg_eq hn w, gradRefCg_eq hn w, fun k => ?_⟩
  have hp : prep o est m j = 0 := by
    rw [prep_eq, hs]
    funext t
    simp
  have hz : ∀ u, zpad (0 : Fin T → ℝ) u = 0 := by
    intro u
    unfold zpad
    split <;> rfl
  have hv : cgCoh n (min o.filterLength n) o.load it (prep o ref m k) (prep o est m j) = 0 := by
    rw [hp]
    unfold cgCoh innerProd xcV circ
    simp [hz]
  rw [hcl]
  exact ⟨nan_of (k := k) (Or.inl hv) _, nan_of (k := j) (Or.inl hv) _⟩

/-- **C75**, the gradients of the estimates are the derivatives of the losses. -/
theorem C75_gradient_est (hN : 0 < N) (hL : 2 ≤ o.filterLength) (hcg : o.useCgIter = some it) {ref : Sig s r N}
    {est : Sig s e T} {V} (h : sdrLossPair torchBackend { o with clampDb := none } est ref = .ok V)
    (hb : ∀ m k j, OffBounds o.clampDb (V m k j))
    (hs : ∀ m k j, PairSmooth o it ref est m k j)
    (hx : ∀ m j, sigNorm (centred o.zeroMean (est m j)) ≠ 1e-6) (w : BIdx s → Fin r → Fin e → ℝ) :
    ∃ f g, LossOfEst o ref est w f ∧ gradEstCg o it ref est w = .ok g ∧ IsGradient f est g := by
  obtain ⟨n, hn, rfl⟩ := lossPair_cg (o := { o with clampDb := none }) hL hcg h
  have hb : ∀ m k j, OffBounds o.clampDb (coherenceToNegSdr none
    (fin (cgCoh n (min o.filterLength n) o.load it (prep o ref m k) (prep o est m j)))) := hb
  have hnb := nFft_bounds hn
  have hn0 := fftSize_ne hn
  have hK : 0 < min o.filterLength n := by omega
  choose Q' q1 q2 using fun m j => est_total_cg (fftSize_ne hn) hK (min_le_right o.filterLength n) (show T ≤ n by omega)
    (x := prep o ref m) (prep o est m j) (d := o.load) (it := it)
    fun k => cgOff_iff hn (by omega) (hs m k j)
  obtain ⟨F, F', a1, a2, a3⟩ := sig_total (cl := o.clampDb) (zm := o.zeroMean) (x := est)
    (Q := fun m j k => cgCoh n (min o.filterLength n) o.load it (prep o ref m k)) q1 (fun m j k => (hb m k j).inside.1)
    (fun m j k => (hb m k j).inside.2) hx (fun m j k => w m k j)
    (γ := fun m j => estLinCg n (min o.filterLength n) o.load it (prep o ref m) (prep o est m j)
      fun k => w m k j * dbSlope o.clampDb (cgCoh n (min o.filterLength n) o.load it (prep o ref m k) (prep o est m j)))
    fun m j v => q2 m j _ v
  refine ⟨_, _, ?_, gradEstCg_eq hn w, _, F', fun m j t => ?_, a2, a3⟩
  · unfold LossOfEst
    filter_upwards [a1] with p hp
    refine ⟨_, fun m k j => F m j (p m j) k, lossPair_cg_of hL hcg hn, fun m k j => hp m j k, ?_⟩
    exact Finset.sum_congr rfl fun m _ => Finset.sum_comm
  · exact congrFun (finite_of (fun k => (hb m k j).inside.1) _) t

/-- **C75**, the gradients of the references are the derivatives of the losses. -/
theorem C75_gradient_ref (hL : 2 ≤ o.filterLength) (hcg : o.useCgIter = some it) {ref : Sig s r N}
    {est : Sig s e T} {V} (h : sdrLossPair torchBackend { o with clampDb := none } est ref = .ok V)
    (hb : ∀ m k j, OffBounds o.clampDb (V m k j))
    (hs : ∀ m k j, PairSmooth o it ref est m k j) (hp : PrecondSmooth o ref T)
    (hx : ∀ m k, sigNorm (centred o.zeroMean (ref m k)) ≠ 1e-6) (w : BIdx s → Fin r → Fin e → ℝ) :
    ∃ f g, LossOfRef o ref est w f ∧ gradRefCg o it ref est w = .ok g ∧ IsGradient f ref g := by
  obtain ⟨n, hn, rfl⟩ := lossPair_cg (o := { o with clampDb := none }) hL hcg h
  have hb : ∀ m k j, OffBounds o.clampDb (coherenceToNegSdr none
    (fin (cgCoh n (min o.filterLength n) o.load it (prep o ref m k) (prep o est m j)))) := hb
  have hnb := nFft_bounds hn
  have hn0 := fftSize_ne hn
  have hK : 0 < min o.filterLength n := by omega
  choose Q' q1 q2 using fun m k => ref_total_cg (fftSize_ne hn) hK (min_le_right o.filterLength n) (show N ≤ n by omega)
    (x := prep o ref m k) (prep o est m) (d := o.load) (it := it)
    (fun j => cgOff_iff hn (by omega) (hs m k j)) (precond_off hn hp m k)
  obtain ⟨F, F', a1, a2, a3⟩ := sig_total (cl := o.clampDb) (zm := o.zeroMean) (x := ref)
    (Q := fun m _ j x => cgCoh n (min o.filterLength n) o.load it x (prep o est m j)) q1 (fun m k j => (hb m k j).inside.1)
    (fun m k j => (hb m k j).inside.2) hx (fun m k j => w m k j)
    (γ := fun m k => refLinCg n (min o.filterLength n) o.load it (prep o ref m k) (prep o est m)
      fun j => w m k j * dbSlope o.clampDb (cgCoh n (min o.filterLength n) o.load it (prep o ref m k) (prep o est m j)))
    fun m k v => q2 m k _ v
  refine ⟨_, _, ?_, gradRefCg_eq hn w, _, F', fun m k t => ?_, a2, a3⟩
  · unfold LossOfRef
    filter_upwards [a1] with p hp
    exact ⟨_, fun m k j => F m k (p m k) j, lossPair_cg_of hL hcg hn, fun m k j => hp m k j, rfl⟩
  · exact congrFun (finite_of (fun j => (hb m k j).inside.1) _) t

/-- **C75**, the gradients for `pairwise=False`, of estimates and of references. -/
theorem C75_gradient_diag (hN : 0 < N) (hL : 2 ≤ o.filterLength) (hcg : o.useCgIter = some it) {ref : Sig s c N}
    {est : Sig s c T} {V} (h : sdrLossDiag torchBackend { o with clampDb := none } est ref = .ok V)
    (hb : ∀ m k, OffBounds o.clampDb (V m k)) (hs : ∀ m k, PairSmooth o it ref est m k k)
    (w : BIdx s → Fin c → ℝ) :
    ((∀ m k, sigNorm (centred o.zeroMean (est m k)) ≠ 1e-6) →
      ∃ f g, (∀ᶠ p in 𝓝 est, LossDiag o ref p w (f p)) ∧ gradEstCgDiag o it ref est w = .ok g ∧ IsGradient f est g) ∧
    (PrecondSmooth o ref T → (∀ m k, sigNorm (centred o.zeroMean (ref m k)) ≠ 1e-6) →
      ∃ f g, (∀ᶠ p in 𝓝 ref, LossDiag o p est w (f p)) ∧ gradRefCgDiag o it ref est w = .ok g ∧ IsGradient f ref g) := by
  obtain ⟨n, hn, rfl⟩ := lossDiag_cg (o := { o with clampDb := none }) hL hcg h
  have hb : ∀ m k, OffBounds o.clampDb (coherenceToNegSdr none
    (fin (cgCoh n (min o.filterLength n) o.load it (prep o ref m k) (prep o est m k)))) := hb
  have hnb := nFft_bounds hn
  have hn0 := fftSize_ne hn
  have hK : 0 < min o.filterLength n := by omega
  constructor
  · intro hx
    choose Q' q1 q2 using fun m k => est_total_cg (r := 1) (fftSize_ne hn) hK (min_le_right o.filterLength n) (show T ≤ n by omega)
      (x := fun _ => prep o ref m k) (prep o est m k) (d := o.load) (it := it)
      fun _ => cgOff_iff hn (by omega) (hs m k)
    obtain ⟨F, F', a1, a2, a3⟩ := sig_total (r := 1) (cl := o.clampDb) (zm := o.zeroMean) (x := est)
      (Q := fun m k _ => cgCoh n (min o.filterLength n) o.load it (prep o ref m k)) q1 (fun m k _ => (hb m k).inside.1)
      (fun m k _ => (hb m k).inside.2) hx (fun m k _ => w m k)
      (γ := fun m k => estLinCg n (min o.filterLength n) o.load it (fun _ => prep o ref m k) (prep o est m k)
        fun _ => w m k * dbSlope o.clampDb (cgCoh n (min o.filterLength n) o.load it (prep o ref m k) (prep o est m k)))
      fun m k v => q2 m k _ v
    refine ⟨_, _, ?_, gradEstCgDiag_eq hn w, _, F', fun m k t => ?_, a2, a3⟩
    · filter_upwards [a1] with p hp
      refine ⟨_, fun m k => F m k (p m k) 0, lossDiag_cg_of hL hcg hn, fun m k => hp m k 0, ?_⟩
      simp
    · exact congrFun (finite_of (κ := Fin 1) (v := fun _ => _) (w := fun _ => _) (fun _ => (hb m k).inside.1) _) t
  · intro hp hx
    choose Q' q1 q2 using fun m k => ref_total_cg (e := 1) (fftSize_ne hn) hK (min_le_right o.filterLength n) (show N ≤ n by omega)
      (x := prep o ref m k) (fun _ => prep o est m k) (d := o.load) (it := it)
      (fun _ => cgOff_iff hn (by omega) (hs m k)) (precond_off hn hp m k)
    obtain ⟨F, F', a1, a2, a3⟩ := sig_total (r := 1) (cl := o.clampDb) (zm := o.zeroMean) (x := ref)
      (Q := fun m k _ x => cgCoh n (min o.filterLength n) o.load it x (prep o est m k)) q1 (fun m k _ => (hb m k).inside.1)
      (fun m k _ => (hb m k).inside.2) hx (fun m k _ => w m k)
      (γ := fun m k => refLinCg n (min o.filterLength n) o.load it (prep o ref m k) (fun _ => prep o est m k)
        fun _ => w m k * dbSlope o.clampDb (cgCoh n (min o.filterLength n) o.load it (prep o ref m k) (prep o est m k)))
      fun m k v => q2 m k _ v
    refine ⟨_, _, ?_, gradRefCgDiag_eq hn w, _, F', fun m k t => ?_, a2, a3⟩
    · filter_upwards [a1] with p hp
      refine ⟨_, fun m k => F m k (p m k) 0, lossDiag_cg_of hL hcg hn, fun m k => hp m k 0, ?_⟩
      simp
    · exact congrFun (finite_of (κ := Fin 1) (v := fun _ => _) (w := fun _ => _) (fun _ => (hb m k).inside.1) _) t

theorem cohCgGrad_zero {K : ℕ} (hK : 0 < K) {col : List ℝ} (hc : col.length = K) (b : Fin K → ℝ) (it : ℕ) :
    (cohCgGrad K col b it 0).b = 0 ∧ ∀ C' D', specPair (2 * K) (cohCgGrad K col b it 0).A C' +
      specPair K (cohCgGrad K col b it 0).P D' = 0 := by
  have h := fun b' C' D' => cohCgGrad_adjoint hK hc b b' C' D' it 0
  simp only [zero_mul] at h
  have h0 : ∀ (m : ℕ) (G : ℕ → ℂ), specPair m G (fun _ => 0) = 0 := by
    intro m G
    simp [specPair]
  constructor
  · funext l
    have h1 := h (Pi.single l 1) (fun _ => 0) (fun _ => 0)
    rw [h0, h0, add_zero, add_zero] at h1
    unfold innerProd at h1
    simpa [Pi.single_apply] using h1
  · intro C' D'
    have h1 := h 0 C' D'
    unfold innerProd at h1
    simpa using h1

theorem estLinCg_zero {K : ℕ} (hK : 0 < K) (n : ℕ) (d : ℝ) (it : ℕ) (x : Fin r → Fin N → ℝ) (y : Fin T → ℝ) :
    estLinCg n K d it x y (fun _ => 0) = fun _ => 0 := by
  funext t
  unfold estLinCg estBack irfftGrad rfftGrad
  simp [fun x => (cohCgGrad_zero hK (show (List.ofFn (acfV n K d x)).length = K by simp) (xcV n K x y) it).1]

theorem refLinCg_zero {K : ℕ} (hn : n ≠ 0) (hK : 0 < K) (hKn : K ≤ n) (hN : N ≤ n) (d : ℝ) (it : ℕ) (x : Fin N → ℝ)
    (y : Fin e → Fin T → ℝ) : refLinCg n K d it x y (fun _ => 0) = fun _ => 0 := by
  have key : ∀ v : Fin N → ℝ, ∑ t, refLinCg n K d it x y (fun _ => 0) t * v t = 0 := by
    intro v
    unfold refLinCg
    rw [refBack_adjoint hn hKn hN]
    have hz := fun j => cohCgGrad_zero hK (show (List.ofFn (acfV n K d x)).length = K by simp) (xcV n K x (y j)) it
    have h4 := fun gA gP => acfCgGrad_adjoint hK (List.ofFn (acfV n K d x)) gA gP (fun l : Fin K => circ n x v l + circ n v x l)
    unfold innerProd at h4
    rw [h4, specPair_sum, specPair_sum, ← Finset.sum_add_distrib]
    simp [(hz _).1, (hz _).2]
  funext t
  have := key (Pi.single t 1)
  simpa [Pi.single_apply] using this

/-- **C75**, beyond the bounds: an estimate (a reference) all of whose losses exceed the bounds of `clamp_db`
gets the gradient zero. -/
theorem C75_saturated (hL : 2 ≤ o.filterLength) (hcg : o.useCgIter = some it) {d : ℝ} (hcl : o.clampDb = some d)
    {ref : Sig s r N} {est : Sig s e T} {V} (h : sdrLossPair torchBackend { o with clampDb := none } est ref = .ok V)
    (w : BIdx s → Fin r → Fin e → ℝ) : ∃ gE gR, gradEstCg o it ref est w = .ok gE ∧ gradRefCg o it ref est w = .ok gR ∧
      ∀ m, (∀ j, (∀ k, V m k j = pinf ∨ V m k j = ninf ∨ ∃ x, V m k j = fin x ∧ d < |x|) → ∀ t, gE m j t = fin 0) ∧
        ∀ k, (∀ j, V m k j = pinf ∨ V m k j = ninf ∨ ∃ x, V m k j = fin x ∧ d < |x|) → ∀ t, gR m k t = fin 0 := by
  obtain ⟨n, hn, rfl⟩ := lossPair_cg (o := { o with clampDb := none }) hL hcg h
  have hnb := nFft_bounds hn
  have hn0 := fftSize_ne hn
  have hK : 0 < min o.filterLength n := by omega
  refine ⟨_, _, gradEstCg_eq hn w, gradRefCg_eq hn w, fun m => ⟨fun j hb t => ?_, fun k hb t => ?_⟩⟩
  · have hs : ∀ k, dbSlope (some d) (cgCoh n (min o.filterLength n) o.load it (prep o ref m k) (prep o est m j)) = 0 :=
      fun k => dbSlope_saturated (hb k)
    rw [hcl, finite_of fun _ => cclamp_some_inside d _]
    simp only [hs, mul_zero]
    rw [estLinCg_zero hK, prepR_zero]
    rfl
  · have hs : ∀ j, dbSlope (some d) (cgCoh n (min o.filterLength n) o.load it (prep o ref m k) (prep o est m j)) = 0 :=
      fun j => dbSlope_saturated (hb j)
    rw [hcl, finite_of fun _ => cclamp_some_inside d _]
    simp only [hs, mul_zero]
    rw [refLinCg_zero hn0 hK (min_le_right _ _) (show N ≤ n by omega), prepR_zero]
    rfl

/-- **C75**, the gradients of `sdr` and `sdr_pit_loss` through a unique best permutation. -/
theorem C75_gradient_pit (hN : 0 < N) (hL : 2 ≤ o.filterLength) (hcg : o.useCgIter = some it) {ref : Sig s r N}
    {est : Sig s e T} {V M} (hV : sdrLossPair torchBackend { o with clampDb := none } est ref = .ok V)
    (hb : ∀ m k j, OffBounds o.clampDb (V m k j)) (hs : ∀ m k j, PairSmooth o it ref est m k j)
    (hM : sdrLossPair torchBackend o est ref = .ok M) (hu : ∀ m, UniqueBest (M m)) (cs : Bool)
    (v : BIdx s → Fin (min r e) → ℝ) :
    ((∀ m j, sigNorm (centred o.zeroMean (est m j)) ≠ 1e-6) →
      ∃ f g, (∀ᶠ p in 𝓝 est, PitTotal o cs ref p v (f p)) ∧ gradEstCgPit o it cs ref est v = .ok g ∧ IsGradient f est g) ∧
    (PrecondSmooth o ref T → (∀ m k, sigNorm (centred o.zeroMean (ref m k)) ≠ 1e-6) →
      ∃ f g, (∀ᶠ p in 𝓝 ref, PitTotal o cs p est v (f p)) ∧ gradRefCgPit o it cs ref est v = .ok g ∧ IsGradient f ref g) := by
  have hfin : ∀ m k j, ∃ x, M m k j = fin x := by
    intro m k j
    have := hb m k j
    obtain ⟨n, hn, rfl⟩ := lossPair_cg (o := { o with clampDb := none }) hL hcg hV
    rw [lossPair_cg_of hL hcg hn] at hM
    cases hM
    exact clamped_loss this
  obtain ⟨p, hp⟩ := (solvePermutation_ok_iff torchBackend torchLsa_correct M (fun i : Fin 0 => i.elim0)).2 fun m =>
    solvable_of_finite (hfin m)
  obtain ⟨w, hw⟩ : ∃ w, w = permGrad p.perm fun m i => if cs then v m i else -v m i := ⟨_, rfl⟩
  have hpw : pitWeights o cs ref est v = .ok w := by
    unfold pitWeights
    rw [hM]
    dsimp only
    rw [hp, hw]
  constructor
  · intro hx
    have hg : ∀ w, ∃ f g, LossOfEst o ref est w f ∧ gradEstCg o it ref est w = .ok g ∧ IsGradient f est g :=
      C75_gradient_est hN hL hcg hV hb hs hx
    obtain ⟨f, g, hf, hgr, hi⟩ := hg w
    refine ⟨f, g, ?_, ?_, hi⟩
    · rw [hw] at hf
      filter_upwards [perm_near (L := fun q => sdrLossPair torchBackend o q ref) (fun w => by
        obtain ⟨f, g, hf, -, hi⟩ := hg w
        exact ⟨f, hf, grad_cont hi⟩) hM hu hp hf] with q hq
      exact pitTotal_of (R := fun _ => ref) (E := fun q => q) hq
    · unfold gradEstCgPit
      rw [hpw]
      exact hgr
  · intro hpre hx
    have hg : ∀ w, ∃ f g, LossOfRef o ref est w f ∧ gradRefCg o it ref est w = .ok g ∧ IsGradient f ref g :=
      C75_gradient_ref hL hcg hV hb hs hpre hx
    obtain ⟨f, g, hf, hgr, hi⟩ := hg w
    refine ⟨f, g, ?_, ?_, hi⟩
    · rw [hw] at hf
      filter_upwards [perm_near (L := fun q => sdrLossPair torchBackend o est q) (fun w => by
        obtain ⟨f, g, hf, -, hi⟩ := hg w
        exact ⟨f, hf, grad_cont hi⟩) hM hu hp hf] with q hq
      exact pitTotal_of (R := fun q => q) (E := fun _ => est) hq
    · unfold gradRefCgPit
      rw [hpw]
      exact hgr

/-- **C75**, several best permutations: the gradients of the estimates are the derivatives of a function that touches the total loss from
above. -/
theorem C75_ties (hN : 0 < N) (hL : 2 ≤ o.filterLength) (hcg : o.useCgIter = some it) {ref : Sig s r N} {est : Sig s e T}
    {V out} (hV : sdrLossPair torchBackend { o with clampDb := none } est ref = .ok V)
    (hb : ∀ m k j, OffBounds o.clampDb (V m k j)) (hsm : ∀ m k j, PairSmooth o it ref est m k j)
    (hout : sdrPitLoss torchBackend o est ref = .ok out) {v : BIdx s → ℝ} (hv : ∀ m, 0 ≤ v m)
    (hx : ∀ m j, sigNorm (centred o.zeroMean (est m j)) ≠ 1e-6) :
    ∃ f g, TouchesEst o ref est v f ∧ gradEstCgPit o it true ref est (fun m _ => v m) = .ok g ∧ IsGradient f est g := by
  obtain ⟨M, p, hM, hp, hw⟩ := sdr_ok hout
  have hs : ∀ w, ∃ f g, LossOfEst o ref est w f ∧ gradEstCg o it ref est w = .ok g ∧ IsGradient f est g :=
    C75_gradient_est hN hL hcg hV hb hsm hx
  obtain ⟨f, g, hf, hg, hi⟩ := hs (permGrad p.perm fun m _ => v m)
  have hpw : pitWeights o true ref est (fun m _ => v m) = .ok (permGrad p.perm fun m _ => v m) := hw _
  obtain ⟨a1, a2⟩ := perm_above (L := fun q => sdrLossPair torchBackend o q ref) (fun w => by
        obtain ⟨f, g, hf, -, hg⟩ := hs w
        exact ⟨f, hf, grad_cont hg⟩) hM hp hv hf
  refine ⟨f, g, ⟨?_, ?_⟩, ?_, hi⟩
  · exact pitTotal_of (cs := true) (v := fun m _ => v m) (R := fun _ => ref) (E := fun q => q) a1
  · filter_upwards [a2] with q hq
    obtain ⟨y, h2, h3⟩ := hq
    exact ⟨y, pitTotal_of (cs := true) (v := fun m _ => v m) (R := fun _ => ref) (E := fun q => q) h2, h3⟩
  · unfold gradEstCgPit
    rw [hpw]
    exact hg

/-- **C75**, finite gradients with `clamp_db` through the permutation, whenever a value is returned. -/
theorem C75_pit_clamped_finite (hL : 2 ≤ o.filterLength) (hcg : o.useCgIter = some it) {d : ℝ} (hcl : o.clampDb = some d)
    {cs rp : Bool} {ref : Sig s r N} {est : Sig s e T} {out} (h : sdr torchBackend o rp cs ref est = .ok out)
    (v : BIdx s → Fin (min r e) → ℝ) :
    ∃ gE gR, gradEstCgPit o it cs ref est v = .ok gE ∧ gradRefCgPit o it cs ref est v = .ok gR ∧
      (∀ m j, FiniteGrad (gE m j)) ∧ ∀ m k, FiniteGrad (gR m k) := by
  obtain ⟨M, p, hM, hp, hw⟩ := sdr_ok h
  obtain ⟨gE, gR, h1, h2, h3, h4⟩ := C75_clamped_finite hL hcg hcl hM (permGrad p.perm fun m i => if cs then v m i else -v m i)
  refine ⟨gE, gR, ?_, ?_, h3, h4⟩
  · unfold gradEstCgPit
    rw [hw v]
    exact h1
  · unfold gradRefCgPit
    rw [hw v]
    exact h2

/-! ### Concrete cases -/

theorem cgSmooth_one {J : Type} [Fintype J] {b : J → ℝ} (hb : 1 / 5 ≤ b ⬝ᵥ b) (n : ℕ) :
    CgSmooth (id : (J → ℝ) → (J → ℝ)) id b (fun _ => 0) n := by
  have hsub : b - (fun _ => 0 : J → ℝ) = b := by funext i; simp
  have h0 : cgRun (id : (J → ℝ) → (J → ℝ)) id b (fun _ => 0) 0 = ⟨fun _ => 0, b, b, b ⬝ᵥ b⟩ := by
    show cgInit _ _ _ _ = _
    unfold cgInit
    simp only [id, hsub]
    rfl
  have h1 : (cgRun (id : (J → ℝ) → (J → ℝ)) id b (fun _ => 0) 1).r = 0 ∧
      (cgRun (id : (J → ℝ) → (J → ℝ)) id b (fun _ => 0) 1).rsold = 0 := by
    rw [cgRun_succ, cgBody_eq, h0]
    simp only [id]
    have hpos : b ⬝ᵥ b ≠ 0 := by
      intro h0
      rw [h0] at hb
      norm_num at hb
    rw [max_eq_left (le_trans (by norm_num) hb), div_self hpos]
    simp
  intro i _
  cases i with
  | zero =>
    rw [h0]
    simp only [id]
    have : b ⬝ᵥ b ≠ 1e-6 := by
      intro h
      rw [h] at hb
      norm_num at hb
    exact ⟨this, this⟩
  | succ k =>
    have h2 := cgRun_zero h1 k
    rw [Nat.add_comm] at h2
    have hp : (cgRun (id : (J → ℝ) → (J → ℝ)) id b (fun _ => 0) (k + 1)).p = 0 := by
      have e : (cgRun (id : (J → ℝ) → (J → ℝ)) id b (fun _ => 0) (k + 1)).p =
        (cgRun (id : (J → ℝ) → (J → ℝ)) id b (fun _ => 0) (k + 1)).r +
          ((cgRun (id : (J → ℝ) → (J → ℝ)) id b (fun _ => 0) (k + 1)).rsold /
            max (cgRun (id : (J → ℝ) → (J → ℝ)) id b (fun _ => 0) k).rsold 1e-6) •
            (cgRun (id : (J → ℝ) → (J → ℝ)) id b (fun _ => 0) k).p := by
        rw [cgRun_succ, cgBody_eq]
        rfl
      rw [e, h2.1, h2.2]
      simp
    rw [hp, h2.2]
    norm_num

theorem ex_smooth (cl : Option ℝ) (it : ℕ) (m : BIdx []) (k j : Fin 2) :
    PairSmooth { Ex.clamped cl with useCgIter := some 2 } it Ex.ref Ex.est m k j := by
  intro f hf
  have : f = 8 := by
    rw [Ex.nFft_three] at hf
    exact (Except.ok.inj hf).symm
  subst this
  have e1 := Ex.op_one m k
  have e2 := Ex.precond_one m k
  show CgSmooth (symToeplitzOp torchBackend 2 (sdrAcf Ex.opts 8 Ex.ref m k))
    (circPrecond torchBackend 2 (sdrAcf Ex.opts 8 Ex.ref m k)) (vec 2 (sdrXcorr Ex.opts 8 Ex.ref Ex.est m k j)) _ it
  rw [e1, e2]
  exact cgSmooth_one (Ex.coeffs_fifth m k j) it

theorem ex_precond (cl : Option ℝ) : PrecondSmooth { Ex.clamped cl with useCgIter := some 2 } Ex.ref 3 := by
  intro f hf m k g hg
  have : f = 8 := by
    rw [Ex.nFft_three] at hf
    exact (Except.ok.inj hf).symm
  subst this
  show Complex.normSq ((rfft 2 (symPrecondCol (sdrAcf Ex.opts 8 Ex.ref m k))).getD g 0) ≠ 1e-6
  have hg : g ≤ 2 / 2 := hg
  have hT := Ex.toeplitz_one m k
  have hc := Ex.acf_length m k
  have h0 : (sdrAcf Ex.opts 8 Ex.ref m k).getD 0 0 = 1 := by
    have := toeplitz_apply Ex.covered hc 0 0
    rw [hT] at this
    simpa using this.symm
  have h1 : (sdrAcf Ex.opts 8 Ex.ref m k).getD 1 0 = 0 := by
    have := toeplitz_apply Ex.covered hc 0 1
    rw [hT, one_apply_ne (by decide)] at this
    simpa using this.symm
  rw [rfft_eq, getD_map_range _ _ _ _ (by omega), dft_delta (by norm_num), symPrecondCol_zero hc (by norm_num), h0]
  · norm_num
  · intro t ht h2
    have : t = 1 := by omega
    subst this
    rw [symPrecondCol_get hc ht h2, h1]
    norm_num

theorem ex_cg (cl : Option ℝ) : sdrLossPair torchBackend { Ex.clamped cl with useCgIter := some 2 } Ex.est Ex.ref =
    .ok fun _ k j => coherenceToNegSdr cl (fin (if k = j then 4 / 5 else 1 / 5)) :=
  C27_sdr_loss (o := Ex.clamped cl) Ex.covered le_rfl (Ex.sdrLossPair_cl cl) le_rfl (Ex.sdrQuiet 2)

theorem ex_cg_diag (cl : Option ℝ) : sdrLossDiag torchBackend { Ex.clamped cl with useCgIter := some 2 } Ex.est Ex.ref =
    .ok fun _ _ => coherenceToNegSdr cl (fin (4 / 5)) := by
  have h1 := sdrCohPair_converges (o := Ex.clamped cl) Ex.covered le_rfl
    (show sdrCohPair torchBackend { Ex.clamped cl with useCgIter := none } Ex.ref Ex.est = _ from Ex.sdrCohPair_value)
    (it := 2) le_rfl (Ex.sdrQuiet 2)
  rw [cohPair_cg (o := { Ex.clamped cl with useCgIter := some 2 }) Ex.nFft_three le_rfl rfl] at h1
  have h1 := Except.ok.inj h1
  rw [lossDiag_cg_of (o := { Ex.clamped cl with useCgIter := some 2 }) le_rfl rfl Ex.nFft_three]
  refine congrArg Except.ok (funext fun m => funext fun k => ?_)
  have h2 := congrFun (congrFun (congrFun h1 m) k) k
  rw [if_pos rfl] at h2
  exact congrArg (fun x => coherenceToNegSdr cl (fin x)) h2

/-- The options of the cases: filters of two taps, two iterations. -/
noncomputable def exCg (cl : Option ℝ) : Opts := { Ex.clamped cl with useCgIter := some 2 }

/-- Two references and two estimates, filters of two taps, two iterations: the gradients are the derivatives, with and
without `clamp_db`. -/
example (cl : Option ℝ) (hcl : cl = none ∨ cl = some 30) (w : BIdx [] → Fin 2 → Fin 2 → ℝ) :
    (∃ f g, LossOfEst (exCg cl) Ex.ref Ex.est w f ∧ gradEstCg (exCg cl) 2 Ex.ref Ex.est w = .ok g ∧
      IsGradient f Ex.est g) ∧
    ∃ f g, LossOfRef (exCg cl) Ex.ref Ex.est w f ∧ gradRefCg (exCg cl) 2 Ex.ref Ex.est w = .ok g ∧
      IsGradient f Ex.ref g :=
  ⟨C75_gradient_est (o := exCg cl) (by norm_num) le_rfl rfl (ex_cg none)
      (fun _ _ _ => fifth_off cl hcl _) (ex_smooth cl 2) (fun m j => (ex_norm m j).1) w,
    C75_gradient_ref (o := exCg cl) le_rfl rfl (ex_cg none)
      (fun _ _ _ => fifth_off cl hcl _) (ex_smooth cl 2) (ex_precond cl) (fun m k => (ex_norm m k).2) w⟩

/-- The same for `pairwise=False`. -/
example (w : BIdx [] → Fin 2 → ℝ) :
    (∃ f g, (∀ᶠ p in 𝓝 Ex.est, LossDiag (exCg none) Ex.ref p w (f p)) ∧
      gradEstCgDiag (exCg none) 2 Ex.ref Ex.est w = .ok g ∧ IsGradient f Ex.est g) ∧
    ∃ f g, (∀ᶠ p in 𝓝 Ex.ref, LossDiag (exCg none) p Ex.est w (f p)) ∧
      gradRefCgDiag (exCg none) 2 Ex.ref Ex.est w = .ok g ∧ IsGradient f Ex.ref g := by
  have h := C75_gradient_diag (o := exCg none) (by norm_num) (by decide) rfl (ex_cg_diag none)
    (fun _ _ => by
      have := fifth_off none (Or.inl rfl) True
      rwa [if_pos trivial] at this) (fun m k => ex_smooth none 2 m k k) w
  exact ⟨h.1 fun m k => (ex_norm m k).1, h.2 (ex_precond none) fun m k => (ex_norm m k).2⟩

/-- The same through the permutation. -/
example (cs : Bool) (v : BIdx [] → Fin 2 → ℝ) :
    (∃ f g, (∀ᶠ p in 𝓝 Ex.est, PitTotal (exCg none) cs Ex.ref p v (f p)) ∧
      gradEstCgPit (exCg none) 2 cs Ex.ref Ex.est v = .ok g ∧ IsGradient f Ex.est g) ∧
    ∃ f g, (∀ᶠ p in 𝓝 Ex.ref, PitTotal (exCg none) cs p Ex.est v (f p)) ∧
      gradRefCgPit (exCg none) 2 cs Ex.ref Ex.est v = .ok g ∧ IsGradient f Ex.ref g := by
  have h := C75_gradient_pit (o := exCg none) (by norm_num) le_rfl rfl (ex_cg none)
    (fun _ _ _ => fifth_off none (Or.inl rfl) _) (ex_smooth none 2) (ex_cg none) (fun _ => Ex.unique_loss) cs v
  exact ⟨h.1 fun m j => (ex_norm m j).1, h.2 (ex_precond none) fun m k => (ex_norm m k).2⟩

theorem exCg_pit (d : ℝ) : ∃ out, sdr torchBackend (exCg (some d)) false true Ex.ref Ex.est = .ok out := by
  obtain ⟨out, h⟩ := Ex.sdr_cl (some d) false true
  refine ⟨out, ?_⟩
  rw [← h]
  unfold sdr
  rw [show sdrLossPair torchBackend (exCg (some d)) Ex.est Ex.ref = _ from ex_cg (some d), Ex.sdrLossPair_cl]

example : ∃ f g, TouchesEst (exCg (some 30)) Ex.ref Ex.est (fun _ => 1) f ∧
    gradEstCgPit (exCg (some 30)) 2 true Ex.ref Ex.est (fun _ _ => 1) = .ok g ∧ IsGradient f Ex.est g := by
  obtain ⟨out, h⟩ := exCg_pit 30
  exact C75_ties (o := exCg (some 30)) (by norm_num) le_rfl rfl (ex_cg none) (fun _ _ _ => fifth_off _ (Or.inr rfl) _)
    (ex_smooth (some 30) 2) h (fun _ => zero_le_one) fun m j => (ex_norm m j).1

/-- Finite gradients with and without `clamp_db`. -/
example (cl : Option ℝ) (w : BIdx [] → Fin 2 → Fin 2 → ℝ) :
    ∃ gE gR, gradEstCg (exCg cl) 2 Ex.ref Ex.est w = .ok gE ∧ gradRefCg (exCg cl) 2 Ex.ref Ex.est w = .ok gR ∧
      (∀ m j, FiniteGrad (gE m j)) ∧ ∀ m k, FiniteGrad (gR m k) := by
  cases cl with
  | some d => exact C75_clamped_finite (o := exCg (some d)) le_rfl rfl rfl (ex_cg _) w
  | none =>
    obtain ⟨gE, gR, h1, h2, h3⟩ := C75_finite (o := exCg none) (by decide) rfl rfl (ex_cg _) w
    have hf : ∀ k j : Fin 2, ∃ x, coherenceToNegSdr none (fin (if k = j then 4 / 5 else 1 / 5)) = fin x :=
      fun k j => fifth_off none (Or.inl rfl) (k = j)
    exact ⟨gE, gR, h1, h2, fun m j => (h3 m).1 j fun k => hf k j, fun m k => (h3 m).2 k fun j => hf k j⟩

example (d : ℝ) (w : BIdx [] → Fin 2 → ℝ) :
    ∃ gE gR, gradEstCgDiag (exCg (some d)) 2 Ex.ref Ex.est w = .ok gE ∧
      gradRefCgDiag (exCg (some d)) 2 Ex.ref Ex.est w = .ok gR ∧ ∀ m k, FiniteGrad (gE m k) ∧ FiniteGrad (gR m k) :=
  C75_clamped_finite_diag (o := exCg (some d)) le_rfl rfl rfl (ex_cg_diag _) w

/-- The same through the permutation. -/
example (d : ℝ) (v : BIdx [] → Fin 2 → ℝ) : ∃ gE gR, gradEstCgPit (exCg (some d)) 2 true Ex.ref Ex.est v = .ok gE ∧
    gradRefCgPit (exCg (some d)) 2 true Ex.ref Ex.est v = .ok gR ∧
    (∀ m j, FiniteGrad (gE m j)) ∧ ∀ m k, FiniteGrad (gR m k) := by
  obtain ⟨out, h⟩ := exCg_pit d
  exact C75_pit_clamped_finite (o := exCg (some d)) le_rfl rfl rfl h v

/-- A silent estimate: NaN without `clamp_db`, zero with it. -/
example (w : BIdx [] → Fin 2 → Fin 2 → ℝ) :
    (∃ gE gR, gradEstCg (exCg none) 2 Ex.ref (fun _ => ![![2, 0, 1], 0]) w = .ok gE ∧
      gradRefCg (exCg none) 2 Ex.ref (fun _ => ![![2, 0, 1], 0]) w = .ok gR ∧
      ∀ m k, (∀ t, gE m 1 t = nan) ∧ ∀ t, gR m k t = nan) ∧
    ∃ gE gR, gradEstCg (exCg (some 30)) 2 Ex.ref (fun _ => ![![2, 0, 1], 0]) w = .ok gE ∧
      gradRefCg (exCg (some 30)) 2 Ex.ref (fun _ => ![![2, 0, 1], 0]) w = .ok gR ∧ ∀ m t, gE m 1 t = fin 0 := by
  have hz : ∀ m : BIdx [], centred (exCg none).zeroMean ((fun _ => ![![2, 0, 1], 0] : Sig [] 2 3) m 1) = 0 := fun _ => rfl
  have hV := lossPair_cg_of (o := exCg none) (it := 2) (ref := Ex.ref) (est := (fun _ => ![![2, 0, 1], 0] : Sig [] 2 3))
    (by decide) rfl Ex.nFft_three
  constructor
  · obtain ⟨gE, gR, h1, h2, h3⟩ := C75_silent (o := exCg none) (by decide) rfl rfl hV (m := ()) (hz ()) w
    exact ⟨gE, gR, h1, h2, fun m => h3⟩
  · obtain ⟨gE, gR, h1, h2, h3⟩ := C75_saturated (o := exCg (some 30)) (by decide) rfl rfl hV w
    refine ⟨gE, gR, h1, h2, fun m => (h3 m).1 1 fun k => Or.inl ?_⟩
    exact C33_silent_sdr_loss (o := exCg none) (fun d h => by cases h) hV (hz m) k

end FBE.Props
