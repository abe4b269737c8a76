import Verif.Props.C105_Polarity
import Verif.Props.C07_C08_C40_Invariance
import Verif.Proofs.BackwardFir

/-!
# C108: gradients of signals with trailing silence

Zeros after the end of references and estimates (batches padded to a common length) leave the gradients of the
original samples as they are.
-/

namespace FBE.Props

open Classical FBE.Spec FBE.Backward XR

variable {s : List ℕ} {r e c N M it z : ℕ} {o : Opts}

/-- The gradients of the samples before the silence. -/
def beforeSilence (z : ℕ) (g : BIdx s → Fin c → Fin (N + z) → XR) : BIdx s → Fin c → Fin N → XR := fun m k t => g m k (Fin.castAdd z t)

/-! ### the formulas -/

theorem normalizeGrad_padded (x : Fin N → ℝ) {κ : Type} (g : κ → XR) {f' : (κ → ℝ) → Fin (N + z) → ℝ} {f : (κ → ℝ) → Fin N → ℝ}
    (hf : ∀ g t, f' g (Fin.castAdd z t) = f g t) (t : Fin N) :
    preprocessGrad false (fun t : Fin (N + z) => zpad x t) (lift g f') (Fin.castAdd z t) = preprocessGrad false x (lift g f) t := by
  have hx : ∀ u : Fin N, zpad x (Fin.castAdd z u : Fin (N + z)) = x u := fun u => by
    show zpad x u.val = x u
    rw [zpad_val]
  have hy : ∀ u : Fin z, zpad x (Fin.natAdd N u : Fin (N + z)) = 0 := fun u => zpad_of_le _ (by simp)
  have h1 : ∑ u : Fin (N + z), zpad x u ^ 2 = ∑ u, x u ^ 2 := by
    rw [Fin.sum_univ_add]
    simp only [hx, hy]
    simp
  unfold preprocessGrad normalizeGrad lift
  simp only [Bool.false_eq_true, if_false]
  rw [h1]
  by_cases h : ∀ k, (g k).toReal?.isSome
  · simp only [if_pos h]
    have h2 : ∀ (d : ℝ), xsum (fun t : Fin (N + z) => mul (neg (fin (f' (fun k => (g k).toReal?.getD 0) t))) (fin (zpad x t / d / d))) =
        xsum fun t => mul (neg (fin (f (fun k => (g k).toReal?.getD 0) t))) (fin (x t / d / d)) := by
      intro d
      show xsum (fun t : Fin (N + z) => fin (-f' (fun k => (g k).toReal?.getD 0) t * (zpad x t / d / d))) =
        xsum fun t => fin (-f (fun k => (g k).toReal?.getD 0) t * (x t / d / d))
      rw [xsum_fin, xsum_fin, Fin.sum_univ_add]
      simp only [hx, hy, hf]
      simp
    rw [h2, hf, hx]
  · simp only [if_neg h]
    rfl

theorem single_padded (t : Fin N) : (fun u : Fin (N + z) => zpad (Pi.single t (1 : ℝ) : Fin N → ℝ) u) = Pi.single (Fin.castAdd z t) 1 := by
  funext u
  refine Fin.addCases (fun u => ?_) (fun u => ?_) u
  · show zpad _ u.val = _
    rw [zpad_val]
    by_cases h : u = t
    · rw [h, Pi.single_eq_same, Pi.single_eq_same]
    · rw [Pi.single_eq_of_ne h, Pi.single_eq_of_ne fun h' => h (Fin.castAdd_injective _ _ h')]
  · rw [zpad_of_le _ (by simp), Pi.single_eq_of_ne]
    intro h
    have := congrArg Fin.val h
    simp at this
    omega

section back

variable {K n n' : ℕ} (hn : n ≠ 0) (hN : N ≤ n) (hK : K + N ≤ n + 1) (h : n ≤ n') (h' : N + z ≤ n')
include hn hN hK h h'

theorem estBack_padded (x : Fin r → Fin N → ℝ) (gxc : Fin r → Fin K → ℝ) (t : Fin N) :
    estBack n' (fun k (t : Fin (N + z)) => zpad (x k) t) gxc (Fin.castAdd z t) = estBack n x gxc t := by
  have h0 : 0 < N := t.pos
  have a := estBack_adjoint hn (by omega) hN x gxc (Pi.single t 1)
  have a' := estBack_adjoint (n := n') (by omega) (by omega) h' (fun k (t : Fin (N + z)) => zpad (x k) t) gxc (Pi.single (Fin.castAdd z t) 1)
  simp only [Pi.single_apply, mul_ite, mul_one, mul_zero, Finset.sum_ite_eq', Finset.mem_univ, if_true] at a a'
  rw [a, a']
  refine Finset.sum_congr rfl fun k _ => Finset.sum_congr rfl fun l _ => ?_
  rw [← single_padded, circ_padded _ _ hN (by omega) h]

theorem refBack_padded (x : Fin N → ℝ) (y : Fin e → Fin N → ℝ) (gxc : Fin e → Fin K → ℝ) (gacf : Fin K → ℝ) (t : Fin N) :
    refBack n' (fun t : Fin (N + z) => zpad x t) (fun j (t : Fin (N + z)) => zpad (y j) t) gxc gacf (Fin.castAdd z t) =
      refBack n x y gxc gacf t := by
  have h0 : 0 < N := t.pos
  have a := refBack_adjoint hn (by omega) hN x y gxc gacf (Pi.single t 1)
  have a' := refBack_adjoint (n := n') (by omega) (by omega) h' (fun t : Fin (N + z) => zpad x t) (fun j (t : Fin (N + z)) => zpad (y j) t)
    gxc gacf (Pi.single (Fin.castAdd z t) 1)
  simp only [Pi.single_apply, mul_ite, mul_one, mul_zero, Finset.sum_ite_eq', Finset.mem_univ, if_true] at a a'
  rw [a, a', ← single_padded]
  refine congrArg₂ (· + ·) (Finset.sum_congr rfl fun j _ => Finset.sum_congr rfl fun l _ => ?_) (Finset.sum_congr rfl fun l _ => ?_)
  · rw [circ_padded _ _ hN (by omega) h]
  · rw [circ_padded _ _ hN (by omega) h, circ_padded _ _ hN (by omega) h]

end back

/-- The sizes. -/
theorem sizes_padded (hN : 0 < N) (hf : FilterFits N o.filterLength) (z : ℕ) : ∃ n n', nFft N = .ok n ∧ nFft (N + z) = .ok n' ∧ n ≠ 0 ∧
    N ≤ n ∧ o.filterLength + N ≤ n + 1 ∧ n ≤ n' ∧ N + z ≤ n' ∧ min o.filterLength n = o.filterLength ∧ min o.filterLength n' = o.filterLength := by
  obtain ⟨n, hn⟩ := nFft_pos hN
  obtain ⟨n', hn', h⟩ := nFft_mono (z := z) hn
  have h1 := fits_le hn hf
  have h2 := nFft_le hn
  have h3 := nFft_le hn'
  exact ⟨n, n', hn, hn', by omega, h2, h1, h, h3, by omega, by omega⟩

section stats

variable (hN : 0 < N) (hf : FilterFits N o.filterLength) (hz : o.zeroMean = false)
include hN hf hz

theorem related_padded (ref : Sig s r N) (est : Sig s e N) :
    Related o ref est (padded z ref) (padded z est) id (fun _ => Equiv.refl _) (fun _ => id) (fun _ _ => 1) (fun _ _ => 1) := by
  obtain ⟨n, n', hn, hn', -, a3, a4, a5, -, a6, a7⟩ := sizes_padded hN hf z
  refine ⟨fun _ _ => one_mul 1, fun _ _ => one_mul 1, fun m k l => ?_, fun m k l => ?_, fun _ => rfl, fun n1 h1 => ?_,
    fun n1 n1' h1 h1' m k l t ht => ?_, fun n1 n1' h1 h1' m k l t ht => ?_⟩
  · rw [prep_padded hz, one_mul, one_mul]
    exact dot_padded z _ _
  · rw [prep_padded hz, prep_padded hz, one_mul, one_mul, corr_zero, corr_zero]
    exact dot_padded z _ _
  · rw [hn] at h1; cases h1
    exact ⟨n', hn', by omega, by omega⟩
  · rw [hn] at h1; cases h1
    rw [hn'] at h1'; cases h1'
    rw [prep_padded hz, one_mul, one_mul]
    exact circ_padded _ _ a3 (by omega) a5
  · rw [hn] at h1; cases h1
    rw [hn'] at h1'; cases h1'
    rw [prep_padded hz, prep_padded hz, one_mul, one_mul]
    exact circ_padded _ _ a3 (by omega) a5

theorem stats_padded (hL : 2 ≤ o.filterLength) (ref : Sig s r N) (est : Sig s e N) {n n' : ℕ} (hn : nFft N = .ok n) (hn' : nFft (N + z) = .ok n') :
    (∀ m k, sdrAcf o n' (padded z ref) m k = sdrAcf o n ref m k) ∧
      ∀ m k j, vec o.filterLength (sdrXcorr o n' (padded z ref) (padded z est) m k j) = vec o.filterLength (sdrXcorr o n ref est m k j) := by
  obtain ⟨m, m', a1, a2, -, a3, a4, a5, -, a6, a7⟩ := sizes_padded hN hf z
  rw [hn] at a1; cases a1
  rw [hn'] at a2; cases a2
  have hR := related_padded hN hf hz (z := z) ref est
  refine ⟨fun m k => related_acf hR hn hn' a6 a7 hL m k, fun m k j => ?_⟩
  rw [related_xcorr hR hn hn' a6 a7 hL m k j]
  simp

end stats

/-- `lift` of formulas on the samples before the silence. -/
theorem preprocessGrad_padded (hz : o.zeroMean = false) (x : Sig s c N) (m : BIdx s) (k : Fin c) {κ : Type} (g : κ → XR)
    {f' : (κ → ℝ) → Fin (N + z) → ℝ} {f : (κ → ℝ) → Fin N → ℝ} (hf : ∀ g t, f' g (Fin.castAdd z t) = f g t) (t : Fin N) :
    preprocessGrad o.zeroMean (padded z x m k) (lift g f') (Fin.castAdd z t) = preprocessGrad o.zeroMean (x m k) (lift g f) t := by
  rw [hz]
  exact normalizeGrad_padded (x m k) g hf t

theorem forward_unfold {n K : ℕ} (hn : nFft N M = .ok n) (hK : min o.filterLength n = K) (ref : Sig s r N) (est : Sig s e M) :
    forward o ref est =
      match solveStack (fun i : BIdx s × Fin r => toeplitz torchBackend K (sdrAcf o n ref i.1 i.2))
        (fun i j => vec K (sdrXcorr o n ref est i.1 i.2 j)) with
      | .error err => .error err
      | .ok sol => .ok ⟨n, K, fun m k => toeplitz torchBackend K (sdrAcf o n ref m k),
          fun m k j => vec K (sdrXcorr o n ref est m k j), fun m k j => sol (m, k) j⟩ := by
  subst hK
  unfold forward
  rw [hn]
  dsimp only
  cases solveStack (fun i : BIdx s × Fin r => toeplitz torchBackend (min o.filterLength n) (sdrAcf o n ref i.1 i.2))
    (fun i j => vec (min o.filterLength n) (sdrXcorr o n ref est i.1 i.2 j)) <;> rfl

theorem forwardDiag_unfold {n K : ℕ} (hn : nFft N M = .ok n) (hK : min o.filterLength n = K) (ref : Sig s c N) (est : Sig s c M) :
    forwardDiag o ref est =
      match solveStack (fun i : BIdx s × Fin c => toeplitz torchBackend K (sdrAcf o n ref i.1 i.2))
        (fun i (_ : Fin 1) => vec K (sdrXcorr o n ref est i.1 i.2 i.2)) with
      | .error err => .error err
      | .ok sol => .ok ⟨n, K, fun m k => toeplitz torchBackend K (sdrAcf o n ref m k),
          fun m k _ => vec K (sdrXcorr o n ref est m k k), fun m k j => sol (m, k) j⟩ := by
  subst hK
  unfold forwardDiag
  rw [hn]
  dsimp only
  cases solveStack (fun i : BIdx s × Fin c => toeplitz torchBackend (min o.filterLength n) (sdrAcf o n ref i.1 i.2))
    (fun i (_ : Fin 1) => vec (min o.filterLength n) (sdrXcorr o n ref est i.1 i.2 i.2)) <;> rfl

theorem decibelGrad_tame (cl : Option ℝ) {v : ℝ} (h0 : 0 ≤ v) (h1 : v ≤ 1) (w : ℝ) : decibelGrad cl v (fin w) = nan ∨ ∃ a, decibelGrad cl v (fin w) = fin a := by
  by_cases h : epsOf cl ≤ v ∧ v ≤ 1 - epsOf cl
  · have hv : cclamp cl v = v := by
      unfold cclamp
      rw [max_eq_left h.1, min_eq_left h.2]
    by_cases h2 : 0 < v ∧ v < 1
    · exact Or.inr ⟨_, decibelGrad_fin (by rw [hv]; exact h2.1) (by rw [hv]; exact h2.2) w⟩
    · cases cl with
      | none =>
        refine Or.inl (decibelGrad_nan ?_ w)
        by_contra h3
        rw [not_or] at h3
        exact h2 ⟨lt_of_le_of_ne h0 (Ne.symm h3.1), lt_of_le_of_ne h1 h3.2⟩
      | some d =>
        have := dbClampEps_pos d
        have h3 : dbClampEps d ≤ v ∧ v ≤ 1 - dbClampEps d := h
        exact absurd ⟨by linarith, by linarith⟩ h2
  · right
    rw [decibelGrad_eq]
    unfold clampGrad
    rw [if_neg h]
    exact ⟨_, rfl⟩

theorem mul_tame {x : XR} (h : x = nan ∨ ∃ a, x = fin a) (u : ℝ) : mul x (fin u) = nan ∨ ∃ a, mul x (fin u) = fin a := by
  rcases h with rfl | ⟨a, rfl⟩
  · exact Or.inl rfl
  · exact Or.inr ⟨a * u, rfl⟩

theorem xsum_lift {n : ℕ} {g : Fin n → XR} (h : ∀ k, g k = nan ∨ ∃ a, g k = fin a) (x : Fin n → Fin N → ℝ) :
    (fun t => xsum fun k => mul (g k) (fin (x k t))) = lift g fun g t => ∑ k, g k * x k t := by
  unfold lift
  by_cases h' : ∀ k, (g k).toReal?.isSome
  · rw [if_pos h']
    funext t
    rw [← xsum_fin]
    congr 1
    funext k
    rcases h k with h1 | ⟨a, h1⟩
    · have := h' k
      rw [h1] at this
      cases this
    · dsimp only
      rw [h1]
      rfl
  · rw [if_neg h']
    funext t
    obtain ⟨k, hk⟩ := not_forall.1 h'
    rcases h k with h1 | ⟨a, h1⟩
    · exact xsum_nan k (by rw [h1]; rfl)
    · rw [h1] at hk
      exact absurd rfl hk

section si

variable (hz : o.zeroMean = false)
include hz

theorem dot_prep_padded (ref : Sig s r N) (est : Sig s e N) (m : BIdx s) (k : Fin r) (j : Fin e) :
    dot (prep o (padded z ref) m k) (prep o (padded z est) m j) = dot (prep o ref m k) (prep o est m j) := by
  rw [prep_padded hz, prep_padded hz]
  exact dot_padded z _ _

/-- **C108**, `sdr_loss` with `filter_length=1` and `si_sdr_loss`, `pairwise=True`. -/
theorem C108_si_pairwise (ref : Sig s r N) (est : Sig s e N) (w : BIdx s → Fin r → Fin e → ℝ) :
    beforeSilence z (gradEst o (padded z ref) (padded z est) w) = gradEst o ref est w ∧
      beforeSilence z (gradRef o (padded z ref) (padded z est) w) = gradRef o ref est w := by
  have h : innerGrad o (padded z ref) (padded z est) w = innerGrad o ref est w := by
    funext m k j
    unfold innerGrad
    rw [dot_prep_padded hz]
  have ht : ∀ m k j, innerGrad o ref est w m k j = nan ∨ ∃ a, innerGrad o ref est w m k j = fin a := fun m k j =>
    mul_tame (decibelGrad_tame _ (sq_nonneg _) (dot_sq_le ref est m k j) _) _
  constructor
  · funext m j t
    unfold beforeSilence gradEst
    rw [h, prep_padded hz, xsum_lift (fun k => ht m k j), xsum_lift fun k => ht m k j]
    refine preprocessGrad_padded hz est m j _ (fun g t => ?_) t
    simp only [padded, Fin.val_castAdd, zpad_val]
  · funext m k t
    unfold beforeSilence gradRef
    rw [h, prep_padded hz, xsum_lift (fun j => ht m k j), xsum_lift fun j => ht m k j]
    refine preprocessGrad_padded hz ref m k _ (fun g t => ?_) t
    simp only [padded, Fin.val_castAdd, zpad_val]

/-- **C108**, `sdr_loss` with `filter_length=1` and `si_sdr_loss`, channel by channel. -/
theorem C108_si (ref est : Sig s c N) (w : BIdx s → Fin c → ℝ) :
    beforeSilence z (gradEstDiag o (padded z ref) (padded z est) w) = gradEstDiag o ref est w ∧
      beforeSilence z (gradRefDiag o (padded z ref) (padded z est) w) = gradRefDiag o ref est w := by
  have h : innerGradDiag o (padded z ref) (padded z est) w = innerGradDiag o ref est w := by
    funext m k
    unfold innerGradDiag
    rw [dot_prep_padded hz]
  have ht : ∀ m k, innerGradDiag o ref est w m k = nan ∨ ∃ a, innerGradDiag o ref est w m k = fin a := fun m k =>
    mul_tame (decibelGrad_tame _ (sq_nonneg _) (dot_sq_le ref est m k k) _) _
  have hs : ∀ (n : ℕ) (g : XR) (x : Fin n → ℝ), (fun t => mul g (fin (x t))) = fun t => xsum fun _ : Fin 1 => mul g (fin (x t)) := fun n g x =>
    funext fun t => (xsum_one fun _ => mul g (fin (x t))).symm
  constructor
  · funext m k t
    unfold beforeSilence gradEstDiag
    rw [h, prep_padded hz, hs, hs, xsum_lift (fun _ => ht m k) (fun _ => _), xsum_lift (fun _ => ht m k) fun _ => _]
    refine preprocessGrad_padded hz est m k _ (fun g t => ?_) t
    simp only [padded, Fin.val_castAdd, zpad_val]
  · funext m k t
    unfold beforeSilence gradRefDiag
    rw [h, prep_padded hz, hs, hs, xsum_lift (fun _ => ht m k) (fun _ => _), xsum_lift (fun _ => ht m k) fun _ => _]
    refine preprocessGrad_padded hz ref m k _ (fun g t => ?_) t
    simp only [padded, Fin.val_castAdd, zpad_val]

end si

theorem gradCg_unfold {n K : ℕ} (hn : nFft N M = .ok n) (hK : min o.filterLength n = K) (ref : Sig s r N) (est : Sig s e M)
    (w : BIdx s → Fin r → Fin e → ℝ) :
    gradEstCg o it ref est w = .ok (fun m j => preprocessGrad o.zeroMean (est m j) <|
      lift (fun k => decibelGrad o.clampDb (innerProd (vec K (sdrXcorr o n ref est m k j))
        (toeplitzCg torchBackend K (sdrAcf o n ref m k) (vec K (sdrXcorr o n ref est m k j)) it)) (fin (w m k j))) fun g =>
        estBack n (prep o ref m) fun k => (cohCgGrad K (sdrAcf o n ref m k) (vec K (sdrXcorr o n ref est m k j)) it (g k)).b) ∧
    gradRefCg o it ref est w = .ok (fun m k => preprocessGrad o.zeroMean (ref m k) <|
      lift (fun j => decibelGrad o.clampDb (innerProd (vec K (sdrXcorr o n ref est m k j))
        (toeplitzCg torchBackend K (sdrAcf o n ref m k) (vec K (sdrXcorr o n ref est m k j)) it)) (fin (w m k j))) fun g =>
        refBack n (prep o ref m k) (prep o est m)
          (fun j => (cohCgGrad K (sdrAcf o n ref m k) (vec K (sdrXcorr o n ref est m k j)) it (g j)).b)
          (acfCgGrad K (sdrAcf o n ref m k)
            (fun f => ∑ j, (cohCgGrad K (sdrAcf o n ref m k) (vec K (sdrXcorr o n ref est m k j)) it (g j)).A f)
            (fun f => ∑ j, (cohCgGrad K (sdrAcf o n ref m k) (vec K (sdrXcorr o n ref est m k j)) it (g j)).P f))) := by
  subst hK
  unfold gradEstCg gradRefCg
  rw [hn]
  exact ⟨rfl, rfl⟩

theorem gradCgDiag_unfold {n K : ℕ} (hn : nFft N M = .ok n) (hK : min o.filterLength n = K) (ref : Sig s c N) (est : Sig s c M)
    (w : BIdx s → Fin c → ℝ) :
    gradEstCgDiag o it ref est w = .ok (fun m k => preprocessGrad o.zeroMean (est m k) <|
      lift (fun _ : Fin 1 => decibelGrad o.clampDb (innerProd (vec K (sdrXcorr o n ref est m k k))
        (toeplitzCg torchBackend K (sdrAcf o n ref m k) (vec K (sdrXcorr o n ref est m k k)) it)) (fin (w m k))) fun g =>
        estBack n (fun _ : Fin 1 => prep o ref m k) fun j =>
          (cohCgGrad K (sdrAcf o n ref m k) (vec K (sdrXcorr o n ref est m k k)) it (g j)).b) ∧
    gradRefCgDiag o it ref est w = .ok (fun m k => preprocessGrad o.zeroMean (ref m k) <|
      lift (fun _ : Fin 1 => decibelGrad o.clampDb (innerProd (vec K (sdrXcorr o n ref est m k k))
        (toeplitzCg torchBackend K (sdrAcf o n ref m k) (vec K (sdrXcorr o n ref est m k k)) it)) (fin (w m k))) fun g =>
        refBack n (prep o ref m k) (fun _ : Fin 1 => prep o est m k)
          (fun j => (cohCgGrad K (sdrAcf o n ref m k) (vec K (sdrXcorr o n ref est m k k)) it (g j)).b)
          (acfCgGrad K (sdrAcf o n ref m k)
            (fun f => ∑ j, (cohCgGrad K (sdrAcf o n ref m k) (vec K (sdrXcorr o n ref est m k k)) it (g j)).A f)
            (fun f => ∑ j, (cohCgGrad K (sdrAcf o n ref m k) (vec K (sdrXcorr o n ref est m k k)) it (g j)).P f))) := by
  subst hK
  unfold gradEstCgDiag gradRefCgDiag
  rw [hn]
  exact ⟨rfl, rfl⟩

section pairs

variable (hL : 2 ≤ o.filterLength) (hN : 0 < N) (hf : FilterFits N o.filterLength) (hz : o.zeroMean = false)
include hL hN hf hz

/-- **C108**, `sdr_loss` with `pairwise=True` and several taps. -/
theorem C108_sdr_pairwise (ref : Sig s r N) (est : Sig s e N) (w : BIdx s → Fin r → Fin e → ℝ) :
    (gradEstFir o (padded z ref) (padded z est) w).map (beforeSilence z) = gradEstFir o ref est w ∧
      (gradRefFir o (padded z ref) (padded z est) w).map (beforeSilence z) = gradRefFir o ref est w := by
  obtain ⟨n, n', hn, hn', h0, h1, h2, h3, h4, h5, h6⟩ := sizes_padded hN hf z
  obtain ⟨ha, hx⟩ := stats_padded (z := z) hN hf hz hL ref est hn hn'
  unfold gradEstFir gradRefFir
  rw [forward_unfold hn h5, forward_unfold hn' h6]
  simp only [ha, hx]
  cases solveStack (fun i : BIdx s × Fin r => toeplitz torchBackend o.filterLength (sdrAcf o n ref i.1 i.2))
        (fun i j => vec o.filterLength (sdrXcorr o n ref est i.1 i.2 j)) with
  | error err => exact ⟨rfl, rfl⟩
  | ok sol =>
    constructor
    · show Except.ok _ = Except.ok _
      congr 1
      funext m j t
      refine preprocessGrad_padded hz est m j _ (fun g t => ?_) t
      rw [prep_padded hz]
      exact estBack_padded h0 h1 h2 h3 h4 _ _ t
    · show Except.ok _ = Except.ok _
      congr 1
      funext m k t
      refine preprocessGrad_padded hz ref m k _ (fun g t => ?_) t
      rw [prep_padded hz, prep_padded hz]
      exact refBack_padded h0 h1 h2 h3 h4 _ _ _ _ t

/-- **C108**, `sdr_loss` with `use_cg_iter` and `pairwise=True`. -/
theorem C108_iterative_pairwise (ref : Sig s r N) (est : Sig s e N) (w : BIdx s → Fin r → Fin e → ℝ) :
    (gradEstCg o it (padded z ref) (padded z est) w).map (beforeSilence z) = gradEstCg o it ref est w ∧
      (gradRefCg o it (padded z ref) (padded z est) w).map (beforeSilence z) = gradRefCg o it ref est w := by
  obtain ⟨n, n', hn, hn', h0, h1, h2, h3, h4, h5, h6⟩ := sizes_padded hN hf z
  obtain ⟨ha, hx⟩ := stats_padded (z := z) hN hf hz hL ref est hn hn'
  have u := gradCg_unfold (it := it) hn h5 ref est w
  have u' := gradCg_unfold (it := it) hn' h6 (padded z ref) (padded z est) w
  simp only [ha, hx] at u'
  rw [u.1, u.2, u'.1, u'.2]
  constructor
  · show Except.ok _ = Except.ok _
    congr 1
    funext m j t
    refine preprocessGrad_padded hz est m j _ (fun g t => ?_) t
    rw [prep_padded hz]
    exact estBack_padded h0 h1 h2 h3 h4 _ _ t
  · show Except.ok _ = Except.ok _
    congr 1
    funext m k t
    refine preprocessGrad_padded hz ref m k _ (fun g t => ?_) t
    rw [prep_padded hz, prep_padded hz]
    exact refBack_padded h0 h1 h2 h3 h4 _ _ _ _ t

/-- **C108**, `sdr_loss` with several taps, channel by channel. -/
theorem C108_sdr (ref est : Sig s c N) (w : BIdx s → Fin c → ℝ) :
    (gradEstFirDiag o (padded z ref) (padded z est) w).map (beforeSilence z) = gradEstFirDiag o ref est w ∧
      (gradRefFirDiag o (padded z ref) (padded z est) w).map (beforeSilence z) = gradRefFirDiag o ref est w := by
  obtain ⟨n, n', hn, hn', h0, h1, h2, h3, h4, h5, h6⟩ := sizes_padded hN hf z
  obtain ⟨ha, hx⟩ := stats_padded (z := z) hN hf hz hL ref est hn hn'
  unfold gradEstFirDiag gradRefFirDiag
  rw [forwardDiag_unfold hn h5, forwardDiag_unfold hn' h6]
  simp only [ha, hx]
  cases solveStack (fun i : BIdx s × Fin c => toeplitz torchBackend o.filterLength (sdrAcf o n ref i.1 i.2))
        (fun i (_ : Fin 1) => vec o.filterLength (sdrXcorr o n ref est i.1 i.2 i.2)) with
  | error err => exact ⟨rfl, rfl⟩
  | ok sol =>
    constructor
    · show Except.ok _ = Except.ok _
      congr 1
      funext m k t
      refine preprocessGrad_padded hz est m k _ (fun g t => ?_) t
      rw [prep_padded hz]
      exact estBack_padded h0 h1 h2 h3 h4 (fun _ => prep o ref m k) _ t
    · show Except.ok _ = Except.ok _
      congr 1
      funext m k t
      refine preprocessGrad_padded hz ref m k _ (fun g t => ?_) t
      rw [prep_padded hz, prep_padded hz]
      exact refBack_padded h0 h1 h2 h3 h4 _ (fun _ => prep o est m k) _ _ t

/-- **C108**, `sdr_loss` with `use_cg_iter`, channel by channel. -/
theorem C108_iterative (ref est : Sig s c N) (w : BIdx s → Fin c → ℝ) :
    (gradEstCgDiag o it (padded z ref) (padded z est) w).map (beforeSilence z) = gradEstCgDiag o it ref est w ∧
      (gradRefCgDiag o it (padded z ref) (padded z est) w).map (beforeSilence z) = gradRefCgDiag o it ref est w := by
  obtain ⟨n, n', hn, hn', h0, h1, h2, h3, h4, h5, h6⟩ := sizes_padded hN hf z
  obtain ⟨ha, hx⟩ := stats_padded (z := z) hN hf hz hL ref est hn hn'
  have u := gradCgDiag_unfold (it := it) hn h5 ref est w
  have u' := gradCgDiag_unfold (it := it) hn' h6 (padded z ref) (padded z est) w
  simp only [ha, hx] at u'
  rw [u.1, u.2, u'.1, u'.2]
  constructor
  · show Except.ok _ = Except.ok _
    congr 1
    funext m k t
    refine preprocessGrad_padded hz est m k _ (fun g t => ?_) t
    rw [prep_padded hz]
    exact estBack_padded h0 h1 h2 h3 h4 (fun _ => prep o ref m k) _ t
  · show Except.ok _ = Except.ok _
    congr 1
    funext m k t
    refine preprocessGrad_padded hz ref m k _ (fun g t => ?_) t
    rw [prep_padded hz, prep_padded hz]
    exact refBack_padded h0 h1 h2 h3 h4 _ (fun _ => prep o est m k) _ _ t

end pairs

/-! ### the best permutation -/

section pit

variable (hN : 0 < N) (hf : FilterFits N o.filterLength) (hz : o.zeroMean = false) (ref : Sig s r N) (est : Sig s e N) (cs : Bool)
  (v : BIdx s → Fin (min r e) → ℝ)
include hN hf hz

theorem pitWeights_padded : pitWeights o cs (padded z ref) (padded z est) v = pitWeights o cs ref est v := by
  unfold pitWeights
  rw [sdrLossPair_same (Or.inl rfl) (same_padded hN hf hz z ref est)]

/-- **C108**, `sdr` and `sdr_pit_loss` (`cs`) with `filter_length=1`. -/
theorem C108_pit_si : (gradEstPit o cs (padded z ref) (padded z est) v).map (beforeSilence z) = gradEstPit o cs ref est v ∧
    (gradRefPit o cs (padded z ref) (padded z est) v).map (beforeSilence z) = gradRefPit o cs ref est v := by
  unfold gradEstPit gradRefPit
  rw [pitWeights_padded hN hf hz]
  cases pitWeights o cs ref est v with
  | error err => exact ⟨rfl, rfl⟩
  | ok w => exact ⟨congrArg Except.ok (C108_si_pairwise hz ref est w).1, congrArg Except.ok (C108_si_pairwise hz ref est w).2⟩

/-- **C108**, `sdr` and `sdr_pit_loss` with several taps. -/
theorem C108_pit (hL : 2 ≤ o.filterLength) :
    (gradEstFirPit o cs (padded z ref) (padded z est) v).map (beforeSilence z) = gradEstFirPit o cs ref est v ∧
      (gradRefFirPit o cs (padded z ref) (padded z est) v).map (beforeSilence z) = gradRefFirPit o cs ref est v := by
  unfold gradEstFirPit gradRefFirPit
  rw [pitWeights_padded hN hf hz]
  cases pitWeights o cs ref est v with
  | error err => exact ⟨rfl, rfl⟩
  | ok w => exact C108_sdr_pairwise hL hN hf hz ref est w

/-- **C108**, `sdr` and `sdr_pit_loss` with `use_cg_iter`. -/
theorem C108_pit_iterative (hL : 2 ≤ o.filterLength) :
    (gradEstCgPit o it cs (padded z ref) (padded z est) v).map (beforeSilence z) = gradEstCgPit o it cs ref est v ∧
      (gradRefCgPit o it cs (padded z ref) (padded z est) v).map (beforeSilence z) = gradRefCgPit o it cs ref est v := by
  unfold gradEstCgPit gradRefCgPit
  rw [pitWeights_padded hN hf hz]
  cases pitWeights o cs ref est v with
  | error err => exact ⟨rfl, rfl⟩
  | ok w => exact C108_iterative_pairwise hL hN hf hz ref est w

end pit

/-! ### examples -/

/-- Ten silent samples after signals whose gradients exist (C72): those of the original samples stay. -/
example (w : BIdx [] → Fin 2 → Fin 2 → ℝ) : ∃ gE gE', gradEstFir (Ex.clamped none) Ex.ref Ex.est w = .ok gE ∧
    gradEstFir (Ex.clamped none) (padded 10 Ex.ref) (padded 10 Ex.est) w = .ok gE' ∧ ∀ m j t, gE' m j (Fin.castAdd 10 t) = gE m j t := by
  obtain ⟨gE, gR, h1, h2, -⟩ := C72_finite (o := Ex.clamped none) (by decide) rfl rfl (Ex.sdrLossPair_cl _) w
  have hf : FilterFits 3 (Ex.clamped none).filterLength := by
    show 2 + 3 ≤ 2 ^ Nat.clog 2 (2 * 3 - 1) + 1
    have := Nat.le_pow_clog (b := 2) (by norm_num) (2 * 3 - 1)
    omega
  have h4 := (C108_sdr_pairwise (z := 10) (o := Ex.clamped none) (by decide) (by norm_num) hf rfl Ex.ref Ex.est w).1
  rw [h1] at h4
  cases h5 : gradEstFir (Ex.clamped none) (padded 10 Ex.ref) (padded 10 Ex.est) w with
  | error err => rw [h5] at h4; cases h4
  | ok gE' =>
    rw [h5] at h4
    have h6 : beforeSilence 10 gE' = gE := Except.ok.inj h4
    exact ⟨gE, gE', h1, rfl, fun m j t => by rw [← h6]; rfl⟩

end FBE.Props
