import Verif.Props.C108_SilenceGradients
import Verif.Props.C47_C50_Relations

/-!
# C109: gradients of signals with leading silence

Zeros before the start of references and estimates leave the gradients of the original samples as they are.
-/

namespace FBE.Props

open Classical FBE.Spec FBE.Backward XR

variable {s : List ℕ} {r e c N M it z : ℕ} {o : Opts}

/-- The gradients of the samples after the silence. -/
def afterSilence (z : ℕ) (g : BIdx s → Fin c → Fin (N + z) → XR) : BIdx s → Fin c → Fin N → XR := fun m k t => g m k (Fin.addNat t z)

/-! ### the formulas -/

/-- A signal after `z` zeros. -/
noncomputable def lead (z : ℕ) (x : Fin N → ℝ) : Fin (N + z) → ℝ := fun t => if z ≤ t.val then zpad x (t.val - z) else 0

theorem lead_addNat (x : Fin N → ℝ) (t : Fin N) : lead z x (Fin.addNat t z) = x t := by
  unfold lead
  rw [if_pos (by simp), Fin.val_addNat, Nat.add_sub_cancel, zpad_val]

theorem lead_of_lt (x : Fin N → ℝ) {t : Fin (N + z)} (h : t.val < z) : lead z x t = 0 := if_neg (by omega)

theorem sum_lead (f : Fin (N + z) → ℝ) (h : ∀ t : Fin (N + z), t.val < z → f t = 0) : ∑ t, f t = ∑ t : Fin N, f (Fin.addNat t z) := by
  refine (Fintype.sum_of_injective (fun t : Fin N => Fin.addNat t z) (fun a b hab => ?_) (fun t => f (Fin.addNat t z)) f (fun i hi => h i ?_) fun _ => rfl).symm
  · have := congrArg Fin.val hab
    simp only [Fin.val_addNat] at this
    exact Fin.ext (by omega)
  · by_contra hc
    exact hi ⟨⟨i.val - z, by omega⟩, Fin.ext (by simp; omega)⟩

theorem circ_lead {n n' t : ℕ} (x y : Fin N → ℝ) (hN : N ≤ n) (ht : t + N ≤ n) (hn : n ≤ n') (h' : N + z ≤ n') :
    circ n' (lead z x) (lead z y) t = circ n x y t := by
  rw [circ_corr n x y t hN ht, ← circ_corr n' x y t (by omega) (by omega)]
  exact circ_delayed x y (Or.inr ⟨h', h'⟩) t

theorem normalizeGrad_lead (x : Fin N → ℝ) {κ : Type} (g : κ → XR) {f' : (κ → ℝ) → Fin (N + z) → ℝ} {f : (κ → ℝ) → Fin N → ℝ}
    (hf : ∀ g t, f' g (Fin.addNat t z) = f g t) (t : Fin N) :
    preprocessGrad false (lead z x) (lift g f') (Fin.addNat t z) = preprocessGrad false x (lift g f) t := by
  have h1 : ∑ u : Fin (N + z), lead z x u ^ 2 = ∑ u, x u ^ 2 := by
    rw [sum_lead _ fun t ht => by rw [lead_of_lt x ht]; norm_num]
    simp only [lead_addNat]
  unfold preprocessGrad normalizeGrad lift
  simp only [Bool.false_eq_true, if_false]
  rw [h1]
  by_cases h : ∀ k, (g k).toReal?.isSome
  · simp only [if_pos h]
    have h2 : ∀ (d : ℝ), xsum (fun t : Fin (N + z) => mul (neg (fin (f' (fun k => (g k).toReal?.getD 0) t))) (fin (lead z x t / d / d))) =
        xsum fun t => mul (neg (fin (f (fun k => (g k).toReal?.getD 0) t))) (fin (x t / d / d)) := by
      intro d
      show xsum (fun t : Fin (N + z) => fin (-f' (fun k => (g k).toReal?.getD 0) t * (lead z x t / d / d))) =
        xsum fun t => fin (-f (fun k => (g k).toReal?.getD 0) t * (x t / d / d))
      rw [xsum_fin, xsum_fin, sum_lead _ fun t ht => by rw [lead_of_lt x ht]; simp]
      simp only [lead_addNat, hf]
    rw [h2, hf, lead_addNat]
  · simp only [if_neg h]
    rfl

theorem single_lead (t : Fin N) : lead z (Pi.single t (1 : ℝ) : Fin N → ℝ) = Pi.single (Fin.addNat t z) 1 := by
  funext u
  by_cases hu : u.val < z
  · rw [lead_of_lt _ hu, Pi.single_eq_of_ne]
    intro h
    rw [h] at hu
    simp at hu
  · obtain ⟨v, rfl⟩ : ∃ v : Fin N, u = Fin.addNat v z := ⟨⟨u.val - z, by omega⟩, Fin.ext (by simp; omega)⟩
    rw [lead_addNat]
    by_cases h : v = t
    · rw [h, Pi.single_eq_same, Pi.single_eq_same]
    · rw [Pi.single_eq_of_ne h, Pi.single_eq_of_ne]
      intro h'
      have := congrArg Fin.val h'
      simp only [Fin.val_addNat] at this
      exact h (Fin.ext (by omega))

section back

variable {K n n' : ℕ} (hn : n ≠ 0) (hN : N ≤ n) (hK : K + N ≤ n + 1) (h : n ≤ n') (h' : N + z ≤ n')
include hn hN hK h h'

theorem estBack_lead (x : Fin r → Fin N → ℝ) (gxc : Fin r → Fin K → ℝ) (t : Fin N) :
    estBack n' (fun k => lead z (x k)) gxc (Fin.addNat t z) = estBack n x gxc t := by
  have h0 : 0 < N := t.pos
  have a := estBack_adjoint hn (by omega) hN x gxc (Pi.single t 1)
  have a' := estBack_adjoint (n := n') (by omega) (by omega) h' (fun k => lead z (x k)) gxc (Pi.single (Fin.addNat t z) 1)
  simp only [Pi.single_apply, mul_ite, mul_one, mul_zero, Finset.sum_ite_eq', Finset.mem_univ, if_true] at a a'
  rw [a, a']
  refine Finset.sum_congr rfl fun k _ => Finset.sum_congr rfl fun l _ => ?_
  rw [← single_lead, circ_lead _ _ hN (by omega) h h']

theorem refBack_lead (x : Fin N → ℝ) (y : Fin e → Fin N → ℝ) (gxc : Fin e → Fin K → ℝ) (gacf : Fin K → ℝ) (t : Fin N) :
    refBack n' (lead z x) (fun j => lead z (y j)) gxc gacf (Fin.addNat t z) =
      refBack n x y gxc gacf t := by
  have h0 : 0 < N := t.pos
  have a := refBack_adjoint hn (by omega) hN x y gxc gacf (Pi.single t 1)
  have a' := refBack_adjoint (n := n') (by omega) (by omega) h' (lead z x) (fun j => lead z (y j))
    gxc gacf (Pi.single (Fin.addNat t z) 1)
  simp only [Pi.single_apply, mul_ite, mul_one, mul_zero, Finset.sum_ite_eq', Finset.mem_univ, if_true] at a a'
  rw [a, a', ← single_lead]
  refine congrArg₂ (· + ·) (Finset.sum_congr rfl fun j _ => Finset.sum_congr rfl fun l _ => ?_) (Finset.sum_congr rfl fun l _ => ?_)
  · rw [circ_lead _ _ hN (by omega) h h']
  · rw [circ_lead _ _ hN (by omega) h h', circ_lead _ _ hN (by omega) h h']

end back

section stats

variable (hN : 0 < N) (hf : FilterFits N o.filterLength) (hz : o.zeroMean = false)
include hN hf hz

theorem related_lead (ref : Sig s r N) (est : Sig s e N) :
    Related o ref est (delayed z ref) (delayed z est) id (fun _ => Equiv.refl _) (fun _ => id) (fun _ _ => 1) (fun _ _ => 1) := by
  obtain ⟨n, n', hn, hn', -, a3, a4, a5, a8, a6, a7⟩ := sizes_padded hN hf z
  refine ⟨fun _ _ => one_mul 1, fun _ _ => one_mul 1, fun m k l => ?_, fun m k l => ?_, fun _ => rfl, fun n1 h1 => ?_,
    fun n1 n1' h1 h1' m k l t ht => ?_, fun n1 n1' h1 h1' m k l t ht => ?_⟩
  · rw [prep_delayed hz, one_mul, one_mul]
    exact dot_delayed z _ _
  · rw [prep_delayed hz, prep_delayed hz, one_mul, one_mul, corr_zero, corr_zero]
    exact dot_delayed z _ _
  · rw [hn] at h1; cases h1
    exact ⟨n', hn', by omega, by omega⟩
  · rw [hn] at h1; cases h1
    rw [hn'] at h1'; cases h1'
    rw [prep_delayed hz, one_mul, one_mul]
    exact circ_lead _ _ a3 (by omega) a5 a8
  · rw [hn] at h1; cases h1
    rw [hn'] at h1'; cases h1'
    rw [prep_delayed hz, prep_delayed hz, one_mul, one_mul]
    exact circ_lead _ _ a3 (by omega) a5 a8

theorem stats_lead (hL : 2 ≤ o.filterLength) (ref : Sig s r N) (est : Sig s e N) {n n' : ℕ} (hn : nFft N = .ok n) (hn' : nFft (N + z) = .ok n') :
    (∀ m k, sdrAcf o n' (delayed z ref) m k = sdrAcf o n ref m k) ∧
      ∀ m k j, vec o.filterLength (sdrXcorr o n' (delayed z ref) (delayed z est) m k j) = vec o.filterLength (sdrXcorr o n ref est m k j) := by
  obtain ⟨m, m', a1, a2, -, a3, a4, a5, a8, a6, a7⟩ := sizes_padded hN hf z
  rw [hn] at a1; cases a1
  rw [hn'] at a2; cases a2
  have hR := related_lead hN hf hz (z := z) ref est
  refine ⟨fun m k => related_acf hR hn hn' a6 a7 hL m k, fun m k j => ?_⟩
  rw [related_xcorr hR hn hn' a6 a7 hL m k j]
  simp

end stats

/-- `lift` of formulas on the samples after the silence. -/
theorem preprocessGrad_lead (hz : o.zeroMean = false) (x : Sig s c N) (m : BIdx s) (k : Fin c) {κ : Type} (g : κ → XR)
    {f' : (κ → ℝ) → Fin (N + z) → ℝ} {f : (κ → ℝ) → Fin N → ℝ} (hf : ∀ g t, f' g (Fin.addNat t z) = f g t) (t : Fin N) :
    preprocessGrad o.zeroMean (delayed z x m k) (lift g f') (Fin.addNat t z) = preprocessGrad o.zeroMean (x m k) (lift g f) t := by
  rw [hz]
  exact normalizeGrad_lead (x m k) g hf t

theorem delayed_addNat (x : Sig s c N) (m : BIdx s) (k : Fin c) (t : Fin N) : delayed z x m k (Fin.addNat t z) = x m k t := lead_addNat (x m k) t

section si

variable (hz : o.zeroMean = false)
include hz

theorem dot_prep_lead (ref : Sig s r N) (est : Sig s e N) (m : BIdx s) (k : Fin r) (j : Fin e) :
    dot (prep o (delayed z ref) m k) (prep o (delayed z est) m j) = dot (prep o ref m k) (prep o est m j) := by
  rw [prep_delayed hz, prep_delayed hz]
  exact dot_delayed z _ _

/-- **C109**, `sdr_loss` with `filter_length=1` and `si_sdr_loss`, `pairwise=True`. -/
theorem C109_si_pairwise (ref : Sig s r N) (est : Sig s e N) (w : BIdx s → Fin r → Fin e → ℝ) :
    afterSilence z (gradEst o (delayed z ref) (delayed z est) w) = gradEst o ref est w ∧
      afterSilence z (gradRef o (delayed z ref) (delayed z est) w) = gradRef o ref est w := by
  have h : innerGrad o (delayed z ref) (delayed z est) w = innerGrad o ref est w := by
    funext m k j
    unfold innerGrad
    rw [dot_prep_lead hz]
  have ht : ∀ m k j, innerGrad o ref est w m k j = nan ∨ ∃ a, innerGrad o ref est w m k j = fin a := fun m k j =>
    mul_tame (decibelGrad_tame _ (sq_nonneg _) (dot_sq_le ref est m k j) _) _
  constructor
  · funext m j t
    unfold afterSilence gradEst
    rw [h, prep_delayed hz, xsum_lift (fun k => ht m k j), xsum_lift fun k => ht m k j]
    refine preprocessGrad_lead hz est m j _ (fun g t => ?_) t
    simp only [delayed_addNat]
  · funext m k t
    unfold afterSilence gradRef
    rw [h, prep_delayed hz, xsum_lift (fun j => ht m k j), xsum_lift fun j => ht m k j]
    refine preprocessGrad_lead hz ref m k _ (fun g t => ?_) t
    simp only [delayed_addNat]

/-- **C109**, `sdr_loss` with `filter_length=1` and `si_sdr_loss`, channel by channel. -/
theorem C109_si (ref est : Sig s c N) (w : BIdx s → Fin c → ℝ) :
    afterSilence z (gradEstDiag o (delayed z ref) (delayed z est) w) = gradEstDiag o ref est w ∧
      afterSilence z (gradRefDiag o (delayed z ref) (delayed z est) w) = gradRefDiag o ref est w := by
  have h : innerGradDiag o (delayed z ref) (delayed z est) w = innerGradDiag o ref est w := by
    funext m k
    unfold innerGradDiag
    rw [dot_prep_lead hz]
  have ht : ∀ m k, innerGradDiag o ref est w m k = nan ∨ ∃ a, innerGradDiag o ref est w m k = fin a := fun m k =>
    mul_tame (decibelGrad_tame _ (sq_nonneg _) (dot_sq_le ref est m k k) _) _
  have hs : ∀ (n : ℕ) (g : XR) (x : Fin n → ℝ), (fun t => mul g (fin (x t))) = fun t => xsum fun _ : Fin 1 => mul g (fin (x t)) := fun n g x =>
    funext fun t => (xsum_one fun _ => mul g (fin (x t))).symm
  constructor
  · funext m k t
    unfold afterSilence gradEstDiag
    rw [h, prep_delayed hz, hs, hs, xsum_lift (fun _ => ht m k) (fun _ => _), xsum_lift (fun _ => ht m k) fun _ => _]
    refine preprocessGrad_lead hz est m k _ (fun g t => ?_) t
    simp only [delayed_addNat]
  · funext m k t
    unfold afterSilence gradRefDiag
    rw [h, prep_delayed hz, hs, hs, xsum_lift (fun _ => ht m k) (fun _ => _), xsum_lift (fun _ => ht m k) fun _ => _]
    refine preprocessGrad_lead hz ref m k _ (fun g t => ?_) t
    simp only [delayed_addNat]

end si

section pairs

variable (hL : 2 ≤ o.filterLength) (hN : 0 < N) (hf : FilterFits N o.filterLength) (hz : o.zeroMean = false)
include hL hN hf hz

/-- **C109**, `sdr_loss` with `pairwise=True` and several taps. -/
theorem C109_sdr_pairwise (ref : Sig s r N) (est : Sig s e N) (w : BIdx s → Fin r → Fin e → ℝ) :
    (gradEstFir o (delayed z ref) (delayed z est) w).map (afterSilence z) = gradEstFir o ref est w ∧
      (gradRefFir o (delayed z ref) (delayed z est) w).map (afterSilence z) = gradRefFir o ref est w := by
  obtain ⟨n, n', hn, hn', h0, h1, h2, h3, h4, h5, h6⟩ := sizes_padded hN hf z
  obtain ⟨ha, hx⟩ := stats_lead (z := z) hN hf hz hL ref est hn hn'
  unfold gradEstFir gradRefFir
  rw [forward_unfold hn h5, forward_unfold hn' h6]
  simp only [ha, hx]
  cases solveStack (fun i : BIdx s × Fin r => toeplitz torchBackend o.filterLength (sdrAcf o n ref i.1 i.2))
        (fun i j => vec o.filterLength (sdrXcorr o n ref est i.1 i.2 j)) with
  | error err => exact ⟨rfl, rfl⟩
  | ok sol =>
    constructor
    · show Except.ok _ = Except.ok _
      congr 1
      funext m j t
      refine preprocessGrad_lead hz est m j _ (fun g t => ?_) t
      rw [prep_delayed hz]
      exact estBack_lead h0 h1 h2 h3 h4 _ _ t
    · show Except.ok _ = Except.ok _
      congr 1
      funext m k t
      refine preprocessGrad_lead hz ref m k _ (fun g t => ?_) t
      rw [prep_delayed hz, prep_delayed hz]
      exact refBack_lead h0 h1 h2 h3 h4 _ _ _ _ t

/-- **C109**, `sdr_loss` with `use_cg_iter` and `pairwise=True`. -/
theorem C109_iterative_pairwise (ref : Sig s r N) (est : Sig s e N) (w : BIdx s → Fin r → Fin e → ℝ) :
    (gradEstCg o it (delayed z ref) (delayed z est) w).map (afterSilence z) = gradEstCg o it ref est w ∧
      (gradRefCg o it (delayed z ref) (delayed z est) w).map (afterSilence z) = gradRefCg o it ref est w := by
  obtain ⟨n, n', hn, hn', h0, h1, h2, h3, h4, h5, h6⟩ := sizes_padded hN hf z
  obtain ⟨ha, hx⟩ := stats_lead (z := z) hN hf hz hL ref est hn hn'
  have u := gradCg_unfold (it := it) hn h5 ref est w
  have u' := gradCg_unfold (it := it) hn' h6 (delayed z ref) (delayed z est) w
  simp only [ha, hx] at u'
  rw [u.1, u.2, u'.1, u'.2]
  constructor
  · show Except.ok _ = Except.ok _
    congr 1
    funext m j t
    refine preprocessGrad_lead hz est m j _ (fun g t => ?_) t
    rw [prep_delayed hz]
    exact estBack_lead h0 h1 h2 h3 h4 _ _ t
  · show Except.ok _ = Except.ok _
    congr 1
    funext m k t
    refine preprocessGrad_lead hz ref m k _ (fun g t => ?_) t
    rw [prep_delayed hz, prep_delayed hz]
    exact refBack_lead h0 h1 h2 h3 h4 _ _ _ _ t

/-- **C109**, `sdr_loss` with several taps, channel by channel. -/
theorem C109_sdr (ref est : Sig s c N) (w : BIdx s → Fin c → ℝ) :
    (gradEstFirDiag o (delayed z ref) (delayed z est) w).map (afterSilence z) = gradEstFirDiag o ref est w ∧
      (gradRefFirDiag o (delayed z ref) (delayed z est) w).map (afterSilence z) = gradRefFirDiag o ref est w := by
  obtain ⟨n, n', hn, hn', h0, h1, h2, h3, h4, h5, h6⟩ := sizes_padded hN hf z
  obtain ⟨ha, hx⟩ := stats_lead (z := z) hN hf hz hL ref est hn hn'
  unfold gradEstFirDiag gradRefFirDiag
  rw [forwardDiag_unfold hn h5, forwardDiag_unfold hn' h6]
  simp only [ha, hx]
  cases solveStack (fun i : BIdx s × Fin c => toeplitz torchBackend o.filterLength (sdrAcf o n ref i.1 i.2))
        (fun i (_ : Fin 1) => vec o.filterLength (sdrXcorr o n ref est i.1 i.2 i.2)) with
  | error err => exact ⟨rfl, rfl⟩
  | ok sol =>
    constructor
    · show Except.ok _ = Except.ok _
      congr 1
      funext m k t
      refine preprocessGrad_lead hz est m k _ (fun g t => ?_) t
      rw [prep_delayed hz]
      exact estBack_lead h0 h1 h2 h3 h4 (fun _ => prep o ref m k) _ t
    · show Except.ok _ = Except.ok _
      congr 1
      funext m k t
      refine preprocessGrad_lead hz ref m k _ (fun g t => ?_) t
      rw [prep_delayed hz, prep_delayed hz]
      exact refBack_lead h0 h1 h2 h3 h4 _ (fun _ => prep o est m k) _ _ t

/-- **C109**, `sdr_loss` with `use_cg_iter`, channel by channel. -/
theorem C109_iterative (ref est : Sig s c N) (w : BIdx s → Fin c → ℝ) :
    (gradEstCgDiag o it (delayed z ref) (delayed z est) w).map (afterSilence z) = gradEstCgDiag o it ref est w ∧
      (gradRefCgDiag o it (delayed z ref) (delayed z est) w).map (afterSilence z) = gradRefCgDiag o it ref est w := by
  obtain ⟨n, n', hn, hn', h0, h1, h2, h3, h4, h5, h6⟩ := sizes_padded hN hf z
  obtain ⟨ha, hx⟩ := stats_lead (z := z) hN hf hz hL ref est hn hn'
  have u := gradCgDiag_unfold (it := it) hn h5 ref est w
  have u' := gradCgDiag_unfold (it := it) hn' h6 (delayed z ref) (delayed z est) w
  simp only [ha, hx] at u'
  rw [u.1, u.2, u'.1, u'.2]
  constructor
  · show Except.ok _ = Except.ok _
    congr 1
    funext m k t
    refine preprocessGrad_lead hz est m k _ (fun g t => ?_) t
    rw [prep_delayed hz]
    exact estBack_lead h0 h1 h2 h3 h4 (fun _ => prep o ref m k) _ t
  · show Except.ok _ = Except.ok _
    congr 1
    funext m k t
    refine preprocessGrad_lead hz ref m k _ (fun g t => ?_) t
    rw [prep_delayed hz, prep_delayed hz]
    exact refBack_lead h0 h1 h2 h3 h4 _ (fun _ => prep o est m k) _ _ t

end pairs

/-! ### the best permutation -/

section pit

variable (hN : 0 < N) (hf : FilterFits N o.filterLength) (hz : o.zeroMean = false) (ref : Sig s r N) (est : Sig s e N) (cs : Bool)
  (v : BIdx s → Fin (min r e) → ℝ)
include hN hf hz

theorem pitWeights_lead : pitWeights o cs (delayed z ref) (delayed z est) v = pitWeights o cs ref est v := by
  unfold pitWeights
  rw [sdrLossPair_same (Or.inl rfl) (same_delayed hz z ref est)]
  have := sdrLossPair_same (B := torchBackend) (Or.inl rfl) (same_padded hN hf hz z ref est)
  unfold padded at this
  rw [this]

/-- **C109**, `sdr` and `sdr_pit_loss` (`cs`) with `filter_length=1`. -/
theorem C109_pit_si : (gradEstPit o cs (delayed z ref) (delayed z est) v).map (afterSilence z) = gradEstPit o cs ref est v ∧
    (gradRefPit o cs (delayed z ref) (delayed z est) v).map (afterSilence z) = gradRefPit o cs ref est v := by
  unfold gradEstPit gradRefPit
  rw [pitWeights_lead hN hf hz]
  cases pitWeights o cs ref est v with
  | error err => exact ⟨rfl, rfl⟩
  | ok w => exact ⟨congrArg Except.ok (C109_si_pairwise hz ref est w).1, congrArg Except.ok (C109_si_pairwise hz ref est w).2⟩

/-- **C109**, `sdr` and `sdr_pit_loss` with several taps. -/
theorem C109_pit (hL : 2 ≤ o.filterLength) :
    (gradEstFirPit o cs (delayed z ref) (delayed z est) v).map (afterSilence z) = gradEstFirPit o cs ref est v ∧
      (gradRefFirPit o cs (delayed z ref) (delayed z est) v).map (afterSilence z) = gradRefFirPit o cs ref est v := by
  unfold gradEstFirPit gradRefFirPit
  rw [pitWeights_lead hN hf hz]
  cases pitWeights o cs ref est v with
  | error err => exact ⟨rfl, rfl⟩
  | ok w => exact C109_sdr_pairwise hL hN hf hz ref est w

/-- **C109**, `sdr` and `sdr_pit_loss` with `use_cg_iter`. -/
theorem C109_pit_iterative (hL : 2 ≤ o.filterLength) :
    (gradEstCgPit o it cs (delayed z ref) (delayed z est) v).map (afterSilence z) = gradEstCgPit o it cs ref est v ∧
      (gradRefCgPit o it cs (delayed z ref) (delayed z est) v).map (afterSilence z) = gradRefCgPit o it cs ref est v := by
  unfold gradEstCgPit gradRefCgPit
  rw [pitWeights_lead hN hf hz]
  cases pitWeights o cs ref est v with
  | error err => exact ⟨rfl, rfl⟩
  | ok w => exact C109_iterative_pairwise hL hN hf hz ref est w

end pit

/-! ### examples -/

/-- Ten silent samples before signals whose gradients exist (C72): those of the original samples stay. -/
example (w : BIdx [] → Fin 2 → Fin 2 → ℝ) : ∃ gE gE', gradEstFir (Ex.clamped none) Ex.ref Ex.est w = .ok gE ∧
    gradEstFir (Ex.clamped none) (delayed 10 Ex.ref) (delayed 10 Ex.est) w = .ok gE' ∧ ∀ m j t, gE' m j (Fin.addNat t 10) = gE m j t := by
  obtain ⟨gE, gR, h1, h2, -⟩ := C72_finite (o := Ex.clamped none) (by decide) rfl rfl (Ex.sdrLossPair_cl _) w
  have hf : FilterFits 3 (Ex.clamped none).filterLength := by
    show 2 + 3 ≤ 2 ^ Nat.clog 2 (2 * 3 - 1) + 1
    have := Nat.le_pow_clog (b := 2) (by norm_num) (2 * 3 - 1)
    omega
  have h4 := (C109_sdr_pairwise (z := 10) (o := Ex.clamped none) (by decide) (by norm_num) hf rfl Ex.ref Ex.est w).1
  rw [h1] at h4
  cases h5 : gradEstFir (Ex.clamped none) (delayed 10 Ex.ref) (delayed 10 Ex.est) w with
  | error err => rw [h5] at h4; cases h4
  | ok gE' =>
    rw [h5] at h4
    have h6 : afterSilence 10 gE' = gE := Except.ok.inj h4
    exact ⟨gE, gE', h1, rfl, fun m j t => by rw [← h6]; rfl⟩

end FBE.Props
