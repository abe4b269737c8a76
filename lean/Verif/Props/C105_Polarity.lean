import Verif.Proofs.Polarity
import Verif.Props.C97_Volume

/-!
# C105: gradients of signals with the polarity inverted
-/

namespace FBE.Props

open Classical FBE.Spec FBE.Backward FBE.Polarity XR

variable {s : List ℕ} {r e c N M it : ℕ} {o : Opts}

theorem preprocessGrad_inverted (zm : Bool) (f : BIdx s → Fin c → Bool) (x : Sig s c N) (m : BIdx s) (k : Fin c) (g : Fin N → XR) :
    preprocessGrad zm (inverted f x m k) (fun t => pol (f m k) (g t)) = fun t => pol (f m k) (preprocessGrad zm (x m k) g t) := by
  rw [inverted_eq, preprocessGrad_pol]

theorem dot_inverted (fr : BIdx s → Fin r → Bool) (fe : BIdx s → Fin e → Bool) (ref : Sig s r N) (est : Sig s e N) (m : BIdx s)
    (k : Fin r) (j : Fin e) : dot (prep o (inverted fr ref) m k) (prep o (inverted fe est) m j) =
      polSgn (xor (fr m k) (fe m j)) * dot (prep o ref m k) (prep o est m j) := by
  rw [prep_inverted, prep_inverted, sgn_xor]
  unfold dot
  rw [Finset.mul_sum]
  exact Finset.sum_congr rfl fun t _ => by ring

theorem sqGrad_inverted (a : Bool) (db : Option ℝ) (u w : ℝ) :
    mul (decibelGrad db ((polSgn a * u) ^ 2) (fin w)) (fin (2 * (polSgn a * u))) = pol a (mul (decibelGrad db (u ^ 2) (fin w)) (fin (2 * u))) := by
  have h1 : (polSgn a * u) ^ 2 = u ^ 2 := by linear_combination u ^ 2 * polSgn_sq a
  have h2 : 2 * (polSgn a * u) = polSgn a * (2 * u) := by ring
  rw [h1, h2]
  have := pol_mul false a (decibelGrad db (u ^ 2) (fin w)) (2 * u)
  rwa [Bool.false_xor] at this

section pairs

variable (fr : BIdx s → Fin r → Bool) (fe : BIdx s → Fin e → Bool)

/-- **C105**, `sdr_loss` with `filter_length=1` and `si_sdr_loss`, all pairs. -/
theorem C105_si_pairwise (ref : Sig s r N) (est : Sig s e N) (w : BIdx s → Fin r → Fin e → ℝ) :
    gradEst o (inverted fr ref) (inverted fe est) w = invertedGrad fe (gradEst o ref est w) ∧
      gradRef o (inverted fr ref) (inverted fe est) w = invertedGrad fr (gradRef o ref est w) := by
  have h : ∀ m k j, innerGrad o (inverted fr ref) (inverted fe est) w m k j = pol (xor (fr m k) (fe m j)) (innerGrad o ref est w m k j) := by
    intro m k j
    unfold innerGrad
    rw [dot_inverted]
    exact sqGrad_inverted _ _ _ _
  constructor
  · funext m j
    unfold gradEst
    rw [invertedGrad_eq]
    dsimp only
    rw [← preprocessGrad_inverted]
    congr 1
    funext t
    rw [← pol_xsum]
    congr 1
    funext k
    rw [h, prep_inverted, pol_mul]
    congr 1
    cases fr m k <;> cases fe m j <;> rfl
  · funext m k
    unfold gradRef
    rw [invertedGrad_eq]
    dsimp only
    rw [← preprocessGrad_inverted]
    congr 1
    funext t
    rw [← pol_xsum]
    congr 1
    funext j
    rw [h, prep_inverted, pol_mul]
    congr 1
    cases fr m k <;> cases fe m j <;> rfl

variable (ref : Sig s r N) (est : Sig s e M)

/-- **C105**, `sdr_loss` with longer filters and the direct solver, all pairs; exceptions included. -/
theorem C105_sdr_pairwise (hL : 2 ≤ o.filterLength) (w : BIdx s → Fin r → Fin e → ℝ) :
    gradEstFir o (inverted fr ref) (inverted fe est) w = (gradEstFir o ref est w).map (invertedGrad fe) ∧
      gradRefFir o (inverted fr ref) (inverted fe est) w = (gradRefFir o ref est w).map (invertedGrad fr) := by
  constructor
  · unfold gradEstFir
    rw [forward_inverted hL]
    cases forward o ref est with
    | error err => rfl
    | ok F =>
      show Except.ok _ = Except.ok _
      congr 1
      funext m j
      rw [invertedGrad_eq]
      dsimp only
      rw [← preprocessGrad_inverted]
      congr 1
      simp only [coh_signed]
      refine lift_signed _ _ _ _ fun g t => ?_
      have : prep o (inverted fr ref) m = fun k t => polSgn (fr m k) * prep o ref m k t := funext fun k => prep_inverted fr ref m k
      rw [this, ← estBack_signed _ _ _ (fr m)]
      congr 1
      funext k
      exact xcorrGrad_signed _ _ _ _ _
  · unfold gradRefFir
    rw [forward_inverted hL]
    cases forward o ref est with
    | error err => rfl
    | ok F =>
      show Except.ok _ = Except.ok _
      congr 1
      funext m k
      rw [invertedGrad_eq]
      dsimp only
      rw [← preprocessGrad_inverted]
      congr 1
      simp only [coh_signed]
      refine lift_signed _ _ _ _ fun g t => ?_
      have : prep o (inverted fe est) m = fun j t => polSgn (fe m j) * prep o est m j t := funext fun j => prep_inverted fe est m j
      rw [this, prep_inverted, ← refBack_signed _ _ _ _ _ _ (fe m)]
      have e1 : (fun j => xcorrGrad (F.R m k) (fun l => polSgn (fr m k) * polSgn (fe m j) * F.xc m k j l)
          (fun l => polSgn (fr m k) * polSgn (fe m j) * F.sol m k j l) (g j)) =
          fun j l => polSgn (fr m k) * polSgn (fe m j) * xcorrGrad (F.R m k) (F.xc m k j) (F.sol m k j) (g j) l :=
        funext fun j => xcorrGrad_signed _ _ _ _ _
      have e2 := matGrad_signed (F.R m k) (F.xc m k) (F.sol m k) (fun j => polSgn (fr m k) * polSgn (fe m j))
        (fun j => sgn_mul_sq _ _) g
      exact congrArg₂ (fun a b => refBack F.n (fun t => polSgn (fr m k) * prep o ref m k t)
        (fun j t => polSgn (fe m j) * prep o est m j t) a (toeplitzGrad b) t) e1 e2

/-- **C105**, `sdr_loss` with `use_cg_iter`, all pairs; exceptions included. -/
theorem C105_iterative_pairwise (hL : 2 ≤ o.filterLength) (w : BIdx s → Fin r → Fin e → ℝ) :
    gradEstCg o it (inverted fr ref) (inverted fe est) w = (gradEstCg o it ref est w).map (invertedGrad fe) ∧
      gradRefCg o it (inverted fr ref) (inverted fe est) w = (gradRefCg o it ref est w).map (invertedGrad fr) := by
  unfold gradEstCg gradRefCg
  cases hn : nFft N M with
  | error err => exact ⟨rfl, rfl⟩
  | ok n =>
    have hR := related_inverted (o := o) fr fe ref est
    have h1 : ∀ m k, sdrAcf o n (inverted fr ref) m k = sdrAcf o n ref m k := fun m k => related_acf hR hn hn rfl rfl hL m k
    have h2 : ∀ m k j, vec (min o.filterLength n) (sdrXcorr o n (inverted fr ref) (inverted fe est) m k j) =
        fun l => polSgn (fr m k) * polSgn (fe m j) * vec (min o.filterLength n) (sdrXcorr o n ref est m k j) l :=
      fun m k j => related_xcorr hR hn hn rfl rfl hL m k j
    have hK : 0 < min o.filterLength n := lt_min (by omega) (Nat.pos_of_ne_zero (fam_of_nFft (o := o) hn).1)
    have hc : ∀ m k, (sdrAcf o n ref m k).length = min o.filterLength n := fun m k => length_sdrAcf (fam_of_nFft (o := o) hn) rfl (by omega) ref m k
    have h3 := fun m k j => cohCg_signed (hc m k) hK (sgn_or (fr m k) (fe m j))
      (vec (min o.filterLength n) (sdrXcorr o n ref est m k j)) it
    have h4 := fun m k j g => cohCgGrad_signed (hc m k) hK (sgn_or (fr m k) (fe m j))
      (vec (min o.filterLength n) (sdrXcorr o n ref est m k j)) it g
    constructor
    · show Except.ok _ = Except.ok _
      congr 1
      funext m j
      rw [invertedGrad_eq]
      dsimp only
      rw [← preprocessGrad_inverted]
      congr 1
      simp only [h1, h2, h3]
      refine lift_signed _ _ _ _ fun g t => ?_
      have : prep o (inverted fr ref) m = fun k t => polSgn (fr m k) * prep o ref m k t := funext fun k => prep_inverted fr ref m k
      rw [this, ← estBack_signed _ _ _ (fr m)]
      congr 1
      funext k
      exact (h4 m k j (g k)).1
    · show Except.ok _ = Except.ok _
      congr 1
      funext m k
      rw [invertedGrad_eq]
      dsimp only
      rw [← preprocessGrad_inverted]
      congr 1
      simp only [h1, h2, h3]
      refine lift_signed _ _ _ _ fun g t => ?_
      have : prep o (inverted fe est) m = fun j t => polSgn (fe m j) * prep o est m j t := funext fun j => prep_inverted fe est m j
      rw [this, prep_inverted, ← refBack_signed _ _ _ _ _ _ (fe m)]
      simp only [(h4 m k _ _).2.1, (h4 m k _ _).2.2, (h4 m k _ _).1]

theorem pitWeights_inverted (cs : Bool) (v : BIdx s → Fin (min r e) → ℝ) :
    pitWeights o cs (inverted fr ref) (inverted fe est) v = pitWeights o cs ref est v := by
  unfold pitWeights
  rw [sdrLossPair_same (Or.inl rfl) (same_inverted fr fe ref est)]

/-- **C105**, `sdr` and `sdr_pit_loss` (`cs`) with `filter_length=1`. -/
theorem C105_pit_si (est : Sig s e N) (cs : Bool) (v : BIdx s → Fin (min r e) → ℝ) :
    gradEstPit o cs (inverted fr ref) (inverted fe est) v = (gradEstPit o cs ref est v).map (invertedGrad fe) ∧
      gradRefPit o cs (inverted fr ref) (inverted fe est) v = (gradRefPit o cs ref est v).map (invertedGrad fr) := by
  unfold gradEstPit gradRefPit
  rw [pitWeights_inverted]
  cases pitWeights o cs ref est v with
  | error err => exact ⟨rfl, rfl⟩
  | ok w => exact ⟨congrArg Except.ok (C105_si_pairwise fr fe ref est w).1, congrArg Except.ok (C105_si_pairwise fr fe ref est w).2⟩

/-- **C105**, `sdr` and `sdr_pit_loss` (`cs`) with longer filters and the direct solver. -/
theorem C105_pit (hL : 2 ≤ o.filterLength) (cs : Bool) (v : BIdx s → Fin (min r e) → ℝ) :
    gradEstFirPit o cs (inverted fr ref) (inverted fe est) v = (gradEstFirPit o cs ref est v).map (invertedGrad fe) ∧
      gradRefFirPit o cs (inverted fr ref) (inverted fe est) v = (gradRefFirPit o cs ref est v).map (invertedGrad fr) := by
  unfold gradEstFirPit gradRefFirPit
  rw [pitWeights_inverted]
  cases pitWeights o cs ref est v with
  | error err => exact ⟨rfl, rfl⟩
  | ok w => exact C105_sdr_pairwise fr fe ref est hL w

/-- **C105**, `sdr` and `sdr_pit_loss` (`cs`) with `use_cg_iter`. -/
theorem C105_pit_iterative (hL : 2 ≤ o.filterLength) (cs : Bool) (v : BIdx s → Fin (min r e) → ℝ) :
    gradEstCgPit o it cs (inverted fr ref) (inverted fe est) v = (gradEstCgPit o it cs ref est v).map (invertedGrad fe) ∧
      gradRefCgPit o it cs (inverted fr ref) (inverted fe est) v = (gradRefCgPit o it cs ref est v).map (invertedGrad fr) := by
  unfold gradEstCgPit gradRefCgPit
  rw [pitWeights_inverted]
  cases pitWeights o cs ref est v with
  | error err => exact ⟨rfl, rfl⟩
  | ok w => exact C105_iterative_pairwise fr fe ref est hL w

end pairs

section aligned

variable (fr fe : BIdx s → Fin c → Bool) (ref : Sig s c N) (est : Sig s c M)

/-- **C105**, `sdr_loss` with `filter_length=1` and `si_sdr_loss`, channel by channel. -/
theorem C105_si (est : Sig s c N) (w : BIdx s → Fin c → ℝ) :
    gradEstDiag o (inverted fr ref) (inverted fe est) w = invertedGrad fe (gradEstDiag o ref est w) ∧
      gradRefDiag o (inverted fr ref) (inverted fe est) w = invertedGrad fr (gradRefDiag o ref est w) := by
  have h : ∀ m k, innerGradDiag o (inverted fr ref) (inverted fe est) w m k = pol (xor (fr m k) (fe m k)) (innerGradDiag o ref est w m k) := by
    intro m k
    unfold innerGradDiag
    rw [dot_inverted]
    exact sqGrad_inverted _ _ _ _
  constructor
  · funext m k
    unfold gradEstDiag
    rw [invertedGrad_eq]
    dsimp only
    rw [← preprocessGrad_inverted]
    congr 1
    funext t
    rw [h, prep_inverted, pol_mul]
    congr 1
    cases fr m k <;> cases fe m k <;> rfl
  · funext m k
    unfold gradRefDiag
    rw [invertedGrad_eq]
    dsimp only
    rw [← preprocessGrad_inverted]
    congr 1
    funext t
    rw [h, prep_inverted, pol_mul]
    congr 1
    cases fr m k <;> cases fe m k <;> rfl

/-- **C105**, `sdr_loss` with longer filters and the direct solver, channel by channel; exceptions included. -/
theorem C105_sdr (hL : 2 ≤ o.filterLength) (w : BIdx s → Fin c → ℝ) :
    gradEstFirDiag o (inverted fr ref) (inverted fe est) w = (gradEstFirDiag o ref est w).map (invertedGrad fe) ∧
      gradRefFirDiag o (inverted fr ref) (inverted fe est) w = (gradRefFirDiag o ref est w).map (invertedGrad fr) := by
  have hcoh : ∀ (F : Forward s c 1) m k j, Forward.coh ⟨F.n, F.K, F.R, fun m k j l => polSgn (fr m k) * polSgn (fe m k) * F.xc m k j l,
      fun m k j l => polSgn (fr m k) * polSgn (fe m k) * F.sol m k j l⟩ m k j = F.coh m k j := by
    intro F m k j
    refine Finset.sum_congr rfl fun l _ => ?_
    show polSgn (fr m k) * polSgn (fe m k) * _ * (polSgn (fr m k) * polSgn (fe m k) * _) = _
    linear_combination (F.xc m k j l * F.sol m k j l) * sgn_mul_sq (fr m k) (fe m k)
  constructor
  · unfold gradEstFirDiag
    rw [forwardDiag_inverted hL]
    cases forwardDiag o ref est with
    | error err => rfl
    | ok F =>
      show Except.ok _ = Except.ok _
      congr 1
      funext m k
      rw [invertedGrad_eq]
      dsimp only
      rw [← preprocessGrad_inverted]
      congr 1
      simp only [hcoh]
      refine lift_signed _ _ _ _ fun g t => ?_
      rw [prep_inverted, ← estBack_signed _ _ _ (fun _ => fr m k)]
      simp only [xcorrGrad_signed]
  · unfold gradRefFirDiag
    rw [forwardDiag_inverted hL]
    cases forwardDiag o ref est with
    | error err => rfl
    | ok F =>
      show Except.ok _ = Except.ok _
      congr 1
      funext m k
      rw [invertedGrad_eq]
      dsimp only
      rw [← preprocessGrad_inverted]
      congr 1
      simp only [hcoh]
      refine lift_signed _ _ _ _ fun g t => ?_
      rw [prep_inverted, prep_inverted, ← refBack_signed _ _ _ _ _ _ (fun _ => fe m k)]
      simp only [xcorrGrad_signed]
      rw [matGrad_signed _ _ _ (fun _ => polSgn (fr m k) * polSgn (fe m k)) fun _ => sgn_mul_sq _ _]

/-- **C105**, `sdr_loss` with `use_cg_iter`, channel by channel; exceptions included. -/
theorem C105_iterative (hL : 2 ≤ o.filterLength) (w : BIdx s → Fin c → ℝ) :
    gradEstCgDiag o it (inverted fr ref) (inverted fe est) w = (gradEstCgDiag o it ref est w).map (invertedGrad fe) ∧
      gradRefCgDiag o it (inverted fr ref) (inverted fe est) w = (gradRefCgDiag o it ref est w).map (invertedGrad fr) := by
  unfold gradEstCgDiag gradRefCgDiag
  cases hn : nFft N M with
  | error err => exact ⟨rfl, rfl⟩
  | ok n =>
    have hR := related_inverted (o := o) fr fe ref est
    have h1 : ∀ m k, sdrAcf o n (inverted fr ref) m k = sdrAcf o n ref m k := fun m k => related_acf hR hn hn rfl rfl hL m k
    have h2 : ∀ m k, vec (min o.filterLength n) (sdrXcorr o n (inverted fr ref) (inverted fe est) m k k) =
        fun l => polSgn (fr m k) * polSgn (fe m k) * vec (min o.filterLength n) (sdrXcorr o n ref est m k k) l :=
      fun m k => related_xcorr hR hn hn rfl rfl hL m k k
    have hK : 0 < min o.filterLength n := lt_min (by omega) (Nat.pos_of_ne_zero (fam_of_nFft (o := o) hn).1)
    have hc : ∀ m k, (sdrAcf o n ref m k).length = min o.filterLength n := fun m k => length_sdrAcf (fam_of_nFft (o := o) hn) rfl (by omega) ref m k
    have h3 := fun m k => cohCg_signed (hc m k) hK (sgn_or (fr m k) (fe m k))
      (vec (min o.filterLength n) (sdrXcorr o n ref est m k k)) it
    have h4 := fun m k g => cohCgGrad_signed (hc m k) hK (sgn_or (fr m k) (fe m k))
      (vec (min o.filterLength n) (sdrXcorr o n ref est m k k)) it g
    constructor
    · show Except.ok _ = Except.ok _
      congr 1
      funext m k
      rw [invertedGrad_eq]
      dsimp only
      rw [← preprocessGrad_inverted]
      congr 1
      simp only [h1, h2, h3]
      refine lift_signed _ _ _ _ fun g t => ?_
      rw [prep_inverted, ← estBack_signed _ _ _ (fun _ => fr m k)]
      congr 1
      funext j
      exact (h4 m k (g j)).1
    · show Except.ok _ = Except.ok _
      congr 1
      funext m k
      rw [invertedGrad_eq]
      dsimp only
      rw [← preprocessGrad_inverted]
      congr 1
      simp only [h1, h2, h3]
      refine lift_signed _ _ _ _ fun g t => ?_
      rw [prep_inverted, prep_inverted, ← refBack_signed _ _ _ _ _ _ (fun _ => fe m k)]
      simp only [(h4 m k _).2.1, (h4 m k _).2.2, (h4 m k _).1]

end aligned

/-! ### examples -/

/-- One estimate inverted: all gradients exist (C72), and exactly those of that estimate change sign. -/
example (w : BIdx [] → Fin 2 → Fin 2 → ℝ) : ∃ gE gR, gradEstFir (Ex.clamped none) Ex.ref Ex.est w = .ok gE ∧
    gradRefFir (Ex.clamped none) Ex.ref Ex.est w = .ok gR ∧
    gradEstFir (Ex.clamped none) (inverted (fun _ _ => false) Ex.ref) (inverted (fun _ j => j = 0) Ex.est) w =
      .ok (fun m j t => if j = 0 then (gE m j t).neg else gE m j t) ∧
    gradRefFir (Ex.clamped none) (inverted (fun _ _ => false) Ex.ref) (inverted (fun _ j => j = 0) Ex.est) w = .ok gR := by
  obtain ⟨gE, gR, h1, h2, -⟩ := C72_finite (o := Ex.clamped none) (by decide) rfl rfl (Ex.sdrLossPair_cl _) w
  obtain ⟨h3, h4⟩ := C105_sdr_pairwise (o := Ex.clamped none) (fun _ _ => false) (fun _ j => decide (j = 0)) Ex.ref Ex.est (by decide) w
  rw [h1] at h3
  rw [h2] at h4
  refine ⟨gE, gR, h1, h2, ?_, h4⟩
  rw [h3]
  show Except.ok _ = Except.ok _
  congr 1
  funext m j t
  simp [invertedGrad]

/-- The inverted example is another signal. -/
example : inverted (fun _ j => decide (j = 0)) Ex.est ≠ (Ex.est : Sig [] 2 3) := by
  intro h
  have := congrFun (congrFun (congrFun h ()) 0) 0
  norm_num [inverted, Ex.est] at this

end FBE.Props
