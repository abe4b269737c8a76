import Verif.Proofs.Norm
import Verif.Proofs.Decibel
import Verif.Proofs.Perm
import Verif.Spec.Api

/-!
# Unfolding the public functions
-/

set_option linter.unusedSectionVars false

namespace FBE

open Spec XR

variable {s : List ℕ} {r e c N M : ℕ}

/-! ### `sdr` -/

theorem sdr_ok {B : Backend} {o : Opts} {rp cs : Bool} {ref : Sig s r N} {est : Sig s e M} {out}
    (h : sdr B o rp cs ref est = .ok out) : ∃ L p, sdrLossPair B o est ref = .ok L ∧
      solvePermutation B L (nArgs := 0) (fun i => i.elim0) = .ok p ∧
      out.sdr = (if cs then p.loss else fun m k => (p.loss m k).neg) ∧
      out.perm = if rp then some p.perm else none := by
  unfold sdr at h
  split at h
  · cases h
  · rename_i L hL
    split at h
    · cases h
    · rename_i p hp
      cases h
      exact ⟨L, p, hL, hp, rfl, rfl⟩

theorem sdr_of_ok {B : Backend} {o : Opts} (rp cs : Bool) {ref : Sig s r N} {est : Sig s e M} {L p}
    (hL : sdrLossPair B o est ref = .ok L)
    (hp : solvePermutation B L (nArgs := 0) (fun i => i.elim0) = .ok p) :
    sdr B o rp cs ref est = .ok ⟨if cs then p.loss else fun m k => (p.loss m k).neg,
      if rp then some p.perm else none⟩ := by
  unfold sdr
  rw [hL]
  simp only
  rw [hp]

/-- The negative SIR, SDR and SAR of all pairs. -/
noncomputable def negSir (o : Opts) (sd : BIdx s → Fin r → Fin e → ℝ) (sa : BIdx s → Fin e → ℝ) :
    BIdx s → Fin r → Fin e → XR := fun m k j => (baseMetrics o.clampDb (sd m k j) (sa m j)).2.1
noncomputable def negSdr (o : Opts) (sd : BIdx s → Fin r → Fin e → ℝ) (sa : BIdx s → Fin e → ℝ) :
    BIdx s → Fin r → Fin e → XR := fun m k j => (baseMetrics o.clampDb (sd m k j) (sa m j)).1
noncomputable def negSar (o : Opts) (sd : BIdx s → Fin r → Fin e → ℝ) (sa : BIdx s → Fin e → ℝ) :
    BIdx s → Fin r → Fin e → XR := fun m k j => (baseMetrics o.clampDb (sd m k j) (sa m j)).2.2

theorem bssEvalPerm_ok {B : Backend} {o : Opts} {ref : Sig s r N} {est : Sig s e M} {out}
    (h : bssEvalPerm B o ref est = .ok out) : ∃ sd sa p, sqCosPair B o ref est = .ok (sd, sa) ∧
      solvePermutation B (negSir o sd sa) (nArgs := 2) ![negSdr o sd sa, negSar o sd sa] = .ok p ∧
      out = ⟨fun m k => (p.args 0 m k).neg, fun m k => (p.loss m k).neg,
        fun m k => (p.args 1 m k).neg, some p.perm⟩ := by
  unfold bssEvalPerm at h
  split at h
  · cases h
  · rename_i sd sa hL
    simp only at h
    split at h
    · cases h
    · rename_i p hp
      cases h
      exact ⟨sd, sa, p, hL, hp, rfl⟩

theorem bssEvalPerm_of_ok {B : Backend} {o : Opts} {ref : Sig s r N} {est : Sig s e M} {sd sa p}
    (hL : sqCosPair B o ref est = .ok (sd, sa))
    (hp : solvePermutation B (negSir o sd sa) (nArgs := 2) ![negSdr o sd sa, negSar o sd sa] = .ok p) :
    bssEvalPerm B o ref est = .ok ⟨fun m k => (p.args 0 m k).neg, fun m k => (p.loss m k).neg,
        fun m k => (p.args 1 m k).neg, some p.perm⟩ := by
  unfold bssEvalPerm
  rw [hL]
  simp only
  unfold negSir negSdr negSar at hp
  rw [hp]

/-! ### totals -/

theorem eTotal_neg {n : ℕ} {v : Fin n → XR} (hn : ∀ k, v k ≠ nan)
    (h1 : ¬ ((∃ k, v k = pinf) ∧ ∃ k, v k = ninf)) :
    eTotal (fun k => (v k).neg) = - eTotal v := by
  have hn' : ∀ k, (v k).neg ≠ nan := fun k h => hn k (neg_eq_nan.1 h)
  by_cases hp : nPos v = 0
  · by_cases hg : nNeg v = 0
    · have e1 : nPos (fun k => (v k).neg) = 0 := nPos_eq_zero_iff.2 fun k hk => by
        have := (nNeg_eq_zero_iff.1 hg) k
        cases h : v k <;> simp_all [neg]
      have e2 : nNeg (fun k => (v k).neg) = 0 := nNeg_eq_zero_iff.2 fun k hk => by
        have := (nPos_eq_zero_iff.1 hp) k
        cases h : v k <;> simp_all [neg]
      rw [eTotal_eq_finSum hn' e1 e2, eTotal_eq_finSum hn hp hg, ← EReal.coe_neg]
      congr 1
      unfold finSum
      rw [← Finset.sum_neg_distrib]
      refine Finset.sum_congr rfl fun k _ => ?_
      cases h : v k <;> simp [neg, toReal?, h]
    · rw [eTotal_bot hg]
      have hg' : ∃ k, v k = ninf := by
        by_contra hc; push Not at hc; exact hg (nNeg_eq_zero_iff.2 hc)
      rw [EReal.neg_bot]
      refine eTotal_top (fun k hk => ?_) (fun hc => ?_)
      · apply (nPos_eq_zero_iff.1 hp) k
        cases h : v k <;> simp_all [neg]
      · obtain ⟨k, hk⟩ := hg'
        exact (nPos_eq_zero_iff.1 hc) k (by rw [hk]; rfl)
  · have hp' : ∃ k, v k = pinf := by
      by_contra hc; push Not at hc; exact hp (nPos_eq_zero_iff.2 hc)
    have hg : ∀ k, v k ≠ ninf := fun k hk => h1 ⟨hp', k, hk⟩
    rw [eTotal_top hg hp, EReal.neg_top]
    refine eTotal_bot fun hc => ?_
    obtain ⟨k, hk⟩ := hp'
    exact (nNeg_eq_zero_iff.1 hc) k (by rw [hk]; rfl)

theorem Spec.Solvable.eTotal_neg {M : Fin r → Fin e → XR} (h : Solvable M) (P : Pairing r e) :
    eTotal (P.values fun k j => (M k j).neg) = - eTotal (P.values M) :=
  FBE.eTotal_neg (v := P.values M) (fun _ => h.no_nan _ _)
    fun ⟨⟨_, hk⟩, _, hl⟩ => h.one_sign ⟨⟨_, _, hk⟩, _, _, hl⟩

theorem ItemSpec.describes {nArgs : ℕ} {M : Fin r → Fin e → XR} {A : Fin nArgs → Fin r → Fin e → XR}
    {loss args perm P} (h : ItemSpec M A loss args perm P) : Describes perm P :=
  ⟨h.perm_est, h.perm_ref⟩

theorem solvable_of_finite {M : Fin r → Fin e → XR} (h : ∀ i j, ∃ x, M i j = fin x) : Solvable M where
  no_nan i j hn := by obtain ⟨x, hx⟩ := h i j; rw [hx] at hn; cases hn
  one_sign := fun ⟨⟨i, j, hp⟩, _⟩ => by obtain ⟨x, hx⟩ := h i j; rw [hx] at hp; cases hp
  some_finite := fun ⟨i, j, _⟩ => ⟨i, j, h i j⟩

/-- With clamping every decibel value is finite. -/
theorem negDb_finite {v : ℝ} (h0 : 0 < v) (h1 : v < 1) : ∃ x, negDb v = fin x := by
  unfold negDb
  rw [if_neg h0.ne', if_neg h1.ne]
  exact ⟨_, rfl⟩

theorem cclamp_some_lt (d c : ℝ) : 0 < cclamp (some d) c → cclamp (some d) c < 1 := fun _ =>
  lt_of_le_of_lt (min_le_right _ _) (by have := dbClampEps_pos d; show 1 - dbClampEps d < 1; linarith)

theorem cclamp_some_pos (d c : ℝ) : 0 < cclamp (some d) c := by
  have h0 := dbClampEps_pos d
  have h1 := dbClampEps_lt d
  exact lt_min (lt_max_of_lt_right h0) (by show 0 < 1 - dbClampEps d; linarith)

theorem coherenceToNegSdr_finite (d : ℝ) {x : XR} (hx : x ≠ nan) :
    ∃ y, coherenceToNegSdr (some d) x = fin y := by
  have key : ∀ c, ∃ y, negDb (cclamp (some d) c) = fin y := fun c =>
    negDb_finite (cclamp_some_pos d c) (cclamp_some_lt d c (cclamp_some_pos d c))
  cases x with
  | fin c => rw [coherenceToNegSdr_fin]; exact key c
  | pinf =>
    rw [coherenceToNegSdr_pinf]
    have h0 := dbClampEps_pos d
    have h1 := dbClampEps_lt d
    exact negDb_finite (by show 0 < 1 - dbClampEps d; linarith) (by show 1 - dbClampEps d < 1; linarith)
  | ninf => rw [coherenceToNegSdr_ninf]; exact key 0
  | nan => exact absurd rfl hx

theorem sdrLossPair_entry {B : Backend} {o : Opts} {ref : Sig s r N} {est : Sig s e M} {L}
    (h : sdrLossPair B o est ref = .ok L) : ∃ coh, sdrCohPair B o ref est = .ok coh ∧
      L = fun m k j => coherenceToNegSdr o.clampDb (fin (coh m k j)) := by
  unfold sdrLossPair at h
  split at h
  · cases h
  · rename_i coh hc
    cases h
    exact ⟨coh, hc, rfl⟩

theorem sdrLossDiag_entry {B : Backend} {o : Opts} {ref : Sig s c N} {est : Sig s c M} {L}
    (h : sdrLossDiag B o est ref = .ok L) : ∃ coh, sdrCohDiag B o ref est = .ok coh ∧
      L = fun m k => coherenceToNegSdr o.clampDb (fin (coh m k)) := by
  unfold sdrLossDiag at h
  split at h
  · cases h
  · rename_i coh hc
    cases h
    exact ⟨coh, hc, rfl⟩

end FBE
