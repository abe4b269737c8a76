import Mathlib.Analysis.SpecialFunctions.Trigonometric.Bounds
import Mathlib.Analysis.Real.Pi.Bounds
import Verif.Props.C66_LeastSquares
import Verif.Props.C32_C34_Failures
import Verif.Props.C11_C17_Permutation
import Verif.Proofs.AngleDoc
import Verif.Proofs.RoundedDb

/-!
# C79 — small changes of the signals

`Near δ y y'`: the signal `y'` differs from `y` by at most the fraction `δ` of the norm of `y` (quantisation noise, say).
`dbAngle` turns a value in decibels into the angle between the estimate and the space that explains it.
The bounds do not depend on the references, the length of the filters or the condition of the systems.
-/

namespace FBE.Props

open Spec XR

variable {s : List ℕ} {r e c N : ℕ} {B : Backend} {o : Opts} {δ d : ℝ}

theorem report_none (v : XR) : report none v = v := rfl

/-- **C79.**  Direct solver, no loading: the SDR of an estimate changed by a fraction `δ`, as an angle, changes by at most
`arcsin δ`. -/
theorem C79_sdr_loss (hB : Covered B) (hdir : o.direct) (hload : o.load = 0) (hcl : o.clampDb = none)
    (hfit : FilterFits N o.filterLength) {est est' : Sig s e N} {ref : Sig s r N} {L L'}
    (h : sdrLossPair B o est ref = .ok L) (h' : sdrLossPair B o est' ref = .ok L') (m : BIdx s) (k : Fin r) (j : Fin e)
    (hest : Audible (centred o.zeroMean (est m j))) (hest' : Audible (centred o.zeroMean (est' m j)))
    (href : o.filterLength = 1 → Normalisable (centred o.zeroMean (ref m k))) (h0 : 0 ≤ δ) (h1 : δ < 1)
    (hδ : Near δ (centred o.zeroMean (est m j)) (centred o.zeroMean (est' m j))) :
    |dbAngle (L' m k j).neg - dbAngle (L m k j).neg| ≤ Real.arcsin δ := by
  have hL : o.filterLength ≠ 0 := by
    obtain ⟨coh, hcoh, rfl⟩ := sdrLossPair_entry h
    intro h0; simp only [sdrCohPair_def] at hcoh; rw [if_pos h0] at hcoh; cases hcoh
  have hok : o.clampOk := fun d hd => by rw [hcl] at hd; cases hd
  rw [C01_sdr_loss_pairwise hB hdir hload hok hfit h m k j hest href,
    C01_sdr_loss_pairwise hB hdir hload hok hfit h' m k j hest' href, neg_neg', neg_neg', hcl, report_none, report_none]
  exact docSdr_near hL h0 h1 (fun k => centred o.zeroMean (ref m k)) k hest hest' hδ

/-- **C79.**  With `clamp_db=d` it changes by at most `dbPerAngle d * arcsin δ` decibels (about `8.7 · 10^(d/20) · δ`),
whatever the value. -/
theorem C79_sdr_loss_clamped (hB : Covered B) (hdir : o.direct) (hload : o.load = 0) (hcl : o.clampDb = some d) (hd : 0 ≤ d)
    (hfit : FilterFits N o.filterLength) {est est' : Sig s e N} {ref : Sig s r N} {L L'}
    (h : sdrLossPair B o est ref = .ok L) (h' : sdrLossPair B o est' ref = .ok L') (m : BIdx s) (k : Fin r) (j : Fin e)
    (hest : Audible (centred o.zeroMean (est m j))) (hest' : Audible (centred o.zeroMean (est' m j)))
    (href : o.filterLength = 1 → Normalisable (centred o.zeroMean (ref m k))) (h0 : 0 ≤ δ) (h1 : δ < 1)
    (hδ : Near δ (centred o.zeroMean (est m j)) (centred o.zeroMean (est' m j))) :
    ∃ v v' : ℝ, L m k j = fin v ∧ L' m k j = fin v' ∧ |v' - v| ≤ dbPerAngle d * Real.arcsin δ := by
  have hL : o.filterLength ≠ 0 := by
    obtain ⟨coh, hcoh, rfl⟩ := sdrLossPair_entry h
    intro h0; simp only [sdrCohPair_def] at hcoh; rw [if_pos h0] at hcoh; cases hcoh
  have hok : o.clampOk := fun d' hd' => by rw [hcl] at hd'; cases hd'; exact hd
  have a := (docSdr_angle hL (fun k => centred o.zeroMean (ref m k)) k hest).2
  have a' := (docSdr_angle hL (fun k => centred o.zeroMean (ref m k)) k hest').2
  rw [C01_sdr_loss_pairwise hB hdir hload hok hfit h m k j hest href,
    C01_sdr_loss_pairwise hB hdir hload hok hfit h' m k j hest' href, hcl]
  refine ⟨-clipped d (docSdr o.filterLength (fun k => centred o.zeroMean (ref m k)) k (centred o.zeroMean (est m j))),
    -clipped d (docSdr o.filterLength (fun k => centred o.zeroMean (ref m k)) k (centred o.zeroMean (est' m j))), ?_, ?_, ?_⟩
  · show (clip d _).neg = _
    rw [clip_eq a]; rfl
  · show (clip d _).neg = _
    rw [clip_eq a']; rfl
  · rw [neg_sub_neg, abs_sub_comm]
    exact (abs_clipped_sub hd a a').trans (mul_le_mul_of_nonneg_left 
      (docSdr_near hL h0 h1 (fun k => centred o.zeroMean (ref m k)) k hest hest' hδ) (dbPerAngle_pos d).le)

/-- **C79.**  `bss_eval_sources(compute_permutation=False)`: SDR and SAR as angles change by at most `arcsin δ`.  The SIR
compares parts of the estimate that are explained by the references; its angle changes by at most `arcsin (δ / κ)`, where
`κ` is the part explained by all the references (as an amplitude), known from the SAR. -/
theorem C79_bss_eval (hB : Covered B) (hdir : o.direct) (hsv : o.filterLength = 1 ∨ B.stackedVectors = true)
    (hload : o.load = 0) (hcl : o.clampDb = none) (hfit : FilterFits N o.filterLength) {ref est est' : Sig s c N} {out out'}
    (h : bssEvalSources B o false ref est = .ok out) (h' : bssEvalSources B o false ref est' = .ok out') (m : BIdx s)
    (k : Fin (min c c)) (hest : Audible (centred o.zeroMean (est m (k.cast (min_self c)))))
    (hest' : Audible (centred o.zeroMean (est' m (k.cast (min_self c)))))
    (href : o.filterLength = 1 → Normalisable (centred o.zeroMean (ref m (k.cast (min_self c))))) (h0 : 0 ≤ δ) (h1 : δ < 1)
    (hδ : Near δ (centred o.zeroMean (est m (k.cast (min_self c)))) (centred o.zeroMean (est' m (k.cast (min_self c))))) :
    |dbAngle (out'.sdr m k) - dbAngle (out.sdr m k)| ≤ Real.arcsin δ ∧
    |dbAngle (out'.sar m k) - dbAngle (out.sar m k)| ≤ Real.arcsin δ ∧
    (δ < Real.cos (dbAngle (out.sar m k)) →
      |dbAngle (out'.sir m k) - dbAngle (out.sir m k)| ≤ Real.arcsin (δ / Real.cos (dbAngle (out.sar m k)))) := by
  have hL : o.filterLength ≠ 0 := by
    obtain ⟨sd, sa, hs, -⟩ := bssEvalSources_false h
    intro h0
    unfold sqCosDiag at hs
    rw [if_pos h0] at hs
    cases hs
  have hok : o.clampOk := fun d hd => by rw [hcl] at hd; cases hd
  obtain ⟨a1, a2, a3⟩ := C02_bss_eval hB hdir hsv hload hok hfit h m _ hest href
  obtain ⟨b1, b2, b3⟩ := C02_bss_eval hB hdir hsv hload hok hfit h' m _ hest' href
  rw [hcl] at a1 a2 a3 b1 b2 b3
  have hk : (k.cast (min_self c)).cast (min_self c).symm = k := rfl
  rw [hk] at a1 a2 a3 b1 b2 b3
  rw [report_none] at a1 a2 a3 b1 b2 b3
  rw [a1, a2, a3, b1, b2, b3]
  exact ⟨docSdr_near hL h0 h1 (fun k => centred o.zeroMean (ref m k)) (k.cast (min_self c)) hest hest' hδ,
    docSar_near hL h0 h1 (fun k => centred o.zeroMean (ref m k)) hest hest' hδ,
    fun hc => (docSir_near hL h0 (fun k => centred o.zeroMean (ref m k)) (k.cast (min_self c)) hest hc hδ).1⟩

/-- **C79.**  The total of `sdr` with `clamp_db=d`, over the best pairing, changes by at most `dbPerAngle d * arcsin δ` for each
source (the pairing may change). -/
theorem C79_sdr_total (hB : Covered B) (hdir : o.direct) (hload : o.load = 0) (hcl : o.clampDb = some d) (hd : 0 ≤ d)
    (hfit : FilterFits N o.filterLength) {est est' : Sig s e N} {ref : Sig s r N} {out out'}
    (h : sdr B o true false ref est = .ok out) (h' : sdr B o true false ref est' = .ok out') (m : BIdx s)
    (hest : ∀ j, Audible (centred o.zeroMean (est m j))) (hest' : ∀ j, Audible (centred o.zeroMean (est' m j)))
    (href : o.filterLength = 1 → ∀ k, Normalisable (centred o.zeroMean (ref m k))) (h0 : 0 ≤ δ) (h1 : δ < 1)
    (hδ : ∀ j, Near δ (centred o.zeroMean (est m j)) (centred o.zeroMean (est' m j))) :
    ∃ v v' : Fin (min r e) → ℝ, (∀ k, out.sdr m k = fin (v k)) ∧ (∀ k, out'.sdr m k = fin (v' k)) ∧
      |∑ k, v' k - ∑ k, v k| ≤ min r e * (dbPerAngle d * Real.arcsin δ) := by
  obtain ⟨L, perm, hL, -, hP⟩ := C11_sdr_best_pairing hB h
  obtain ⟨L', perm', hL', -, hP'⟩ := C11_sdr_best_pairing hB h'
  obtain ⟨P, -, -, hv, hbest⟩ := hP m
  obtain ⟨P', -, -, hv', hbest'⟩ := hP' m
  have hk := fun k j => C79_sdr_loss_clamped hB hdir hload hcl hd hfit hL hL' m k j (hest j) (hest' j)
    (fun h => href h k) h0 h1 (hδ j)
  choose w w' hw hw' hww using hk
  have hsum : ∀ (Q : Pairing r e) (M : Fin r → Fin e → XR) (u : Fin r → Fin e → ℝ), (∀ k j, M k j = fin (u k j)) →
      eTotal (Q.values fun k j => (M k j).neg) = ((∑ k, -u (Q.ref k) (Q.est k) : ℝ) : EReal) := fun Q M u hu => by
    unfold eTotal Pairing.values
    rw [show ((∑ k, -u (Q.ref k) (Q.est k) : ℝ) : EReal) = ∑ k, ((-u (Q.ref k) (Q.est k) : ℝ) : EReal)
      from map_sum (⟨⟨Real.toEReal, rfl⟩, EReal.coe_add⟩ : ℝ →+ EReal) _ _]
    exact Finset.sum_congr rfl fun k _ => by beta_reduce; rw [hu]; rfl
  have ho : eTotal (out.sdr m) = ((∑ k, -w (P.ref k) (P.est k) : ℝ) : EReal) := by
    rw [← hsum P (L m) w hw]; exact congrArg _ (funext hv)
  have ho' : eTotal (out'.sdr m) = ((∑ k, -w' (P'.ref k) (P'.est k) : ℝ) : EReal) := by
    rw [← hsum P' (L' m) w' hw']; exact congrArg _ (funext hv')
  have c1 := hbest P'
  have c2 := hbest' P
  rw [hsum P' (L m) w hw, ho, EReal.coe_le_coe_iff] at c1
  rw [hsum P (L' m) w' hw', ho', EReal.coe_le_coe_iff] at c2
  have hdiff : ∀ Q : Pairing r e, |∑ k, -w' (Q.ref k) (Q.est k) - ∑ k, -w (Q.ref k) (Q.est k)| ≤
      min r e * (dbPerAngle d * Real.arcsin δ) := fun Q => by
    rw [← Finset.sum_sub_distrib]
    refine (Finset.abs_sum_le_sum_abs _ _).trans ?_
    refine (Finset.sum_le_card_nsmul _ _ (dbPerAngle d * Real.arcsin δ) fun k _ => ?_).trans_eq ?_
    · rw [neg_sub_neg, abs_sub_comm]; exact hww _ _
    · rw [Finset.card_univ, Fintype.card_fin, nsmul_eq_mul]
  refine ⟨fun k => -w (P.ref k) (P.est k), fun k => -w' (P'.ref k) (P'.est k), fun k => ?_, fun k => ?_, ?_⟩
  · rw [hv, hw]; rfl
  · rw [hv', hw']; rfl
  · have d1 := abs_le.1 (hdiff P)
    have d2 := abs_le.1 (hdiff P')
    rw [abs_le]
    constructor <;> linarith [d1.1, d1.2, d2.1, d2.2]

/-- **C79.**  Another reference: if `f` is the filter for which the original reference fits best, the reported SDR for the
changed reference is at least that of a distortion larger by `‖f‖₁ ‖x' - x‖`. -/
theorem C79_reference (hB : Covered B) (hdir : o.direct) (hload : o.load = 0) (hcl : o.clampOk)
    (hfit : FilterFits N o.filterLength) {est : Sig s e N} {ref ref' : Sig s r N} {L'}
    (h' : sdrLossPair B o est ref' = .ok L') (m : BIdx s) (k : Fin r) (j : Fin e)
    (hest : Audible (centred o.zeroMean (est m j)))
    (href' : o.filterLength = 1 → Normalisable (centred o.zeroMean (ref' m k)))
    (f : Fin o.filterLength → ℝ) {q : ℝ}
    (hq : √(residualOne f (centred o.zeroMean (ref m k)) (centred o.zeroMean (est m j))) + (∑ l, |f l|) *
      sigNorm (fun t => centred o.zeroMean (ref' m k) t - centred o.zeroMean (ref m k) t) ≤ q)
    (hq1 : q ^ 2 ≤ power (centred o.zeroMean (est m j))) :
    toEReal (report o.clampDb (dbRatio (power (centred o.zeroMean (est m j)) - q ^ 2) (q ^ 2))) ≤ toEReal (L' m k j).neg := by
  have h1 := (residualOne_reference f (centred o.zeroMean (ref m k)) (centred o.zeroMean (ref' m k))
    (centred o.zeroMean (est m j))).trans hq
  have hr : 0 ≤ residualOne f (centred o.zeroMean (ref' m k)) (centred o.zeroMean (est m j)) :=
    Finset.sum_nonneg fun t _ => sq_nonneg _
  have h2 : residualOne f (centred o.zeroMean (ref' m k)) (centred o.zeroMean (est m j)) ≤ q ^ 2 := by
    have := pow_le_pow_left₀ (Real.sqrt_nonneg _) h1 2
    rwa [Real.sq_sqrt hr] at this
  have hP : 0 < power (centred o.zeroMean (est m j)) := by
    rw [power_eq le_rfl]
    exact (gain_sq_energy le_rfl hest).2
  refine le_trans (report_residual_mono hcl hP hr h2 hq1) ?_
  exact C66_noise_bound hB hdir hload hcl hfit h' m k j hest href' f (h2.trans hq1)

/-- **C79.**  For instance: estimates stored with 16 bits (every sample off by at most `2⁻¹⁶`), not quieter than -20 dB of full
scale, `clamp_db=30`, no removal of means: no SDR changes by more than 0.07 dB. -/
theorem C79_sixteen_bits (hB : Covered B) (hdir : o.direct) (hload : o.load = 0) (hcl : o.clampDb = some 30)
    (hz : o.zeroMean = false) (hfit : FilterFits N o.filterLength) {est est' : Sig s e N} {ref : Sig s r N} {L L'}
    (h : sdrLossPair B o est ref = .ok L) (h' : sdrLossPair B o est' ref = .ok L') (m : BIdx s) (k : Fin r) (j : Fin e)
    (hN : 0 < N) (hrms : (0.1 : ℝ) ^ 2 * N ≤ ∑ t, est m j t ^ 2) (hq : ∀ t, |est' m j t - est m j t| ≤ 2⁻¹ ^ 16)
    (href : o.filterLength = 1 → Normalisable (ref m k)) :
    ∃ v v' : ℝ, L m k j = fin v ∧ L' m k j = fin v' ∧ |v' - v| ≤ 0.07 := by
  have hc : ∀ y : Fin N → ℝ, centred o.zeroMean y = y := fun y => by rw [hz]; rfl
  have hN' : (1 : ℝ) ≤ N := by exact_mod_cast hN
  have hdiff : ∑ t, (est' m j t - est m j t) ^ 2 ≤ N * (2⁻¹ ^ 16 : ℝ) ^ 2 := by
    refine (Finset.sum_le_card_nsmul _ _ ((2⁻¹ ^ 16 : ℝ) ^ 2) fun t _ => ?_).trans_eq ?_
    · rw [← sq_abs]; exact pow_le_pow_left₀ (abs_nonneg _) (hq t) 2
    · rw [Finset.card_univ, Fintype.card_fin, nsmul_eq_mul]
  have hnear : Near (10 * 2⁻¹ ^ 16) (est m j) (est' m j) := by
    unfold Near
    refine hdiff.trans ?_
    have := mul_le_mul_of_nonneg_left hrms (show (0 : ℝ) ≤ (10 * 2⁻¹ ^ 16) ^ 2 by positivity)
    refine le_trans (le_of_eq ?_) this
    ring
  have hn : sigNorm (est m j) ^ 2 = ∑ t, est m j t ^ 2 := sigNorm_sq _
  have hsn : (0.1 : ℝ) ≤ sigNorm (est m j) := by
    refine le_of_sq_le_sq ?_ (Real.sqrt_nonneg _)
    rw [hn]
    refine le_trans ?_ hrms
    nlinarith
  have hsn' : (1e-6 : ℝ) ≤ sigNorm (est' m j) := by
    have h1 := norm_shift_zero (D := N) le_rfl (est m j)
    have h2 := norm_shift_zero (D := N) le_rfl (est' m j)
    have h3 := near_shift (D := N) le_rfl (by norm_num) hnear
    rw [← sigNorm_sq] at h1 h2
    have e1 : ‖shift N (est m j) 0‖ = sigNorm (est m j) := by
      rw [← Real.sqrt_sq (norm_nonneg _), h1]; exact Real.sqrt_sq (Real.sqrt_nonneg _)
    have e2 : ‖shift N (est' m j) 0‖ = sigNorm (est' m j) := by
      rw [← Real.sqrt_sq (norm_nonneg _), h2]; exact Real.sqrt_sq (Real.sqrt_nonneg _)
    have h4 := norm_sub_norm_le (shift N (est m j) 0) (shift N (est' m j) 0)
    rw [norm_sub_rev, e1, e2] at h4
    rw [e1] at h3
    nlinarith
  obtain ⟨v, v', e1, e2, hv⟩ := C79_sdr_loss_clamped (δ := 10 * 2⁻¹ ^ 16) hB hdir hload hcl (by norm_num) hfit h h' m k j
    (by rw [hc]; exact le_trans (by norm_num) hsn) (by rw [hc]; exact hsn') (fun h => by rw [hc]; exact href h) (by norm_num) (by norm_num)
    (by rw [hc, hc]; exact hnear)
  refine ⟨v, v', e1, e2, hv.trans ?_⟩
  have hlog := Rounded.log_ten_lower
  have ha : Real.arcsin (10 * 2⁻¹ ^ 16) ≤ 3.15 / 2 * (10 * 2⁻¹ ^ 16) := by
    have h1 : 0 ≤ Real.arcsin (10 * 2⁻¹ ^ 16) := Real.arcsin_nonneg.2 (by norm_num)
    have h2 := Real.mul_le_sin h1 (Real.arcsin_le_pi_div_two _)
    rw [Real.sin_arcsin (by norm_num) (by norm_num)] at h2
    have h3 := Real.pi_lt_d2
    have h4 := Real.pi_pos
    rw [div_mul_eq_mul_div, div_le_iff₀ h4] at h2
    nlinarith
  have hp : (10 : ℝ) ^ (30 / 20 : ℝ) ≤ 31.7 := by
    refine le_of_sq_le_sq ?_ (by norm_num)
    rw [← Real.rpow_natCast, ← Real.rpow_mul (by norm_num)]
    norm_num
  have hm : (10 : ℝ) ^ (-30 / 20 : ℝ) ≤ 1 := Real.rpow_le_one_of_one_le_of_nonpos (by norm_num) (by norm_num)
  have hm0 : (0 : ℝ) < (10 : ℝ) ^ (-30 / 20 : ℝ) := by positivity
  have hm' : (10 : ℝ) ^ (-30 / 20 : ℝ) ≤ 0.04 := by
    rw [show (-30 / 20 : ℝ) = -(30 / 20) by ring, Real.rpow_neg (by norm_num)]
    have : (25 : ℝ) ≤ (10 : ℝ) ^ (30 / 20 : ℝ) := by
      refine le_of_sq_le_sq ?_ (by positivity)
      rw [← Real.rpow_natCast ((10 : ℝ) ^ (30 / 20 : ℝ)), ← Real.rpow_mul (by norm_num)]
      norm_num
    refine (inv_anti₀ (by norm_num) this).trans (by norm_num)
  have hd : dbPerAngle 30 ≤ 20 / 2.287 * (31.7 + 0.04) := by
    unfold dbPerAngle
    have : 20 / Real.log 10 ≤ 20 / 2.287 := by gcongr
    have h5 : 0 ≤ (10 : ℝ) ^ (30 / 20 : ℝ) + (10 : ℝ) ^ (-30 / 20 : ℝ) := by positivity
    calc _ ≤ 20 / 2.287 * ((10 : ℝ) ^ (30 / 20 : ℝ) + (10 : ℝ) ^ (-30 / 20 : ℝ)) := by gcongr
      _ ≤ _ := by gcongr
  calc dbPerAngle 30 * Real.arcsin (10 * 2⁻¹ ^ 16) ≤ (20 / 2.287 * (31.7 + 0.04)) * (3.15 / 2 * (10 * 2⁻¹ ^ 16)) :=
        mul_le_mul hd ha (Real.arcsin_nonneg.2 (by norm_num)) (by norm_num)
    _ ≤ 0.07 := by norm_num

/-! ### the hypotheses can be met -/

namespace Ex79

/-- The estimates with one sample changed by 0.1. -/
noncomputable def est' : Sig [] 2 3 := fun m j t => Ex.est m j t + if t = 1 then 0.1 else 0

theorem near (m : BIdx []) (j : Fin 2) : Near 0.1 (centred false (Ex.est m j)) (centred false (est' m j)) := by
  show ∑ t, (est' m j t - Ex.est m j t) ^ 2 ≤ 0.1 ^ 2 * ∑ t, Ex.est m j t ^ 2
  fin_cases j <;> simp [Fin.sum_univ_three, est', Ex.est] <;> norm_num

theorem audible (m : BIdx []) (j : Fin 2) : Audible (centred false (est' m j)) := by
  show Audible (est' m j)
  fin_cases j
  · exact Ex.audible _ 0 (by simp [est', Ex.est])
  · exact Ex.audible _ 0 (by simp [est', Ex.est])

theorem loss_ok (cl : Option ℝ) (est : Sig [] 2 3) :
    ∃ L, sdrLossPair torchBackend { Ex.opts with clampDb := cl } est Ex.ref = .ok L :=
  (C34_sdr_loss (o := { Ex.opts with clampDb := cl }) Ex.covered rfl le_rfl rfl (by decide) Ex.fits est Ex.ref).2.2 Ex.ref_ne_zero

end Ex79

-- one sample changed by 0.1: the angles change by at most arcsin 0.1 (5.8 degrees)
example (m : BIdx []) (k j : Fin 2) : ∃ L L', sdrLossPair torchBackend { Ex.opts with clampDb := none } Ex.est Ex.ref = .ok L ∧
    sdrLossPair torchBackend { Ex.opts with clampDb := none } Ex79.est' Ex.ref = .ok L' ∧
    |dbAngle (L' m k j).neg - dbAngle (L m k j).neg| ≤ Real.arcsin 0.1 := by
  obtain ⟨L, h⟩ := Ex79.loss_ok none Ex.est
  obtain ⟨L', h'⟩ := Ex79.loss_ok none Ex79.est'
  exact ⟨L, L', h, h', C79_sdr_loss Ex.covered Ex.direct Ex.load rfl Ex.fits h h' m k j (Ex.est_audible m j)
    (Ex79.audible m j) (fun h => absurd h (by decide)) (by norm_num) (by norm_num) (Ex79.near m j)⟩

-- the same with clamp_db=30, and the total over the best pairing
example (m : BIdx []) : ∃ out out', sdr torchBackend { Ex.opts with clampDb := some 30 } true false Ex.ref Ex.est = .ok out ∧
    sdr torchBackend { Ex.opts with clampDb := some 30 } true false Ex.ref Ex79.est' = .ok out' ∧
    ∃ v v' : Fin (min 2 2) → ℝ, (∀ k, out.sdr m k = fin (v k)) ∧ (∀ k, out'.sdr m k = fin (v' k)) ∧
      |∑ k, v' k - ∑ k, v k| ≤ (min 2 2 : ℕ) * (dbPerAngle 30 * Real.arcsin 0.1) := by
  obtain ⟨L, h⟩ := Ex79.loss_ok (some 30) Ex.est
  obtain ⟨L', h'⟩ := Ex79.loss_ok (some 30) Ex79.est'
  obtain ⟨out, ho⟩ := C17_sdr_clamped_never_fails (o := { Ex.opts with clampDb := some 30 }) Ex.covered true false rfl h
  obtain ⟨out', ho'⟩ := C17_sdr_clamped_never_fails (o := { Ex.opts with clampDb := some 30 }) Ex.covered true false rfl h'
  have := C79_sdr_total (o := { Ex.opts with clampDb := some 30 }) Ex.covered Ex.direct Ex.load rfl (by norm_num) Ex.fits ho ho' m
    (Ex.est_audible m) (Ex79.audible m) (fun h => absurd h (by decide)) (by norm_num) (by norm_num) (Ex79.near m)
  exact ⟨out, out', ho, ho', by exact_mod_cast this⟩

-- the three values of bss_eval_sources
example (m : BIdx []) (k : Fin (min 2 2)) : ∃ out out', bssEvalSources torchBackend Ex.opts false Ex.ref Ex.est = .ok out ∧
    bssEvalSources torchBackend Ex.opts false Ex.ref Ex79.est' = .ok out' ∧
    |dbAngle (out'.sar m k) - dbAngle (out.sar m k)| ≤ Real.arcsin 0.1 := by
  obtain ⟨out, h⟩ := Ex.bssEvalNoPerm_ok
  obtain ⟨out', h'⟩ := (C34_bss_eval_no_permutation (o := Ex.opts) Ex.covered Ex.direct (by decide) (Or.inr rfl) Ex.load
    (by decide) Ex.fits Ex.ref Ex79.est').2.2 Ex.independent
  have h'' : bssEvalSources torchBackend Ex.opts false Ex.ref Ex79.est' = .ok out' := by
    unfold bssEvalSources; rw [if_neg (by simp)]; exact h'
  exact ⟨out, out', h, h'', (C79_bss_eval Ex.covered Ex.direct (Or.inr rfl) Ex.load rfl Ex.fits h h'' m k (Ex.est_audible m _)
    (Ex79.audible m _) (fun h => absurd h (by decide)) (by norm_num) (by norm_num) (Ex79.near m _)).2.1⟩

-- estimates that are off by less than 2^-16
example (est' : Sig [] 2 3) (m : BIdx []) (k j : Fin 2) (hq : ∀ t, |est' m j t - Ex.est m j t| ≤ 2⁻¹ ^ 16) :
    ∃ L L', sdrLossPair torchBackend { Ex.opts with clampDb := some 30 } Ex.est Ex.ref = .ok L ∧
      sdrLossPair torchBackend { Ex.opts with clampDb := some 30 } est' Ex.ref = .ok L' ∧
      ∃ v v' : ℝ, L m k j = fin v ∧ L' m k j = fin v' ∧ |v' - v| ≤ 0.07 := by
  obtain ⟨L, h⟩ := Ex79.loss_ok (some 30) Ex.est
  obtain ⟨L', h'⟩ := Ex79.loss_ok (some 30) est'
  refine ⟨L, L', h, h', C79_sixteen_bits (o := { Ex.opts with clampDb := some 30 }) Ex.covered Ex.direct Ex.load rfl rfl Ex.fits h h' m k j
    (by decide) ?_ hq fun h => absurd h (by decide)⟩
  fin_cases j <;> simp [Fin.sum_univ_three, Ex.est] <;> norm_num

-- the reference (1, 0, 0) changed to (1, 0.1, 0): the filter with taps 2, 0 leaves at most 1.2 of the estimate (2, 0, 1)
example (m : BIdx []) : ∃ L, sdrLossPair torchBackend Ex.opts Ex.est (fun m k t => Ex.ref m k t + if t = 1 then 0.1 else 0) = .ok L ∧
    toEReal (dbRatio (5 - 1.2 ^ 2) (1.2 ^ 2)) ≤ toEReal (L m 0 0).neg := by
  obtain ⟨L, h⟩ := (C34_sdr_loss (o := Ex.opts) Ex.covered rfl le_rfl rfl (by decide) Ex.fits Ex.est
    (fun m k t => Ex.ref m k t + if t = 1 then 0.1 else 0)).2.2 (fun m k h => by
      have := congrFun h (if k = 0 then 0 else 2)
      revert this
      show ¬ _
      fin_cases k <;> simp [centred, Ex.opts, Ex.ref])
  have hr : residualOne (L := Ex.opts.filterLength) (fun l => if l.val = 0 then 2 else 0)
      (centred Ex.opts.zeroMean (Ex.ref m 0)) (centred Ex.opts.zeroMean (Ex.est m 0)) = 1 := by
    show residualOne (L := 2) _ _ _ = 1
    simp [residualOne, filtered, Finset.sum_range_succ, centred, Ex.opts, Ex.ref, Ex.est, zpad]
  have hp : power (centred Ex.opts.zeroMean (Ex.est m 0)) = 5 := by
    simp [power, Fin.sum_univ_three, centred, Ex.opts, Ex.est]; norm_num
  have := C79_reference (ref := Ex.ref) Ex.covered Ex.direct Ex.load Ex.clampOk Ex.fits h m 0 0
    (Ex.est_audible m 0) (fun h => absurd h (by decide)) (fun l => if l.val = 0 then 2 else 0) (q := 1.2) (by
      rw [hr]
      show √1 + (∑ l : Fin 2, _) * _ ≤ _
      simp [sigNorm, Fin.sum_univ_two, centred, Ex.opts, Ex.ref]
      norm_num
      rw [show (100 : ℝ) = 10 ^ 2 by norm_num, Real.sqrt_sq (by norm_num)]
      norm_num) (by rw [hp]; norm_num)
  rw [hp] at this
  exact ⟨L, h, this⟩

end FBE.Props
