import Verif.Proofs.Example
import Verif.Proofs.ExampleRuns

/-!
# C01–C04, C45 — the metrics are the documented energy ratios

`docSdr`, `docSir`, `docSar` (Spec/Signal.lean) are the ratios of energies of projections; nothing in
them refers to FFTs, correlations or linear systems.  `centred` removes the mean if `zero_mean`.
`report` clips if `clamp_db` is given.
-/

namespace FBE.Props

open Spec XR

variable {s : List ℕ} {r e c N : ℕ} {B : Backend} {o : Opts}

/-- **C01.**  Direct solver, no loading: every entry of `sdr_loss(est, ref, pairwise=True)` is minus
the documented SDR. -/
theorem C01_sdr_loss_pairwise (hB : Covered B) (hdir : o.direct) (hload : o.load = 0) (hcl : o.clampOk)
    (hfit : FilterFits N o.filterLength) {est : Sig s e N} {ref : Sig s r N} {L}
    (h : sdrLossPair B o est ref = .ok L) (m : BIdx s) (k : Fin r) (j : Fin e)
    (hest : Audible (centred o.zeroMean (est m j)))
    (href : o.filterLength = 1 → Normalisable (centred o.zeroMean (ref m k))) :
    L m k j = (report o.clampDb (docSdr o.filterLength (fun k => centred o.zeroMean (ref m k)) k
      (centred o.zeroMean (est m j)))).neg := by
  obtain ⟨coh, hcoh, rfl⟩ := sdrLossPair_entry h
  have hL : o.filterLength ≠ 0 := by
    intro h0; simp only [sdrCohPair_def] at hcoh; rw [if_pos h0] at hcoh; cases hcoh
  have hD : N + o.filterLength ≤ (N + o.filterLength - 1) + 1 := by omega
  beta_reduce
  rw [sdrCohPair_proj hB hdir hload hfit hD ref est hcoh m k j href]
  exact loss_proj hcl (by omega) hest _

/-- **C01.**  The same for `pairwise=False` (the default of `sdr_loss`), unless numpy ≥ 2 rejects the
call (C43). -/
theorem C01_sdr_loss (hB : Covered B) (hdir : o.direct) (hsv : o.filterLength = 1 ∨ B.stackedVectors = true)
    (hload : o.load = 0) (hcl : o.clampOk)
    (hfit : FilterFits N o.filterLength) {est ref : Sig s c N} {L}
    (h : sdrLossDiag B o est ref = .ok L) (m : BIdx s) (k : Fin c)
    (hest : Audible (centred o.zeroMean (est m k)))
    (href : o.filterLength = 1 → Normalisable (centred o.zeroMean (ref m k))) :
    L m k = (report o.clampDb (docSdr o.filterLength (fun k => centred o.zeroMean (ref m k)) k
      (centred o.zeroMean (est m k)))).neg := by
  obtain ⟨coh, hcoh, rfl⟩ := sdrLossDiag_entry h
  rw [sdrCohDiag_eq B o (hsv.imp_right Or.inr)] at hcoh
  cases hc : sdrCohPair B o ref est with
  | error err => rw [hc] at hcoh; cases hcoh
  | ok coh' =>
    rw [hc] at hcoh
    cases hcoh
    have h' : sdrLossPair B o est ref =
        .ok fun m k j => coherenceToNegSdr o.clampDb (fin (coh' m k j)) := by
      unfold sdrLossPair; rw [hc]
    exact C01_sdr_loss_pairwise hB hdir hload hcl hfit h' m k k hest href

/-- **C02.**  Direct solver, no loading: `bss_eval_sources(ref, est, compute_permutation=False)` returns
the documented SDR, SIR and SAR of every channel. -/
theorem C02_bss_eval (hB : Covered B) (hdir : o.direct) (hsv : o.filterLength = 1 ∨ B.stackedVectors = true)
    (hload : o.load = 0) (hcl : o.clampOk) (hfit : FilterFits N o.filterLength) {ref est : Sig s c N} {out}
    (h : bssEvalSources B o false ref est = .ok out) (m : BIdx s) (k : Fin c)
    (hest : Audible (centred o.zeroMean (est m k)))
    (href : o.filterLength = 1 → Normalisable (centred o.zeroMean (ref m k))) :
    let x := fun k => centred o.zeroMean (ref m k)
    let y := centred o.zeroMean (est m k)
    let k' := k.cast (min_self c).symm
    out.sdr m k' = report o.clampDb (docSdr o.filterLength x k y) ∧
    out.sir m k' = report o.clampDb (docSir o.filterLength x k y) ∧
    out.sar m k' = report o.clampDb (docSar o.filterLength x y) := by
  obtain ⟨sd, sa, hs, rfl⟩ := bssEvalSources_false h
  have hsv' : o.filterLength = 1 ∨ (o.useCgIter = none ∧ B.stackedVectors = true) := by
    rcases hsv with h | h
    · exact Or.inl h
    · rcases hdir with h' | h'
      · exact Or.inl h'
      · exact Or.inr ⟨h', h⟩
  rw [sqCosDiag_eq B o hsv'] at hs
  cases hp : sqCosPair B o (fun m (k : Fin (min c c)) => ref m (k.castLE (min_le_left c c)))
        (fun m (k : Fin (min c c)) => est m (k.castLE (min_le_right c c))) with
  | error err => rw [hp] at hs; cases hs
  | ok p =>
    obtain ⟨sd', sa'⟩ := p
    rw [hp] at hs
    cases hs
    obtain ⟨h1, h2, h3⟩ := baseMetrics_doc hB hdir hload hcl hfit _ _ hp m (k.cast (min_self c).symm)
      (k.cast (min_self c).symm) href
    refine ⟨?_, ?_, ?_⟩
    · show (baseMetrics o.clampDb _ _).1.neg = _
      rw [h1 hest, neg_neg']
      rfl
    · show (baseMetrics o.clampDb _ _).2.1.neg = _
      rw [h2, neg_neg']
      exact congrArg (report o.clampDb) (docSir_surj o.filterLength (fun k => centred o.zeroMean (ref m k))
        _ (castLE_surj c) (k.cast (min_self c).symm) _)
    · show (baseMetrics o.clampDb _ _).2.2.neg = _
      rw [h3 hest, neg_neg']
      exact congrArg (report o.clampDb) (docSar_surj o.filterLength (fun k => centred o.zeroMean (ref m k))
        _ (castLE_surj c) _)

/-- **C02, C12.**  Direct solver, no loading: with permutation solving, one pairing explains all outputs
of `bss_eval_sources`: SDR, SIR and SAR are the documented ratios of the pairs, `perm` describes the
pairing, and no pairing has a larger total of documented SIRs. -/
theorem C12_bss_eval_documented (hB : Covered B) (hdir : o.direct) (hload : o.load = 0) (hcl : o.clampOk)
    (hfit : FilterFits N o.filterLength) {ref : Sig s r N} {est : Sig s e N} {out}
    (h : bssEvalSources B o true ref est = .ok out) (m : BIdx s)
    (hest : ∀ j, Audible (centred o.zeroMean (est m j)))
    (href : o.filterLength = 1 → ∀ k, Normalisable (centred o.zeroMean (ref m k))) :
    let x := fun k => centred o.zeroMean (ref m k)
    let y := fun j => centred o.zeroMean (est m j)
    ∃ (P : Pairing r e) (perm : BIdx s → Fin (min r e) → ℕ), out.perm = some perm ∧ Describes (perm m) P ∧
      (∀ k, out.sdr m k = report o.clampDb (docSdr o.filterLength x (P.ref k) (y (P.est k))) ∧
        out.sir m k = report o.clampDb (docSir o.filterLength x (P.ref k) (y (P.est k))) ∧
        out.sar m k = report o.clampDb (docSar o.filterLength x (y (P.est k)))) ∧
      ∀ P' : Pairing r e,
        eTotal (P'.values fun k j => report o.clampDb (docSir o.filterLength x k (y j))) ≤
          eTotal (out.sir m) := by
  unfold bssEvalSources at h
  rw [if_pos rfl] at h
  obtain ⟨sd, sa, p, hL, hp, rfl⟩ := bssEvalPerm_ok h
  obtain ⟨hsol, P, hP⟩ := solvePermutation_spec B hB.lsa _ _ hp m
  have hd := fun k j => baseMetrics_doc hB hdir hload hcl hfit ref est hL m k j (fun h1 => href h1 k)
  have hsir : ∀ k j, (negSir o sd sa m k j).neg = report o.clampDb (docSir o.filterLength
      (fun k => centred o.zeroMean (ref m k)) k (centred o.zeroMean (est m j))) := fun k j => by
    have := (hd k j).2.1
    unfold negSir
    rw [this, neg_neg']
  have hv : ∀ k, (p.loss m k).neg = (negSir o sd sa m (P.ref k) (P.est k)).neg := fun k => by
    rw [hP.loss_eq]
  refine ⟨P, p.perm, rfl, hP.describes, fun k => ⟨?_, (hv k).trans (hsir _ _), ?_⟩, fun P' => ?_⟩
  · show (p.args 0 m k).neg = _
    rw [hP.args_eq 0 k]
    show (baseMetrics o.clampDb _ _).1.neg = _
    rw [(hd _ _).1 (hest _), neg_neg']
  · show (p.args 1 m k).neg = _
    rw [hP.args_eq 1 k]
    show (baseMetrics o.clampDb _ _).2.2.neg = _
    rw [(hd _ _).2.2 (hest _), neg_neg']
  · have : (fun k => (p.loss m k).neg) = P.values fun k j => (negSir o sd sa m k j).neg := funext hv
    show _ ≤ eTotal fun k => (p.loss m k).neg
    simp only [← hsir]
    rw [this, hsol.eTotal_neg, hsol.eTotal_neg]
    exact EReal.neg_le_neg_iff.2 (hP.best.eTotal_le hsol P')

/-! ### C03 -/

/-- **C03.**  `si_sdr_loss(est, ref, pairwise=True)` is minus the classical scale-invariant SDR: with
`a = ⟨est, ref⟩ / ‖ref‖²`, the ratio of `‖a ref‖²` and `‖a ref - est‖²`. -/
theorem C03_si_sdr_loss {zm : Bool} {cl : Option ℝ} (hcl : ∀ d, cl = some d → 0 ≤ d)
    {est : Sig s e N} {ref : Sig s r N} {L} (h : siSdrLossPair B zm cl est ref = .ok L)
    (m : BIdx s) (k : Fin r) (j : Fin e) (hest : Audible (centred zm (est m j)))
    (href : Audible (centred zm (ref m k))) :
    let x := centred zm (ref m k)
    let y := centred zm (est m j)
    let a := (∑ t, y t * x t) / ∑ t, x t ^ 2
    L m k j = (report cl (dbRatio (∑ t, (a * x t) ^ 2) (∑ t, (a * x t - y t) ^ 2))).neg := by
  intro x y a
  have hL : L m k j = coherenceToNegSdr cl
      (fin (dot (prep (siOpts zm cl none) ref m k) (prep (siOpts zm cl none) est m j) ^ 2)) := by
    unfold siSdrLossPair sdrLossPair at h
    rw [sdrCohPair_def, if_neg (by simp [siOpts]), if_pos (by rfl)] at h
    cases h; rfl
  have hx : 0 < sigNorm x := lt_of_lt_of_le (by norm_num) href
  have hy : 0 < sigNorm y := lt_of_lt_of_le (by norm_num) hest
  have hdot : dot (prep (siOpts zm cl none) ref m k) (prep (siOpts zm cl none) est m j) =
      (sigNorm x)⁻¹ * (sigNorm y)⁻¹ * ∑ t, y t * x t := by
    rw [prep_eq, prep_eq]
    have e1 : gain (centred (siOpts zm cl none).zeroMean (ref m k)) = (sigNorm x)⁻¹ := gain_eq href
    have e2 : gain (centred (siOpts zm cl none).zeroMean (est m j)) = (sigNorm y)⁻¹ := gain_eq hest
    rw [e1, e2]
    unfold dot
    rw [Finset.mul_sum]
    refine Finset.sum_congr rfl fun t _ => ?_
    show (sigNorm x)⁻¹ * x t * ((sigNorm y)⁻¹ * y t) = _
    ring
  have hX : ∑ t, x t ^ 2 = sigNorm x ^ 2 := (sigNorm_sq x).symm
  have hY : ∑ t, y t ^ 2 = sigNorm y ^ 2 := (sigNorm_sq y).symm
  have hcs : (∑ t, y t * x t) ^ 2 ≤ sigNorm y ^ 2 * sigNorm x ^ 2 := by
    rw [← hX, ← hY]; exact Finset.sum_mul_sq_le_sq_mul_sq _ _ _
  have hs1 : ∑ t, (a * x t) ^ 2 = a ^ 2 * sigNorm x ^ 2 := by rw [sum_sq_smul, hX]
  have hs2 : ∑ t, (a * x t - y t) ^ 2 =
      a ^ 2 * sigNorm x ^ 2 - 2 * a * (∑ t, y t * x t) + sigNorm y ^ 2 := by
    rw [← hX, ← hY, Finset.mul_sum, Finset.mul_sum, ← Finset.sum_sub_distrib, ← Finset.sum_add_distrib]
    exact Finset.sum_congr rfl fun t _ => by ring
  have ha : a = (∑ t, y t * x t) / sigNorm x ^ 2 := by rw [← hX]
  rw [hL, hdot, hs1, hs2, ha]
  generalize (∑ t, y t * x t) = p at *
  generalize sigNorm x = X at *
  generalize sigNorm y = Y at *
  refine loss_eq hcl (E := Y ^ 2) (by positivity) (sq_nonneg _) ?_ ?_ ?_
  · have : (X⁻¹ * Y⁻¹ * p) ^ 2 = p ^ 2 / (Y ^ 2 * X ^ 2) := by field_simp
    rw [this, div_le_one (by positivity)]
    exact hcs
  · field_simp
  · field_simp
    ring

/-- **C03, C41.**  The `si_*` functions return what the general functions return for
`filter_length=1`, whatever is given there for `use_cg_iter`, and for `sdr` and `sdr_loss` whatever
is given for `load_diag`. -/
theorem C03_si_functions (zm : Bool) (cl ld ld' : Option ℝ) (it : Option ℕ) (rp cs cp : Bool)
    (ref : Sig s r N) (est : Sig s e N) (ref' est' : Sig s c N) :
    siSdrLossPair B zm cl est ref = sdrLossPair B ⟨1, it, zm, cl, ld⟩ est ref ∧
    siSdrLossDiag B zm cl est' ref' = sdrLossDiag B ⟨1, it, zm, cl, ld⟩ est' ref' ∧
    pairwiseSiSdrLoss B zm cl est ref = pairwiseSdrLoss B ⟨1, it, zm, cl, ld⟩ est ref ∧
    siSdr B zm cl rp cs ref est = sdr B ⟨1, it, zm, cl, ld⟩ rp cs ref est ∧
    siSdrPitLoss B zm cl est ref = sdrPitLoss B ⟨1, it, zm, cl, ld⟩ est ref ∧
    siBssEvalSources B zm cl cp ld' ref est = bssEvalSources B ⟨1, it, zm, cl, ld'⟩ cp ref est :=
  ⟨rfl, rfl, rfl, rfl, rfl, rfl⟩

-- with the options of the example, ignoring the iterations
example : siSdrLossPair torchBackend false (some 30) Ex.est Ex.ref =
    sdrLossPair torchBackend ⟨1, some 10, false, some 30, some 2⟩ Ex.est Ex.ref :=
  (C03_si_functions false (some 30) (some 2) none (some 10) true false true Ex.ref Ex.est Ex.ref Ex.est).1

/-! ### C04, C45 -/

/-- **C45.**  Direct solver, non-negative loading: the square cosines computed by `sdr_loss` are in
`[0, 1]`. -/
theorem C45_sdr_loss_coherence (hB : Covered B) (hdir : o.direct) (hload : 0 ≤ o.load)
    {ref : Sig s r N} {est : Sig s e N} {coh} (h : sdrCohPair B o ref est = .ok coh) (m k j) :
    0 ≤ coh m k j ∧ coh m k j ≤ 1 :=
  sdrCohPair_range hB hdir hload ref est h m k j

example (m : BIdx []) (k j : Fin 2) : ∃ coh, sdrCohPair torchBackend Ex.opts Ex.ref Ex.est = .ok coh ∧
    0 ≤ coh m k j ∧ coh m k j ≤ 1 :=
  ⟨_, Ex.sdrCohPair_value, C45_sdr_loss_coherence Ex.covered Ex.direct le_rfl Ex.sdrCohPair_value m k j⟩

/-- **C45.**  Direct solver, non-negative loading: the square cosines computed by
`square_cosine_metrics` are in `[0, 1]`, and (without loading if the filter has length one) the one for
a single reference is at most the one for all references. -/
theorem C45_square_cosines (hB : Covered B) (hdir : o.direct) (hload : 0 ≤ o.load)
    {ref : Sig s r N} {est : Sig s e N} {sdr sar} (h : sqCosPair B o ref est = .ok (sdr, sar)) (m k j) :
    0 ≤ sdr m k j ∧ sdr m k j ≤ 1 ∧ 0 ≤ sar m j ∧ sar m j ≤ 1 ∧
      (o.filterLength ≠ 1 ∨ o.load = 0 → sdr m k j ≤ sar m j) :=
  sqCosPair_range hB hdir hload ref est h m k j

example (m : BIdx []) (k j : Fin 2) : ∃ sdr sar, sqCosPair torchBackend Ex.opts Ex.ref Ex.est = .ok (sdr, sar) ∧
    sdr m k j ≤ sar m j :=
  ⟨_, _, Ex.sqCosPair_value, (C45_square_cosines Ex.covered Ex.direct le_rfl Ex.sqCosPair_value m k j).2.2.2.2
    (Or.inr rfl)⟩

/-- What C04 says about one pair. -/
structure Ordered (cl : Option ℝ) (sdr sir sar : XR) : Prop where
  sdr_ne_nan : sdr ≠ nan
  sar_ne_nan : sar ≠ nan
  sdr_le_sar : toEReal sdr ≤ toEReal sar
  sdr_le_sir : sir = nan ∨ toEReal sdr ≤ toEReal sir
  sir_nan : cl = none → (sir = nan ↔ sar = ninf)

theorem ordered_base (cl : Option ℝ) {a b : ℝ} (ha : 0 ≤ a) (hab : a ≤ b) (hb : b ≤ 1) :
    Ordered cl (baseMetrics cl a b).1.neg (baseMetrics cl a b).2.1.neg (baseMetrics cl a b).2.2.neg := by
  unfold baseMetrics
  have hn : ∀ v, coherenceToNegSdr cl (fin v) ≠ nan := fun v h => by
    simpa using coherenceToNegSdr_eq_nan.1 h
  have hle : ∀ {v w : ℝ}, v ≤ w → toEReal (coherenceToNegSdr cl (fin v)).neg ≤
      toEReal (coherenceToNegSdr cl (fin w)).neg := fun {v w} h => by
    rw [toEReal_neg (hn _), toEReal_neg (hn _)]
    exact EReal.neg_le_neg_iff.2 (coherenceToNegSdr_anti cl h)
  have hdiv : XR.div (fin a) (fin b) = if b = 0 then signInf a else fin (a / b) := rfl
  refine ⟨fun h => hn _ (neg_eq_nan.1 h), fun h => hn _ (neg_eq_nan.1 h), hle hab, ?_, ?_⟩
  · simp only [hdiv]
    by_cases hb0 : b = 0
    · left
      have : a = 0 := by linarith
      subst hb0 this
      simp [signInf, coherenceToNegSdr_nan, neg]
    · right
      have hbp : 0 < b := lt_of_le_of_ne (ha.trans hab) (Ne.symm hb0)
      rw [if_neg hb0]
      exact hle ((le_div_iff₀ hbp).2 (by nlinarith))
  · rintro rfl
    simp only [hdiv]
    by_cases hb0 : b = 0
    · have : a = 0 := by linarith
      subst hb0 this
      rw [coherenceToNegSdr_fin, cclamp_none le_rfl zero_le_one]
      simp [signInf, coherenceToNegSdr_nan, neg, negDb]
    · rw [if_neg hb0, coherenceToNegSdr_fin, coherenceToNegSdr_fin, cclamp_none (ha.trans hab) hb]
      refine iff_of_false (fun h => negDb_ne_nan _ (neg_eq_nan.1 h)) ?_
      unfold negDb
      rw [if_neg hb0]
      split <;> simp [neg]

/-- **C04.**  Direct solver, `load_diag` absent or not negative (and absent or 0 if
`filter_length=1`): the SDR reported by `bss_eval_sources` never exceeds the SAR, nor the SIR unless
that is NaN.  SDR and SAR are never NaN; without `clamp_db` the SIR is NaN exactly when the SAR is
`-inf`. -/
theorem C04_sdr_le_sir_sar (hB : Covered B) (hdir : o.direct) (hload : 0 ≤ o.load)
    (hone : o.filterLength ≠ 1 ∨ o.load = 0) {cp : Bool}
    (hsv : cp = true ∨ o.filterLength = 1 ∨ B.stackedVectors = true)
    {ref : Sig s r N} {est : Sig s e N} {out} (h : bssEvalSources B o cp ref est = .ok out) (m k) :
    Ordered o.clampDb (out.sdr m k) (out.sir m k) (out.sar m k) := by
  cases cp with
  | true =>
    unfold bssEvalSources at h
    rw [if_pos rfl] at h
    obtain ⟨sd, sa, p, hL, hp, rfl⟩ := bssEvalPerm_ok h
    obtain ⟨-, P, hP⟩ := solvePermutation_spec B hB.lsa _ _ hp m
    obtain ⟨h1, -, -, h4, h5⟩ := sqCosPair_range hB hdir hload ref est hL m (P.ref k) (P.est k)
    show Ordered _ (p.args 0 m k).neg (p.loss m k).neg (p.args 1 m k).neg
    rw [hP.loss_eq k, hP.args_eq 0 k, hP.args_eq 1 k]
    exact ordered_base _ h1 (h5 hone) h4
  | false =>
    unfold bssEvalSources at h
    rw [if_neg (by simp)] at h
    split at h
    · cases h
    · have hsv' : o.filterLength = 1 ∨ (o.useCgIter = none ∧ B.stackedVectors = true) := by
        rcases hsv with h | h | h
        · cases h
        · exact Or.inl h
        · rcases hdir with h' | h'
          · exact Or.inl h'
          · exact Or.inr ⟨h', h⟩
      unfold bssEvalNoPerm at h
      cases hp : sqCosPair B o (fun m (k : Fin (min r e)) => ref m (k.castLE (min_le_left r e)))
        (fun m (k : Fin (min r e)) => est m (k.castLE (min_le_right r e))) with
      | error err =>
        obtain ⟨err', he⟩ := sqCosDiag_of_pair_error B o hsv' hp
        rw [he] at h; cases h
      | ok p =>
        obtain ⟨sd, sa⟩ := p
        rw [sqCosDiag_of_pair B o hsv' hp] at h
        cases h
        obtain ⟨h1, -, -, h4, h5⟩ := sqCosPair_range hB hdir hload _ _ hp m k k
        exact ordered_base _ h1 (h5 hone) h4

/-- **C04, C45 — the exception.**  With `filter_length=1` and `load_diag=1` a perfect estimate gets
SDR `+inf` but a SAR of 0 dB: the loading lowers the SAR only (C41). -/
theorem C04_fails_loaded_length_one :
    ∃ (out : BssOut [] 1), bssEvalNoPerm (N := 1) (M := 1) torchBackend (siOpts false none (some 1))
      (fun _ _ _ => 1) (fun _ _ _ => 1) = .ok out ∧ ∀ m, out.sdr m 0 = pinf ∧ out.sar m 0 = fin 0 := by
  have hp : ∀ (m : BIdx []) (k : Fin 1),
      prep (N := 1) (siOpts false none (some 1)) (fun _ _ _ => 1) m k = fun _ => 1 := by
    intro m k
    rw [prep_eq]
    have hc : centred (siOpts false none (some 1)).zeroMean (fun _ : Fin 1 => (1 : ℝ)) = fun _ => 1 := rfl
    have hs : sigNorm (fun _ : Fin 1 => (1 : ℝ)) = 1 := by simp [sigNorm]
    rw [hc]
    have hg : gain (fun _ : Fin 1 => (1 : ℝ)) = 1 := by rw [gain_eq (by rw [hs]; norm_num), hs, inv_one]
    rw [hg]
    simp
  have hdot : dot (fun _ : Fin 1 => (1 : ℝ)) (fun _ => 1) = 1 := by simp [dot]
  have hsar : ∃ sar, cohSarOne (s := []) (r := 1) (e := 1) (N := 1) (siOpts false none (some 1))
      (fun _ _ _ => 1) (fun _ _ _ => 1) = .ok sar ∧ ∀ m, sar m 0 = 1 / 2 := by
    have hin : ∀ m : BIdx [], inner ℝ (oneFam 1 (prep (siOpts false none (some 1)) (fun _ _ _ => 1 : Sig [] 1 1) m) 0)
        (shift 1 (prep (siOpts false none (some 1)) (fun _ _ _ => 1 : Sig [] 1 1) m 0) 0) = 1 := by
      intro m
      unfold oneFam
      rw [inner_shift_zero 1 le_rfl, hp, hdot]
    have hl : (siOpts false none (some 1)).load = 1 := rfl
    rw [cohSarOne_eq 1 le_rfl, if_neg]
    · refine ⟨_, rfl, fun m => ?_⟩
      rw [quad_fin_one, hin]
      have := hin m
      unfold oneFam at this ⊢
      rw [this, hl]
      norm_num
    · rintro ⟨m, hm⟩
      have := hin m
      unfold oneFam at this hm
      rw [gramD_fin_one, this, hl] at hm
      norm_num at hm
  obtain ⟨sar, hsar, hval⟩ := hsar
  refine ⟨_, by unfold bssEvalNoPerm; simp only [sqCosDiag_def]; rw [if_neg (by simp [siOpts]), if_pos (by rfl), hsar], fun m => ⟨?_, ?_⟩⟩
  · show (coherenceToNegSdr none (fin (dot (prep (s := []) (c := 1) (N := 1) (siOpts false none (some 1)) (fun _ _ _ => 1) m 0)
      (prep (s := []) (c := 1) (N := 1) (siOpts false none (some 1)) (fun _ _ _ => 1) m 0) ^ 2))).neg = pinf
    rw [hp, hdot, coherenceToNegSdr_fin, cclamp_none (by norm_num) (by norm_num)]
    simp [negDb, neg]
  · show (coherenceToNegSdr none (fin (sar m 0))).neg = fin 0
    rw [hval, coherenceToNegSdr_fin, cclamp_none (by norm_num) (by norm_num)]
    unfold negDb
    norm_num [neg]

/-! ### concrete instances (signals of Proofs/Example.lean) -/

example : ∃ L, sdrLossPair torchBackend Ex.opts Ex.est Ex.ref = .ok L ∧ ∀ m k j, L m k j =
    (docSdr 2 (fun k => centred false (Ex.ref m k)) k (centred false (Ex.est m j))).neg := by
  obtain ⟨L, h⟩ := Ex.sdrLossPair_ok
  exact ⟨L, h, fun m k j => C01_sdr_loss_pairwise Ex.covered Ex.direct Ex.load Ex.clampOk Ex.fits h m k j
    (Ex.est_audible m j) (fun h => absurd h (by decide))⟩

example : ∃ L, sdrLossDiag torchBackend Ex.opts Ex.est Ex.ref = .ok L ∧ ∀ m k, L m k =
    (docSdr 2 (fun k => centred false (Ex.ref m k)) k (centred false (Ex.est m k))).neg := by
  obtain ⟨L, h⟩ := Ex.sdrLossDiag_ok
  exact ⟨L, h, fun m k => C01_sdr_loss Ex.covered Ex.direct (Or.inr rfl) Ex.load Ex.clampOk Ex.fits h m k
    (Ex.est_audible m k) (fun h => absurd h (by decide))⟩

example : ∃ out, bssEvalSources torchBackend Ex.opts false Ex.ref Ex.est = .ok out ∧
    ∀ m k, out.sir m k = docSir 2 (fun k => centred false (Ex.ref m k)) k (centred false (Ex.est m k)) := by
  obtain ⟨out, h⟩ := Ex.bssEvalNoPerm_ok
  exact ⟨out, h, fun m k => (C02_bss_eval Ex.covered Ex.direct (Or.inr rfl) Ex.load Ex.clampOk Ex.fits h m k
    (Ex.est_audible m k) (fun h => absurd h (by decide))).2.1⟩

example : ∃ out, bssEvalSources torchBackend { Ex.opts with clampDb := some 30 } true Ex.ref Ex.est = .ok out ∧
    ∀ m k, Ordered (some 30) (out.sdr m k) (out.sir m k) (out.sar m k) := by
  obtain ⟨out, h⟩ := Ex.bssEval_ok (d := 30)
  exact ⟨out, h, fun m k => C04_sdr_le_sir_sar (o := { Ex.opts with clampDb := some 30 }) Ex.covered Ex.direct
    le_rfl (Or.inr rfl) (Or.inl rfl) h m k⟩

example : ∃ out, bssEvalSources torchBackend { Ex.opts with clampDb := some 30 } true Ex.ref Ex.est = .ok out ∧
    ∀ m, ∃ P : Pairing 2 2, ∀ k, out.sar m k = report (some 30)
      (docSar 2 (fun k => centred false (Ex.ref m k)) (centred false (Ex.est m (P.est k)))) := by
  obtain ⟨out, h⟩ := Ex.bssEval_ok (d := 30)
  refine ⟨out, h, fun m => ?_⟩
  obtain ⟨P, perm, -, -, h1, -⟩ := C12_bss_eval_documented (o := { Ex.opts with clampDb := some 30 })
    Ex.covered Ex.direct Ex.load (fun d hd => by cases hd; norm_num) Ex.fits h m
    (fun j => Ex.est_audible m j) (fun h => absurd h (by decide))
  exact ⟨P, fun k => (h1 k).2.2⟩

example (m : BIdx []) : ∃ L, siSdrLossPair torchBackend false none Ex.est Ex.ref = .ok L ∧
    L m 0 0 = (dbRatio 4 1).neg := by
  refine ⟨_, rfl, ?_⟩
  have h := C03_si_sdr_loss (B := torchBackend) (zm := false) (cl := none) (fun d h => by cases h)
    (est := Ex.est) (ref := Ex.ref) rfl m 0 0 (Ex.audible _ 0 (by simp [centred, Ex.est]))
    (Ex.audible _ 0 (by simp [centred, Ex.ref]))
  refine h.trans ?_
  simp only [centred, Ex.est, Ex.ref, report, Fin.sum_univ_three]
  have h1 : (![1, 0, 0] : Fin 3 → ℝ) 2 = 0 := rfl
  have h2 : (![2, 0, 1] : Fin 3 → ℝ) 2 = 1 := rfl
  norm_num [h1, h2]

end FBE.Props
