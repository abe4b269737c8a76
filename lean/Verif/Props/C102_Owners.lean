import Verif.Proofs.Owners
import Verif.Proofs.AngleDoc
import Verif.Props.C101_Ensemble

/-!
# C102 — high values settle the permutation
-/

namespace FBE.Props

open Spec XR

variable {s : List ℕ} {r e N : ℕ} {B : Backend} {o : Opts}

theorem not_small_of_gt {cl : Option ℝ} (hcl : ∀ d, cl = some d → 0 ≤ d) {c : ℝ} {v : XR}
    (h : (ownerDb c : EReal) < toEReal (report cl v)) (hv : v ≠ nan) : ∀ d, cl = some d → ownerDb c < d := fun d hd => by
  subst hd
  have := hcl d rfl
  refine EReal.coe_lt_coe_iff.1 (h.trans_le ?_)
  cases v with
  | fin x => exact EReal.coe_le_coe_iff.2 (max_le (by linarith) (min_le_left _ _))
  | pinf => exact le_rfl
  | ninf => exact EReal.coe_le_coe_iff.2 (by linarith)
  | nan => exact absurd rfl hv

/-- **C102.**  The references are correlated at most by `c` (whatever filters of this length are applied), and estimate
`j` has an SDR above `10 log10 ((1 + c) / (1 - c))` for the reference `σ j`: then its SDR is below this value for all
the other references. -/
theorem C102_one_owner (hB : Covered B) (hdir : o.direct) (hload : o.load = 0) (hcl : o.clampOk)
    (hf : FilterFits N o.filterLength) {est : Sig s e N} {ref : Sig s r N} {L} (h : sdrLossPair B o est ref = .ok L)
    (m : BIdx s) (j : Fin e) (hest : Audible (centred o.zeroMean (est m j)))
    (href : o.filterLength = 1 → ∀ k, Normalisable (centred o.zeroMean (ref m k))) {c : ℝ} (h0 : 0 ≤ c) (h1 : c < 1)
    {k k' : Fin r}
    (hc : AtMostCorrelated o.filterLength c (centred o.zeroMean (ref m k)) (centred o.zeroMean (ref m k')))
    (hk : (ownerDb c : EReal) < toEReal (L m k j).neg) : toEReal (L m k' j).neg < (ownerDb c : EReal) := by
  have hL := sdrLossPair_length h
  rw [C01_sdr_loss_pairwise hB hdir hload hcl hf h m k j hest (fun h => href h k), neg_neg'] at hk
  rw [C01_sdr_loss_pairwise hB hdir hload hcl hf h m k' j hest (fun h => href h k'), neg_neg']
  set u := shift (N + o.filterLength - 1) (centred o.zeroMean (est m j)) 0
  have hu := energy_pos (shift_ne_zero' hL hest)
  have hr := ratio_of_gt hcl h0 h1 (sq_nonneg _) (sq_nonneg _) hk
  have hnan : docSdr o.filterLength (fun k => centred o.zeroMean (ref m k)) k (centred o.zeroMean (est m j)) ≠ nan := by
    refine dbRatio_ne_nan (ne_of_gt ?_)
    rw [← energy_parts]
    exact hu
  exact (lt_of_ratio h0 h1 (not_small_of_gt hcl hk hnan) (sq_nonneg _) (sq_nonneg _)
    (owner_ratio _ _ h0 (correlated_spans hc) u hr)).1

/-- **C102.**  If this is so for all estimates, with different references, then the permutation that `sdr` returns joins
every estimate with its reference. -/
theorem C102_sdr (hB : Covered B) (hdir : o.direct) (hload : o.load = 0) (hcl : o.clampOk)
    (hf : FilterFits N o.filterLength) {est : Sig s e N} {ref : Sig s r N} {out} (h : sdr B o true false ref est = .ok out)
    (m : BIdx s) (hest : ∀ j, Audible (centred o.zeroMean (est m j)))
    (href : o.filterLength = 1 → ∀ k, Normalisable (centred o.zeroMean (ref m k))) {c : ℝ} (h0 : 0 ≤ c) (h1 : c < 1)
    (hc : ∀ k k', k ≠ k' →
      AtMostCorrelated o.filterLength c (centred o.zeroMean (ref m k)) (centred o.zeroMean (ref m k')))
    {σ : Fin e → Fin r} (hσ : Function.Injective σ)
    (hgood : ∀ j, (ownerDb c : EReal) < toEReal (report o.clampDb
      (docSdr o.filterLength (fun k => centred o.zeroMean (ref m k)) (σ j) (centred o.zeroMean (est m j))))) :
    ∃ (P : Pairing r e) (perm : BIdx s → Fin (min r e) → ℕ), out.perm = some perm ∧ Describes (perm m) P ∧
      (∀ k, P.ref k = σ (P.est k)) ∧
      ∀ k, out.sdr m k = report o.clampDb
        (docSdr o.filterLength (fun k => centred o.zeroMean (ref m k)) (P.ref k) (centred o.zeroMean (est m (P.est k)))) ∧
        (ownerDb c : EReal) < toEReal (out.sdr m k) := by
  obtain ⟨L, p, hL, hp, e1, e2⟩ := sdr_ok h
  obtain ⟨hsol, P, hP⟩ := solvePermutation_spec B hB.lsa L _ hp m
  have hL' : sdrLossPair B o est ref = .ok L := hL
  have hd : ∀ k j, L m k j = (report o.clampDb (docSdr o.filterLength (fun k => centred o.zeroMean (ref m k)) k
      (centred o.zeroMean (est m j)))).neg := fun k j =>
    C01_sdr_loss_pairwise hB hdir hload hcl hf hL' m k j (hest j) fun h => href h k
  have hown : ∀ k, P.ref k = σ (P.est k) := best_owners hσ (t := ((-ownerDb c : ℝ) : EReal)) hsol.no_nan (fun j => by
      have := hgood j
      have hn := hsol.no_nan (σ j) j
      rw [hd] at hn ⊢
      rw [toEReal_neg (fun h => hn (by rw [h]; rfl)), EReal.coe_neg, EReal.neg_lt_neg_iff]
      exact this) (fun j k hk => by
      have := C102_one_owner hB hdir hload hcl hf hL' m j (hest j) href h0 h1 (hc (σ j) k hk.symm)
        (by rw [hd, neg_neg']; exact hgood j)
      have hn := hsol.no_nan k j
      rw [toEReal_neg hn] at this
      rw [EReal.coe_neg]
      exact EReal.neg_lt_comm.1 this) hP.best
  have hv : ∀ k, out.sdr m k = report o.clampDb
        (docSdr o.filterLength (fun k => centred o.zeroMean (ref m k)) (P.ref k) (centred o.zeroMean (est m (P.est k)))) :=
    fun k => by
      rw [e1]
      show (p.loss m k).neg = _
      rw [hP.loss_eq, hd, neg_neg']
  refine ⟨P, p.perm, e2, hP.describes, hown, fun k => ⟨hv k, ?_⟩⟩
  rw [hv, hown]
  exact hgood _

/-- **C102** for `bss_eval_sources`, which goes by the SIR. -/
theorem C102_bss_eval (hB : Covered B) (hdir : o.direct) (hload : o.load = 0) (hcl : o.clampOk)
    (hf : FilterFits N o.filterLength) {est : Sig s e N} {ref : Sig s r N} {out}
    (h : bssEvalSources B o true ref est = .ok out)
    (m : BIdx s) (href : o.filterLength = 1 → ∀ k, Normalisable (centred o.zeroMean (ref m k))) {c : ℝ} (h0 : 0 ≤ c) (h1 : c < 1)
    (hc : ∀ k k', k ≠ k' →
      AtMostCorrelated o.filterLength c (centred o.zeroMean (ref m k)) (centred o.zeroMean (ref m k')))
    {σ : Fin e → Fin r} (hσ : Function.Injective σ)
    (hgood : ∀ j, (ownerDb c : EReal) < toEReal (report o.clampDb
      (docSir o.filterLength (fun k => centred o.zeroMean (ref m k)) (σ j) (centred o.zeroMean (est m j))))) :
    ∃ (P : Pairing r e) (perm : BIdx s → Fin (min r e) → ℕ), out.perm = some perm ∧ Describes (perm m) P ∧
      (∀ k, P.ref k = σ (P.est k)) ∧ ∀ k, (ownerDb c : EReal) < toEReal (out.sir m k) := by
  unfold bssEvalSources at h
  rw [if_pos rfl] at h
  obtain ⟨sd, sa, p, hL, hp, rfl⟩ := bssEvalPerm_ok h
  obtain ⟨hsol, P, hP⟩ := solvePermutation_spec B hB.lsa _ _ hp m
  have hsir : ∀ k j, (negSir o sd sa m k j).neg = report o.clampDb (docSir o.filterLength
      (fun k => centred o.zeroMean (ref m k)) k (centred o.zeroMean (est m j))) := fun k j => by
    have := (baseMetrics_doc hB hdir hload hcl hf ref est hL m k j (fun h1 => href h1 k)).2.1
    unfold negSir
    rw [this, neg_neg']
  have hg : ∀ j, (ownerDb c : EReal) < toEReal (negSir o sd sa m (σ j) j).neg := fun j => by
    rw [hsir]
    exact hgood j
  have hown : ∀ k, P.ref k = σ (P.est k) := best_owners hσ (t := ((-ownerDb c : ℝ) : EReal)) hsol.no_nan (fun j => by
      have := hg j
      rw [toEReal_neg (hsol.no_nan (σ j) j)] at this
      rw [EReal.coe_neg]
      exact EReal.lt_neg_comm.1 this) (fun j k hk => by
      set x := fun k => centred o.zeroMean (ref m k)
      set u := shift (N + o.filterLength - 1) (centred o.zeroMean (est m j)) 0 with hu
      set w := (spanAll (N + o.filterLength - 1) o.filterLength x).starProjection u with hw
      have hproj : ∀ k, (spanOne (N + o.filterLength - 1) o.filterLength (x k)).starProjection u =
          (spanOne (N + o.filterLength - 1) o.filterLength (x k)).starProjection w := fun k => by
        have := Submodule.starProjection_comp_starProjection_of_le
          (spanOne_le_spanAll (N + o.filterLength - 1) o.filterLength x k)
        exact (DFunLike.congr_fun this u).symm
      have hj := hgood j
      have hdoc : ∀ k, docSir o.filterLength x k (centred o.zeroMean (est m j)) =
          dbRatio (energy ((spanOne (N + o.filterLength - 1) o.filterLength (x k)).starProjection w))
            (energy (w - (spanOne (N + o.filterLength - 1) o.filterLength (x k)).starProjection w)) := fun k => by
        unfold docSir
        dsimp only
        rw [← hu, hproj, ← hw]
      have hn := hsol.no_nan (σ j) j
      have hdn : docSir o.filterLength x (σ j) (centred o.zeroMean (est m j)) ≠ nan := fun h => by
        have h2 := hsir (σ j) j
        rw [h] at h2
        refine hn ?_
        have h3 : (negSir o sd sa m (σ j) j).neg = nan := by
          rw [h2]
          cases o.clampDb <;> rfl
        rw [← neg_neg' (negSir o sd sa m (σ j) j), h3]
        rfl
      have hsmall := not_small_of_gt hcl hj hdn
      rw [hdoc] at hj
      have hr := ratio_of_gt hcl h0 h1 (sq_nonneg _) (sq_nonneg _) hj
      have : toEReal (report o.clampDb (docSir o.filterLength x k (centred o.zeroMean (est m j)))) < (ownerDb c : EReal) := by
        rw [hdoc]
        exact (lt_of_ratio h0 h1 hsmall (sq_nonneg _) (sq_nonneg _)
          (owner_ratio _ _ h0 (correlated_spans (hc (σ j) k hk.symm)) w hr)).1
      rw [← hsir, toEReal_neg (hsol.no_nan k j)] at this
      rw [EReal.coe_neg]
      exact EReal.neg_lt_comm.1 this) hP.best
  refine ⟨P, p.perm, rfl, hP.describes, hown, fun k => ?_⟩
  show _ < toEReal (p.loss m k).neg
  rw [hP.loss_eq, hown]
  exact hg _

/-- **C102 — the value is sharp.**  For every `c` there are two references correlated by `c` and an estimate whose SI-SDR is
exactly this value for both. -/
theorem C102_sharp {c : ℝ} (h0 : 0 ≤ c) (h1 : c < 1) :
    ∃ (ref est : Sig [] 2 2) (L : _), (∀ m k k', k ≠ k' → AtMostCorrelated 1 c (ref m k) (ref m k')) ∧
      siSdrLossPair B false none est ref = .ok L ∧ ∀ m k j, (L m k j).neg = fin (ownerDb c) := by
  set d := √(1 - c ^ 2) with hd
  have hd2 : d ^ 2 = 1 - c ^ 2 := Real.sq_sqrt (by nlinarith)
  let ref : Sig [] 2 2 := fun _ => ![![1, 0], ![c, d]]
  let est : Sig [] 2 2 := fun _ _ => ![1 + c, d]
  obtain ⟨L, h⟩ := C34_sdr_loss_length_one (B := B) (o := siOpts false none none) rfl est ref
  have hp : ∀ m k, ∑ t, ref m k t ^ 2 = 1 := fun m k => by
    fin_cases k
    · simp [ref, Fin.sum_univ_two]
    · simp [ref, Fin.sum_univ_two, hd2]
  have hin : ∀ m k k', k ≠ k' → ∑ t, ref m k t * ref m k' t = c := fun m k k' hk => by
    fin_cases k <;> fin_cases k' <;> simp [ref, Fin.sum_univ_two] at hk ⊢
  have hy : ∀ m k (j : Fin 2), ∑ t, est m j t * ref m k t = 1 + c := fun m k j => by
    fin_cases k
    · simp [ref, est, Fin.sum_univ_two]
    · simp [ref, est, Fin.sum_univ_two]
      linear_combination hd2
  refine ⟨ref, est, L, fun m k k' hk f f' => ?_, h, fun m k j => ?_⟩
  · simp only [filtered_one]
    have e1 : ∑ t ∈ Finset.range (2 + 1 - 1), f 0 * zpad (ref m k) t * (f' 0 * zpad (ref m k') t) = f 0 * f' 0 * c := by
      rw [← hin m k k' hk, show 2 + 1 - 1 = 2 from rfl, Finset.sum_range, Finset.mul_sum]
      refine Finset.sum_congr rfl fun t _ => ?_
      rw [zpad_val, zpad_val]
      ring
    have e2 : ∀ (f : Fin 1 → ℝ) k, ∑ t ∈ Finset.range (2 + 1 - 1), (f 0 * zpad (ref m k) t) ^ 2 = f 0 ^ 2 := fun f k => by
      rw [show 2 + 1 - 1 = 2 from rfl, Finset.sum_range]
      conv_rhs => rw [← mul_one (f 0 ^ 2), ← hp m k, Finset.mul_sum]
      refine Finset.sum_congr rfl fun t _ => ?_
      rw [zpad_val]
      ring
    rw [e1, e2, e2, Real.sqrt_sq_eq_abs, Real.sqrt_sq_eq_abs, abs_mul, abs_mul, abs_of_nonneg h0]
    exact le_of_eq (by ring)
  · have hest : Audible (est m j) := Ex.audible _ 0 (by simp [est, h0])
    have href : Audible (ref m k) := by
      unfold Audible sigNorm
      rw [hp m k, Real.sqrt_one]
      norm_num
    rw [C03_si_sdr_loss (fun d hd => by cases hd) h m k j hest href, neg_neg']
    show dbRatio (∑ t, ((∑ t, est m j t * ref m k t) / (∑ t, ref m k t ^ 2) * ref m k t) ^ 2)
      (∑ t, ((∑ t, est m j t * ref m k t) / (∑ t, ref m k t ^ 2) * ref m k t - est m j t) ^ 2) = _
    rw [hy m k j, hp m k, div_one]
    have ey : ∑ t, est m j t ^ 2 = 2 * (1 + c) := by
      simp [est, Fin.sum_univ_two, hd2]
      ring
    have e1 : ∑ t, ((1 + c) * ref m k t) ^ 2 = (1 + c) * (1 + c) := by
      have := hp m k
      calc _ = (1 + c) ^ 2 * ∑ t, ref m k t ^ 2 := by
            rw [Finset.mul_sum]
            exact Finset.sum_congr rfl fun t _ => by ring
        _ = _ := by rw [this]; ring
    have e2 : ∑ t, ((1 + c) * ref m k t - est m j t) ^ 2 = (1 + c) * (1 - c) := by
      calc _ = ∑ t, ((1 + c) * ref m k t) ^ 2 - 2 * (1 + c) * ∑ t, est m j t * ref m k t + ∑ t, est m j t ^ 2 := by
            rw [Finset.mul_sum, ← Finset.sum_sub_distrib, ← Finset.sum_add_distrib]
            exact Finset.sum_congr rfl fun t _ => by ring
        _ = _ := by rw [e1, hy m k j, ey]; ring
    rw [e1, e2, dbRatio_scale (by linarith), dbRatio_owner h0 h1]

/-! ### the hypotheses can be met: the references `(1, 0, 0)` and `(0, 0, 1)`, the estimates `(2, 0, 1)` and `(1, 0, 2)`, two taps -/

theorem exRef_uncorrelated (m : BIdx []) (k k' : Fin 2) (hk : k ≠ k') :
    AtMostCorrelated Ex.opts.filterLength 0 (centred Ex.opts.zeroMean (Ex.ref m k)) (centred Ex.opts.zeroMean (Ex.ref m k')) := by
  intro h h'
  change Fin 2 → ℝ at h h'
  rw [zero_mul, show (3 + Ex.opts.filterLength - 1) = 4 from rfl]
  refine le_of_eq (abs_eq_zero.2 ?_)
  unfold filtered
  change ∑ t ∈ Finset.range 4, (∑ l : Fin 2, _) * ∑ l : Fin 2, _ = 0
  fin_cases k <;> fin_cases k' <;>
    simp [Ex.opts, Ex.ref, centred, zpad, Finset.sum_range_succ, Fin.sum_univ_two] at hk ⊢

theorem exEst_best (m : BIdx []) (j : Fin 2) : IsBestFilter (L := 2) ![2, 0] (centred false (Ex.ref m j)) (centred false (Ex.est m j)) := by
  intro f
  unfold residualOne filtered
  fin_cases j <;> simp [Ex.ref, Ex.est, centred, zpad, Finset.sum_range_succ, Fin.sum_univ_two] <;>
    nlinarith [sq_nonneg (2 - f 0), sq_nonneg (f 0), sq_nonneg (f 1)]

theorem exEst_residual (m : BIdx []) (j : Fin 2) :
    residualOne (L := 2) ![2, 0] (centred false (Ex.ref m j)) (centred false (Ex.est m j)) = 1 ∧
      power (centred false (Ex.est m j)) = 5 := by
  unfold residualOne filtered power
  fin_cases j <;> simp [Ex.ref, Ex.est, centred, zpad, Finset.sum_range_succ, Fin.sum_univ_two, Fin.sum_univ_three] <;> norm_num

theorem exEst_good (m : BIdx []) (j : Fin 2) : (ownerDb 0 : EReal) < toEReal (report Ex.opts.clampDb
    (docSdr Ex.opts.filterLength (fun k => centred Ex.opts.zeroMean (Ex.ref m k)) j (centred Ex.opts.zeroMean (Ex.est m j)))) := by
  have h := docSdr_best (L := 2) (by decide) (x := fun k => centred false (Ex.ref m k)) (k := j) (exEst_best m j)
  obtain ⟨h1, h2⟩ := exEst_residual m j
  change _ < toEReal (docSdr 2 (fun k => centred false (Ex.ref m k)) j (centred false (Ex.est m j)))
  rw [h]
  rw [h1, h2]
  exact gt_of_ratio le_rfl (by norm_num) (by norm_num) (by norm_num)

example (m : BIdx []) : ∃ out perm, sdr torchBackend Ex.opts true false Ex.ref Ex.est = .ok out ∧ out.perm = some perm ∧
    ∃ P : Pairing 2 2, Describes (perm m) P ∧ ∀ k, P.ref k = P.est k := by
  obtain ⟨out, h⟩ := Ex.sdr_cl none true false
  obtain ⟨P, perm, h1, h2, h3, -⟩ := C102_sdr Ex.covered Ex.direct Ex.load Ex.clampOk Ex.fits h m (fun j => Ex.est_audible m j)
    (fun h => absurd h (by decide)) le_rfl (by norm_num) (exRef_uncorrelated m) Function.injective_id (exEst_good m)
  exact ⟨out, perm, h, h1, P, h2, h3⟩

example (m : BIdx []) : ∃ out perm, bssEvalSources torchBackend { Ex.opts with clampDb := some 30 } true Ex.ref Ex.est = .ok out ∧
    out.perm = some perm ∧ ∃ P : Pairing 2 2, Describes (perm m) P ∧ ∀ k, P.ref k = P.est k := by
  obtain ⟨out, h⟩ := Ex.bssEval_ok (d := 30)
  obtain ⟨P, perm, h1, h2, h3, -⟩ := C102_bss_eval (o := { Ex.opts with clampDb := some 30 }) Ex.covered Ex.direct Ex.load
    (fun d hd => by cases hd; norm_num) Ex.fits h m
    (fun h => absurd h (by decide)) le_rfl (by norm_num) (exRef_uncorrelated m) Function.injective_id fun j => by
      have hall : AreBestFilters (L := 2) ![if j = 0 then ![2, 0] else ![1, 0], if j = 0 then ![1, 0] else ![2, 0]]
          (fun k => centred false (Ex.ref m k)) (centred false (Ex.est m j)) ∧
          residualAll (L := 2) ![if j = 0 then ![2, 0] else ![1, 0], if j = 0 then ![1, 0] else ![2, 0]]
            (fun k => centred false (Ex.ref m k)) (centred false (Ex.est m j)) = 0 := by
        have : residualAll (L := 2) ![if j = 0 then ![2, 0] else ![1, 0], if j = 0 then ![1, 0] else ![2, 0]]
            (fun k => centred false (Ex.ref m k)) (centred false (Ex.est m j)) = 0 := by
          unfold residualAll filtered
          fin_cases j <;> simp [Ex.ref, Ex.est, centred, zpad, Finset.sum_range_succ, Fin.sum_univ_two]
        exact ⟨fun g => by rw [this]; exact residual_nonneg _ _ _, this⟩
      have h := docSir_best (L := 2) (by decide) (x := fun k => centred false (Ex.ref m k)) (k := j) (exEst_best m j) hall.1
      obtain ⟨h1, h2⟩ := exEst_residual m j
      change _ < toEReal (report (some 30) (docSir 2 (fun k => centred false (Ex.ref m k)) j (centred false (Ex.est m j))))
      rw [h, h1, h2, hall.2]
      unfold dbRatio ownerDb
      rw [if_neg (by norm_num), if_neg (by norm_num)]
      refine EReal.coe_lt_coe_iff.2 ?_
      rw [show ((1 : ℝ) + 0) / (1 - 0) = 1 by norm_num, Real.logb_one, mul_zero]
      exact lt_max_of_lt_right (lt_min (by norm_num) (mul_pos (by norm_num) (Real.logb_pos (by norm_num) (by norm_num))))
  exact ⟨out, perm, h, h1, P, h2, h3⟩

end FBE.Props
