import Verif.Props.C01_C04_Documented
import Verif.Proofs.LeastSquares

/-!
# C66 — the metrics are those of filters fitted by least squares

`residualOne h x y` is the energy left of the estimate `y` after subtracting the reference `x` passed through
the filter `h`, `residualAll` the same with one filter per reference (Spec/LeastSquares.lean): plain sums over
samples.  The filters are not computed by the code under any of these names and need not be unique: the
statements hold for all best filters.
-/

namespace FBE.Props

open Spec XR

variable {s : List ℕ} {r e c N : ℕ} {B : Backend} {o : Opts}

/-- **C66.**  There are best filters of any length. -/
theorem C66_best_exists (L : ℕ) (x : Fin r → Fin N → ℝ) (y : Fin N → ℝ) :
    (∀ k, ∃ h : Fin L → ℝ, IsBestFilter h (x k) y) ∧ ∃ g : Fin r → Fin L → ℝ, AreBestFilters g x y :=
  ⟨fun k => exists_bestFilter L (x k) y, exists_bestFilters L x y⟩

/-- **C66.**  Direct solver, no loading: an entry of `sdr_loss(est, ref, pairwise=True)` is minus the
SDR of a best filter of `filter_length` taps: the ratio of the energy it explains and the energy it leaves. -/
theorem C66_sdr_loss (hB : Covered B) (hdir : o.direct) (hload : o.load = 0) (hcl : o.clampOk)
    (hfit : FilterFits N o.filterLength) {est : Sig s e N} {ref : Sig s r N} {L}
    (h : sdrLossPair B o est ref = .ok L) (m : BIdx s) (k : Fin r) (j : Fin e)
    (hest : Audible (centred o.zeroMean (est m j)))
    (href : o.filterLength = 1 → Normalisable (centred o.zeroMean (ref m k)))
    {f : Fin o.filterLength → ℝ}
    (hf : IsBestFilter f (centred o.zeroMean (ref m k)) (centred o.zeroMean (est m j))) :
    let x := centred o.zeroMean (ref m k)
    let y := centred o.zeroMean (est m j)
    L m k j = (report o.clampDb (dbRatio (power y - residualOne f x y) (residualOne f x y))).neg := by
  have hL : o.filterLength ≠ 0 := by
    obtain ⟨coh, hcoh, rfl⟩ := sdrLossPair_entry h
    intro h0; simp only [sdrCohPair_def] at hcoh; rw [if_pos h0] at hcoh; cases hcoh
  rw [C01_sdr_loss_pairwise hB hdir hload hcl hfit h m k j hest href,
    docSdr_best (x := fun k => centred o.zeroMean (ref m k)) hL hf]

/-- **C66.**  Direct solver, no loading: the three values of `bss_eval_sources` for a channel, from a best
filter for its own reference and best filters for all the references. -/
theorem C66_bss_eval (hB : Covered B) (hdir : o.direct) (hsv : o.filterLength = 1 ∨ B.stackedVectors = true)
    (hload : o.load = 0) (hcl : o.clampOk) (hfit : FilterFits N o.filterLength)
    {ref est : Sig s c N} {out}
    (h : bssEvalSources B o false ref est = .ok out) (m : BIdx s) (k : Fin c)
    (hest : Audible (centred o.zeroMean (est m k)))
    (href : o.filterLength = 1 → Normalisable (centred o.zeroMean (ref m k)))
    {f : Fin o.filterLength → ℝ} {g : Fin c → Fin o.filterLength → ℝ}
    (hf : IsBestFilter f (centred o.zeroMean (ref m k)) (centred o.zeroMean (est m k)))
    (hg : AreBestFilters g (fun k => centred o.zeroMean (ref m k)) (centred o.zeroMean (est m k))) :
    let x := fun k => centred o.zeroMean (ref m k)
    let y := centred o.zeroMean (est m k)
    let k' := k.cast (min_self c).symm
    let one := residualOne f (x k) y
    let all := residualAll g x y
    out.sdr m k' = report o.clampDb (dbRatio (power y - one) one) ∧
    out.sir m k' = report o.clampDb (dbRatio (power y - one) (one - all)) ∧
    out.sar m k' = report o.clampDb (dbRatio (power y - all) all) := by
  have hL : o.filterLength ≠ 0 := by
    obtain ⟨sd, sa, hs, -⟩ := bssEvalSources_false h
    intro h0
    unfold sqCosDiag at hs
    rw [if_pos h0] at hs
    cases hs
  obtain ⟨h1, h2, h3⟩ := C02_bss_eval hB hdir hsv hload hcl hfit h m k hest href
  refine ⟨h1.trans ?_, h2.trans ?_, h3.trans ?_⟩
  · rw [docSdr_best (x := fun k => centred o.zeroMean (ref m k)) hL hf]
  · rw [docSir_best (x := fun k => centred o.zeroMean (ref m k)) hL hf hg]
  · rw [docSar_best hL hg]

/-- **C66.**  The same with permutation solving, for the pairs of the output. -/
theorem C66_bss_eval_permutation (hB : Covered B) (hdir : o.direct) (hload : o.load = 0) (hcl : o.clampOk)
    (hfit : FilterFits N o.filterLength) {ref : Sig s r N} {est : Sig s e N} {out}
    (h : bssEvalSources B o true ref est = .ok out) (m : BIdx s)
    (hest : ∀ j, Audible (centred o.zeroMean (est m j)))
    (href : o.filterLength = 1 → ∀ k, Normalisable (centred o.zeroMean (ref m k))) :
    let x := fun k => centred o.zeroMean (ref m k)
    let y := fun j => centred o.zeroMean (est m j)
    ∃ (P : Pairing r e) (perm : BIdx s → Fin (min r e) → ℕ), out.perm = some perm ∧ Describes (perm m) P ∧
      ∀ k (f : Fin o.filterLength → ℝ) (g : Fin r → Fin o.filterLength → ℝ),
        IsBestFilter f (x (P.ref k)) (y (P.est k)) → AreBestFilters g x (y (P.est k)) →
        let one := residualOne f (x (P.ref k)) (y (P.est k))
        let all := residualAll g x (y (P.est k))
        out.sdr m k = report o.clampDb (dbRatio (power (y (P.est k)) - one) one) ∧
        out.sir m k = report o.clampDb (dbRatio (power (y (P.est k)) - one) (one - all)) ∧
        out.sar m k = report o.clampDb (dbRatio (power (y (P.est k)) - all) all) := by
  have hL : o.filterLength ≠ 0 := by
    unfold bssEvalSources at h
    rw [if_pos rfl] at h
    obtain ⟨sd, sa, p, hq, -⟩ := bssEvalPerm_ok h
    intro h0; simp only [sqCosPair_def] at hq; rw [if_pos h0] at hq; cases hq
  obtain ⟨P, perm, hp, hd, hv, -⟩ := C12_bss_eval_documented hB hdir hload hcl hfit h m hest href
  refine ⟨P, perm, hp, hd, fun k f g hf hg => ?_⟩
  obtain ⟨h1, h2, h3⟩ := hv k
  refine ⟨h1.trans ?_, h2.trans ?_, h3.trans ?_⟩
  · rw [docSdr_best (x := fun k => centred o.zeroMean (ref m k)) hL hf]
  · rw [docSir_best (x := fun k => centred o.zeroMean (ref m k)) hL hf hg]
  · rw [docSar_best hL hg]

/-- **C66.**  A lower bound from any filter: if the reference through some filter of `filter_length` taps
leaves `d` of the energy of the estimate, the reported SDR is at least the ratio of the rest and `d`.
(`est = f * ref + noise` gives the bound with the energy of the noise.) -/
theorem C66_noise_bound (hB : Covered B) (hdir : o.direct) (hload : o.load = 0) (hcl : o.clampOk)
    (hfit : FilterFits N o.filterLength) {est : Sig s e N} {ref : Sig s r N} {L}
    (h : sdrLossPair B o est ref = .ok L) (m : BIdx s) (k : Fin r) (j : Fin e)
    (hest : Audible (centred o.zeroMean (est m j)))
    (href : o.filterLength = 1 → Normalisable (centred o.zeroMean (ref m k)))
    (f : Fin o.filterLength → ℝ)
    (hf : residualOne f (centred o.zeroMean (ref m k)) (centred o.zeroMean (est m j)) ≤
      power (centred o.zeroMean (est m j))) :
    let d := residualOne f (centred o.zeroMean (ref m k)) (centred o.zeroMean (est m j))
    toEReal (report o.clampDb (dbRatio (power (centred o.zeroMean (est m j)) - d) d)) ≤
      toEReal (L m k j).neg := by
  obtain ⟨g, hg⟩ := exists_bestFilter o.filterLength (centred o.zeroMean (ref m k))
    (centred o.zeroMean (est m j))
  rw [C66_sdr_loss hB hdir hload hcl hfit h m k j hest href hg, neg_neg']
  refine report_residual_mono hcl ?_ (Finset.sum_nonneg fun t _ => sq_nonneg _) (hg f) hf
  rw [power_eq le_rfl]
  exact (gain_sq_energy le_rfl hest).2

/-! ### the hypotheses can be met -/

example (m : BIdx []) (k j : Fin 2) : ∃ (L : _) (f : Fin 2 → ℝ), sdrLossPair torchBackend Ex.opts Ex.est Ex.ref = .ok L ∧
    IsBestFilter f (centred false (Ex.ref m k)) (centred false (Ex.est m j)) ∧ L m k j =
    (dbRatio (power (centred false (Ex.est m j)) -
        residualOne f (centred false (Ex.ref m k)) (centred false (Ex.est m j)))
      (residualOne f (centred false (Ex.ref m k)) (centred false (Ex.est m j)))).neg := by
  obtain ⟨L, h⟩ := Ex.sdrLossPair_ok
  obtain ⟨f, hf⟩ := exists_bestFilter 2 (centred false (Ex.ref m k)) (centred false (Ex.est m j))
  exact ⟨L, f, h, hf, C66_sdr_loss Ex.covered Ex.direct Ex.load Ex.clampOk Ex.fits h m k j
    (Ex.est_audible m j) (fun h => absurd h (by decide)) hf⟩

/-- The estimate `(2, 0, 1)` of the reference `(1, 0, 0)`: the filter with taps 2, 0 leaves the energy 1 of
5, so that the SDR is at least that of the ratio 4. -/
example (m : BIdx []) : ∃ L, sdrLossPair torchBackend Ex.opts Ex.est Ex.ref = .ok L ∧
    toEReal (dbRatio 4 1) ≤ toEReal (L m 0 0).neg := by
  obtain ⟨L, h⟩ := Ex.sdrLossPair_ok
  have hr : residualOne (L := Ex.opts.filterLength) (fun l => if l.val = 0 then 2 else 0)
      (centred Ex.opts.zeroMean (Ex.ref m 0)) (centred Ex.opts.zeroMean (Ex.est m 0)) = 1 := by
    show residualOne (L := 2) _ _ _ = 1
    simp [residualOne, filtered, Finset.sum_range_succ, centred, Ex.opts, Ex.ref, Ex.est, zpad]
  have hp : power (centred Ex.opts.zeroMean (Ex.est m 0)) = 5 := by
    simp [power, Fin.sum_univ_three, centred, Ex.opts, Ex.est]; norm_num
  have := C66_noise_bound Ex.covered Ex.direct Ex.load Ex.clampOk Ex.fits h m 0 0
    (Ex.est_audible m 0) (fun h => absurd h (by decide)) (fun l => if l.val = 0 then 2 else 0) (by rw [hr, hp]; norm_num)
  dsimp only at this
  rw [hr, hp, show (5 : ℝ) - 1 = 4 by norm_num] at this
  exact ⟨L, h, this⟩

example (m : BIdx []) (k : Fin 2) : ∃ out, bssEvalSources torchBackend Ex.opts false Ex.ref Ex.est = .ok out ∧
    ∃ (f : Fin 2 → ℝ) (g : Fin 2 → Fin 2 → ℝ), out.sir m k =
      dbRatio (power (centred false (Ex.est m k)) -
          residualOne f (centred false (Ex.ref m k)) (centred false (Ex.est m k)))
        (residualOne f (centred false (Ex.ref m k)) (centred false (Ex.est m k)) -
          residualAll g (fun k => centred false (Ex.ref m k)) (centred false (Ex.est m k))) := by
  obtain ⟨out, h⟩ := Ex.bssEvalNoPerm_ok
  obtain ⟨f, hf⟩ := exists_bestFilter 2 (centred false (Ex.ref m k)) (centred false (Ex.est m k))
  obtain ⟨g, hg⟩ := exists_bestFilters 2 (fun k => centred false (Ex.ref m k)) (centred false (Ex.est m k))
  exact ⟨out, h, f, g, (C66_bss_eval Ex.covered Ex.direct (Or.inr rfl) Ex.load Ex.clampOk Ex.fits h m k
    (Ex.est_audible m k) (fun h => absurd h (by decide)) hf hg).2.1⟩

example (m : BIdx []) : ∃ out, bssEvalSources torchBackend { Ex.opts with clampDb := some 30 } true Ex.ref Ex.est =
    .ok out ∧ ∃ P : Pairing 2 2, ∀ k, ∃ g : Fin 2 → Fin 2 → ℝ, out.sar m k = report (some 30)
      (dbRatio (power (centred false (Ex.est m (P.est k))) -
          residualAll g (fun k => centred false (Ex.ref m k)) (centred false (Ex.est m (P.est k))))
        (residualAll g (fun k => centred false (Ex.ref m k)) (centred false (Ex.est m (P.est k))))) := by
  obtain ⟨out, h⟩ := Ex.bssEval_ok (d := 30)
  obtain ⟨P, perm, -, -, hv⟩ := C66_bss_eval_permutation (o := { Ex.opts with clampDb := some 30 })
    Ex.covered Ex.direct Ex.load (fun d hd => by cases hd; norm_num) Ex.fits h m
    (fun j => Ex.est_audible m j) (fun h => absurd h (by decide))
  refine ⟨out, h, P, fun k => ?_⟩
  obtain ⟨f, hf⟩ := exists_bestFilter 2 (centred false (Ex.ref m (P.ref k))) (centred false (Ex.est m (P.est k)))
  obtain ⟨g, hg⟩ := exists_bestFilters 2 (fun k => centred false (Ex.ref m k))
    (centred false (Ex.est m (P.est k)))
  exact ⟨g, (hv k f g hf hg).2.2⟩

end FBE.Props
