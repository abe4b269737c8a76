import Verif.Proofs.CgContinuous
import Verif.Proofs.MetricLimit
import Verif.Props.C52_Convergence

/-!
# C58: the metrics depend continuously on the signals

Whatever the solver: near signals for which a call returns, it returns, and the values reported change
little when the samples change little.  With permutation solving this holds where the best pairing is
unique; the permutation does not change then.
-/

set_option linter.unusedSectionVars false

namespace FBE.Props

open Spec XR Filter Topology

variable {s : List ℕ} {r e c N : ℕ} {B : Backend} {o : Opts}

/-- **C58** for `sdr_loss(pairwise=True)`. -/
theorem C58_pairwise (hB : Covered B) {ref : Sig s r N} {est : Sig s e N} {M} (h : sdrLossPair B o est ref = .ok M) :
    ∃ M' : Sig s r N × Sig s e N → BIdx s → Fin r → Fin e → XR, M' (ref, est) = M ∧
      (∀ᶠ p in 𝓝 (ref, est), sdrLossPair B o p.2 p.1 = .ok (M' p)) ∧
      ∀ m k j, (∀ p, M' p m k j ≠ nan) ∧ ContinuousAt (fun p => toEReal (M' p m k j)) (ref, est) := by
  obtain ⟨coh, hc, rfl⟩ := sdrLossPair_entry h
  obtain ⟨G, rfl, h2, h3⟩ := sdrCohPair_cont hB hc
  refine ⟨fun p m k j => coherenceToNegSdr o.clampDb (fin (G p m k j)), rfl, ?_, fun m k j =>
    ⟨fun p => coherenceToNegSdr_ne_nan _ _, (continuous_negSdr o.clampDb).continuousAt.comp (h3 m k j)⟩⟩
  filter_upwards [h2] with p hp
  unfold sdrLossPair
  rw [hp]

/-- **C58** for `sdr_loss(pairwise=False)`. -/
theorem C58_aligned (hB : Covered B) (hsv : o.filterLength = 1 ∨ o.useCgIter ≠ none ∨ B.stackedVectors = true)
    {ref est : Sig s c N} {M} (h : sdrLossDiag B o est ref = .ok M) :
    ∃ M' : Sig s c N × Sig s c N → BIdx s → Fin c → XR, M' (ref, est) = M ∧
      (∀ᶠ p in 𝓝 (ref, est), sdrLossDiag B o p.2 p.1 = .ok (M' p)) ∧
      ∀ m k, (∀ p, M' p m k ≠ nan) ∧ ContinuousAt (fun p => toEReal (M' p m k)) (ref, est) := by
  obtain ⟨coh, hc, rfl⟩ := sdrLossDiag_entry h
  rw [sdrCohDiag_eq B o hsv] at hc
  cases hp : sdrCohPair B o ref est with
  | error err => rw [hp] at hc; cases hc
  | ok coh2 =>
  rw [hp] at hc
  cases hc
  obtain ⟨G, rfl, h2, h3⟩ := sdrCohPair_cont hB hp
  refine ⟨fun p m k => coherenceToNegSdr o.clampDb (fin (G p m k k)), rfl, ?_, fun m k =>
    ⟨fun p => coherenceToNegSdr_ne_nan _ _, (continuous_negSdr o.clampDb).continuousAt.comp (h3 m k k)⟩⟩
  filter_upwards [h2] with p hp
  unfold sdrLossDiag
  rw [sdrCohDiag_eq B o hsv, hp]
  rfl

example : ∃ M' : Sig [] 2 3 × Sig [] 2 3 → BIdx [] → Fin 2 → Fin 2 → XR,
    (∀ᶠ p in 𝓝 (Ex.ref, Ex.est), sdrLossPair torchBackend Ex.opts p.2 p.1 = .ok (M' p)) ∧
    ∀ m k j, ContinuousAt (fun p => toEReal (M' p m k j)) (Ex.ref, Ex.est) := by
  obtain ⟨M, h⟩ := Ex.sdrLossPair_ok
  obtain ⟨M', -, h1, h2⟩ := C58_pairwise Ex.covered h
  exact ⟨M', h1, fun m k j => (h2 m k j).2⟩

/-- The iterative solver. -/
example : ∃ M' : Sig [] 2 3 × Sig [] 2 3 → BIdx [] → Fin 2 → XR,
    (∀ᶠ p in 𝓝 (Ex.ref, Ex.est), sdrLossDiag torchBackend { Ex.opts with useCgIter := some 10 } p.2 p.1 = .ok (M' p)) ∧
    ∀ m k, ContinuousAt (fun p => toEReal (M' p m k)) (Ex.ref, Ex.est) := by
  obtain ⟨M, h⟩ := Ex.sdrLossDiag_ok
  have h : sdrLossDiag torchBackend { Ex.opts with useCgIter := none } Ex.est Ex.ref = .ok M := h
  obtain ⟨M1, h', -⟩ := C52_aligned (o := Ex.opts) Ex.covered le_rfl rfl h
  obtain ⟨M', -, h1, h2⟩ := C58_aligned Ex.covered (Or.inr (Or.inl (by simp))) (h' 10)
  exact ⟨M', h1, fun m k => (h2 m k).2⟩

/-- **C58** for `sdr` with permutation solving: if all losses are finite and the best pairing is unique,
small changes of the signals do not change the permutation, and change the values little. -/
theorem C58_sdr (hB : Covered B) (rp cs : Bool) {ref : Sig s r N} {est : Sig s e N} {M out}
    (hM : pairwiseSdrLoss B o est ref = .ok M) (hfin : ∀ m k j, ∃ x, M m k j = fin x) (hu : ∀ m, UniqueBest (M m))
    (h : sdr B o rp cs ref est = .ok out) :
    ∃ out' : Sig s r N × Sig s e N → SdrOut s (min r e),
      (∀ᶠ p in 𝓝 (ref, est), sdr B o rp cs p.1 p.2 = .ok (out' p) ∧ (out' p).perm = out.perm) ∧
      ∀ m i, Tendsto (fun p => toEReal ((out' p).sdr m i)) (𝓝 (ref, est)) (𝓝 (toEReal (out.sdr m i))) := by
  obtain ⟨M', rfl, h1, h2⟩ := C58_pairwise hB hM
  exact sdr_tendsto (o' := fun _ => o) (ref' := Prod.fst) (est' := Prod.snd) hB rp cs hM hfin hu h h1
    (fun m k j => Eventually.of_forall (h2 m k j).1) (fun m k j => (h2 m k j).2)

example : ∃ (out : SdrOut [] 2) (out' : Sig [] 2 3 × Sig [] 2 3 → SdrOut [] 2),
    sdr torchBackend Ex.opts true false Ex.ref Ex.est = .ok out ∧
    ∀ᶠ p in 𝓝 (Ex.ref, Ex.est), sdr torchBackend Ex.opts true false p.1 p.2 = .ok (out' p) ∧ (out' p).perm = out.perm := by
  obtain ⟨p, hp⟩ := (solvePermutation_ok_iff torchBackend Ex.covered.lsa (s := []) (nArgs := 0) (fun _ (k j : Fin 2) =>
    fin (if k = j then 10 * Real.logb 10 ((1 - 4 / 5) / (4 / 5)) else 10 * Real.logb 10 ((1 - 1 / 5) / (1 / 5))))
    (fun i => i.elim0)).2 fun m => solvable_of_finite fun k j => ⟨_, rfl⟩
  have h := sdr_of_ok (o := Ex.opts) true false ex_losses hp
  obtain ⟨out', h', -⟩ := C58_sdr (o := Ex.opts) Ex.covered true false ex_losses (fun m k j => ⟨_, rfl⟩)
    (fun m => Ex.unique_diag ex_lt) h
  exact ⟨_, out', h, h'⟩

/-- **C58** for `bss_eval_sources(compute_permutation=False)`: SDR and SAR are continuous, and so is the
SIR of an estimate whose SAR is not the lowest one that can be reported.  With the direct solver it is
enough that the SIR is not NaN. -/
theorem C58_bss_eval_no_permutation (hB : Covered B)
    (hsv : o.filterLength = 1 ∨ o.useCgIter ≠ none ∨ B.stackedVectors = true)
    {ref est : Sig s c N} {out} (h : bssEvalNoPerm B o ref est = .ok out) :
    ∃ out' : Sig s c N × Sig s c N → BssOut s c,
      (∀ᶠ p in 𝓝 (ref, est), bssEvalNoPerm B o p.1 p.2 = .ok (out' p)) ∧
      ∀ m k, Tendsto (fun p => toEReal ((out' p).sdr m k)) (𝓝 (ref, est)) (𝓝 (toEReal (out.sdr m k))) ∧
        Tendsto (fun p => toEReal ((out' p).sar m k)) (𝓝 (ref, est)) (𝓝 (toEReal (out.sar m k))) ∧
        (out.sar m k ≠ (coherenceToNegSdr o.clampDb (fin 0)).neg ∨
            (o.direct ∧ 0 ≤ o.load ∧ (o.filterLength ≠ 1 ∨ o.load = 0) ∧ out.sir m k ≠ nan) →
          (∀ᶠ p in 𝓝 (ref, est), (out' p).sir m k ≠ nan) ∧
          Tendsto (fun p => toEReal ((out' p).sir m k)) (𝓝 (ref, est)) (𝓝 (toEReal (out.sir m k)))) := by
  obtain ⟨sd, sa, hs, rfl⟩ := bssEvalNoPerm_ok h
  obtain ⟨G, H, rfl, rfl, h3, h4, h5⟩ := sqCosDiag_cont hB hsv hs
  obtain ⟨out', h1, h2⟩ := bssEvalNoPerm_tendsto (o' := fun _ => o) (ref' := Prod.fst) (est' := Prod.snd) hs h
    (fun _ => rfl) h4 h5
  refine ⟨out', ?_, fun m k => ⟨(h2 m k).1, (h2 m k).2.1, fun hor => (h2 m k).2.2 ?_⟩⟩
  · filter_upwards [h3] with p hp
    exact h1 p hp
  rcases hor with hsar | ⟨hdir, hload, hL, hsir⟩
  · intro h0
    apply hsar
    show (coherenceToNegSdr o.clampDb (fin (H (ref, est) m k))).neg = _
    rw [h0]
  · have hor : o.filterLength = 1 ∨ o.useCgIter = none ∧ B.stackedVectors = true := by
      unfold Opts.direct at hdir
      tauto
    rw [sqCosDiag_eq B o hor] at hs
    cases hq : sqCosPair B o ref est with
    | error err => rw [hq] at hs; cases hs
    | ok q =>
    rw [hq] at hs
    obtain ⟨sd2, sa2⟩ := q
    have hs := Prod.mk.inj (Except.ok.inj hs)
    simp only at hs
    rw [← hs.2]
    refine sar_ne_zero (k := k) hB hdir hload hL hq fun h => hsir ?_
    show (coherenceToNegSdr o.clampDb (XR.div (fin (G (ref, est) m k)) (fin (H (ref, est) m k)))).neg = nan
    rw [← hs.1, ← hs.2, h]
    rfl

/-- **C58** for `bss_eval_sources` with permutation solving: if all SIRs are finite and the best pairing
is unique, small changes of the signals do not change the permutation, and change the metrics little.
(`hsa` is needed for the iterative solver only: no estimate is reported as orthogonal to all references.) -/
theorem C58_bss_eval (hB : Covered B) {ref : Sig s r N} {est : Sig s e N} {sd sa out}
    (hs : sqCosPair B o ref est = .ok (sd, sa))
    (hsa : (o.direct ∧ 0 ≤ o.load ∧ (o.filterLength ≠ 1 ∨ o.load = 0)) ∨ ∀ m j, sa m j ≠ 0)
    (hfin : ∀ m k j, ∃ x, (baseMetrics o.clampDb (sd m k j) (sa m j)).2.1 = fin x)
    (hu : ∀ m, UniqueBest fun k j => (baseMetrics o.clampDb (sd m k j) (sa m j)).2.1)
    (h : bssEvalPerm B o ref est = .ok out) :
    ∃ out' : Sig s r N × Sig s e N → BssOut s (min r e),
      (∀ᶠ p in 𝓝 (ref, est), bssEvalPerm B o p.1 p.2 = .ok (out' p) ∧ (out' p).perm = out.perm) ∧
      ∀ m i, Tendsto (fun p => toEReal ((out' p).sdr m i)) (𝓝 (ref, est)) (𝓝 (toEReal (out.sdr m i))) ∧
        Tendsto (fun p => toEReal ((out' p).sir m i)) (𝓝 (ref, est)) (𝓝 (toEReal (out.sir m i))) ∧
        Tendsto (fun p => toEReal ((out' p).sar m i)) (𝓝 (ref, est)) (𝓝 (toEReal (out.sar m i))) := by
  obtain ⟨G, H, rfl, rfl, h3, h4, h5⟩ := sqCosPair_cont hB hs
  refine bssEvalPerm_tendsto (o' := fun _ => o) (ref' := Prod.fst) (est' := Prod.snd) hB hs (fun m k j => ?_) hfin hu h
    (fun _ => rfl) h3 h4 h5
  rcases hsa with ⟨hdir, hload, hL⟩ | hsa
  · refine sar_ne_zero (k := k) hB hdir hload hL hs fun h => ?_
    obtain ⟨x, hx⟩ := hfin m k j
    rw [show (baseMetrics o.clampDb (G (ref, est) m k j) (H (ref, est) m j)).2.1 = nan from h] at hx
    cases hx
  · exact hsa m j

example : ∃ (out : BssOut [] 2) (out' : Sig [] 2 3 × Sig [] 2 3 → BssOut [] 2),
    bssEvalPerm torchBackend Ex.opts Ex.ref Ex.est = .ok out ∧
    ∀ᶠ p in 𝓝 (Ex.ref, Ex.est), bssEvalPerm torchBackend Ex.opts p.1 p.2 = .ok (out' p) ∧ (out' p).perm = out.perm := by
  have hf : ∀ (m : BIdx []) (k j : Fin 2), ∃ x,
      (baseMetrics Ex.opts.clampDb (if k = j then 4 / 5 else 1 / 5) 1).2.1 = fin x := fun m k j => ⟨_, ex_sir k j⟩
  obtain ⟨p, hp⟩ := (solvePermutation_ok_iff torchBackend Ex.covered.lsa (s := []) (nArgs := 2)
    (negSir Ex.opts (fun _ (k j : Fin 2) => if k = j then 4 / 5 else 1 / 5) fun _ _ => 1)
    ![negSdr Ex.opts (fun _ (k j : Fin 2) => if k = j then 4 / 5 else 1 / 5) fun _ _ => 1,
      negSar Ex.opts (fun _ (k j : Fin 2) => if k = j then 4 / 5 else 1 / 5) fun _ _ => 1]).2
    fun m => solvable_of_finite (hf m)
  have h := bssEvalPerm_of_ok (o := Ex.opts) Ex.sqCosPair_value hp
  obtain ⟨out', h', -⟩ := C58_bss_eval (o := Ex.opts) Ex.covered Ex.sqCosPair_value (Or.inr fun _ _ => one_ne_zero) hf
    (fun m => by simp only [ex_sir]; exact Ex.unique_diag ex_lt) h
  exact ⟨_, out', h, h'⟩

example : ∃ out' : Sig [] 2 3 × Sig [] 2 3 → BssOut [] 2,
    ∀ᶠ p in 𝓝 (Ex.ref, Ex.est), bssEvalNoPerm torchBackend Ex.opts p.1 p.2 = .ok (out' p) := by
  have hs := sqCosDiag_of_pair torchBackend Ex.opts (Or.inr ⟨rfl, rfl⟩) Ex.sqCosPair_value
  obtain ⟨out, h⟩ : ∃ out, bssEvalNoPerm torchBackend Ex.opts Ex.ref Ex.est = .ok out := by
    unfold bssEvalNoPerm
    rw [hs]
    exact ⟨_, rfl⟩
  obtain ⟨out', h1, -⟩ := C58_bss_eval_no_permutation Ex.covered (Or.inr (Or.inr rfl)) h
  exact ⟨out', h1⟩

end FBE.Props
