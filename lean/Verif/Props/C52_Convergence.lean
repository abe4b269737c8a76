import Verif.Proofs.MetricLimit
import Verif.Proofs.ExampleValue

/-!
# C52: convergence of the iterative solver

C27 and C28 assume that the safeguards `max(·, 1e-6)` of the loop stay inactive.  Here they are
allowed to be active: the values reported for `use_cg_iter = n` tend to those of the direct solver
as `n` grows, for all inputs for which the direct solver returns.
-/

set_option linter.unusedSectionVars false

namespace FBE.Props

open Spec XR Matrix Filter Topology

variable {s : List ℕ} {r e c N n : ℕ} {B : Backend} {o : Opts}

/-! ### the solver -/

/-- **C52.**  Symmetric positive definite system and preconditioner: the error of the returned
solution, measured with the matrix of the system, never grows with the number of iterations. -/
theorem C52_error_decreases {J : Type} [Fintype J] {A M : (J → ℝ) →ₗ[ℝ] (J → ℝ)} (hA : Spd A) (hM : Spd M)
    {b x0 y : J → ℝ} (hy : A y = b) {it it' : ℕ} (h : it ≤ it') :
    (y - conjugateGradient A M b x0 it') ⬝ᵥ A (y - conjugateGradient A M b x0 it') ≤
      (y - conjugateGradient A M b x0 it) ⬝ᵥ A (y - conjugateGradient A M b x0 it) :=
  errSq_anti hA.spsd (fun v => hM.spsd.nonneg v) hy h

-- the same system with the circulant preconditioner: two against seven iterations
example (b : Fin 2 → ℝ) :
    ((toeplitz torchBackend 2 [2, 1])⁻¹ *ᵥ b - toeplitzCg torchBackend 2 [2, 1] b 7) ⬝ᵥ
        (toeplitz torchBackend 2 [2, 1]).mulVecLin ((toeplitz torchBackend 2 [2, 1])⁻¹ *ᵥ b - toeplitzCg torchBackend 2 [2, 1] b 7) ≤
      ((toeplitz torchBackend 2 [2, 1])⁻¹ *ᵥ b - toeplitzCg torchBackend 2 [2, 1] b 2) ⬝ᵥ
        (toeplitz torchBackend 2 [2, 1]).mulVecLin ((toeplitz torchBackend 2 [2, 1])⁻¹ *ᵥ b - toeplitzCg torchBackend 2 [2, 1] b 2) := by
  have hn : 0 < 2 := by norm_num
  unfold toeplitzCg
  rw [symToeplitzOp_coe Ex.covered (show [(2 : ℝ), 1].length = 2 from rfl) hn, circPrecond_coe Ex.covered]
  exact C52_error_decreases (mulVec_spd Ex.posDef_two) (circPrecond_spd Ex.covered rfl hn Ex.posDef_two)
    (mulVec_inv ((isUnit_iff_isUnit_det _).1 Ex.posDef_two.isUnit).ne_zero b) (by norm_num)

/-- **C52.**  ... and tends to zero. -/
theorem C52_error_vanishes {J : Type} [Fintype J] {A M : (J → ℝ) →ₗ[ℝ] (J → ℝ)} (hA : Spd A) (hM : Spd M)
    {b x0 y : J → ℝ} (hy : A y = b) : Tendsto (fun it => conjugateGradient A M b x0 it) atTop (𝓝 y) := by
  obtain ⟨a, ha, h⟩ := quad_le_mul (continuous_quad LinearMap.id LinearMap.id) (continuous_quad LinearMap.id A)
    (quad_smul _ _) (quad_smul _ _) fun v hv => hA.pos v hv
  rw [tendsto_pi_nhds]
  intro i
  rw [Metric.tendsto_atTop]
  intro ε hε
  obtain ⟨n0, hn0⟩ := errSq_small hA hM (errSq A y x0) (η := ε ^ 2 / (2 * a)) (by positivity)
  refine ⟨n0, fun it hit => ?_⟩
  have h1 := hn0 b x0 y hy le_rfl it hit
  have h2 : (y - conjugateGradient A M b x0 it) ⬝ᵥ (y - conjugateGradient A M b x0 it) ≤
      a * errSq A y (conjugateGradient A M b x0 it) := h _
  have h3 : (y i - conjugateGradient A M b x0 it i) * (y i - conjugateGradient A M b x0 it i) ≤
      (y - conjugateGradient A M b x0 it) ⬝ᵥ (y - conjugateGradient A M b x0 it) :=
    Finset.single_le_sum (f := fun i => (y - conjugateGradient A M b x0 it) i * (y - conjugateGradient A M b x0 it) i)
      (fun i _ => mul_self_nonneg _) (Finset.mem_univ i)
  have h4 : a * errSq A y (conjugateGradient A M b x0 it) ≤ ε ^ 2 / 2 := by
    refine (mul_le_mul_of_nonneg_left (show errSq A y (conjugateGradient A M b x0 it) ≤ _ from h1) ha.le).trans_eq ?_
    field_simp
  rw [Real.dist_eq, abs_sub_comm]
  refine abs_lt_of_sq_lt_sq ?_ hε.le
  nlinarith [mul_pos hε hε]

example (b : Fin 2 → ℝ) : Tendsto (fun it => toeplitzCg torchBackend 2 [2, 1] b it) atTop
    (𝓝 ((toeplitz torchBackend 2 [2, 1])⁻¹ *ᵥ b)) := by
  have hn : 0 < 2 := by norm_num
  unfold toeplitzCg
  rw [symToeplitzOp_coe Ex.covered (show [(2 : ℝ), 1].length = 2 from rfl) hn, circPrecond_coe Ex.covered]
  exact C52_error_vanishes (mulVec_spd Ex.posDef_two) (circPrecond_spd Ex.covered rfl hn Ex.posDef_two)
    (mulVec_inv ((isUnit_iff_isUnit_det _).1 Ex.posDef_two.isUnit).ne_zero b)

/-! ### `sdr_loss` -/

/-- **C52.**  Whenever the direct solver returns, so does the iterative one, for every number of
iterations, and its losses tend to those of the direct solver. -/
theorem C52_pairwise (hB : Covered B) (hload : 0 ≤ o.load) {ref : Sig s r N} {est : Sig s e N} {M}
    (h : sdrLossPair B { o with useCgIter := none } est ref = .ok M) :
    ∃ M' : ℕ → BIdx s → Fin r → Fin e → XR,
      (∀ it, sdrLossPair B { o with useCgIter := some it } est ref = .ok (M' it)) ∧ ∀ m k j,
        (∀ it, M' it m k j ≠ nan) ∧ Tendsto (fun it => toEReal (M' it m k j)) atTop (𝓝 (toEReal (M m k j))) := by
  obtain ⟨coh, hc, rfl⟩ := sdrLossPair_entry h
  obtain ⟨coh', h', hlim⟩ := sdrCohPair_tendsto hB hload hc
  refine ⟨fun it m k j => coherenceToNegSdr o.clampDb (fin (coh' it m k j)), fun it => ?_, fun m k j =>
    ⟨fun it h => XR.noConfusion (coherenceToNegSdr_eq_nan.1 h), ?_⟩⟩
  · unfold sdrLossPair
    rw [h']
  · exact ((continuous_negSdr o.clampDb).tendsto _).comp (hlim m k j)

/-- **C52** for `sdr_loss(pairwise=False)`. -/
theorem C52_aligned (hB : Covered B) (hload : 0 ≤ o.load) (hsv : B.stackedVectors = true) {ref est : Sig s c N} {M}
    (h : sdrLossDiag B { o with useCgIter := none } est ref = .ok M) :
    ∃ M' : ℕ → BIdx s → Fin c → XR,
      (∀ it, sdrLossDiag B { o with useCgIter := some it } est ref = .ok (M' it)) ∧ ∀ m k,
        (∀ it, M' it m k ≠ nan) ∧ Tendsto (fun it => toEReal (M' it m k)) atTop (𝓝 (toEReal (M m k))) := by
  obtain ⟨coh, hc, rfl⟩ := sdrLossDiag_entry h
  rw [sdrCohDiag_eq B { o with useCgIter := none } (Or.inr (Or.inr hsv))] at hc
  cases hp : sdrCohPair B { o with useCgIter := none } ref est with
  | error err => rw [hp] at hc; cases hc
  | ok coh2 =>
  rw [hp] at hc
  cases hc
  obtain ⟨coh', h', hlim⟩ := sdrCohPair_tendsto hB hload hp
  refine ⟨fun it m k => coherenceToNegSdr o.clampDb (fin (coh' it m k k)), fun it => ?_, fun m k =>
    ⟨fun it h => XR.noConfusion (coherenceToNegSdr_eq_nan.1 h), ?_⟩⟩
  · unfold sdrLossDiag
    rw [sdrCohDiag_eq B { o with useCgIter := some it } (Or.inr (Or.inr hsv)), h']
    rfl
  · exact ((continuous_negSdr o.clampDb).tendsto _).comp (hlim m k k)

example : ∃ (M : BIdx [] → Fin 2 → Fin 2 → XR) (M' : ℕ → BIdx [] → Fin 2 → Fin 2 → XR),
    sdrLossPair torchBackend { Ex.opts with useCgIter := none } Ex.est Ex.ref = .ok M ∧
    (∀ it, sdrLossPair torchBackend { Ex.opts with useCgIter := some it } Ex.est Ex.ref = .ok (M' it)) ∧
    ∀ m k j, Tendsto (fun it => toEReal (M' it m k j)) atTop (𝓝 (toEReal (M m k j))) := by
  obtain ⟨M, h⟩ := Ex.sdrLossPair_ok
  have h : sdrLossPair torchBackend { Ex.opts with useCgIter := none } Ex.est Ex.ref = .ok M := h
  obtain ⟨M', h', hl⟩ := C52_pairwise (o := Ex.opts) Ex.covered le_rfl h
  exact ⟨M, M', h, h', fun m k j => (hl m k j).2⟩

example : ∃ (M : BIdx [] → Fin 2 → XR) (M' : ℕ → BIdx [] → Fin 2 → XR),
    sdrLossDiag torchBackend { Ex.opts with useCgIter := none } Ex.est Ex.ref = .ok M ∧
    ∀ it, sdrLossDiag torchBackend { Ex.opts with useCgIter := some it } Ex.est Ex.ref = .ok (M' it) := by
  obtain ⟨M, h⟩ := Ex.sdrLossDiag_ok
  have h : sdrLossDiag torchBackend { Ex.opts with useCgIter := none } Ex.est Ex.ref = .ok M := h
  obtain ⟨M', h', -⟩ := C52_aligned (o := Ex.opts) Ex.covered le_rfl rfl h
  exact ⟨M, M', h, h'⟩

/-! ### `sdr` -/

/-- **C52** for `sdr` with permutation solving: if all losses of the direct solver are finite and the
best pairing is unique, then from some number of iterations on the call returns, with the permutation
of the direct solver, and the values tend to those of the direct solver. -/
theorem C52_sdr (hB : Covered B) (hload : 0 ≤ o.load) (rp cs : Bool) {ref : Sig s r N} {est : Sig s e N} {M out}
    (hM : pairwiseSdrLoss B { o with useCgIter := none } est ref = .ok M)
    (hfin : ∀ m k j, ∃ x, M m k j = fin x) (hu : ∀ m, UniqueBest (M m))
    (h : sdr B { o with useCgIter := none } rp cs ref est = .ok out) :
    ∃ (n0 : ℕ) (out' : ℕ → SdrOut s (min r e)),
      (∀ it ≥ n0, sdr B { o with useCgIter := some it } rp cs ref est = .ok (out' it) ∧ (out' it).perm = out.perm) ∧
      ∀ m i, Tendsto (fun it => toEReal ((out' it).sdr m i)) atTop (𝓝 (toEReal (out.sdr m i))) := by
  obtain ⟨M', h', hlim⟩ := C52_pairwise hB hload hM
  obtain ⟨out', h1, h2⟩ := sdr_tendsto (o' := fun it => { o with useCgIter := some it }) (ref' := fun _ => ref)
    (est' := fun _ => est) hB rp cs hM hfin hu h (Eventually.of_forall h')
    (fun m k j => Eventually.of_forall fun it => (hlim m k j).1 it) (fun m k j => (hlim m k j).2)
  obtain ⟨n0, hn0⟩ := eventually_atTop.1 h1
  exact ⟨n0, out', hn0, h2⟩

theorem negDb_mid {v : ℝ} (h0 : 0 < v) (h1 : v < 1) : negDb v = fin (10 * Real.logb 10 ((1 - v) / v)) := by
  unfold negDb
  rw [if_neg h0.ne', if_neg h1.ne]

/-- The losses of the concrete case. -/
theorem ex_losses : sdrLossPair torchBackend Ex.opts Ex.est Ex.ref = .ok fun _ k j =>
    fin (if k = j then 10 * Real.logb 10 ((1 - 4 / 5) / (4 / 5)) else 10 * Real.logb 10 ((1 - 1 / 5) / (1 / 5))) := by
  unfold sdrLossPair
  rw [Ex.sdrCohPair_value]
  simp only
  congr 1
  funext m k j
  rw [coherenceToNegSdr_fin]
  split_ifs
  · rw [show Ex.opts.clampDb = none from rfl, cclamp_none (by norm_num) (by norm_num), negDb_mid (by norm_num) (by norm_num)]
  · rw [show Ex.opts.clampDb = none from rfl, cclamp_none (by norm_num) (by norm_num), negDb_mid (by norm_num) (by norm_num)]

theorem ex_lt : 10 * Real.logb 10 ((1 - 4 / 5) / (4 / 5)) < 10 * Real.logb 10 ((1 - 1 / 5) / (1 / 5)) :=
  mul_lt_mul_of_pos_left (Real.logb_lt_logb (by norm_num) (by norm_num) (by norm_num)) (by norm_num)

example : ∃ (out : SdrOut [] 2) (n0 : ℕ) (out' : ℕ → SdrOut [] 2),
    sdr torchBackend { Ex.opts with useCgIter := none } true false Ex.ref Ex.est = .ok out ∧
    ∀ it ≥ n0, sdr torchBackend { Ex.opts with useCgIter := some it } true false Ex.ref Ex.est = .ok (out' it) ∧
      (out' it).perm = out.perm := by
  have hM : pairwiseSdrLoss torchBackend { Ex.opts with useCgIter := none } Ex.est Ex.ref = _ := ex_losses
  obtain ⟨p, hp⟩ := (solvePermutation_ok_iff torchBackend Ex.covered.lsa (s := []) (nArgs := 0) (fun _ (k j : Fin 2) =>
    fin (if k = j then 10 * Real.logb 10 ((1 - 4 / 5) / (4 / 5)) else 10 * Real.logb 10 ((1 - 1 / 5) / (1 / 5))))
    (fun i => i.elim0)).2 fun m => solvable_of_finite fun k j => ⟨_, rfl⟩
  have h := sdr_of_ok (o := Ex.opts) true false ex_losses hp
  obtain ⟨n0, out', h', -⟩ := C52_sdr (o := Ex.opts) Ex.covered le_rfl true false hM (fun m k j => ⟨_, rfl⟩)
    (fun m => Ex.unique_diag ex_lt) h
  exact ⟨_, n0, out', h, h'⟩

/-! ### `bss_eval_sources` -/

/-- **C52** for `bss_eval_sources(compute_permutation=False)`: SDR and SAR tend to those of the direct
solver, and so does the SIR where it is not NaN. -/
theorem C52_bss_eval_no_permutation (hB : Covered B) (hload : 0 ≤ o.load) (hsv : B.stackedVectors = true)
    {ref est : Sig s c N} {out} (h : bssEvalNoPerm B { o with useCgIter := none } ref est = .ok out) :
    ∃ out' : ℕ → BssOut s c, (∀ it, bssEvalNoPerm B { o with useCgIter := some it } ref est = .ok (out' it)) ∧
      ∀ m k, Tendsto (fun it => toEReal ((out' it).sdr m k)) atTop (𝓝 (toEReal (out.sdr m k))) ∧
        Tendsto (fun it => toEReal ((out' it).sar m k)) atTop (𝓝 (toEReal (out.sar m k))) ∧
        (2 ≤ o.filterLength → out.sir m k ≠ nan →
          (∀ᶠ it in atTop, (out' it).sir m k ≠ nan) ∧
          Tendsto (fun it => toEReal ((out' it).sir m k)) atTop (𝓝 (toEReal (out.sir m k)))) := by
  obtain ⟨sd, sa, hs, rfl⟩ := bssEvalNoPerm_ok h
  obtain ⟨sd', sa', h', l1, l2⟩ := sqCosDiag_tendsto hB hload hsv hs
  obtain ⟨out', h1, h2⟩ := bssEvalNoPerm_tendsto (o' := fun it => { o with useCgIter := some it }) (ref' := fun _ => ref)
    (est' := fun _ => est) hs h (fun _ => rfl) l1 l2
  refine ⟨out', fun it => h1 it (h' it), fun m k => ⟨(h2 m k).1, (h2 m k).2.1, fun hL hsir => (h2 m k).2.2 ?_⟩⟩
  rw [sqCosDiag_eq B { o with useCgIter := none } (Or.inr ⟨rfl, hsv⟩)] at hs
  cases hq : sqCosPair B { o with useCgIter := none } ref est with
  | error err => rw [hq] at hs; cases hs
  | ok q =>
  rw [hq] at hs
  obtain ⟨sd2, sa2⟩ := q
  cases hs
  refine sar_ne_zero (o := { o with useCgIter := none }) (k := k) hB (Or.inr rfl) hload (Or.inl (by show o.filterLength ≠ 1; omega)) hq fun h => hsir ?_
  show (coherenceToNegSdr o.clampDb (XR.div (fin (sd2 m k k)) (fin (sa2 m k)))).neg = nan
  rw [h]
  rfl

/-- **C52** for `bss_eval_sources` with permutation solving: if all SIRs of the direct solver are finite
and the best pairing is unique, then from some number of iterations on the call returns, with the
permutation of the direct solver, and the three metrics tend to those of the direct solver. -/
theorem C52_bss_eval (hB : Covered B) (hload : 0 ≤ o.load) (hL : 2 ≤ o.filterLength) {ref : Sig s r N} {est : Sig s e N}
    {sd sa out} (hs : sqCosPair B { o with useCgIter := none } ref est = .ok (sd, sa))
    (hfin : ∀ m k j, ∃ x, (baseMetrics o.clampDb (sd m k j) (sa m j)).2.1 = fin x)
    (hu : ∀ m, UniqueBest fun k j => (baseMetrics o.clampDb (sd m k j) (sa m j)).2.1)
    (h : bssEvalPerm B { o with useCgIter := none } ref est = .ok out) :
    ∃ (n0 : ℕ) (out' : ℕ → BssOut s (min r e)),
      (∀ it ≥ n0, bssEvalPerm B { o with useCgIter := some it } ref est = .ok (out' it) ∧ (out' it).perm = out.perm) ∧
      ∀ m i, Tendsto (fun it => toEReal ((out' it).sdr m i)) atTop (𝓝 (toEReal (out.sdr m i))) ∧
        Tendsto (fun it => toEReal ((out' it).sir m i)) atTop (𝓝 (toEReal (out.sir m i))) ∧
        Tendsto (fun it => toEReal ((out' it).sar m i)) atTop (𝓝 (toEReal (out.sar m i))) := by
  obtain ⟨sd', sa', h', l1, l2⟩ := sqCosPair_tendsto hB hload hs
  obtain ⟨out', h1, h2⟩ := bssEvalPerm_tendsto (o' := fun it => { o with useCgIter := some it }) (ref' := fun _ => ref)
    (est' := fun _ => est) hB hs (fun m k j => sar_ne_zero (o := { o with useCgIter := none }) (k := k) hB (Or.inr rfl) hload
      (Or.inl (by show o.filterLength ≠ 1; omega)) hs fun h => by
        obtain ⟨x, hx⟩ := hfin m k j
        rw [show (baseMetrics o.clampDb (sd m k j) (sa m j)).2.1 = nan from h] at hx
        cases hx) hfin hu h (fun _ => rfl) (Eventually.of_forall h') l1 l2
  obtain ⟨n0, hn0⟩ := eventually_atTop.1 h1
  exact ⟨n0, out', hn0, h2⟩

/-- The SIRs of the concrete case. -/
theorem ex_sir (k j : Fin 2) :
    (baseMetrics Ex.opts.clampDb (if k = j then 4 / 5 else 1 / 5) 1).2.1 =
      fin (if k = j then 10 * Real.logb 10 ((1 - 4 / 5) / (4 / 5)) else 10 * Real.logb 10 ((1 - 1 / 5) / (1 / 5))) := by
  show coherenceToNegSdr Ex.opts.clampDb (XR.div (fin (if k = j then 4 / 5 else 1 / 5)) (fin 1)) = _
  rw [show XR.div (fin (if k = j then 4 / 5 else 1 / 5)) (fin 1) = fin (if k = j then 4 / 5 else 1 / 5) by
    simp [XR.div], coherenceToNegSdr_fin]
  split_ifs
  · rw [show Ex.opts.clampDb = none from rfl, cclamp_none (by norm_num) (by norm_num), negDb_mid (by norm_num) (by norm_num)]
  · rw [show Ex.opts.clampDb = none from rfl, cclamp_none (by norm_num) (by norm_num), negDb_mid (by norm_num) (by norm_num)]

example : ∃ (out : BssOut [] 2) (n0 : ℕ) (out' : ℕ → BssOut [] 2),
    bssEvalPerm torchBackend { Ex.opts with useCgIter := none } Ex.ref Ex.est = .ok out ∧
    ∀ it ≥ n0, bssEvalPerm torchBackend { Ex.opts with useCgIter := some it } Ex.ref Ex.est = .ok (out' it) ∧
      (out' it).perm = out.perm := by
  have hs : sqCosPair torchBackend { Ex.opts with useCgIter := none } Ex.ref Ex.est = _ := Ex.sqCosPair_value
  have hf : ∀ (m : BIdx []) (k j : Fin 2), ∃ x,
      (baseMetrics Ex.opts.clampDb (if k = j then 4 / 5 else 1 / 5) 1).2.1 = fin x := fun m k j => ⟨_, ex_sir k j⟩
  obtain ⟨p, hp⟩ := (solvePermutation_ok_iff torchBackend Ex.covered.lsa (s := []) (nArgs := 2)
    (negSir Ex.opts (fun _ (k j : Fin 2) => if k = j then 4 / 5 else 1 / 5) fun _ _ => 1)
    ![negSdr Ex.opts (fun _ (k j : Fin 2) => if k = j then 4 / 5 else 1 / 5) fun _ _ => 1,
      negSar Ex.opts (fun _ (k j : Fin 2) => if k = j then 4 / 5 else 1 / 5) fun _ _ => 1]).2
    fun m => solvable_of_finite (hf m)
  have h := bssEvalPerm_of_ok (o := Ex.opts) Ex.sqCosPair_value hp
  obtain ⟨n0, out', h', -⟩ := C52_bss_eval (o := Ex.opts) Ex.covered le_rfl le_rfl hs hf
    (fun m => by simp only [ex_sir]; exact Ex.unique_diag ex_lt) h
  exact ⟨_, n0, out', h, h'⟩

example : ∃ (out : BssOut [] 2) (out' : ℕ → BssOut [] 2),
    bssEvalNoPerm torchBackend { Ex.opts with useCgIter := none } Ex.ref Ex.est = .ok out ∧
    ∀ it, bssEvalNoPerm torchBackend { Ex.opts with useCgIter := some it } Ex.ref Ex.est = .ok (out' it) := by
  have hd : ∃ q, sqCosDiag torchBackend { Ex.opts with useCgIter := none } Ex.ref Ex.est = .ok q := by
    exact ⟨_, sqCosDiag_of_pair torchBackend { Ex.opts with useCgIter := none } (Or.inr ⟨rfl, rfl⟩) Ex.sqCosPair_value⟩
  obtain ⟨q, hq⟩ := hd
  have h : ∃ out, bssEvalNoPerm torchBackend { Ex.opts with useCgIter := none } Ex.ref Ex.est = .ok out := by
    unfold bssEvalNoPerm
    rw [hq]
    exact ⟨_, rfl⟩
  obtain ⟨out, h⟩ := h
  obtain ⟨out', h', -⟩ := C52_bss_eval_no_permutation (o := Ex.opts) Ex.covered le_rfl rfl h
  exact ⟨out, out', h, h'⟩

end FBE.Props
