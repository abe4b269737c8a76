import Verif.Proofs.ExampleCg

/-!
# C26-C30, C46: the iterative solver
-/

set_option linter.unusedSectionVars false

namespace FBE.Props

open Spec XR Matrix

variable {s : List ℕ} {r e c N n : ℕ} {B : Backend} {o : Opts}

/-! ### C26 -/

/-- **C26.**  At every iteration the residual kept by `conjugate_gradient` is `b - A x`: for every
linear operator, preconditioner, right-hand side and start, whether or not the safeguards are active. -/
theorem C26_residual {J : Type} [Fintype J] (A : (J → ℝ) →ₗ[ℝ] (J → ℝ)) (M : (J → ℝ) → (J → ℝ)) (b x0 : J → ℝ) (n : ℕ) :
    (cgRun A M b x0 n).r = b - A (cgRun A M b x0 n).x := by
  induction n with
  | zero => rfl
  | succ n ih =>
    rw [cgRun_succ, cgBody_eq]
    simp only
    rw [map_add, map_smul, ih]
    abel

-- a positive definite system of two unknowns, identity as preconditioner, three iterations
example : (cgRun (Matrix.mulVecLin !![(2 : ℝ), 1; 1, 2]) id ![1, 0] ![0, 0] 3).r =
    ![1, 0] - Matrix.mulVecLin !![(2 : ℝ), 1; 1, 2] (cgRun (Matrix.mulVecLin !![(2 : ℝ), 1; 1, 2]) id ![1, 0] ![0, 0] 3).x :=
  C26_residual _ _ _ _ _

/-- **C26.**  Recomputing the residual, at whatever iterations, changes nothing (the test in the code,
`epoch + 1 % 5 == 0`, is never true; `(epoch + 1) % 5 == 0` may have been intended). -/
theorem C26_schedule {J : Type} [Fintype J] (recompute : ℕ → Bool) (A : (J → ℝ) →ₗ[ℝ] (J → ℝ))
    (M : (J → ℝ) → (J → ℝ)) (b x0 : J → ℝ) (n : ℕ) :
    conjugateGradient A M b x0 n = (cgScheduled recompute A M b x0 n).1 := by
  have key : ∀ n, cgScheduled recompute A M b x0 n =
      ((cgRun A M b x0 n).x, (cgRun A M b x0 n).r, (cgRun A M b x0 n).p, (cgRun A M b x0 n).rsold) := by
    intro n
    induction n with
    | zero => rfl
    | succ n ih =>
      have hr := C26_residual A M b x0 (n + 1)
      rw [cgRun_succ, cgBody_eq] at hr ⊢
      simp only at hr
      unfold cgScheduled
      rw [ih]
      simp only
      rw [← hr, ite_self]
  rw [key]
  rfl

example : conjugateGradient (Matrix.mulVecLin !![(2 : ℝ), 1; 1, 2]) id ![1, 0] ![0, 0] 7 =
    (cgScheduled (fun i => (i + 1) % 5 == 0) (Matrix.mulVecLin !![(2 : ℝ), 1; 1, 2]) id ![1, 0] ![0, 0] 7).1 :=
  C26_schedule _ _ _ _ _ _

/-- **C26** for the operators used by the metrics. -/
theorem C26_toeplitz (hB : Covered B) {col : List ℝ} (hc : col.length = n) (hn : 0 < n) (M : (Fin n → ℝ) → (Fin n → ℝ))
    (b x0 : Fin n → ℝ) (it : ℕ) :
    (cgRun (symToeplitzOp B n col) M b x0 it).r =
      b - toeplitz B n col *ᵥ (cgRun (symToeplitzOp B n col) M b x0 it).x := by
  rw [symToeplitzOp_coe hB hc hn]
  exact C26_residual _ _ _ _ _

example := C26_toeplitz Ex.covered (show [(2 : ℝ), 1].length = 2 from rfl) (by norm_num) id ![1, 0] ![0, 0] 3

/-! ### C27 -/

/-- **C27.**  Symmetric positive definite system and preconditioner: after as many iterations as there
are unknowns the system is solved, if the safeguards stayed inactive. -/
theorem C27_exact {J : Type} [Fintype J] {A M : (J → ℝ) →ₗ[ℝ] (J → ℝ)} (hA : Spd A) (hM : Spd M) {b x0 : J → ℝ} {it : ℕ}
    (hit : Fintype.card J ≤ it) (hq : CgQuiet A M b x0 it) : A (conjugateGradient A M b x0 it) = b := by
  classical
  exact cg_exact hA hM hq hit

example (m : BIdx []) : toeplitz torchBackend 2 (sdrAcf Ex.opts 8 Ex.ref m 0) *ᵥ
    toeplitzCg torchBackend 2 (sdrAcf Ex.opts 8 Ex.ref m 0) (vec 2 (sdrXcorr Ex.opts 8 Ex.ref Ex.est m 0 1)) 2 =
      vec 2 (sdrXcorr Ex.opts 8 Ex.ref Ex.est m 0 1) := by
  have hn : 0 < 2 := by norm_num
  have hT : (toeplitz torchBackend 2 (sdrAcf Ex.opts 8 Ex.ref m 0)).PosDef := by
    rw [Ex.toeplitz_one]; exact PosDef.one
  have hq := Ex.sdrQuiet 2 8 Ex.nFft_three m 0 1
  have h := C27_exact (mulVec_spd hT) (circPrecond_spd Ex.covered (Ex.acf_length m 0) hn hT) (it := 2)
    (b := vec 2 (sdrXcorr Ex.opts 8 Ex.ref Ex.est m 0 1)) (x0 := fun _ => 0) (by simp) (by
      rw [← circPrecond_coe Ex.covered, ← symToeplitzOp_coe Ex.covered (Ex.acf_length m 0) hn]
      exact hq)
  unfold toeplitzCg
  rw [circPrecond_coe Ex.covered, symToeplitzOp_coe Ex.covered (Ex.acf_length m 0) hn]
  exact h

/-- **C27** for `sdr_loss`: whenever the direct solver returns, `use_cg_iter >= filter_length`
returns the same matrix. -/
theorem C27_sdr_loss (hB : Covered B) (hload : 0 ≤ o.load) {ref : Sig s r N} {est : Sig s e N} {M}
    (h : sdrLossPair B { o with useCgIter := none } est ref = .ok M) {it : ℕ} (hit : o.filterLength ≤ it)
    (hq : SdrQuiet B o ref est it) : sdrLossPair B { o with useCgIter := some it } est ref = .ok M := by
  obtain ⟨coh, hc, rfl⟩ := sdrLossPair_entry h
  unfold sdrLossPair
  rw [sdrCohPair_converges hB hload hc hit hq]

example : ∃ M, sdrLossPair torchBackend { Ex.opts with useCgIter := some 2 } Ex.est Ex.ref = .ok M ∧
    sdrLossPair torchBackend { Ex.opts with useCgIter := none } Ex.est Ex.ref = .ok M := by
  obtain ⟨M, h⟩ := Ex.sdrLossPair_ok
  have h : sdrLossPair torchBackend { Ex.opts with useCgIter := none } Ex.est Ex.ref = .ok M := h
  exact ⟨M, C27_sdr_loss (o := Ex.opts) Ex.covered le_rfl h le_rfl (Ex.sdrQuiet 2), h⟩

/-- **C27** for `bss_eval_sources` with permutation: `use_cg_iter >= filter_length * n_ref`. -/
theorem C27_bss_eval (hB : Covered B) (hload : 0 ≤ o.load) {ref : Sig s r N} {est : Sig s e N} {out}
    (h : bssEvalPerm B { o with useCgIter := none } ref est = .ok out) {it : ℕ}
    (hit : o.filterLength * max 1 r ≤ it) (hq : SdrQuiet B o ref est it)
    (hq' : SarQuiet B o ref est (fun f m j p => toeplitzCg B (min o.filterLength f) (sdrAcf o f ref m p.2)
      (vec (min o.filterLength f) (sdrXcorr o f ref est m p.2 j)) it p.1) it) :
    bssEvalPerm B { o with useCgIter := some it } ref est = .ok out := by
  rw [← h]
  unfold bssEvalPerm at h ⊢
  cases hs : sqCosPair B { o with useCgIter := none } ref est with
  | error err => rw [hs] at h; cases h
  | ok p => rw [sqCosPair_converges hB hload hs hit hq hq']

example : ∃ out, bssEvalPerm torchBackend { Ex.opts with clampDb := some 20, useCgIter := some 4 } Ex.ref Ex.est = .ok out ∧
    bssEvalPerm torchBackend { Ex.opts with clampDb := some 20, useCgIter := none } Ex.ref Ex.est = .ok out := by
  obtain ⟨out, h⟩ := Ex.bssEval_ok (d := 20)
  have h : bssEvalPerm torchBackend { Ex.opts with clampDb := some 20, useCgIter := none } Ex.ref Ex.est = .ok out := h
  exact ⟨out, C27_bss_eval (o := { Ex.opts with clampDb := some 20 }) Ex.covered le_rfl h le_rfl (Ex.sdrQuiet 4)
    (Ex.sarQuiet' (n := 4) (by norm_num)), h⟩

/-- **C27** for `bss_eval_sources` without permutation. -/
theorem C27_bss_eval_no_permutation (hB : Covered B) (hsv : B.stackedVectors = true) (hload : 0 ≤ o.load)
    {ref est : Sig s c N} {out}
    (h : bssEvalNoPerm B { o with useCgIter := none } ref est = .ok out) {it : ℕ}
    (hit : o.filterLength * max 1 c ≤ it) (hq : SdrQuiet B o ref est it)
    (hq' : SarQuiet B o ref est (fun _ _ _ _ => 0) it) :
    bssEvalNoPerm B { o with useCgIter := some it } ref est = .ok out := by
  rw [← h]
  unfold bssEvalNoPerm at h ⊢
  cases hs : sqCosDiag B { o with useCgIter := none } ref est with
  | error err => rw [hs] at h; cases h
  | ok p => rw [sqCosDiag_converges hB hload hsv hs hit hq hq']

example : ∃ out, bssEvalNoPerm torchBackend { Ex.opts with useCgIter := some 4 } Ex.ref Ex.est = .ok out := by
  obtain ⟨out, h⟩ := Ex.bssEvalNoPerm_ok
  have h : bssEvalNoPerm torchBackend { Ex.opts with useCgIter := none } Ex.ref Ex.est = .ok out := h
  exact ⟨out, C27_bss_eval_no_permutation (o := Ex.opts) Ex.covered rfl le_rfl h le_rfl (Ex.sdrQuiet 4)
    (Ex.sarQuiet 4)⟩

/-! ### C28 -/

/-- **C28.**  The iterative solver never reports a lower loss (a higher SDR) than the direct one. -/
theorem C28_lower_bound (hB : Covered B) (hload : 0 ≤ o.load) {ref : Sig s r N} {est : Sig s e N} {M M'} {it : ℕ}
    (h : sdrLossPair B { o with useCgIter := none } est ref = .ok M)
    (h' : sdrLossPair B { o with useCgIter := some it } est ref = .ok M')
    (hq : SdrQuiet B o ref est it) (m k j) : toEReal (M m k j) ≤ toEReal (M' m k j) := by
  obtain ⟨coh, hc, rfl⟩ := sdrLossPair_entry h
  obtain ⟨coh', hc', rfl⟩ := sdrLossPair_entry h'
  exact coherenceToNegSdr_anti o.clampDb (sdrCohPair_cg_le hB hload hc hc' hq m k j)

/-- **C28.**  More iterations never lower the reported SDR. -/
theorem C28_monotone (hB : Covered B) (hload : 0 ≤ o.load) {ref : Sig s r N} {est : Sig s e N} {M M1 M2} {it it' : ℕ}
    (h : sdrLossPair B { o with useCgIter := none } est ref = .ok M) (hit : it ≤ it')
    (h1 : sdrLossPair B { o with useCgIter := some it } est ref = .ok M1)
    (h2 : sdrLossPair B { o with useCgIter := some it' } est ref = .ok M2)
    (hq : SdrQuiet B o ref est it') (m k j) : toEReal (M2 m k j) ≤ toEReal (M1 m k j) := by
  obtain ⟨coh, hc, rfl⟩ := sdrLossPair_entry h
  obtain ⟨coh1, hc1, rfl⟩ := sdrLossPair_entry h1
  obtain ⟨coh2, hc2, rfl⟩ := sdrLossPair_entry h2
  exact coherenceToNegSdr_anti o.clampDb (sdrCohPair_cg_mono hB hload hc hit hc1 hc2 hq m k j)

/-- Both, in a concrete case (one and two iterations). -/
example : ∃ M M1 M2, sdrLossPair torchBackend { Ex.opts with useCgIter := none } Ex.est Ex.ref = .ok M ∧
    sdrLossPair torchBackend { Ex.opts with useCgIter := some 1 } Ex.est Ex.ref = .ok M1 ∧
    sdrLossPair torchBackend { Ex.opts with useCgIter := some 2 } Ex.est Ex.ref = .ok M2 ∧
    ∀ m k j, toEReal (M m k j) ≤ toEReal (M1 m k j) ∧ toEReal (M2 m k j) ≤ toEReal (M1 m k j) := by
  obtain ⟨M, h⟩ := Ex.sdrLossPair_ok
  have h : sdrLossPair torchBackend { Ex.opts with useCgIter := none } Ex.est Ex.ref = .ok M := h
  obtain ⟨M1, h1⟩ : ∃ M1, sdrLossPair torchBackend { Ex.opts with useCgIter := some 1 } Ex.est Ex.ref = .ok M1 := by
    unfold sdrLossPair
    rw [sdrCohPair_cg (o := Ex.opts) le_rfl Ex.nFft_three]
    exact ⟨_, rfl⟩
  have h2 := C27_sdr_loss (o := Ex.opts) Ex.covered le_rfl h le_rfl (Ex.sdrQuiet 2)
  exact ⟨M, M1, M, h, h1, h2, fun m k j => ⟨C28_lower_bound (o := Ex.opts) Ex.covered le_rfl h h1 (Ex.sdrQuiet 1) m k j,
    C28_monotone (o := Ex.opts) Ex.covered le_rfl h (show 1 ≤ 2 by norm_num) h1 h2 (Ex.sdrQuiet 2) m k j⟩⟩

/-! ### C29 -/

/-- **C29.**  `SymmetricToeplitzOperator(acf) @ v = toeplitz(acf) @ v`. -/
theorem C29_toeplitz (hB : Covered B) {acf : List ℝ} (hc : acf.length = n) (hn : 0 < n) (v : Fin n → ℝ) :
    symToeplitzOp B n acf v = toeplitz B n acf *ᵥ v := symToeplitzOp_eq hB hc hn v

example := C29_toeplitz Ex.covered (show [(2 : ℝ), 1].length = 2 from rfl) (by norm_num) ![1, -1]

/-- **C29.**  `BlockToeplitzOperator(acf) @ v = block_toeplitz(acf) @ v`. -/
theorem C29_block_toeplitz (hB : Covered B) (hn : 2 ≤ n) {ι : Type} {acf : ι → Fin c → Fin c → List ℝ}
    (hc : ∀ i k l, (acf i k l).length = n + n) {R} (h : blockToeplitz B n acf = .ok R) (i : ι)
    (v : Fin n × Fin c → ℝ) : blockToeplitzOp B n (acf i) v = R i *ᵥ v := by
  rw [blockToeplitz_ok hn acf (fun i k l => by rw [hc]; omega)] at h
  cases h
  exact blockToeplitzOp_eq hB hn (hc i) v

example : ∃ R, blockToeplitz torchBackend 2 Ex.acf2 = .ok R ∧ ∀ v, blockToeplitzOp torchBackend 2 (Ex.acf2 ()) v = R () *ᵥ v := by
  obtain ⟨R, h, -⟩ := Ex.blockToeplitz_acf2
  exact ⟨R, h, C29_block_toeplitz Ex.covered le_rfl Ex.acf2_length h ()⟩

/-! ### C30 -/

/-- **C30.**  `optimal_symmetric_circulant_precond_column(acf)` is the first column of the circulant
matrix closest to `toeplitz(acf)`: every other circulant matrix is strictly further away. -/
theorem C30_symmetric [NeZero n] (hB : Covered B) {acf : List ℝ} (hc : acf.length = n) (w : Fin n → ℝ)
    (hw : w ≠ vec n (symPrecondCol acf)) :
    frobSq (toeplitz B n acf - circulant (vec n (symPrecondCol acf))) <
      frobSq (toeplitz B n acf - circulant w) := by
  have hn : 0 < n := Nat.pos_of_ne_zero (NeZero.ne n)
  rw [frobSq_circulant (toeplitz B n acf) (vec n (symPrecondCol acf)) w]
  · obtain ⟨t, ht⟩ : ∃ t, vec n (symPrecondCol acf) t ≠ w t := by
      by_contra hall
      push Not at hall
      exact hw (funext fun t => (hall t).symm)
    have hpos : 0 < ∑ t, (vec n (symPrecondCol acf) t - w t) ^ 2 :=
      Finset.sum_pos' (fun _ _ => sq_nonneg _)
        ⟨t, Finset.mem_univ t, lt_of_le_of_ne (sq_nonneg _) (pow_ne_zero 2 (sub_ne_zero.2 ht)).symm⟩
    have : (0 : ℝ) < n := by exact_mod_cast hn
    nlinarith
  · intro t
    unfold vec
    rw [symPrecondCol_mean hc t.isLt, Finset.sum_range]
    refine Finset.sum_congr rfl fun j _ => ?_
    rw [toeplitz_apply hB hc]
    unfold toe
    rw [Fin.val_add]
    split <;> congr 1 <;> omega

example : ∃ w : Fin 2 → ℝ, w ≠ vec 2 (symPrecondCol [2, 1]) :=
  ⟨fun t => vec 2 (symPrecondCol [2, 1]) t + 1, fun h => by simpa using congrFun h 0⟩

/-- **C30.**  `optimal_nonsymmetric_circulant_precond_column(acf)`, one pair of channels: the circulant
matrix closest to the corresponding block of `block_toeplitz(acf)`. -/
theorem C30_nonsymmetric [NeZero n] (hB : Covered B) (hn : 2 ≤ n) {ι : Type} {acf : ι → Fin c → Fin c → List ℝ}
    (hc : ∀ i k l, (acf i k l).length = n + n) {R} (h : blockToeplitz B n acf = .ok R) (i : ι) (k l : Fin c)
    (w : Fin n → ℝ) (hw : w ≠ vec n (nonsymPrecondCol B (acf i k l))) :
    frobSq (of (fun a b => R i (a, k) (b, l)) - circulant (vec n (nonsymPrecondCol B (acf i k l)))) <
      frobSq (of (fun a b => R i (a, k) (b, l)) - circulant w) := by
  rw [blockToeplitz_ok hn acf (fun i k l => by rw [hc]; omega)] at h
  cases h
  rw [frobSq_circulant _ (vec n (nonsymPrecondCol B (acf i k l))) w]
  · obtain ⟨t, ht⟩ : ∃ t, vec n (nonsymPrecondCol B (acf i k l)) t ≠ w t := by
      by_contra hall
      push Not at hall
      exact hw (funext fun t => (hall t).symm)
    have hpos : 0 < ∑ t, (vec n (nonsymPrecondCol B (acf i k l)) t - w t) ^ 2 :=
      Finset.sum_pos' (fun _ _ => sq_nonneg _)
        ⟨t, Finset.mem_univ t, lt_of_le_of_ne (sq_nonneg _) (pow_ne_zero 2 (sub_ne_zero.2 ht)).symm⟩
    have : (0 : ℝ) < n := by
      have : 0 < n := by omega
      exact_mod_cast this
    nlinarith
  · intro t
    unfold vec
    rw [nonsymPrecondCol_mean hB hn (hc i k l) t.isLt, Finset.sum_range]
    refine Finset.sum_congr rfl fun j _ => ?_
    show _ = lagAt (acf i k l) (j + t : Fin n) j
    rw [Fin.val_add]

example : ∃ R, blockToeplitz torchBackend 2 Ex.acf2 = .ok R ∧ ∃ w : Fin 2 → ℝ, w ≠ vec 2 (nonsymPrecondCol torchBackend (Ex.acf2 () 0 1)) := by
  obtain ⟨R, h, -⟩ := Ex.blockToeplitz_acf2
  exact ⟨R, h, fun t => vec 2 (nonsymPrecondCol torchBackend (Ex.acf2 () 0 1)) t + 1, fun h => by simpa using congrFun h 0⟩

/-! ### C46 -/

/-- **C46.**  `CirculantPreconditionerOperator(acf) @ v` solves the system of the closest circulant
matrix, if no squared modulus of its spectrum is below the safeguard `1e-6`. -/
theorem C46_circulant_solve [NeZero n] (hB : Covered B) {acf : List ℝ}
    (hs : ∀ k ≤ n / 2, 1e-6 ≤ ‖(rfft n (symPrecondCol acf)).getD k 0‖ ^ 2) (v : Fin n → ℝ) :
    circulant (vec n (symPrecondCol acf)) *ᵥ circPrecond B n acf v = v := by
  refine circPrecond_inverse hB (fun k hk => ?_) v
  have := hs k hk
  rwa [rfft_getD _ _ hk] at this

/-- **C46.**  `BlockCirculantPreconditionerOperator(acf) @ v` solves the system of the block matrix of
the closest circulant matrices, whenever its constructor returns. -/
theorem C46_block_circulant_solve [NeZero n] (hB : Covered B) (hn : 2 ≤ n) {acf : Fin c → Fin c → List ℝ}
    (hc : ∀ k l, (acf k l).length = n + n) (hs : ∀ k ≤ n / 2, (blockPrecondSpec B acf k).det ≠ 0)
    (v : Fin n × Fin c → ℝ) (t : Fin n) (a : Fin c) :
    ∑ d, (circulant (vec n (nonsymPrecondCol B (acf a d))) *ᵥ fun i => blockPrecond B n acf v (i, d)) t = v (t, a) :=
  blockPrecond_inverse hB hn hc hs v t a

/-- **C46.**  Both preconditioners are symmetric positive definite when the system is, so that the
constructor of the block one does not fail and the method of conjugate gradients applies. -/
theorem C46_positive_definite (hB : Covered B) {acf : List ℝ} (hc : acf.length = n) (hn : 0 < n)
    (hT : (toeplitz B n acf).PosDef) :
    ∃ M : (Fin n → ℝ) →ₗ[ℝ] (Fin n → ℝ), ⇑M = circPrecond B n acf ∧ Spd M :=
  ⟨circPrecondLin B n acf, (circPrecond_coe hB n acf).symm, circPrecond_spd hB hc hn hT⟩

theorem C46_block_positive_definite (hB : Covered B) (hn : 2 ≤ n) {ι : Type} {acf : ι → Fin c → Fin c → List ℝ}
    (hc : ∀ i k l, (acf i k l).length = n + n) {R} (h : blockToeplitz B n acf = .ok R) (hT : ∀ i, (R i).PosDef) (i : ι) :
    (∀ k ≤ n / 2, (blockPrecondSpec B (acf i) k).det ≠ 0) ∧
    ∃ M : (Fin n × Fin c → ℝ) →ₗ[ℝ] (Fin n × Fin c → ℝ), ⇑M = blockPrecond B n (acf i) ∧ Spd M := by
  rw [blockToeplitz_ok hn acf (fun i k l => by rw [hc]; omega)] at h
  cases h
  exact ⟨fun k hk => blockPrecondSpec_det hB hn (hc i) (hT i) hk,
    _, (blockPrecond_eq hB hn (hc i)).symm, blockPrecond_spd hB hn (hc i) (hT i)⟩

/-- The hypotheses of C46 are met. -/
example : ∃ M : (Fin 2 → ℝ) →ₗ[ℝ] (Fin 2 → ℝ), ⇑M = circPrecond torchBackend 2 [2, 1] ∧ Spd M :=
  C46_positive_definite Ex.covered rfl (by norm_num) Ex.posDef_two

example (v : Fin 2 × Fin 2 → ℝ) (t a : Fin 2) :
    ∑ d, (circulant (vec 2 (nonsymPrecondCol torchBackend (Ex.acf2 () a d))) *ᵥ
      fun i => blockPrecond torchBackend 2 (Ex.acf2 ()) v (i, d)) t = v (t, a) := by
  obtain ⟨R, h, hT⟩ := Ex.blockToeplitz_acf2
  exact C46_block_circulant_solve Ex.covered le_rfl (Ex.acf2_length ())
    (C46_block_positive_definite Ex.covered le_rfl Ex.acf2_length h hT ()).1 v t a

example (v : Fin 2 → ℝ) : circulant (vec 2 (symPrecondCol [2, 1])) *ᵥ circPrecond torchBackend 2 [2, 1] v = v := by
  refine C46_circulant_solve Ex.covered (fun k hk => ?_) v
  rw [rfft_getD _ _ hk]
  have h0 : (symPrecondCol [(2 : ℝ), 1]).getD 0 0 = 2 := symPrecondCol_zero (n := 2) rfl (by norm_num)
  have h1 : (symPrecondCol [(2 : ℝ), 1]).getD 1 0 = 1 := by
    rw [symPrecondCol_get (n := 2) rfl (by norm_num) (by norm_num)]
    norm_num
  have h2 : (1 : ℝ) ≤ ‖dft 2 (fun t => (symPrecondCol [(2 : ℝ), 1]).getD t 0) k‖ := by
    unfold dft
    rw [Finset.sum_range_succ, Finset.sum_range_one]
    beta_reduce
    rw [h0, h1]
    refine le_trans ?_ (norm_sub_le_norm_add _ _)
    rw [norm_mul, norm_mul, RCLike.norm_conj, RCLike.norm_conj, norm_tw, norm_tw]
    norm_num
  nlinarith

end FBE.Props
