import Verif.Proofs.BackwardBssCg
import Verif.Props.C75_BackwardCg
import Verif.Props.C85_BackwardBss

/-!
# C88: the gradients that torch computes through `bss_eval_sources` with `use_cg_iter`
-/

set_option linter.unusedSectionVars false

namespace FBE.Props

open Spec XR Filter Topology Backward

variable {s : List ℕ} {r e c N T n it : ℕ} {o : Opts}

/-- The values used, of the pairs with coherences `a i` and `b i`: not at a bound of the clamp (finite with `clamp_db=None`); the quotient of
the SIR exists. -/
structure SmoothCoh {ι : Type} (clampDb : Option ℝ) (v : BssWeights ι) (a b : ι → ℝ) : Prop where
  sdr : v.sdr ≠ none → ∀ i, OffBounds clampDb (coherenceToNegSdr none (fin (a i)))
  sir : v.sir ≠ none → ∀ i, b i ≠ 0 ∧ OffBounds clampDb (coherenceToNegSdr none (fin (a i / b i)))
  sar : v.sar ≠ none → ∀ i, OffBounds clampDb (coherenceToNegSdr none (fin (b i)))

theorem SmoothCoh.usable {ι : Type} [Fintype ι] {cl : Option ℝ} {W : BssWeights ι} {a b : ι → ℝ} (h : SmoothCoh cl W a b) : Usable cl W a b :=
  ⟨fun hw i => (h.sdr hw i).inside, fun hw i => ⟨(h.sir hw i).1, (h.sir hw i).2.inside⟩, fun hw i => (h.sar hw i).inside⟩

theorem smoothCoh_neg {cl : Option ℝ} {v : BssWeights (BIdx s × Fin c)} {a b : BIdx s × Fin c → ℝ} (h : SmoothCoh cl v a b) : SmoothCoh cl (negWeights v) a b :=
  ⟨fun hw => h.sdr fun h0 => hw (by unfold negWeights; rw [h0]; rfl), fun hw => h.sir fun h0 => hw (by unfold negWeights; rw [h0]; rfl),
    fun hw => h.sar fun h0 => hw (by unfold negWeights; rw [h0]; rfl)⟩

/-- The filter is not longer than the transform if the call returns. -/
theorem size_of_pair (hL : 2 ≤ o.filterLength) {ref : Sig s r N} {est : Sig s e T} {p} (h : sqCosPair torchBackend o ref est = .ok p) :
    ∃ n, nFft N T = .ok n ∧ o.filterLength ≤ n := by
  cases hn : nFft N T with
  | error err => rw [sqCosPair_gen torchBackend hL] at h; unfold sqCosPairGen at h; rw [hn] at h; cases h
  | ok n =>
    refine ⟨n, rfl, ?_⟩
    by_contra hLn
    rw [sqCosPair_too_long (by omega) hn (by omega)] at h
    cases h

theorem size_of_diag (hL : 2 ≤ o.filterLength) {ref : Sig s c N} {est : Sig s c T} {p} (h : sqCosDiag torchBackend o ref est = .ok p) :
    ∃ n, nFft N T = .ok n ∧ o.filterLength ≤ n := by
  rw [sqCosDiag_gen torchBackend hL] at h
  unfold sqCosDiagGen at h
  cases hn : nFft N T with
  | error err => rw [hn] at h; cases h
  | ok n =>
    refine ⟨n, rfl, ?_⟩
    by_contra hLn
    have h0 := fftSize_ne hn
    rw [hn] at h
    dsimp only at h
    rw [if_pos (by have e : min o.filterLength n = n := by omega
                   rw [e]; omega)] at h
    cases h

/-- What is known when `square_cosine_metrics(pairwise=False)` returns. -/
theorem diag_cg_ok (hL : 2 ≤ o.filterLength) (hcg : o.useCgIter = some it) {ref : Sig s c N} {est : Sig s c T} {S A}
    (h : sqCosDiag torchBackend o ref est = .ok (S, A)) : ∃ n, nFft N T = .ok n ∧ o.filterLength ≤ n ∧ DetOk o n ref ∧
      (∀ m k, (cgBss false o n it ref est).cohSdr m k k = S m k) ∧ (cgBss false o n it ref est).cohSar = A ∧
      ∀ v, bssBackwardCgDiag o it ref est v = .ok (gradEstBssDiag o (cgBss false o n it ref est) est (negWeights v),
        gradRefBssDiag o (cgBss false o n it ref est) ref (negWeights v)) := by
  obtain ⟨n, hn, hLn⟩ := size_of_diag hL h
  rw [sqCosDiag_cg hn hL hLn hcg] at h
  by_cases hd : DetOk o n ref
  · rw [if_pos hd] at h
    obtain ⟨e1, e2⟩ := Prod.mk.inj (Except.ok.inj h)
    refine ⟨n, hn, hLn, hd, fun m k => ?_, e2, fun v => ?_⟩
    · rw [← e1]
      rfl
    · unfold bssBackwardCgDiag
      rw [passCg_eq hn hL hLn, if_pos hd]
  · rw [if_neg hd] at h
    cases h

theorem total_diag_cg {ref : Sig s c N} {est : Sig s c T} {S A} (h : sqCosDiag torchBackend o ref est = .ok (S, A))
    {v : BssWeights (BIdx s × Fin c)} {y : ℝ}
    (hy : BaseUses (negWeights v) (fun i : BIdx s × Fin c => baseMetrics o.clampDb (S i.1 i.2) (A i.1 i.2)) y) :
    BssTotalDiag o ref est v y := by
  obtain ⟨y1, y2, y3, u1, u2, u3, u4⟩ := hy
  have key : ∀ {n : ℕ} (hn : n = c) (ref' : Sig s n N) (est' : Sig s n T)
      (_ : ∀ m k, ref' m k = ref m (k.cast hn)) (_ : ∀ m k, est' m k = est m (k.cast hn)),
      ∃ out : BssOut s n, bssEvalNoPerm torchBackend o ref' est' = .ok out ∧ ∀ m (k : Fin c),
      out.sdr m (k.cast hn.symm) = (baseMetrics o.clampDb (S m k) (A m k)).1.neg ∧
      out.sir m (k.cast hn.symm) = (baseMetrics o.clampDb (S m k) (A m k)).2.1.neg ∧
      out.sar m (k.cast hn.symm) = (baseMetrics o.clampDb (S m k) (A m k)).2.2.neg := by
    intro n hn ref' est' h1 h2
    subst hn
    obtain rfl : ref' = ref := funext fun m => funext fun k => h1 m k
    obtain rfl : est' = est := funext fun m => funext fun k => h2 m k
    unfold bssEvalNoPerm
    rw [h]
    exact ⟨_, rfl, fun m k => ⟨rfl, rfl, rfl⟩⟩
  obtain ⟨out, h1, h3⟩ := key (min_self c) (fun m k => ref m (k.castLE (min_le_left c c))) (fun m k => est m (k.castLE (min_le_right c c)))
    (fun m k => rfl) (fun m k => rfl)
  refine ⟨out, ?_, y1, y2, y3, ?_, ?_, ?_, u4⟩
  · unfold bssEvalSources
    rw [if_neg (by simp), if_neg (by simp)]
    exact h1
  · simp only [(h3 _ _).1]
    exact uses_neg u1
  · simp only [(h3 _ _).2.1]
    exact uses_neg u2
  · simp only [(h3 _ _).2.2]
    exact uses_neg u3

/-- **C88**, `compute_permutation=False`: the gradients are the derivatives of the values. -/
theorem C88_gradient_diag (hN : 0 < N) (hL : 2 ≤ o.filterLength) (hcg : o.useCgIter = some it) {ref : Sig s c N} {est : Sig s c T} {S A}
    (h : sqCosDiag torchBackend o ref est = .ok (S, A)) (v : BssWeights (BIdx s × Fin c))
    (hv : SmoothCoh o.clampDb v (fun i => S i.1 i.2) (fun i => A i.1 i.2))
    (hS : ∀ m k, PairSmooth o it ref est m k k) (hB : ∀ m j, BlockSmooth false o it ref est m j) :
    ∃ gE gR, bssBackwardCgDiag o it ref est v = .ok (gE, gR) ∧
      ((∀ m j, sigNorm (centred o.zeroMean (est m j)) ≠ 1e-6) →
        ∃ f, (∀ᶠ p in 𝓝 est, BssTotalDiag o ref p v (f p)) ∧ IsGradient f est gE) ∧
      (PrecondSmooth o ref T → (∀ m k, sigNorm (centred o.zeroMean (ref m k)) ≠ 1e-6) →
        ∃ f, (∀ᶠ p in 𝓝 ref, BssTotalDiag o p est v (f p)) ∧ IsGradient f ref gR) := by
  obtain ⟨n, hn, hLn, hd, h1, h2, h3⟩ := diag_cg_ok hL hcg h
  generalize hP : cgBss false o n it ref est = P at h1 h2 h3
  have hu : Usable o.clampDb (negWeights v) (diagA P) (diagB P) := by
    have := (smoothCoh_neg hv).usable
    simp only [← h1, ← h2] at this
    exact this
  have hsd : ∀ m k j, k = j → P.cohSdr m k j = cgCoh n (min o.filterLength n) o.load it (prep o ref m k) (prep o est m j) := by
    intro m k j _
    rw [← hP]
    rfl
  have hsa : ∀ m j, P.cohSar m j = cgCohB false n (min o.filterLength n) o.load it (prep o ref m) (prep o est m j) := by
    intro m j
    rw [← hP]
    rfl
  have hloc := cgBss_loc hn hL hLn false it ref est
  rw [hP] at hloc
  have hS' : ∀ m (k j : Fin c), k = j → PairSmooth o it ref est m k j := by
    intro m k j hkj
    subst hkj
    exact hS m k
  refine ⟨_, _, h3 v, fun hx => ?_, fun hp hx => ?_⟩
  · obtain ⟨F, F', f1, f2, f3⟩ := est_total_on (P := P) (U := fun k j => k = j) hsd hsa
      (hP ▸ passEst_of hn hL hLn hN hd (fun h => by cases h) hS' hB) hx (fun k : Fin c => (k, k)) (fun _ => rfl) (negWeights v) hu
      (gs := diagGs o.clampDb P (negWeights v)) (ga := diagGa o.clampDb P (negWeights v))
      (fun m i => baseGradSdr_fin (hu.finite (m, i))) (fun m i => baseGradSar_fin (hu.finite (m, i)))
    refine ⟨F, ?_, _, F', fun m j t => congrFun (gradEstBssDiag_fin est (hu.finite (m, j))) t, f2, f3⟩
    filter_upwards [f1] with p hp
    exact total_diag_cg (sqCosDiag_cg_ok hn hL hLn hcg hd p) hp
  · obtain ⟨F, F', f1, f2, f3⟩ := ref_total_on (P := P) (U := fun k j => k = j) hsd hsa
      (hP ▸ passRef_of hn hL hLn hd (fun h => by cases h) hS' hp hB) hx (fun k : Fin c => (k, k)) (fun _ => rfl) (negWeights v) hu
      (gs := diagGs o.clampDb P (negWeights v)) (ga := diagGa o.clampDb P (negWeights v))
      (fun m i => baseGradSdr_fin (hu.finite (m, i))) (fun m i => baseGradSar_fin (hu.finite (m, i)))
    refine ⟨F, ?_, _, F', fun m k t => congrFun (gradRefBssDiag_loc hloc (fun k => hu.finite (m, k)) k) t, f2, f3⟩
    filter_upwards [f1, detOk_near hn hL hLn hd] with p hp hdp
    exact total_diag_cg (sqCosDiag_cg_ok hn hL hLn hcg hdp est) hp

/-- **C88**, `compute_permutation=False`, finite gradients with `clamp_db`, if no SIR that is used is a quotient by zero. -/
theorem C88_clamped_finite_diag (hL : 2 ≤ o.filterLength) (hcg : o.useCgIter = some it) {d : ℝ} (hcl : o.clampDb = some d) {ref : Sig s c N}
    {est : Sig s c T} {S A} (h : sqCosDiag torchBackend o ref est = .ok (S, A)) (v : BssWeights (BIdx s × Fin c))
    (hv : v.sir ≠ none → ∀ m k, A m k ≠ 0) :
    ∃ gE gR, bssBackwardCgDiag o it ref est v = .ok (gE, gR) ∧ (∀ m j, FiniteGrad (gE m j)) ∧ ∀ m k, FiniteGrad (gR m k) := by
  obtain ⟨n, hn, hLn, hd, h1, h2, h3⟩ := diag_cg_ok hL hcg h
  have hf : ∀ i, Finite o.clampDb (negWeights v) (diagA (cgBss false o n it ref est)) (diagB (cgBss false o n it ref est)) i := by
    intro i
    rw [hcl]
    refine ⟨fun _ => cclamp_some_inside d _, fun hw => ⟨?_, cclamp_some_inside d _⟩, fun _ => cclamp_some_inside d _⟩
    show (cgBss false o n it ref est).cohSar i.1 i.2 ≠ 0
    rw [h2]
    exact hv (fun h0 => hw (by unfold negWeights; rw [h0]; rfl)) i.1 i.2
  refine ⟨_, _, h3 v, fun m j t => ?_, fun m k t => ?_⟩
  · rw [gradEstBssDiag_fin est (hf (m, j))]
    exact ⟨_, rfl⟩
  · rw [gradRefBssDiag_loc (cgBss_loc hn hL hLn false it ref est) (fun k => hf (m, k))]
    exact ⟨_, rfl⟩

/-- A quotient by zero, with or without `clamp_db`. -/
theorem baseSir_by_zero {cl : Option ℝ} (a w : ℝ) (wo : Option ℝ) : baseGradSar cl a 0 (some w) wo = nan := by
  unfold baseGradSar sirGrad
  dsimp only
  have h0 : div (fin 0) (fin 0) = nan := by simp [XR.div, signInf]
  rcases lt_trichotomy a 0 with ha | rfl | ha
  · have h1 : div (fin a) (fin 0) = ninf := by simp [XR.div, signInf, ha.not_gt, ha]
    rw [h1, show decibelGradX cl ninf (fin w) = fin 0 from rfl]
    have h2 : mul (neg (fin 0)) (div ninf (fin 0)) = nan := by simp [XR.div, XR.mul, XR.neg, signInf]
    rw [h2, add_nan]
  · rw [h0, nan_div, mul_nan, add_nan]
  · have h1 : div (fin a) (fin 0) = pinf := by simp [XR.div, signInf, ha]
    rw [h1, show decibelGradX cl pinf (fin w) = fin 0 from rfl]
    have h2 : mul (neg (fin 0)) (div pinf (fin 0)) = nan := by simp [XR.div, XR.mul, XR.neg, signInf]
    rw [h2, add_nan]

/-- **C88**, `compute_permutation=False`: if the coherence of estimate `k` with all references is zero and the loss uses the SIR, the gradients of
estimate `k` and of all references are NaN, with or without `clamp_db`. -/
theorem C88_nan_sir (hL : 2 ≤ o.filterLength) (hcg : o.useCgIter = some it) {ref : Sig s c N} {est : Sig s c T} {S A}
    (h : sqCosDiag torchBackend o ref est = .ok (S, A)) (v : BssWeights (BIdx s × Fin c)) (hv : v.sir ≠ none) :
    ∃ gE gR, bssBackwardCgDiag o it ref est v = .ok (gE, gR) ∧ ∀ m k, A m k = 0 → (∀ t, gE m k t = nan) ∧ ∀ k' t, gR m k' t = nan := by
  obtain ⟨n, hn, hLn, hd, h1, h2, h3⟩ := diag_cg_ok hL hcg h
  refine ⟨_, _, h3 v, fun m k hk => ?_⟩
  obtain ⟨w, hw⟩ := Option.ne_none_iff_exists'.1 hv
  refine diag_nan_sar ?_ ref est
  unfold diagSar negWeights
  rw [hw, h2, hk]
  exact baseSir_by_zero _ _ _

/-! ### With the permutation -/

/-- **C88**, `compute_permutation=True`: the gradients through a unique best permutation. -/
theorem C88_gradient_perm (hN : 0 < N) (hL : 2 ≤ o.filterLength) (hcg : o.useCgIter = some it) {ref : Sig s r N} {est : Sig s e T} {S A}
    (h : sqCosPair torchBackend o ref est = .ok (S, A)) (v : BssWeights (BIdx s × Fin (min r e)))
    (hsdr : v.sdr ≠ none → ∀ m k j, OffBounds o.clampDb (coherenceToNegSdr none (fin (S m k j))))
    (hsir : ∀ m k j, A m j ≠ 0 ∧ OffBounds o.clampDb (coherenceToNegSdr none (fin (S m k j / A m j))))
    (hsar : v.sar ≠ none → ∀ m (_ : Fin r) j, OffBounds o.clampDb (coherenceToNegSdr none (fin (A m j))))
    (hu : ∀ m, UniqueBest fun k j => (baseMetrics o.clampDb (S m k j) (A m j)).2.1)
    (hS : ∀ m k j, PairSmooth o it ref est m k j) (hB : ∀ m j, BlockSmooth true o it ref est m j) :
    ∃ gE gR, bssBackwardCg o it ref est v = .ok (gE, gR) ∧
      ((∀ m j, sigNorm (centred o.zeroMean (est m j)) ≠ 1e-6) →
        ∃ f, (∀ᶠ p in 𝓝 est, BssTotal o ref p v (f p)) ∧ IsGradient f est gE) ∧
      (PrecondSmooth o ref T → (∀ m k, sigNorm (centred o.zeroMean (ref m k)) ≠ 1e-6) →
        ∃ f, (∀ᶠ p in 𝓝 ref, BssTotal o p est v (f p)) ∧ IsGradient f ref gR) := by
  obtain ⟨n, hn, hLn⟩ := size_of_pair hL h
  have hsq := h
  rw [sqCosPair_cg hn hL hLn hcg] at hsq
  by_cases hd : DetOk o n ref
  swap
  · rw [if_neg hd] at hsq
    cases hsq
  rw [if_pos hd] at hsq
  obtain ⟨rfl, rfl⟩ := Prod.mk.inj (Except.ok.inj hsq)
  let P := cgBss true o n it ref est
  have hus : ∀ perm, Usable o.clampDb (permWeights perm v) (pairA P) (pairB P) := fun perm => SmoothCoh.usable
    ⟨fun hw k => hsdr (fun h0 => hw (by unfold permWeights; rw [h0]; rfl)) k.1 k.2.1 k.2.2, fun _ k => hsir k.1 k.2.1 k.2.2,
      fun hw k => hsar (fun h0 => hw (by unfold permWeights; rw [h0]; rfl)) k.1 k.2.1 k.2.2⟩
  have hus2 : ∀ w, Usable o.clampDb ⟨none, some w, none⟩ (pairA P) (pairB P) := fun w => SmoothCoh.usable
    ⟨fun hw => absurd rfl hw, fun _ k => hsir k.1 k.2.1 k.2.2, fun hw => absurd rfl hw⟩
  have hfin : ∀ m k j, ∃ x, (baseMetrics o.clampDb (P.cohSdr m k j) (P.cohSar m j)).2.1 = fin x := by
    intro m k j
    have e1 : (baseMetrics o.clampDb (P.cohSdr m k j) (P.cohSar m j)).2.1 =
        coherenceToNegSdr o.clampDb (fin (P.cohSdr m k j / P.cohSar m j)) := by
      show coherenceToNegSdr o.clampDb (div (fin (P.cohSdr m k j)) (fin (P.cohSar m j))) = _
      rw [div_fin (show P.cohSar m j ≠ 0 from (hsir m k j).1)]
    rw [e1]
    exact clamped_loss (hsir m k j).2
  obtain ⟨out, hout⟩ := (solvePermutation_ok_iff torchBackend torchLsa_correct
    (fun m k j => (baseMetrics o.clampDb (P.cohSdr m k j) (P.cohSar m j)).2.1)
    ![fun m k j => (baseMetrics o.clampDb (P.cohSdr m k j) (P.cohSar m j)).1,
      fun m k j => (baseMetrics o.clampDb (P.cohSdr m k j) (P.cohSar m j)).2.2]).2 fun m => solvable_of_finite (hfin m)
  refine ⟨gradEstBss o P est (permWeights out.perm v), gradRefBss o P ref (permWeights out.perm v), ?_, fun hx => ?_, fun hp hx => ?_⟩
  · unfold bssBackwardCg
    rw [passCg_eq hn hL hLn, if_pos hd]
    dsimp only
    rw [hout]
  · have key := fun (W : BssWeights (BIdx s × Fin r × Fin e)) (hW : Usable o.clampDb W (pairA P) (pairB P)) =>
      est_total_on (P := P) (U := fun _ _ => True) (fun _ _ _ _ => rfl) (fun _ _ => rfl)
      (passEst_of hn hL hLn hN hd (fun _ _ _ => trivial) (fun m k j _ => hS m k j) hB) hx (fun i : Fin r × Fin e => i) (fun _ => trivial) W hW
      (gs := pairGs o.clampDb P W) (ga := pairGa o.clampDb P W)
      (fun m i => baseGradSdr_fin (hW.finite (m, i))) (fun m i => baseGradSar_fin (hW.finite (m, i)))
    have near : ∀ {W : BssWeights (BIdx s × Fin r × Fin e)} {F : Sig s e T → ℝ}, (∀ᶠ p in 𝓝 est, BaseUses W (fun i : BIdx s × Fin r × Fin e =>
        baseMetrics o.clampDb (cgCoh n (min o.filterLength n) o.load it (prep o ref i.1 i.2.1) (prep o p i.1 i.2.2))
          (cgCohB true n (min o.filterLength n) o.load it (prep o ref i.1) (prep o p i.1 i.2.2))) (F p)) →
        ∀ᶠ p in 𝓝 est, ∃ S A, sqCosPair torchBackend o ref p = .ok (S, A) ∧
          BaseUses W (fun i : BIdx s × Fin r × Fin e => baseMetrics o.clampDb (S i.1 i.2.1 i.2.2) (A i.1 i.2.2)) (F p) := by
      intro W F hF
      filter_upwards [hF] with p hp
      exact ⟨_, _, sqCosPair_cg_ok hn hL hLn hcg hd p, hp⟩
    obtain ⟨F, F', f1, f2, f3⟩ := key _ (hus out.perm)
    refine ⟨F, ?_, _, F', fun m j t => congrFun (gradEstBss_fin est fun k => (hus out.perm).finite (m, k, j)) t, f2, f3⟩
    refine total_perm (R := fun _ => ref) (E := fun p => p) h hu hout (fun w => ?_) (near f1)
    obtain ⟨G, G', g1, g2, -⟩ := key _ (hus2 w)
    exact ⟨G, g2.continuousAt, near g1⟩
  · have key := fun (W : BssWeights (BIdx s × Fin r × Fin e)) (hW : Usable o.clampDb W (pairA P) (pairB P)) =>
      ref_total_on (P := P) (U := fun _ _ => True) (fun _ _ _ _ => rfl) (fun _ _ => rfl)
      (passRef_of hn hL hLn hd (fun _ _ _ => trivial) (fun m k j _ => hS m k j) hp hB) hx (fun i : Fin r × Fin e => i) (fun _ => trivial) W hW
      (gs := pairGs o.clampDb P W) (ga := pairGa o.clampDb P W)
      (fun m i => baseGradSdr_fin (hW.finite (m, i))) (fun m i => baseGradSar_fin (hW.finite (m, i)))
    have near : ∀ {W : BssWeights (BIdx s × Fin r × Fin e)} {F : Sig s r N → ℝ}, (∀ᶠ p in 𝓝 ref, BaseUses W (fun i : BIdx s × Fin r × Fin e =>
        baseMetrics o.clampDb (cgCoh n (min o.filterLength n) o.load it (prep o p i.1 i.2.1) (prep o est i.1 i.2.2))
          (cgCohB true n (min o.filterLength n) o.load it (prep o p i.1) (prep o est i.1 i.2.2))) (F p)) →
        ∀ᶠ p in 𝓝 ref, ∃ S A, sqCosPair torchBackend o p est = .ok (S, A) ∧
          BaseUses W (fun i : BIdx s × Fin r × Fin e => baseMetrics o.clampDb (S i.1 i.2.1 i.2.2) (A i.1 i.2.2)) (F p) := by
      intro W F hF
      filter_upwards [hF, detOk_near hn hL hLn hd] with p hp hdp
      exact ⟨_, _, sqCosPair_cg_ok hn hL hLn hcg hdp est, hp⟩
    obtain ⟨F, F', f1, f2, f3⟩ := key _ (hus out.perm)
    refine ⟨F, ?_, _, F', fun m k t => congrFun (gradRefBss_loc (cgBss_loc hn hL hLn true it ref est)
      (fun k j => (hus out.perm).finite (m, k, j)) k) t, f2, f3⟩
    refine total_perm (R := fun p => p) (E := fun _ => est) h hu hout (fun w => ?_) (near f1)
    obtain ⟨G, G', g1, g2, -⟩ := key _ (hus2 w)
    exact ⟨G, g2.continuousAt, near g1⟩

/-- **C88**, finite gradients with `clamp_db`, whenever `bss_eval_sources` returns and no SIR is a quotient by zero. -/
theorem C88_clamped_finite_perm (hL : 2 ≤ o.filterLength) (hcg : o.useCgIter = some it) {d : ℝ} (hcl : o.clampDb = some d) {ref : Sig s r N}
    {est : Sig s e T} {out S A} (h : bssEvalSources torchBackend o true ref est = .ok out) (hs : sqCosPair torchBackend o ref est = .ok (S, A))
    (v : BssWeights (BIdx s × Fin (min r e))) (hv : v.sir ≠ none → ∀ m j, A m j ≠ 0) :
    ∃ gE gR, bssBackwardCg o it ref est v = .ok (gE, gR) ∧ (∀ m j, FiniteGrad (gE m j)) ∧ ∀ m k, FiniteGrad (gR m k) := by
  obtain ⟨n, hn, hLn⟩ := size_of_pair hL hs
  have hsq := hs
  rw [sqCosPair_cg hn hL hLn hcg] at hsq
  by_cases hd : DetOk o n ref
  swap
  · rw [if_neg hd] at hsq
    cases hsq
  rw [if_pos hd] at hsq
  obtain ⟨rfl, rfl⟩ := Prod.mk.inj (Except.ok.inj hsq)
  let P := cgBss true o n it ref est
  unfold bssEvalSources bssEvalPerm at h
  rw [if_pos rfl, hs] at h
  dsimp only at h
  cases hq : solvePermutation torchBackend (fun m k j => (baseMetrics o.clampDb (P.cohSdr m k j) (P.cohSar m j)).2.1) (nArgs := 2)
    ![fun m k j => (baseMetrics o.clampDb (P.cohSdr m k j) (P.cohSar m j)).1,
      fun m k j => (baseMetrics o.clampDb (P.cohSdr m k j) (P.cohSar m j)).2.2] with
  | error err =>
    have hq' := hq
    simp only [P, cgBss] at hq'
    rw [hq'] at h
    cases h
  | ok q =>
    have hf : ∀ i, Finite o.clampDb (permWeights q.perm v) (pairA P) (pairB P) i := by
      intro i
      rw [hcl]
      exact ⟨fun _ => cclamp_some_inside d _, fun hw => ⟨hv (fun h0 => hw (by unfold permWeights; rw [h0]; rfl)) i.1 i.2.2, cclamp_some_inside d _⟩,
        fun _ => cclamp_some_inside d _⟩
    refine ⟨gradEstBss o P est (permWeights q.perm v), gradRefBss o P ref (permWeights q.perm v), ?_, fun m j t => ?_, fun m k t => ?_⟩
    · unfold bssBackwardCg
      rw [passCg_eq hn hL hLn, if_pos hd]
      dsimp only
      rw [hq]
    · rw [gradEstBss_fin est fun k => hf (m, k, j)]
      exact ⟨_, rfl⟩
    · rw [gradRefBss_loc (cgBss_loc hn hL hLn true it ref est) (fun k j => hf (m, k, j))]
      exact ⟨_, rfl⟩

/-! ### Only the SDR -/

/-- **C88**, a loss that uses only the SDR of `bss_eval_sources(compute_permutation=False)` has the gradients of `sdr_loss`, both with the
iterative solver. -/
theorem C88_sdr_only (hN : 0 < N) (hL : 2 ≤ o.filterLength) (hcg : o.useCgIter = some it) {ref : Sig s c N} {est : Sig s c T} {S A}
    (h : sqCosDiag torchBackend o ref est = .ok (S, A)) (w : BIdx s → Fin c → ℝ) :
    ∃ gE gR, bssBackwardCgDiag o it ref est ⟨some fun i => w i.1 i.2, none, none⟩ = .ok (gE, gR) ∧
      gradEstCgDiag o it ref est (fun m k => -w m k) = .ok gE ∧ gradRefCgDiag o it ref est (fun m k => -w m k) = .ok gR := by
  obtain ⟨n, hn, hLn, hd, -, -, h3⟩ := diag_cg_ok hL hcg h
  have hb := nFft_bounds hn
  refine ⟨_, _, h3 _, ?_, ?_⟩
  · rw [gradEstCgDiag_eq hn]
    refine congrArg Except.ok (funext fun m => funext fun k => ?_)
    unfold gradEstBssDiag
    congr 1
    refine lift_swap (k := (0 : Fin 1)) (k' := true) (γ := fun a _ => a)
      (γ' := fun a i => match i with | true => a | false => 0) rfl ?_ (fun a ha _ => ha) ?_ fun a => ?_
    · exact baseSdr_only _ _ _ _
    · rintro a ha (_ | _)
      · exact baseSar_none _ _ _
      · rw [← ha]
        exact baseSdr_only _ _ _ _
    · exact (passXY_est_single (fftSize_ne hn) (by omega) (min_le_right _ _) (by omega) o.load it (prep o ref m) (prep o est m) k k a).symm
  · rw [gradRefCgDiag_eq hn]
    refine congrArg Except.ok (funext fun m => funext fun k => ?_)
    unfold gradRefBssDiag
    congr 1
    refine lift_swap (k := (0 : Fin 1)) (k' := Sum.inl ()) (γ := fun a _ => a)
      (γ' := fun a i => match i with | .inl _ => a | .inr _ => 0) rfl ?_ (fun a ha _ => ha) ?_ fun a => ?_
    · exact baseSdr_only _ _ _ _
    · rintro a ha (_ | _)
      · rw [← ha]
        exact baseSdr_only _ _ _ _
      · exact baseSar_none _ _ _
    · exact (passXY_ref_single (fftSize_ne hn) (by omega) (min_le_right _ _) (by omega) o.load it (prep o ref m) (prep o est m) k k a).symm

/-! ### Concrete cases -/

/-- The options of the cases: filters of two taps, four iterations. -/
noncomputable def exCg4 (cl : Option ℝ) : Opts := { Ex.clamped cl with useCgIter := some 4 }

theorem ex4_pair (cl : Option ℝ) : sqCosPair torchBackend (exCg4 cl) Ex.ref Ex.est =
    .ok (fun _ k j => if k = j then 4 / 5 else 1 / 5, fun _ _ => 1) :=
  sqCosPair_converges (o := Ex.clamped cl) Ex.covered le_rfl
    (show sqCosPair torchBackend { Ex.clamped cl with useCgIter := none } Ex.ref Ex.est = _ from Ex.sqCosPair_value) (show 2 * max 1 2 ≤ 4 by decide)
    (Ex.sdrQuiet 4) (Ex.sarQuiet' (n := 4) (by norm_num))

theorem ex4_diag (cl : Option ℝ) : sqCosDiag torchBackend (exCg4 cl) Ex.ref Ex.est = .ok (fun _ _ => 4 / 5, fun _ _ => 1) := by
  have h0 : sqCosPair torchBackend { Ex.clamped cl with useCgIter := none } Ex.ref Ex.est = _ := Ex.sqCosPair_value
  have h1 := sqCosDiag_of_pair _ _ (Or.inr ⟨rfl, rfl⟩) h0
  simp only [if_true] at h1
  exact sqCosDiag_converges (o := Ex.clamped cl) Ex.covered le_rfl rfl h1 (show 2 * max 1 2 ≤ 4 by decide) (Ex.sdrQuiet 4) (Ex.sarQuiet 4)

theorem ex4_smooth (cl : Option ℝ) (m : BIdx []) (k j : Fin 2) : PairSmooth (exCg4 cl) 4 Ex.ref Ex.est m k j :=
  ex_smooth cl 4 m k j

theorem ex4_precond (cl : Option ℝ) : PrecondSmooth (exCg4 cl) Ex.ref 3 := ex_precond cl

/-- Iterations that start at the solution. -/
theorem cgSmooth_solved {J : Type} [Fintype J] {b x0 : J → ℝ} (h : x0 = b) (n : ℕ) : CgSmooth (id : (J → ℝ) → (J → ℝ)) id b x0 n := by
  have h0 : cgRun (id : (J → ℝ) → (J → ℝ)) id b x0 0 = ⟨x0, 0, 0, 0⟩ := by
    show cgInit _ _ _ _ = _
    unfold cgInit
    simp [id, h, innerProd]
  have hr : ∀ i, (cgRun (id : (J → ℝ) → (J → ℝ)) id b x0 i).r = 0 ∧ (cgRun (id : (J → ℝ) → (J → ℝ)) id b x0 i).rsold = 0 := fun i => by
    have := cgRun_zero (A := (id : (J → ℝ) → (J → ℝ))) (M := id) (b := b) (x0 := x0) (i := 0) (by rw [h0]; exact ⟨rfl, rfl⟩) i
    rwa [Nat.zero_add] at this
  have hp : ∀ i, (cgRun (id : (J → ℝ) → (J → ℝ)) id b x0 i).p = 0 := by
    intro i
    cases i with
    | zero => rw [h0]
    | succ k =>
      have e : (cgRun (id : (J → ℝ) → (J → ℝ)) id b x0 (k + 1)).p =
        (cgRun (id : (J → ℝ) → (J → ℝ)) id b x0 (k + 1)).r +
          ((cgRun (id : (J → ℝ) → (J → ℝ)) id b x0 (k + 1)).rsold /
            max (cgRun (id : (J → ℝ) → (J → ℝ)) id b x0 k).rsold 1e-6) •
            (cgRun (id : (J → ℝ) → (J → ℝ)) id b x0 k).p := by
        rw [cgRun_succ, cgBody_eq]
        rfl
      rw [e, (hr _).1, (hr _).2]
      simp
  intro i _
  rw [hp, (hr i).2]
  norm_num

theorem ex4_block (cl : Option ℝ) (warm : Bool) (m : BIdx []) (j : Fin 2) : BlockSmooth warm (exCg4 cl) 4 Ex.ref Ex.est m j := by
  intro f hf
  have : f = 8 := by
    rw [Ex.nFft_three] at hf
    exact (Except.ok.inj hf).symm
  subst this
  have e1 := Ex.blockOp_one m
  have e2 := Ex.blockPrecond_id m
  show CgSmooth (blockToeplitzOp torchBackend 2 (bssAcf Ex.opts 8 Ex.ref m)) (blockPrecond torchBackend 2 (bssAcf Ex.opts 8 Ex.ref m))
    (xcorrFlat Ex.opts 8 2 Ex.ref Ex.est m j) _ 4
  rw [e1, e2]
  cases warm with
  | false =>
    show CgSmooth id id (xcorrFlat Ex.opts 8 2 Ex.ref Ex.est m j) (fun _ => 0) 4
    refine cgSmooth_one ?_ 4
    have h := Ex.coeffs_fifth m 0 j
    unfold dotProduct at h ⊢
    rw [Fintype.sum_prod_type, Finset.sum_comm, Fin.sum_univ_two]
    exact le_trans h (le_add_of_nonneg_right (Finset.sum_nonneg fun _ _ => mul_self_nonneg _))
  | true =>
    refine cgSmooth_solved ?_ 4
    funext p
    obtain ⟨i, k⟩ := p
    have h := toeplitzCg_exact (b := vec 2 (sdrXcorr Ex.opts 8 Ex.ref Ex.est m k j)) Ex.covered (Ex.acf_length m k) (by norm_num)
      (by rw [Ex.toeplitz_one]; exact Matrix.PosDef.one) (show 2 ≤ 4 by norm_num) (Ex.sdrQuiet 4 8 Ex.nFft_three m k j)
    rw [Ex.toeplitz_one, inv_one, Matrix.one_mulVec] at h
    show toeplitzCg torchBackend 2 (bssAcfSdr Ex.opts 8 Ex.ref m k) (vec 2 (sdrXcorr Ex.opts 8 Ex.ref Ex.est m k j)) 4 i = _
    rw [bssAcfSdr_eq_sdrAcf Ex.fam8 (by rfl) (by decide) (by decide)]
    exact congrFun h i

/-- Two sources, the permutation, and a loss that uses SDR and SIR without `clamp_db`. -/
example (w w' : BIdx [] × Fin 2 → ℝ) : ∃ gE gR, bssBackwardCg (exCg4 none) 4 Ex.ref Ex.est ⟨some w, some w', none⟩ = .ok (gE, gR) ∧
    (∃ f, (∀ᶠ p in 𝓝 Ex.est, BssTotal (exCg4 none) Ex.ref p ⟨some w, some w', none⟩ (f p)) ∧ IsGradient f Ex.est gE) ∧
    ∃ f, (∀ᶠ p in 𝓝 Ex.ref, BssTotal (exCg4 none) p Ex.est ⟨some w, some w', none⟩ (f p)) ∧ IsGradient f Ex.ref gR := by
  obtain ⟨gE, gR, h1, h2, h3⟩ := C88_gradient_perm (o := exCg4 none) (by norm_num) le_rfl rfl (ex4_pair none)
    ⟨some w, some w', none⟩ (fun _ _ k j => fifth_off none (Or.inl rfl) (k = j))
    (fun _ k j => by
      refine ⟨one_ne_zero, ?_⟩
      rw [div_one]
      exact fifth_off none (Or.inl rfl) (k = j)) (fun h => absurd rfl h)
    (fun m => by simp only [(ex_base _ _).2.1]; exact Ex.unique_loss) (ex4_smooth none) (ex4_block none true)
  exact ⟨gE, gR, h1, h2 fun m j => (ex_norm m j).1, h3 (ex4_precond none) fun m k => (ex_norm m k).2⟩

/-- All three metrics with `clamp_db=30` and without the permutation. -/
example (w w' w'' : BIdx [] × Fin 2 → ℝ) :
    ∃ gE gR, bssBackwardCgDiag (exCg4 (some 30)) 4 Ex.ref Ex.est ⟨some w, some w', some w''⟩ = .ok (gE, gR) ∧
    (∃ f, (∀ᶠ p in 𝓝 Ex.est, BssTotalDiag (exCg4 (some 30)) Ex.ref p ⟨some w, some w', some w''⟩ (f p)) ∧ IsGradient f Ex.est gE) ∧
    ∃ f, (∀ᶠ p in 𝓝 Ex.ref, BssTotalDiag (exCg4 (some 30)) p Ex.est ⟨some w, some w', some w''⟩ (f p)) ∧ IsGradient f Ex.ref gR := by
  have h45 : OffBounds (some 30) (coherenceToNegSdr none (fin (4 / 5))) := by
    have := fifth_off (some 30) (Or.inr rfl) True
    rwa [if_pos trivial] at this
  obtain ⟨gE, gR, h1, h2, h3⟩ := C88_gradient_diag (o := exCg4 (some 30)) (by norm_num) le_rfl rfl (ex4_diag (some 30))
    ⟨some w, some w', some w''⟩
    ⟨fun _ _ => h45, fun _ _ => ⟨one_ne_zero, by rw [div_one]; exact h45⟩, fun _ _ => ex_sar_off⟩
    (fun m k => ex4_smooth (some 30) m k k) (ex4_block (some 30) false)
  exact ⟨gE, gR, h1, h2 fun m j => (ex_norm m j).1, h3 (ex4_precond (some 30)) fun m k => (ex_norm m k).2⟩

/-- Finite gradients with `clamp_db`. -/
example (d : ℝ) (v : BssWeights (BIdx [] × Fin 2)) : ∃ gE gR, bssBackwardCgDiag (exCg4 (some d)) 4 Ex.ref Ex.est v = .ok (gE, gR) ∧
    (∀ m j, FiniteGrad (gE m j)) ∧ ∀ m k, FiniteGrad (gR m k) :=
  C88_clamped_finite_diag (o := exCg4 (some d)) le_rfl rfl rfl (ex4_diag (some d)) v fun _ _ _ => one_ne_zero

example (d : ℝ) (v : BssWeights (BIdx [] × Fin 2)) : ∃ gE gR, bssBackwardCg (exCg4 (some d)) 4 Ex.ref Ex.est v = .ok (gE, gR) ∧
    (∀ m j, FiniteGrad (gE m j)) ∧ ∀ m k, FiniteGrad (gR m k) := by
  have h : ∃ out, bssEvalSources torchBackend (exCg4 (some d)) true Ex.ref Ex.est = .ok out := by
    obtain ⟨out, h⟩ := Ex.bssPerm_cl (some d)
    refine ⟨out, ?_⟩
    rw [← h]
    unfold bssEvalSources bssEvalPerm
    rw [ex4_pair, show sqCosPair torchBackend (Ex.clamped (some d)) Ex.ref Ex.est = _ from Ex.sqCosPair_value]
    rfl
  obtain ⟨out, h⟩ := h
  exact C88_clamped_finite_perm (o := exCg4 (some d)) le_rfl rfl rfl h (ex4_pair (some d)) v fun _ _ _ => one_ne_zero

example (cl : Option ℝ) (w : BIdx [] → Fin 2 → ℝ) :
    ∃ gE gR, bssBackwardCgDiag (exCg4 cl) 4 Ex.ref Ex.est ⟨some fun i => w i.1 i.2, none, none⟩ = .ok (gE, gR) ∧
      gradEstCgDiag (exCg4 cl) 4 Ex.ref Ex.est (fun m k => -w m k) = .ok gE ∧
      gradRefCgDiag (exCg4 cl) 4 Ex.ref Ex.est (fun m k => -w m k) = .ok gR :=
  C88_sdr_only (o := exCg4 cl) (by norm_num) le_rfl rfl (ex4_diag cl) w

/-- A silent estimate: the SIR is a quotient by zero, the gradients are NaN with and without `clamp_db`. -/
example (cl : Option ℝ) (w : BIdx [] × Fin 2 → ℝ) :
    ∃ gE gR, bssBackwardCgDiag (exCg4 cl) 4 Ex.ref (fun _ => ![![2, 0, 1], 0] : Sig [] 2 3) ⟨none, some w, none⟩ = .ok (gE, gR) ∧
    ∀ m t, gE m 1 t = nan ∧ gR m 0 t = nan ∧ gR m 1 t = nan := by
  obtain ⟨n, hn, hLn, hd, -, -, -⟩ := diag_cg_ok (o := exCg4 cl) le_rfl rfl (ex4_diag cl)
  have h := sqCosDiag_cg_ok (o := exCg4 cl) hn le_rfl hLn rfl hd (fun _ => ![![2, 0, 1], 0] : Sig [] 2 3)
  obtain ⟨gE, gR, h1, h2⟩ := C88_nan_sir (o := exCg4 cl) le_rfl rfl h ⟨none, some w, none⟩ (by simp)
  refine ⟨gE, gR, h1, fun m t => ?_⟩
  have hz : prep (exCg4 cl) (fun _ => ![![2, 0, 1], 0] : Sig [] 2 3) m 1 = 0 := by
    rw [prep_eq]
    funext t
    have : centred (exCg4 cl).zeroMean ((fun _ => ![![2, 0, 1], 0] : Sig [] 2 3) m 1) = 0 := rfl
    rw [this]
    simp
  have hA := h2 m 1 (by
    unfold cgCohB cohB
    rw [hz]
    have : xcs n (min (exCg4 cl).filterLength n) (prep (exCg4 cl) Ex.ref m) (0 : Fin 3 → ℝ) = 0 := by
      funext k i
      simp [xcs, xcV, circ, zpad]
    rw [this]
    exact Finset.sum_eq_zero fun i _ => zero_mul _)
  exact ⟨hA.1 t, hA.2 0 t, hA.2 1 t⟩

end FBE.Props
