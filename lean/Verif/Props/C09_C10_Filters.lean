import Verif.Proofs.Example
import Verif.Proofs.Local
import Verif.Spec.Filter
import Verif.Props.C01_C04_Documented
import Verif.Props.C11_C17_Permutation
import Verif.Proofs.ExampleRuns

/-!
# C09, C10, C17 — longer filters, filtered references, perfect estimates
-/

namespace FBE.Props

open Spec XR Matrix

variable {s : List ℕ} {r e c N T : ℕ} {B : Backend} {o : Opts}

/-! ### C09 -/

theorem quad_congr {J : Type*} [Fintype J] [DecidableEq J] {D D' : ℕ} {v : J → Space D} {v' : J → Space D'}
    {y : Space D} {y' : Space D'} {d : ℝ} (hg : ∀ i j, inner ℝ (v i) (v j) = inner ℝ (v' i) (v' j))
    (hc : ∀ i, inner ℝ (v i) y = inner ℝ (v' i) y') :
    gramD v d = gramD v' d ∧ quad v d y = quad v' d y' := by
  have h1 : gramD v d = gramD v' d := by
    unfold gramD
    congr 1
    ext i j
    exact hg i j
  have h2 : coeffs v y = coeffs v' y' := funext hc
  unfold quad
  rw [h1, h2]
  exact ⟨rfl, rfl⟩

theorem cshift_inner_zero {n : ℕ} (hn : nFft N = .ok n) (x y : Fin N → ℝ) :
    inner ℝ (cshift n x 0) (cshift n y 0) = dot x y := by
  have hN := (nFft_ok hn).1
  have hge := nFft_ge hn
  have F : Fam N N 1 n (fun x i => cshift n x i) (fun y => cshift n y 0) :=
    fam_cshift (nFft_ne hn) (by omega)
  have G : Fam N N 1 n (fun x i => shift N x i) (fun y => shift N y 0) :=
    fam_shift hN (by omega) (by omega) (by omega) (by omega)
  rw [F.cross x y 0 (by omega), ← G.cross x y 0 (by omega), inner_shift_zero N le_rfl]

theorem schur_one {J : Type*} [Fintype J] [DecidableEq J] {D : ℕ} (v : J → Space D) (y : Space D) (i : J)
    (hi : ‖v i‖ ^ 2 ≤ 1) (h : (gramD v 0).det ≠ 0) : inner ℝ (v i) y ^ 2 ≤ quad v 0 y := by
  have key := schur (gramD_posSemidef v le_rfl) (mulVec_inv h (coeffs v y)) (Pi.single i (inner ℝ (v i) y))
  rw [gramD_mulVec, zero_smul, add_zero, coeffs_dot] at key
  rw [dotProduct_comm, coeffs_dot] at key
  simp only [Pi.single_apply, ite_smul, zero_smul, Finset.sum_ite_eq', Finset.mem_univ, if_true] at key
  rw [real_inner_smul_left, real_inner_smul_left, real_inner_smul_right, real_inner_self_eq_norm_sq] at key
  unfold quad
  refine le_trans ?_ key
  nlinarith [sq_nonneg (inner ℝ (v i) y)]

theorem F_norm_le {n : ℕ} (hn : nFft N = .ok n) (o : Opts) (x : Sig s c N) (m : BIdx s) (k : Fin c) :
    ‖cshift n (prep o x m k) 0‖ ^ 2 ≤ 1 :=
  le_trans ((fam_of_nFft (o := o) hn).g_sq_le _) (prep_sq_le _ _ _ _)

theorem dot_sq_le_quad {n K : ℕ} (hn : nFft N = .ok n) (hK : 0 < K) (x y : Fin N → ℝ)
    (hx : ‖cshift n x 0‖ ^ 2 ≤ 1) (h : (gramD (refFam (fun x i => cshift n x i) K x) 0).det ≠ 0) :
    dot x y ^ 2 ≤ quad (refFam (fun x i => cshift n x i) K x) 0 (cshift n y 0) := by
  rw [← cshift_inner_zero hn x y]
  exact schur_one (refFam (fun x i => cshift n x i) K x) (cshift n y 0) ⟨0, hK⟩ hx h

theorem sdrCohPair_mono (hB : Covered B) (hdir : o.useCgIter = none) (hload : 0 ≤ o.load) {L L' : ℕ}
    (hle : L ≤ L') (hone : L ≠ 1 ∨ o.load = 0) {ref : Sig s r N} {est : Sig s e T} {coh coh'}
    (hc : sdrCohPair B { o with filterLength := L } ref est = .ok coh)
    (hc' : sdrCohPair B { o with filterLength := L' } ref est = .ok coh') (m k j) :
    coh m k j ≤ coh' m k j := by
  by_cases hl0 : L = 0
  · rw [sdrCohPair_zero B (by exact hl0)] at hc; cases hc
  by_cases hl1' : L' = 1
  · have hl1 : L = 1 := by omega
    subst hl1 hl1'
    rw [hc] at hc'
    cases hc'
    exact le_rfl
  cases hn : nFft N T with
  | error err =>
    rw [sdrCohPair_gen B (by show 2 ≤ L'; omega)] at hc'; unfold sdrCohPairGen at hc'
    rw [hn] at hc'; cases hc'
  | ok n =>
    have hn0 := nFft_ne hn
    have F' := fam_of_nFft (o := { o with filterLength := L' }) hn
    rw [sdrCohPair_direct (o := { o with filterLength := L' }) hn rfl (by show 2 ≤ L'; omega)
      F' hB hdir] at hc'
    split at hc'
    · cases hc'
    rename_i hs'
    push Not at hs'
    have hs' := hs' (m, k)
    by_cases hl1 : L = 1
    · by_cases hT : T = N
      case neg => rw [sdrCohPair_ne B (by exact hl1) hT] at hc; cases hc
      subst hT
      simp only [sdrCohPair_def] at hc
      rw [if_neg (by exact hl0), if_pos (by exact hl1)] at hc
      cases hc; cases hc'
      have hl : o.load = 0 := hone.resolve_left fun h => h hl1
      have e1 : ({ o with filterLength := L' } : Opts).load = 0 := hl
      unfold SingularOne at hs'
      rw [e1] at hs'
      beta_reduce
      rw [e1]
      exact dot_sq_le_quad hn (by show 0 < min L' n; omega) _ _ (F_norm_le hn o ref m k) hs'
    · have F := fam_of_nFft (o := { o with filterLength := L }) hn
      rw [sdrCohPair_direct (o := { o with filterLength := L }) hn rfl (by show 2 ≤ L; omega)
        F hB hdir] at hc
      split at hc
      · cases hc
      rename_i hs
      push Not at hs
      have hs := hs (m, k)
      cases hc; cases hc'
      exact quad_mono (refFam (fun x i => cshift n x i) (min L' n) (prep o ref m k))
        (cshift n (prep o est m j) 0) (Fin.castLE (min_le_min_right n hle)) (Fin.castLE_injective _) hload hs' hs

/-- **C09.**  Direct solver, no loading (or, if the shorter filter has at least two taps, any
non-negative loading): a longer filter never gives a lower SDR in `sdr_loss`.  No restriction on the
lengths of filters and signals. -/
theorem C09_longer_filters (hB : Covered B) (hdir : o.useCgIter = none) (hload : 0 ≤ o.load) {L L' : ℕ}
    (hle : L ≤ L') (hone : L ≠ 1 ∨ o.load = 0) {ref : Sig s r N} {est : Sig s e T} {M M'}
    (h : sdrLossPair B { o with filterLength := L } est ref = .ok M)
    (h' : sdrLossPair B { o with filterLength := L' } est ref = .ok M') (m k j) :
    toEReal (M' m k j) ≤ toEReal (M m k j) := by
  obtain ⟨coh, hc, rfl⟩ := sdrLossPair_entry h
  obtain ⟨coh', hc', rfl⟩ := sdrLossPair_entry h'
  exact coherenceToNegSdr_anti o.clampDb (sdrCohPair_mono hB hdir hload hle hone hc hc' m k j)

theorem sqCosPair_mono (hB : Covered B) (hdir : o.useCgIter = none) (hload : 0 ≤ o.load) {L L' : ℕ}
    (hle : L ≤ L') {ref : Sig s r N} {est : Sig s e T} {sd sa sd' sa'}
    (h : sqCosPair B { o with filterLength := L } ref est = .ok (sd, sa))
    (h' : sqCosPair B { o with filterLength := L' } ref est = .ok (sd', sa')) (m j) :
    sa m j ≤ sa' m j := by
  by_cases hl0 : L = 0
  · rw [sqCosPair_zero B (by exact hl0)] at h; cases h
  by_cases hl1' : L' = 1
  · have hl1 : L = 1 := by omega
    subst hl1 hl1'
    rw [h] at h'
    cases h'
    exact le_rfl
  cases hn : nFft N T with
  | error err =>
    rw [sqCosPair_gen B (by show 2 ≤ L'; omega)] at h'; unfold sqCosPairGen at h'
    rw [hn] at h'; cases h'
  | ok n =>
    have hn0 := nFft_ne hn
    have F' := fam_of_nFft (o := { o with filterLength := L' }) hn
    by_cases hLn : L' ≤ n
    · rw [sqCosPair_direct (o := { o with filterLength := L' }) hn rfl (by show 2 ≤ L'; omega)
        F' hLn hB hdir] at h'
      split at h'
      · cases h'
      rename_i hs'
      push Not at hs'
      have hs' := hs'.2 m
      cases h'
      by_cases hl1 : L = 1
      · by_cases hT : T = N
        case neg => rw [sqCosPair_ne B (by exact hl1) hT] at h; cases h
        subst hT
        simp only [sqCosPair_def] at h
        rw [if_neg (by exact hl0), if_pos (by exact hl1), cohSarOne_eq T le_rfl] at h
        by_cases hs : ∃ m : BIdx s, (gramD (oneFam T (prep { o with filterLength := L } ref m))
            ({ o with filterLength := L } : Opts).load).det = 0
        · rw [if_pos hs] at h; cases h
        rw [if_neg hs] at h
        cases h
        push Not at hs
        have hs := hs m
        have hq := quad_congr (v := oneFam T (prep o ref m))
          (v' := allFam (fun x i => cshift n x i) (min L' n) (prep o ref m) ∘
            fun k => ((⟨0, by show 0 < min L' n; omega⟩ : Fin (min L' n)), k))
          (y := shift T (prep o est m j) 0) (y' := cshift n (prep o est m j) 0) (d := o.load)
          (fun k l => (inner_shift_zero T le_rfl _ _).trans (cshift_inner_zero hn _ _).symm)
          (fun k => (inner_shift_zero T le_rfl _ _).trans (cshift_inner_zero hn _ _).symm)
        have := quad_mono (allFam (fun x i => cshift n x i) (min L' n) (prep o ref m))
          (cshift n (prep o est m j) 0) (fun k => ((⟨0, by show 0 < min L' n; omega⟩ : Fin (min L' n)), k))
          (fun a b hab => (Prod.mk.inj hab).2) hload hs' (by rw [← hq.1]; exact hs)
        exact hq.2.le.trans this
      · have F := fam_of_nFft (o := { o with filterLength := L }) hn
        rw [sqCosPair_direct (o := { o with filterLength := L }) hn rfl (by show 2 ≤ L; omega)
          F (by show L ≤ n; omega) hB hdir] at h
        split at h
        · cases h
        rename_i hs
        push Not at hs
        have hs := hs.2 m
        cases h
        exact quad_mono (allFam (fun x i => cshift n x i) (min L' n) (prep o ref m))
          (cshift n (prep o est m j) 0) (Prod.map (Fin.castLE (min_le_min_right n hle)) id)
          ((Fin.castLE_injective _).prodMap Function.injective_id) hload hs' hs
    · rw [sqCosPair_too_long (o := { o with filterLength := L' }) hl1' hn (by show n < L'; omega)] at h'
      cases h'

/-- **C09.**  The same for the SDR and the SAR of `bss_eval_sources` without permutation. -/
theorem C09_longer_filters_bss_eval (hB : Covered B) (hdir : o.useCgIter = none) (hsv : B.stackedVectors = true)
    (hload : 0 ≤ o.load) {L L' : ℕ} (hle : L ≤ L') {ref : Sig s c N} {est : Sig s c T} {out out'}
    (h : bssEvalNoPerm B { o with filterLength := L } ref est = .ok out)
    (h' : bssEvalNoPerm B { o with filterLength := L' } ref est = .ok out') (m k) :
    (L ≠ 1 ∨ o.load = 0 → toEReal (out.sdr m k) ≤ toEReal (out'.sdr m k)) ∧
    toEReal (out.sar m k) ≤ toEReal (out'.sar m k) := by
  unfold bssEvalNoPerm at h h'
  cases hp : sqCosPair B { o with filterLength := L } ref est with
  | error err =>
    obtain ⟨err', he⟩ := sqCosDiag_of_pair_error _ { o with filterLength := L } (Or.inr ⟨hdir, hsv⟩) hp
    rw [he] at h; cases h
  | ok p =>
    cases hp' : sqCosPair B { o with filterLength := L' } ref est with
    | error err =>
      obtain ⟨err', he⟩ := sqCosDiag_of_pair_error _ { o with filterLength := L' } (Or.inr ⟨hdir, hsv⟩) hp'
      rw [he] at h'; cases h'
    | ok p' =>
      rw [sqCosDiag_of_pair _ { o with filterLength := L } (Or.inr ⟨hdir, hsv⟩) hp] at h
      rw [sqCosDiag_of_pair _ { o with filterLength := L' } (Or.inr ⟨hdir, hsv⟩) hp'] at h'
      cases h; cases h'
      have hn : ∀ v, coherenceToNegSdr o.clampDb (fin v) ≠ nan := fun v h => by
        simpa using coherenceToNegSdr_eq_nan.1 h
      have hle' : ∀ {v w : ℝ}, v ≤ w → toEReal (coherenceToNegSdr o.clampDb (fin v)).neg ≤
          toEReal (coherenceToNegSdr o.clampDb (fin w)).neg := fun {v w} h => by
        rw [toEReal_neg (hn _), toEReal_neg (hn _)]
        exact EReal.neg_le_neg_iff.2 (coherenceToNegSdr_anti _ h)
      exact ⟨fun hone => hle' (sdrCohPair_mono hB hdir hload hle hone (sqCosPair_sdr _ _ hp)
        (sqCosPair_sdr _ _ hp') m k k), hle' (sqCosPair_mono hB hdir hload hle hp hp' m k)⟩

example : ∃ out out', bssEvalNoPerm torchBackend { Ex.opts with filterLength := 1 } Ex.ref Ex.est = .ok out ∧
    bssEvalNoPerm torchBackend { Ex.opts with filterLength := 2 } Ex.ref Ex.est = .ok out' ∧
    ∀ m k, toEReal (out.sdr m k) ≤ toEReal (out'.sdr m k) ∧ toEReal (out.sar m k) ≤ toEReal (out'.sar m k) := by
  obtain ⟨out, h⟩ := Ex.noPerm_one
  obtain ⟨out', h'⟩ := Ex.noPerm_two none
  refine ⟨out, out', h, h', fun m k => ?_⟩
  have := C09_longer_filters_bss_eval (o := Ex.opts) (L := 1) (L' := 2) Ex.covered rfl rfl le_rfl (by decide) h h' m k
  exact ⟨this.1 (Or.inr rfl), this.2⟩

/-! ### C10 -/

theorem shift_filtered (D : ℕ) {L : ℕ} {x y : Fin N → ℝ} (h : IsFiltered L x y) :
    shift D y 0 ∈ spanOne D L x := by
  obtain ⟨h, hh⟩ := h
  have : shift D y 0 = ∑ l : Fin L, h l • shift D x l := by
    ext t
    rw [shift_apply, if_pos (Nat.zero_le _), Nat.sub_zero, hh t]
    simp [shift_apply]
  rw [this]
  exact Submodule.sum_mem _ fun l _ => Submodule.smul_mem _ _ (Submodule.subset_span ⟨l, rfl⟩)

theorem docSdr_filtered {L : ℕ} {x : Fin r → Fin N → ℝ} {k : Fin r} {y : Fin N → ℝ} (hL : 1 ≤ L)
    (hy : Audible y) (h : IsFiltered L (x k) y) : docSdr L x k y = pinf := by
  have hp : (spanOne (N + L - 1) L (x k)).starProjection (shift (N + L - 1) y 0) = shift (N + L - 1) y 0 :=
    Submodule.starProjection_eq_self_iff.2 (shift_filtered _ h)
  have hE := (gain_sq_energy (D := N + L - 1) (by omega) hy).2
  unfold docSdr
  simp only [hp]
  unfold dbRatio
  rw [if_pos (by simp [energy]), if_neg hE.ne']

/-- **C10.**  Direct solver, no loading: an estimate that is reference `k` passed through any filter of
at most `filter_length` taps gets the SDR `+inf` (or `clamp_db`) for reference `k`. -/
theorem C10_filtered_reference (hB : Covered B) (hdir : o.direct) (hload : o.load = 0) (hcl : o.clampOk)
    (hL : 1 ≤ o.filterLength) (hfit : FilterFits N o.filterLength) {est : Sig s e N} {ref : Sig s r N} {M}
    (h : sdrLossPair B o est ref = .ok M) (m : BIdx s) (k : Fin r) (j : Fin e)
    (hest : Audible (centred o.zeroMean (est m j)))
    (href : o.filterLength = 1 → Normalisable (centred o.zeroMean (ref m k)))
    (hfilt : IsFiltered o.filterLength (centred o.zeroMean (ref m k)) (centred o.zeroMean (est m j))) :
    M m k j = (report o.clampDb pinf).neg := by
  rw [C01_sdr_loss_pairwise hB hdir hload hcl hfit h m k j hest href, docSdr_filtered hL hest hfilt]

/-- A signal with `L - 1` zero samples at the end: its convolution with `L` taps fits. -/
theorem C10_convolution {L : ℕ} (h : Fin L → ℝ) (x : Fin N → ℝ)
    (hx : ∀ t : Fin N, N < t.val + L → x t = 0) : IsFiltered L x (convolve h x) := by
  refine ⟨h, fun t => ?_⟩
  by_cases ht : t < N
  · have : zpad (convolve h x) t = convolve h x ⟨t, ht⟩ := by unfold zpad; rw [dif_pos ht]
    rw [this]
    rfl
  · have : zpad (convolve h x) t = 0 := by unfold zpad; rw [dif_neg ht]
    rw [this]
    symm
    refine Finset.sum_eq_zero fun l _ => ?_
    have hl := l.isLt
    split
    · rename_i hlt
      unfold zpad
      split
      · rename_i h2
        rw [hx ⟨t - l, h2⟩ (by show N < t - l + L; omega), mul_zero]
      · simp
    · simp

/-! ### C17: perfect separation -/

/-- A scaled signal is a filtered signal. -/
theorem isFiltered_scaled {L : ℕ} (hL : 1 ≤ L) (x : Fin N → ℝ) (a : ℝ) :
    IsFiltered L x (fun t => a * x t) := by
  refine ⟨fun l => if l.val = 0 then a else 0, fun t => ?_⟩
  rw [zpad_smul, Finset.sum_eq_single (⟨0, hL⟩ : Fin L)]
  · simp
  · intro l _ hl
    have : l.val ≠ 0 := fun h => hl (Fin.ext h)
    simp [this]
  · simp

/-- **C17.**  Without `clamp_db`, a perfect estimate (any filtered version) of a single source makes
`sdr` raise: `ValueError` with numpy, `RuntimeError` with torch. -/
theorem C17_perfect_single_source (hB : Covered B) (hdir : o.direct) (hload : o.load = 0)
    (hcl : o.clampDb = none) (hL : 1 ≤ o.filterLength) (hfit : FilterFits N o.filterLength)
    (ref est : Sig [] 1 N) (href : ∀ m, Audible (centred o.zeroMean (ref m 0)))
    (hest : ∀ m, Audible (centred o.zeroMean (est m 0)))
    (hfilt : ∀ m, IsFiltered o.filterLength (centred o.zeroMean (ref m 0)) (centred o.zeroMean (est m 0)))
    (rp cs : Bool) : sdr B o rp cs ref est = .error B.shapeErr := by
  have hN : 0 < N := by
    rcases Nat.eq_zero_or_pos N with rfl | h
    · have := href ()
      unfold Audible sigNorm at this
      simp at this
      norm_num at this
    · exact h
  obtain ⟨M, hM⟩ : ∃ M, sdrLossPair B o est ref = .ok M := by
    by_cases h1 : o.filterLength = 1
    · unfold sdrLossPair; simp only [sdrCohPair_def]
      rw [if_neg (by omega), if_pos h1]
      exact ⟨_, rfl⟩
    · unfold sdrLossPair
      rcases sdrCohPair_success hB (hdir.resolve_left h1) (by omega) hload hN hfit ref est with
        ⟨⟨coh, h⟩, -⟩ | ⟨-, m, k, h⟩
      · rw [h]; exact ⟨_, rfl⟩
      · exfalso
        have h0 : centred o.zeroMean (ref m 0) = 0 := by rwa [Subsingleton.elim k 0] at h
        have := href m
        rw [h0] at this
        unfold Audible sigNorm at this
        simp at this
        norm_num at this
  have hv : ∀ m k j, M m k j = ninf := by
    intro m k j
    rw [Subsingleton.elim k 0, Subsingleton.elim j 0]
    rw [C10_filtered_reference hB hdir hload (fun d h => by rw [hcl] at h; cases h) hL hfit hM m 0 0 (hest m)
      (fun _ => Or.inl (href m)) (hfilt m), hcl]
    rfl
  obtain ⟨m, -, hm⟩ := C20_unsolvable_raises hB rp cs hM ⟨(), fun h => by
    obtain ⟨i, j, x, hx⟩ := h.some_finite ⟨0, 0, Or.inr (hv _ _ _)⟩
    have hx' := (hv _ i j).symm.trans hx
    cases hx'⟩
  rw [hm, if_pos (Or.inr (hv m))]

/-- **C17.**  Without `clamp_db`, perfect estimates of two orthogonal sources make `si_sdr` raise
`ValueError` (the losses are `-inf` on and `+inf` off the diagonal). -/
theorem C17_perfect_orthogonal_sources (hB : Covered B) (ref : Sig [] 2 N)
    (ha : ∀ m k, Audible (ref m k)) (horth : ∀ m, ∑ t, ref m 0 t * ref m 1 t = 0) (rp cs : Bool) :
    siSdr B false none rp cs ref ref = .error .valueError := by
  have hM : sdrLossPair B (siOpts false none none) ref ref =
      .ok fun m k j => coherenceToNegSdr none (fin (dot (prep (siOpts false none none) ref m k)
        (prep (siOpts false none none) ref m j) ^ 2)) := by
    unfold sdrLossPair
    rw [sdrCohPair_def, if_neg (by simp [siOpts]), if_pos (by rfl)]
    rfl
  have hd : ∀ m k, dot (prep (siOpts false none none) ref m k) (prep (siOpts false none none) ref m k) = 1 := by
    intro m k
    rw [← prep_sq_eq (siOpts false none none) ref m k (by
      show 1e-6 ≤ sigNorm (centred false (ref m k)); simp only [centred]; exact ha m k)]
    exact Finset.sum_congr rfl fun t _ => (sq _).symm
  have ho : ∀ m, dot (prep (siOpts false none none) ref m 0) (prep (siOpts false none none) ref m 1) = 0 := by
    intro m
    rw [prep_eq, prep_eq]
    unfold dot
    have e : ∀ k, centred (siOpts false none none).zeroMean (ref m k) = ref m k := fun k => by
      show centred false _ = _; simp [centred]
    simp only [e]
    have : ∀ t, gain (ref m 0) * ref m 0 t * (gain (ref m 1) * ref m 1 t) =
      gain (ref m 0) * gain (ref m 1) * (ref m 0 t * ref m 1 t) := fun t => by ring
    simp only [this]
    rw [← Finset.mul_sum, horth, mul_zero]
  have v0 : ∀ m : BIdx [], coherenceToNegSdr none (fin (dot (prep (siOpts false none none) ref m 0)
        (prep (siOpts false none none) ref m 0) ^ 2)) = ninf := by
    intro m
    rw [hd, coherenceToNegSdr_fin, cclamp_none (by norm_num) (by norm_num)]
    simp [negDb]
  have v1 : ∀ m : BIdx [], coherenceToNegSdr none (fin (dot (prep (siOpts false none none) ref m 0)
        (prep (siOpts false none none) ref m 1) ^ 2)) = pinf := by
    intro m
    rw [ho, coherenceToNegSdr_fin, cclamp_none (by norm_num) (by norm_num)]
    simp [negDb]
  obtain ⟨m, -, hm⟩ := C20_unsolvable_raises hB rp cs hM ⟨(), fun h =>
    h.one_sign ⟨⟨0, 1, v1 _⟩, 0, 0, v0 _⟩⟩
  show sdr _ _ _ _ _ _ = _
  rw [hm, if_neg]
  rintro (h | h)
  · have := h 0 0; rw [v0] at this; cases this
  · have := h 0 1; rw [v1] at this; cases this

/-! ### The hypotheses are met -/

/-- `C09_longer_filters` with one tap against two. -/
example : ∃ M M', sdrLossPair torchBackend { Ex.opts with filterLength := 1 } Ex.est Ex.ref = .ok M ∧
    sdrLossPair torchBackend { Ex.opts with filterLength := 2 } Ex.est Ex.ref = .ok M' ∧
    ∀ m k j, toEReal (M' m k j) ≤ toEReal (M m k j) := by
  obtain ⟨M', h'⟩ := Ex.sdrLossPair_ok
  exact ⟨_, M', rfl, h', fun m k j => C09_longer_filters (o := Ex.opts) (L := 1) (L' := 2) Ex.covered rfl
    le_rfl (by decide)
    (Or.inr rfl) rfl h' m k j⟩

/-- A reference with a zero at the end and a two-tap filter: `C10_filtered_reference`, for an estimate
that is not proportional to the reference. -/
example : ∃ M, sdrLossPair torchBackend Ex.opts (fun _ _ => ![1, 3, 2] : Sig [] 1 3)
    (fun _ _ => ![1, 2, 0] : Sig [] 1 3) = .ok M ∧ ∀ m k j, M m k j = ninf := by
  have hc : ∀ x : Fin 3 → ℝ, centred Ex.opts.zeroMean x = x := fun x => by
    show centred false _ = _; simp [centred]
  rcases sdrCohPair_success Ex.covered (o := Ex.opts) rfl (by decide) Ex.load (by decide) Ex.fits
    (fun _ _ => ![1, 2, 0] : Sig [] 1 3) (fun _ _ => ![1, 3, 2] : Sig [] 1 3) with ⟨⟨coh, h⟩, -⟩ | ⟨-, m, k, h⟩
  · have hM : sdrLossPair torchBackend Ex.opts (fun _ _ => ![1, 3, 2] : Sig [] 1 3)
      (fun _ _ => ![1, 2, 0] : Sig [] 1 3) = .ok fun m k j => coherenceToNegSdr none (fin (coh m k j)) := by
      unfold sdrLossPair; rw [h]; rfl
    refine ⟨_, hM, fun m k j => ?_⟩
    refine C10_filtered_reference Ex.covered Ex.direct Ex.load Ex.clampOk (by decide) Ex.fits hM m k j ?_
      (fun h => by cases h) ?_
    · rw [hc]; exact Ex.audible _ 0 (by simp)
    · rw [hc, hc]
      have e : (![1, 3, 2] : Fin 3 → ℝ) = convolve (L := 2) ![1, 1] ![1, 2, 0] := by
        ext t
        fin_cases t <;> simp [convolve, zpad] <;> norm_num
      rw [e]
      exact C10_convolution _ _ fun t ht => by
        have h2 : Ex.opts.filterLength = 2 := rfl
        fin_cases t <;> simp_all
  · exfalso
    rw [Ex.cen_eq] at h
    have := congrFun h 0
    simp at this

/-- `C17_perfect_single_source`: one reference, the estimate is twice the reference. -/
example : sdr torchBackend Ex.opts true true (fun _ _ => ![1, 2, 0] : Sig [] 1 3)
    (fun _ _ t => 2 * (![1, 2, 0] : Fin 3 → ℝ) t : Sig [] 1 3) = .error .runtimeError := by
  have hc : ∀ x : Fin 3 → ℝ, centred Ex.opts.zeroMean x = x := fun x => by
    show centred false _ = _; simp [centred]
  refine C17_perfect_single_source Ex.covered Ex.direct Ex.load rfl (by decide) Ex.fits _ _ ?_ ?_ ?_ _ _
  · intro m; rw [hc]; exact Ex.audible _ 0 (by simp)
  · intro m; rw [hc]; exact Ex.audible _ 0 (by simp)
  · intro m; rw [hc, hc]; exact isFiltered_scaled (by decide) _ _

/-- `C17_perfect_orthogonal_sources`. -/
example : siSdr torchBackend false none true true Ex.ref Ex.ref = .error .valueError := by
  refine C17_perfect_orthogonal_sources Ex.covered _ (fun m k => ?_) (fun m => ?_) _ _
  · fin_cases k
    · exact Ex.audible _ 0 (by simp [Ex.ref])
    · exact Ex.audible _ 2 (by simp [Ex.ref])
  · simp [Fin.sum_univ_three, Ex.ref]

end FBE.Props
