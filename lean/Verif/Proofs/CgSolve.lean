import Verif.Proofs.Precond
import Verif.Proofs.Norm
import Verif.Proofs.Local

/-!
# The iterative solves of the code
-/

set_option linter.unusedSectionVars false

namespace FBE

open Spec Matrix

variable {s : List ℕ} {r e c N n : ℕ} {B : Backend} {o : Opts} {J : Type} [Fintype J] [DecidableEq J]

theorem pcgQuiet_of_cgQuiet {A M : (J → ℝ) →ₗ[ℝ] (J → ℝ)} {b x0 : J → ℝ} {n : ℕ} (h : CgQuiet A M b x0 n) :
    PcgQuiet 1e-6 A M b x0 n := by
  have key : ∀ k ≤ n, PcgQuiet 1e-6 A M b x0 k := by
    intro k
    induction k with
    | zero => intro _ i hi; omega
    | succ k ih =>
      intro hk i hi
      have hq := ih (by omega)
      by_cases hik : i < k
      · exact hq i hik
      · have : i = k := by omega
        subst this
        have hrun := cgRun_eq_pcg hq i le_rfl
        have := h i (by omega)
        rw [hrun] at this
        exact this
  exact key n le_rfl

/-- The loop is the textbook iteration. -/
theorem cg_eq_pcg {A M : (J → ℝ) →ₗ[ℝ] (J → ℝ)} {b x0 : J → ℝ} {n : ℕ} (h : CgQuiet A M b x0 n) :
    conjugateGradient A M b x0 n = (pcg A M b x0 n).x := by
  unfold conjugateGradient
  rw [cgRun_eq_pcg (pcgQuiet_of_cgQuiet h) n le_rfl]

theorem cg_exact {A M : (J → ℝ) →ₗ[ℝ] (J → ℝ)} (hA : Spd A) (hM : Spd M) {b x0 : J → ℝ} {n : ℕ}
    (h : CgQuiet A M b x0 n) (hn : Fintype.card J ≤ n) : A (conjugateGradient A M b x0 n) = b := by
  have h1 := pcg_terminates hA hM (b := b) (x0 := x0) hn
  rw [pcg_residual, sub_eq_zero] at h1
  rw [cg_eq_pcg h, ← h1]

theorem gramD_posDef {D : ℕ} {v : J → Space D} {d : ℝ} (hd : 0 ≤ d) (h : (gramD v d).det ≠ 0) :
    (gramD v d).PosDef := (gramD_posSemidef v hd).posDef_iff_det_ne_zero.2 h

theorem symToeplitzOp_coe (hB : Covered B) {col : List ℝ} (hc : col.length = n) (hn : 0 < n) :
    symToeplitzOp B n col = (toeplitz B n col).mulVecLin := by
  funext v
  exact symToeplitzOp_eq hB hc hn v

theorem blockToeplitzOp_coe (hB : Covered B) (hn : 2 ≤ n) {acf : Fin c → Fin c → List ℝ}
    (hc : ∀ k l, (acf k l).length = n + n) : blockToeplitzOp B n acf = (lagMatrix n acf).mulVecLin := by
  funext v
  exact blockToeplitzOp_eq hB hn hc v

/-! ### one system -/

section one

variable {col : List ℝ} (hB : Covered B) (hc : col.length = n) (hn : 0 < n) (hT : (toeplitz B n col).PosDef)
include hB hc hn hT

theorem toeplitzCg_exact {b : Fin n → ℝ} {it : ℕ} (hit : n ≤ it)
    (hq : CgQuiet (symToeplitzOp B n col) (circPrecond B n col) b (fun _ => 0) it) :
    toeplitzCg B n col b it = (toeplitz B n col)⁻¹ *ᵥ b := by
  unfold toeplitzCg
  rw [symToeplitzOp_coe hB hc hn, circPrecond_coe hB] at hq ⊢
  refine inv_unique ((isUnit_iff_isUnit_det _).1 hT.isUnit).ne_zero ?_
  exact cg_exact (mulVec_spd hT) (circPrecond_spd hB hc hn hT) hq (by simpa using hit)

theorem toeplitzCg_mono {b : Fin n → ℝ} {it it' : ℕ} (hit : it ≤ it')
    (hq : CgQuiet (symToeplitzOp B n col) (circPrecond B n col) b (fun _ => 0) it') :
    b ⬝ᵥ toeplitzCg B n col b it ≤ b ⬝ᵥ toeplitzCg B n col b it' := by
  have hq1 : CgQuiet (symToeplitzOp B n col) (circPrecond B n col) b (fun _ => 0) it :=
    fun i hi => hq i (by omega)
  unfold toeplitzCg
  rw [symToeplitzOp_coe hB hc hn, circPrecond_coe hB] at hq hq1 ⊢
  rw [cg_eq_pcg hq, cg_eq_pcg hq1]
  exact pcg_mono (mulVec_spd hT) (circPrecond_spd hB hc hn hT) hit

theorem toeplitzCg_le {b : Fin n → ℝ} {it : ℕ}
    (hq : CgQuiet (symToeplitzOp B n col) (circPrecond B n col) b (fun _ => 0) it) :
    b ⬝ᵥ toeplitzCg B n col b it ≤ b ⬝ᵥ ((toeplitz B n col)⁻¹ *ᵥ b) := by
  unfold toeplitzCg
  rw [symToeplitzOp_coe hB hc hn, circPrecond_coe hB] at hq ⊢
  rw [cg_eq_pcg hq]
  exact pcg_le (mulVec_spd hT) (circPrecond_spd hB hc hn hT)
    (mulVec_inv ((isUnit_iff_isUnit_det _).1 hT.isUnit).ne_zero b) it

end one

theorem blockCg_exact (hB : Covered B) (hn : 2 ≤ n) {ι κ : Type} {acf : ι → Fin c → Fin c → List ℝ}
    (hc : ∀ i k l, (acf i k l).length = n + n) (hT : ∀ i, (lagMatrix n (acf i)).PosDef)
    {b x0 : ι → κ → Fin n × Fin c → ℝ} {it : ℕ} (hit : n * c ≤ it)
    (hq : ∀ i k, CgQuiet (blockToeplitzOp B n (acf i)) (blockPrecond B n (acf i)) (b i k) (x0 i k) it) :
    blockCg B n acf b x0 it = .ok fun i k => (lagMatrix n (acf i))⁻¹ *ᵥ b i k := by
  unfold blockCg
  rw [if_neg]
  · congr 1
    funext i k
    have hq := hq i k
    rw [blockToeplitzOp_coe hB hn (hc i), blockPrecond_eq hB hn (hc i)] at hq ⊢
    refine inv_unique ((isUnit_iff_isUnit_det _).1 (hT i).isUnit).ne_zero ?_
    exact cg_exact (mulVec_spd (hT i)) (blockPrecond_spd hB hn (hc i) (hT i)) hq (by simpa using hit)
  · rintro ⟨i, k, hk, h0⟩
    exact blockPrecondSpec_det hB hn (hc i) (hT i) hk h0

/-! ### the coherences -/

section coh

variable (hB : Covered B) (hload : 0 ≤ o.load) {ref : Sig s r N} {est : Sig s e N}
include hB hload

/-- What a returned direct solve says about the systems. -/
theorem systems_posDef (hL : 2 ≤ o.filterLength) (hn : nFft N = .ok n) {coh}
    (h : sdrCohPair B { o with useCgIter := none } ref est = .ok coh) (m : BIdx s) (k : Fin r) :
    (toeplitz B (min o.filterLength n) (sdrAcf o n ref m k)).PosDef ∧
    ∀ j, coh m k j = vec (min o.filterLength n) (sdrXcorr o n ref est m k j) ⬝ᵥ
      ((toeplitz B (min o.filterLength n) (sdrAcf o n ref m k))⁻¹ *ᵥ
        vec (min o.filterLength n) (sdrXcorr o n ref est m k j)) := by
  have F := fam_of_nFft (o := o) hn
  rw [sdrCohPair_unfold (o := { o with useCgIter := none }) hn rfl hL] at h
  simp only [solveStack] at h
  split at h
  · cases h
  · rename_i sol hs
    split at hs
    · cases hs
    · rename_i hns
      cases hs
      cases h
      refine ⟨?_, fun j => rfl⟩
      have hd : (toeplitz B (min o.filterLength n) (sdrAcf o n ref m k)).det ≠ 0 := fun h0 => hns ⟨(m, k), h0⟩
      rw [toeplitz_sdrAcf F rfl (by omega) hB] at hd ⊢
      exact gramD_posDef hload hd

omit hB hload in
theorem nFft_of_coh {o : Opts} {coh} (hL : 2 ≤ o.filterLength) (h : sdrCohPair B o ref est = .ok coh) :
    ∃ n, nFft N = .ok n := by
  cases hn : nFft N with
  | ok n => exact ⟨n, rfl⟩
  | error err =>
    simp only [sdrCohPair_def] at h; unfold sdrCohPairGen at h
    rw [if_neg (by omega), if_neg (by omega), hn] at h
    cases h

omit hB hload in
theorem sdrCohPair_cg (hL : 2 ≤ o.filterLength) (hn : nFft N = .ok n) (it : ℕ) :
    sdrCohPair B { o with useCgIter := some it } ref est = .ok fun m k j =>
      vec (min o.filterLength n) (sdrXcorr o n ref est m k j) ⬝ᵥ
        toeplitzCg B (min o.filterLength n) (sdrAcf o n ref m k)
          (vec (min o.filterLength n) (sdrXcorr o n ref est m k j)) it := by
  rw [sdrCohPair_unfold (o := { o with useCgIter := some it }) hn rfl hL]
  rfl

/-- Enough iterations: the direct solution. -/
theorem sdrCohPair_converges {coh} (h : sdrCohPair B { o with useCgIter := none } ref est = .ok coh)
    {it : ℕ} (hit : o.filterLength ≤ it) (hq : SdrQuiet B o ref est it) :
    sdrCohPair B { o with useCgIter := some it } ref est = .ok coh := by
  by_cases hL : 2 ≤ o.filterLength
  · obtain ⟨n, hn⟩ := nFft_of_coh (o := { o with useCgIter := none }) hL h
    have F := fam_of_nFft (o := o) hn
    have hn0 := F.n_ne
    rw [sdrCohPair_cg hL hn]
    congr 1
    funext m k j
    obtain ⟨hpd, hval⟩ := systems_posDef hB hload hL hn h m k
    rw [hval j, toeplitzCg_exact hB (length_sdrAcf F rfl (by omega) ref m k) (by omega) hpd (by omega)
      (hq n hn m k j)]
  · rw [← h]
    simp only [sdrCohPair_def]
    by_cases h0 : o.filterLength = 0
    · rw [if_pos (by exact h0), if_pos (by exact h0)]
    · simp only [if_neg h0, if_pos (show o.filterLength = 1 by omega)]
      rfl

/-- Never above the direct solution. -/
theorem sdrCohPair_cg_le {coh coh'} (h : sdrCohPair B { o with useCgIter := none } ref est = .ok coh)
    {it : ℕ} (h' : sdrCohPair B { o with useCgIter := some it } ref est = .ok coh')
    (hq : SdrQuiet B o ref est it) (m k j) : coh' m k j ≤ coh m k j := by
  by_cases hL : 2 ≤ o.filterLength
  · obtain ⟨n, hn⟩ := nFft_of_coh (o := { o with useCgIter := none }) hL h
    have F := fam_of_nFft (o := o) hn
    have hn0 := F.n_ne
    rw [sdrCohPair_cg hL hn] at h'
    cases h'
    obtain ⟨hpd, hval⟩ := systems_posDef hB hload hL hn h m k
    rw [hval j]
    exact toeplitzCg_le hB (length_sdrAcf F rfl (by omega) ref m k) (by omega) hpd (hq n hn m k j)
  · have : coh' = coh := by
      simp only [sdrCohPair_def] at h h'
      by_cases h0 : o.filterLength = 0
      · rw [if_pos (by exact h0)] at h; cases h
      · rw [if_neg (by exact h0), if_pos (by show o.filterLength = 1; omega)] at h h'
        cases h; cases h'; rfl
    rw [this]

/-- More iterations: not lower. -/
theorem sdrCohPair_cg_mono {coh coh1 coh2} (h : sdrCohPair B { o with useCgIter := none } ref est = .ok coh)
    {it it' : ℕ} (hit : it ≤ it') (h1 : sdrCohPair B { o with useCgIter := some it } ref est = .ok coh1)
    (h2 : sdrCohPair B { o with useCgIter := some it' } ref est = .ok coh2)
    (hq : SdrQuiet B o ref est it') (m k j) : coh1 m k j ≤ coh2 m k j := by
  by_cases hL : 2 ≤ o.filterLength
  · obtain ⟨n, hn⟩ := nFft_of_coh (o := { o with useCgIter := none }) hL h
    have F := fam_of_nFft (o := o) hn
    have hn0 := F.n_ne
    rw [sdrCohPair_cg hL hn] at h1 h2
    cases h1
    cases h2
    exact toeplitzCg_mono hB (length_sdrAcf F rfl (by omega) ref m k) (by omega)
      (systems_posDef hB hload hL hn h m k).1 hit (hq n hn m k j)
  · have : coh1 = coh2 := by
      simp only [sdrCohPair_def] at h1 h2
      by_cases h0 : o.filterLength = 0
      · rw [if_pos (by exact h0)] at h1; cases h1
      · rw [if_neg (by exact h0), if_pos (by show o.filterLength = 1; omega)] at h1 h2
        cases h1; cases h2; rfl
    rw [this]

/-- The system of all references. -/
theorem lagMatrix_bssAcf (hL : 2 ≤ o.filterLength) (hn : nFft N = .ok n) (hLn : o.filterLength ≤ n) (ref : Sig s r N)
    (m : BIdx s) : lagMatrix (min o.filterLength n) (bssAcf o n ref m) =
      gramD (allFam (fun x i => cshift n x i) (min o.filterLength n) (prep o ref m)) o.load := by
  have F := fam_of_nFft (o := o) hn
  have h1 := blockToeplitz_bssAcf (B := torchBackend) F rfl hL hLn ref
  rw [blockToeplitz_ok (by omega) _ (fun m k l => by rw [length_bssAcf F rfl (by omega)]; omega)] at h1
  have h2 := congrFun (Except.ok.inj h1) m
  exact h2

/-- Enough iterations: the direct solution, for all three coherences. -/
theorem sqCosPair_converges {p} (h : sqCosPair B { o with useCgIter := none } ref est = .ok p)
    {it : ℕ} (hit : o.filterLength * max 1 r ≤ it) (hq : SdrQuiet B o ref est it)
    (hq' : SarQuiet B o ref est (fun f m j p => toeplitzCg B (min o.filterLength f) (sdrAcf o f ref m p.2)
      (vec (min o.filterLength f) (sdrXcorr o f ref est m p.2 j)) it p.1) it) :
    sqCosPair B { o with useCgIter := some it } ref est = .ok p := by
  by_cases hL : 2 ≤ o.filterLength
  swap
  · rw [← h]
    simp only [sqCosPair_def]
    by_cases h0 : o.filterLength = 0
    · rw [if_pos (by exact h0), if_pos (by exact h0)]
    · simp only [if_neg h0, if_pos (show o.filterLength = 1 by omega)]
      rfl
  have hit1 : o.filterLength ≤ it := le_trans (Nat.le_mul_of_pos_right _ (by omega)) hit
  have hit2 : o.filterLength * r ≤ it := le_trans (Nat.mul_le_mul_left _ (le_max_right _ _)) hit
  obtain ⟨sd, sa⟩ := p
  have hsd := sqCosPair_sdr _ _ h
  obtain ⟨n, hn⟩ := nFft_of_coh (o := { o with useCgIter := none }) hL hsd
  have F := fam_of_nFft (o := o) hn
  have hn0 := F.n_ne
  by_cases hLn : o.filterLength ≤ n
  swap
  · rw [sqCosPair_too_long (o := { o with useCgIter := none }) (by show o.filterLength ≠ 1; omega) hn
      (by show n < o.filterLength; omega)] at h
    cases h
  have hcoh := sdrCohPair_converges hB hload hsd hit1 hq
  rw [sdrCohPair_cg hL hn] at hcoh
  rw [sqCosPair_direct (o := { o with useCgIter := none }) hn rfl hL F hLn hB rfl] at h
  split at h
  · cases h
  rename_i hns
  push Not at hns
  rw [sqCosPair_unfold (o := { o with useCgIter := some it }) hn rfl hL hLn]
  have e1 : ∀ m k, bssAcfSdr { o with useCgIter := some it } n ref m k = sdrAcf o n ref m k := fun m k =>
    bssAcfSdr_eq_sdrAcf (o := o) F rfl (by omega) hLn ref m k
  simp only [e1]
  have hsar : cohSar B { o with useCgIter := some it } n (min o.filterLength n) ref est
      (fun m j p => toeplitzCg B (min o.filterLength n) (sdrAcf o n ref m p.2)
        (vec (min o.filterLength n) (sdrXcorr o n ref est m p.2 j)) it p.1) = .ok sa := by
    have hT : ∀ m, (lagMatrix (min o.filterLength n) (bssAcf o n ref m)).PosDef := fun m => by
      rw [lagMatrix_bssAcf hB hload hL hn hLn]
      exact gramD_posDef hload (hns.2 m)
    have hb := blockCg_exact hB (n := min o.filterLength n) (by omega) (acf := bssAcf o n ref)
      (fun m k l => length_bssAcf F rfl (by omega) ref m k l) hT
      (b := xcorrFlat o n (min o.filterLength n) ref est)
      (le_trans (Nat.mul_le_mul_right _ (min_le_left _ _)) hit2) (fun m j => hq' n hn m j)
    unfold cohSar
    simp only
    have hb' := hb
    rw [show blockCg B (min o.filterLength n) (bssAcf { o with useCgIter := some it } n ref)
      (xcorrFlat { o with useCgIter := some it } n (min o.filterLength n) ref est) _ it = _ from hb']
    simp only
    rw [← (Prod.mk.inj (Except.ok.inj h)).2]
    congr 1
    funext m j
    rw [lagMatrix_bssAcf hB hload hL hn hLn]
    have := xcorrFlat_eq F rfl hL ref est m j
    show xcorrFlat o n (min o.filterLength n) ref est m j ⬝ᵥ _ = _
    rw [this]
    rfl
  have hsar' := hsar
  rw [show cohSar B { o with useCgIter := some it } n (min o.filterLength n) ref est
      (fun m j p => toeplitzCg B (min o.filterLength n) (sdrAcf o n ref m p.2)
        (vec (min o.filterLength n) (sdrXcorr { o with useCgIter := some it } n ref est m p.2 j)) it p.1) = _ from hsar']
  simp only
  congr 2
  exact Except.ok.inj hcoh

/-- The same for the aligned call, whose iteration for the SAR starts at zero. -/
theorem sqCosDiag_converges {ref est : Sig s c N} {p} (hsv : B.stackedVectors = true)
    (h : sqCosDiag B { o with useCgIter := none } ref est = .ok p)
    {it : ℕ} (hit : o.filterLength * max 1 c ≤ it) (hq : SdrQuiet B o ref est it)
    (hq' : SarQuiet B o ref est (fun _ _ _ _ => 0) it) :
    sqCosDiag B { o with useCgIter := some it } ref est = .ok p := by
  by_cases hL : 2 ≤ o.filterLength
  swap
  · rw [← h]
    simp only [sqCosDiag_def]
    by_cases h0 : o.filterLength = 0
    · rw [if_pos (by exact h0), if_pos (by exact h0)]
    · simp only [if_neg h0, if_pos (show o.filterLength = 1 by omega)]
      rfl
  rw [sqCosDiag_eq B { o with useCgIter := none } (Or.inr ⟨rfl, hsv⟩)] at h
  cases hpair : sqCosPair B { o with useCgIter := none } ref est with
  | error err => rw [hpair] at h; cases h
  | ok q =>
  rw [hpair] at h
  have hit1 : o.filterLength ≤ it := le_trans (Nat.le_mul_of_pos_right _ (by omega)) hit
  have hit2 : o.filterLength * c ≤ it := le_trans (Nat.mul_le_mul_left _ (le_max_right _ _)) hit
  obtain ⟨sd, sa⟩ := q
  have hsd := sqCosPair_sdr _ _ hpair
  obtain ⟨n, hn⟩ := nFft_of_coh (o := { o with useCgIter := none }) hL hsd
  have F := fam_of_nFft (o := o) hn
  have hn0 := F.n_ne
  by_cases hLn : o.filterLength ≤ n
  swap
  · rw [sqCosPair_too_long (o := { o with useCgIter := none }) (by show o.filterLength ≠ 1; omega) hn
      (by show n < o.filterLength; omega)] at hpair
    cases hpair
  have hcoh := sdrCohPair_converges hB hload hsd hit1 hq
  rw [sdrCohPair_cg hL hn] at hcoh
  rw [sqCosPair_direct (o := { o with useCgIter := none }) hn rfl hL F hLn hB rfl] at hpair
  split at hpair
  · cases hpair
  rename_i hns
  push Not at hns
  rw [sqCosDiag_unfold (o := { o with useCgIter := some it }) hn rfl hL hLn]
  have e1 : ∀ m k, bssAcfSdr { o with useCgIter := some it } n ref m k = sdrAcf o n ref m k := fun m k =>
    bssAcfSdr_eq_sdrAcf (o := o) F rfl (by omega) hLn ref m k
  simp only [e1]
  have hsar : cohSar B { o with useCgIter := some it } n (min o.filterLength n) ref est
      (fun _ _ _ => 0) = .ok sa := by
    have hT : ∀ m, (lagMatrix (min o.filterLength n) (bssAcf o n ref m)).PosDef := fun m => by
      rw [lagMatrix_bssAcf hB hload hL hn hLn]
      exact gramD_posDef hload (hns.2 m)
    have hb := blockCg_exact hB (n := min o.filterLength n) (by omega) (acf := bssAcf o n ref)
      (fun m k l => length_bssAcf F rfl (by omega) ref m k l) hT
      (b := xcorrFlat o n (min o.filterLength n) ref est)
      (le_trans (Nat.mul_le_mul_right _ (min_le_left _ _)) hit2) (fun m j => hq' n hn m j)
    unfold cohSar
    simp only
    rw [show blockCg B (min o.filterLength n) (bssAcf { o with useCgIter := some it } n ref)
      (xcorrFlat { o with useCgIter := some it } n (min o.filterLength n) ref est) _ it = _ from hb]
    simp only
    rw [← (Prod.mk.inj (Except.ok.inj hpair)).2]
    congr 1
    funext m j
    rw [lagMatrix_bssAcf hB hload hL hn hLn]
    have := xcorrFlat_eq F rfl hL ref est m j
    show xcorrFlat o n (min o.filterLength n) ref est m j ⬝ᵥ _ = _
    rw [this]
    rfl
  rw [hsar]
  cases h
  simp only
  congr 2
  funext m k
  exact congrFun (congrFun (congrFun (Except.ok.inj hcoh) m) k) k

end coh

end FBE
