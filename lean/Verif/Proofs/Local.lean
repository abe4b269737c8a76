import Verif.Proofs.Success

/-!
# Estimates are treated independently; `sdr` and `bss_eval_sources` use the same SDRs
-/

set_option linter.unusedSectionVars false

namespace FBE

open Spec XR Matrix

variable {s : List ℕ} {r e e' c N M : ℕ} {B : Backend} {o : Opts}

/-- The estimates of every batch item selected and reordered by `σ`. -/
def pick (σ : BIdx s → Fin e' → Fin e) (est : Sig s e M) : Sig s e' M := fun m j => est m (σ m j)

theorem prep_pick (σ : BIdx s → Fin e' → Fin e) (est : Sig s e M) (m : BIdx s) (j : Fin e') :
    prep o (pick σ est) m j = prep o est m (σ m j) := rfl

theorem sdrXcorr_pick (σ : BIdx s → Fin e' → Fin e) (n : ℕ) (ref : Sig s r N) (est : Sig s e M) :
    sdrXcorr o n ref (pick σ est) = fun m k j => sdrXcorr o n ref est m k (σ m j) := rfl

theorem sdrCohPair_pick (σ : BIdx s → Fin e' → Fin e) (ref : Sig s r N) (est : Sig s e M) :
    sdrCohPair B o ref (pick σ est) =
      (sdrCohPair B o ref est).map fun coh m k j => coh m k (σ m j) := by
  by_cases h0 : o.filterLength = 0
  · rw [sdrCohPair_zero B h0, sdrCohPair_zero B h0]; rfl
  by_cases h1 : o.filterLength = 1
  · by_cases hNM : M = N
    case neg => rw [sdrCohPair_ne B h1 hNM, sdrCohPair_ne B h1 hNM]; rfl
    subst hNM
    rw [sdrCohPair_def, sdrCohPair_def, if_neg h0, if_neg h0, if_pos h1, if_pos h1]; rfl
  rw [sdrCohPair_gen B (by omega), sdrCohPair_gen B (by omega)]; unfold sdrCohPairGen
  cases nFft N M with
  | error err => rfl
  | ok n =>
    simp only [sdrXcorr_pick]
    cases o.useCgIter with
    | some it => rfl
    | none =>
      simp only [solveStack]
      by_cases hs : ∃ i : BIdx s × Fin r,
          (toeplitz B (min o.filterLength n) (sdrAcf o n ref i.1 i.2)).det = 0
      · rw [if_pos hs, if_pos hs]; rfl
      · rw [if_neg hs, if_neg hs]; rfl

theorem cohSarOne_pick (σ : BIdx s → Fin e' → Fin e) (ref : Sig s r N) (est : Sig s e N) :
    cohSarOne o ref (pick σ est) = (cohSarOne o ref est).map fun sar m j => sar m (σ m j) := by
  rw [cohSarOne_eq N le_rfl, cohSarOne_eq N le_rfl]
  split <;> rfl

theorem cohSar_pick (σ : BIdx s → Fin e' → Fin e) (n K : ℕ) (ref : Sig s r N) (est : Sig s e M)
    (x0 : BIdx s → Fin e → Fin K × Fin r → ℝ) :
    cohSar B o n K ref (pick σ est) (fun m j => x0 m (σ m j)) =
      (cohSar B o n K ref est x0).map fun sar m j => sar m (σ m j) := by
  have hx : xcorrFlat o n K ref (pick σ est) = fun m j => xcorrFlat o n K ref est m (σ m j) := rfl
  unfold cohSar
  simp only [hx]
  cases o.useCgIter with
  | none =>
    simp only
    cases blockToeplitz B K (bssAcf o n ref) with
    | error err => rfl
    | ok R =>
      simp only [solveStack]
      by_cases hs : ∃ m, (R m).det = 0
      · rw [if_pos hs, if_pos hs]; rfl
      · rw [if_neg hs, if_neg hs]; rfl
  | some it =>
    simp only [blockCg]
    by_cases hs : ∃ i, ∃ k ≤ K / 2, (blockPrecondSpec B (bssAcf o n ref i) k).det = 0
    · rw [if_pos hs, if_pos hs]; rfl
    · rw [if_neg hs, if_neg hs]; rfl

theorem sqCosPair_pick (σ : BIdx s → Fin e' → Fin e) (ref : Sig s r N) (est : Sig s e M) :
    sqCosPair B o ref (pick σ est) =
      (sqCosPair B o ref est).map fun p => (fun m k j => p.1 m k (σ m j), fun m j => p.2 m (σ m j)) := by
  by_cases h0 : o.filterLength = 0
  · rw [sqCosPair_zero B h0, sqCosPair_zero B h0]; rfl
  by_cases h1 : o.filterLength = 1
  · by_cases hNM : M = N
    case neg => rw [sqCosPair_ne B h1 hNM, sqCosPair_ne B h1 hNM]; rfl
    subst hNM
    rw [sqCosPair_def, sqCosPair_def, if_neg h0, if_neg h0, if_pos h1, if_pos h1, cohSarOne_pick]
    cases cohSarOne o ref est <;> rfl
  rw [sqCosPair_gen B (by omega), sqCosPair_gen B (by omega)]; unfold sqCosPairGen
  cases nFft N M with
  | error err => rfl
  | ok n =>
    simp only [sdrXcorr_pick]
    by_cases hK : min o.filterLength (min o.filterLength n + min o.filterLength n) ≠ min o.filterLength n
    · rw [if_pos hK, if_pos hK]; rfl
    rw [if_neg hK, if_neg hK]
    cases o.useCgIter with
    | some it =>
      simp only
      rw [cohSar_pick σ n (min o.filterLength n) ref est (fun m j p =>
        toeplitzCg B (min o.filterLength n) (bssAcfSdr o n ref m p.2)
          (vec (min o.filterLength n) (sdrXcorr o n ref est m p.2 j)) it p.1)]
      cases cohSar B o n (min o.filterLength n) ref est _ <;> rfl
    | none =>
      simp only [solveStack]
      by_cases hs : ∃ i : BIdx s × Fin r,
          (toeplitz B (min o.filterLength n) (bssAcfSdr o n ref i.1 i.2)).det = 0
      · rw [if_pos hs, if_pos hs]; rfl
      · rw [if_neg hs, if_neg hs]
        simp only
        rw [cohSar_pick σ n (min o.filterLength n) ref est (fun m j p =>
          ((toeplitz B (min o.filterLength n) (bssAcfSdr o n ref m p.2))⁻¹ *ᵥ
            (vec (min o.filterLength n) (sdrXcorr o n ref est m p.2 j))) p.1)]
        cases cohSar B o n (min o.filterLength n) ref est _ <;> rfl

/-- `sdr_loss` uses the same coherences as `bss_eval_sources`. -/
theorem sqCosPair_sdr (ref : Sig s r N) (est : Sig s e M) {sd sa}
    (h : sqCosPair B o ref est = .ok (sd, sa)) : sdrCohPair B o ref est = .ok sd := by
  by_cases h0 : o.filterLength = 0
  · rw [sqCosPair_zero B h0] at h; cases h
  by_cases h1 : o.filterLength = 1
  · by_cases hNM : M = N
    case neg => rw [sqCosPair_ne B h1 hNM] at h; cases h
    subst hNM
    rw [sqCosPair_def] at h
    rw [sdrCohPair_def]
    rw [if_neg h0, if_pos h1] at h ⊢
    cases hs : cohSarOne o ref est with
    | error err => rw [hs] at h; cases h
    | ok sar => rw [hs] at h; cases h; rfl
  cases hn : nFft N M with
  | error err => rw [sqCosPair_gen B (by omega)] at h; unfold sqCosPairGen at h; rw [hn] at h; cases h
  | ok n =>
    by_cases hLn : o.filterLength ≤ n
    · have F := fam_of_nFft (o := o) hn
      have hu := sdrCohPair_unfold (o := o) hn rfl (by omega) B ref est
      rw [sqCosPair_unfold hn rfl (by omega) hLn] at h
      rw [hu]
      simp only [bssAcfSdr_eq_sdrAcf F rfl (by omega) hLn] at h
      cases hcg : o.useCgIter with
      | some it =>
        rw [hcg] at h
        simp only at h ⊢
        split at h
        · cases h
        · cases h; rfl
      | none =>
        rw [hcg] at h
        simp only [solveStack] at h ⊢
        by_cases hs : ∃ i : BIdx s × Fin r,
          (toeplitz B (min o.filterLength n) (sdrAcf o n ref i.1 i.2)).det = 0
        · rw [if_pos hs] at h; cases h
        · rw [if_neg hs] at h ⊢
          simp only at h
          split at h
          · cases h
          · cases h; rfl
    · rw [sqCosPair_too_long h1 hn (by omega)] at h
      cases h

end FBE
