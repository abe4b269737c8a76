import Verif.Proofs.Reorder
import Verif.Proofs.CgOps

/-!
# The two packages compute the same coherences
-/

set_option linter.unusedSectionVars false

namespace FBE

open Spec XR Matrix

variable {s : List ℕ} {r e c N M : ℕ} {B B' : Backend} (hB : Covered B) (hB' : Covered B') {o : Opts}

include hB hB'

theorem toeplitz_backend (K : ℕ) (x : List ℝ) : toeplitz B K x = toeplitz B' K x := by
  unfold toeplitz
  rw [hB.revTail, hB'.revTail]

theorem specInv_backend : B.specInv = B'.specInv := by
  funext z
  rw [hB.specInv, hB'.specInv]

theorem toeplitzCg_backend (K : ℕ) (x : List ℝ) (b : Fin K → ℝ) (it : ℕ) :
    toeplitzCg B K x b it = toeplitzCg B' K x b it := by
  have h1 : circPrecond B K x = circPrecond B' K x := by
    funext v
    unfold circPrecond
    rw [specInv_backend hB hB']
  have h2 : symToeplitzOp B K x = symToeplitzOp B' K x := by
    funext v
    unfold symToeplitzOp symCircCol
    rw [hB.revTail, hB'.revTail]
  unfold toeplitzCg
  rw [h1, h2]

theorem blockCg_backend {ι κ : Type} {K : ℕ} (hK : 2 ≤ K) {acf : ι → Fin c → Fin c → List ℝ}
    (ha : ∀ i k l, (acf i k l).length = K + K) (b x0 : ι → κ → Fin K × Fin c → ℝ) (it : ℕ) :
    blockCg B K acf b x0 it = blockCg B' K acf b x0 it := by
  have h1 : ∀ i, blockPrecondSpec B (acf i) = blockPrecondSpec B' (acf i) := by
    intro i
    funext f k l
    unfold blockPrecondSpec nonsymPrecondCol
    have hl : ((acf i k l).length + 1) / 2 = K := by rw [ha]; omega
    simp only [hl]
    rw [hB.revMid K (by omega), hB'.revMid K (by omega), hB.revLast K hK, hB'.revLast K hK]
  have h2 : ∀ i, blockPrecond B K (acf i) = blockPrecond B' K (acf i) := by
    intro i
    funext v p
    unfold blockPrecond
    rw [h1]
  have h3 : ∀ i, blockToeplitzOp B K (acf i) = blockToeplitzOp B' K (acf i) := by
    intro i
    funext v p
    unfold blockToeplitzOp blockCircCol
    simp only [hB.revMid K (by omega), hB'.revMid K (by omega), hB.revLast K hK, hB'.revLast K hK]
  unfold blockCg
  by_cases hs : ∃ i, ∃ k ≤ K / 2, (blockPrecondSpec B (acf i) k).det = 0
  · rw [if_pos hs, if_pos (by simpa only [h1] using hs)]
  · rw [if_neg hs, if_neg (by simpa only [h1] using hs)]
    simp only [h2, h3]

theorem cohSar_backend {n K : ℕ} (hn : nFft N M = .ok n) (hK : min o.filterLength n = K) (hL : 2 ≤ o.filterLength)
    (hLn : o.filterLength ≤ n) (ref : Sig s r N) (est : Sig s e M) (x0 : BIdx s → Fin e → Fin K × Fin r → ℝ) :
    cohSar B o n K ref est x0 = cohSar B' o n K ref est x0 := by
  have F := fam_of_nFft (o := o) hn
  rw [hK] at F
  unfold cohSar
  cases o.useCgIter with
  | none => rw [blockToeplitz_bssAcf F hK hL hLn, blockToeplitz_bssAcf F hK hL hLn]
  | some it =>
    simp only
    rw [blockCg_backend hB hB' (by omega) (fun i k l => length_bssAcf F hK (by omega) ref i k l)]

theorem sdrCohPair_backend (ref : Sig s r N) (est : Sig s e M) (q) :
    sdrCohPair B o ref est = .ok q ↔ sdrCohPair B' o ref est = .ok q := by
  by_cases h0 : o.filterLength = 0
  · rw [sdrCohPair_zero B h0, sdrCohPair_zero B' h0]
  by_cases h1 : o.filterLength = 1
  · by_cases hNM : M = N
    case neg =>
      rw [sdrCohPair_ne B h1 hNM, sdrCohPair_ne B' h1 hNM]
      exact ⟨(nomatch ·), (nomatch ·)⟩
    subst hNM
    rw [sdrCohPair_def, sdrCohPair_def, if_neg h0, if_neg h0, if_pos h1, if_pos h1]
  rw [sdrCohPair_gen B (by omega), sdrCohPair_gen B' (by omega)]; unfold sdrCohPairGen
  simp only [toeplitz_backend hB hB', toeplitzCg_backend hB hB']

theorem solveVecs_backend (hsv : B.stackedVectors = B'.stackedVectors) {ι : Type} {n : ℕ}
    (A : ι → Matrix (Fin n) (Fin n) ℝ) (b : ι → Fin n → ℝ) : solveVecs B c A b = solveVecs B' c A b := by
  unfold solveVecs
  rw [hsv]

theorem sdrCohDiag_backend (h : o.filterLength = 1 ∨ o.useCgIter ≠ none ∨ B.stackedVectors = B'.stackedVectors)
    (ref : Sig s c N) (est : Sig s c M) (q) : sdrCohDiag B o ref est = .ok q ↔ sdrCohDiag B' o ref est = .ok q := by
  by_cases h0 : o.filterLength = 0
  · rw [sdrCohDiag_zero B h0, sdrCohDiag_zero B' h0]
  by_cases h1 : o.filterLength = 1
  · by_cases hNM : M = N
    case neg =>
      rw [sdrCohDiag_ne B h1 hNM, sdrCohDiag_ne B' h1 hNM]
      exact ⟨(nomatch ·), (nomatch ·)⟩
    subst hNM
    rw [sdrCohDiag_def, sdrCohDiag_def, if_neg h0, if_neg h0, if_pos h1, if_pos h1]
  rw [sdrCohDiag_gen B (by omega), sdrCohDiag_gen B' (by omega)]
  unfold sdrCohDiagGen
  simp only [toeplitz_backend hB hB', toeplitzCg_backend hB hB']
  cases hcg : o.useCgIter with
  | some it => rfl
  | none =>
    have hsv : B.stackedVectors = B'.stackedVectors := by
      rcases h with h | h | h
      · exact absurd h h1
      · exact absurd hcg h
      · exact h
    simp only [solveVecs_backend hB hB' hsv]

theorem sqCosPair_backend (ref : Sig s r N) (est : Sig s e M) (q) :
    sqCosPair B o ref est = .ok q ↔ sqCosPair B' o ref est = .ok q := by
  by_cases h0 : o.filterLength = 0
  · rw [sqCosPair_zero B h0, sqCosPair_zero B' h0]
  by_cases h1 : o.filterLength = 1
  · by_cases hNM : M = N
    case neg =>
      rw [sqCosPair_ne B h1 hNM, sqCosPair_ne B' h1 hNM]
      exact ⟨(nomatch ·), (nomatch ·)⟩
    subst hNM
    simp only [sqCosPair_def]; rw [if_neg h0, if_neg h0, if_pos h1, if_pos h1]
  cases hn : nFft N M with
  | error err =>
    rw [sqCosPair_gen B (by omega), sqCosPair_gen B' (by omega)]; unfold sqCosPairGen
    rw [hn]
  | ok n =>
    by_cases hLn : o.filterLength ≤ n
    · rw [sqCosPair_unfold hn rfl (by omega) hLn, sqCosPair_unfold hn rfl (by omega) hLn]
      simp only [toeplitz_backend hB hB', toeplitzCg_backend hB hB', cohSar_backend hB hB' hn rfl (by omega) hLn]
    · have := nFft_ne hn
      rw [sqCosPair_gen B (by omega), sqCosPair_gen B' (by omega)]; unfold sqCosPairGen
      rw [hn]
      simp only
      rw [if_pos (by omega), if_pos (by omega)]
      exact ⟨(nomatch ·), (nomatch ·)⟩

theorem sqCosDiag_backend (h : o.filterLength = 1 ∨ o.useCgIter ≠ none ∨ B.stackedVectors = B'.stackedVectors)
    (ref : Sig s c N) (est : Sig s c M) (q) : sqCosDiag B o ref est = .ok q ↔ sqCosDiag B' o ref est = .ok q := by
  by_cases h0 : o.filterLength = 0
  · rw [sqCosDiag_zero B h0, sqCosDiag_zero B' h0]
  by_cases h1 : o.filterLength = 1
  · by_cases hNM : M = N
    case neg =>
      rw [sqCosDiag_ne B h1 hNM, sqCosDiag_ne B' h1 hNM]
      exact ⟨(nomatch ·), (nomatch ·)⟩
    subst hNM
    simp only [sqCosDiag_def]; rw [if_neg h0, if_neg h0, if_pos h1, if_pos h1]
  cases hn : nFft N M with
  | error err =>
    rw [sqCosDiag_gen B (by omega), sqCosDiag_gen B' (by omega)]; unfold sqCosDiagGen
    rw [hn]
  | ok n =>
    by_cases hLn : o.filterLength ≤ n
    · rw [sqCosDiag_unfold hn rfl (by omega) hLn, sqCosDiag_unfold hn rfl (by omega) hLn]
      cases hcg : o.useCgIter with
      | some it =>
        simp only [toeplitzCg_backend hB hB', cohSar_backend hB hB' hn rfl (by omega) hLn]
      | none =>
        have hsv : B.stackedVectors = B'.stackedVectors := by
          rcases h with h | h | h
          · exact absurd h h1
          · exact absurd hcg h
          · exact h
        simp only [toeplitz_backend hB hB', solveVecs_backend hB hB' hsv,
          cohSar_backend hB hB' hn rfl (by omega) hLn]
    · have := nFft_ne hn
      rw [sqCosDiag_gen B (by omega), sqCosDiag_gen B' (by omega)]; unfold sqCosDiagGen
      rw [hn]
      simp only
      have hne : min o.filterLength (min o.filterLength n + min o.filterLength n) ≠ min o.filterLength n := by omega
      rw [if_pos hne, if_pos hne]
      exact ⟨(nomatch ·), (nomatch ·)⟩

end FBE
