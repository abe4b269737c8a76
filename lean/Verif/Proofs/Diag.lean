import Verif.Proofs.Equal

/-!
# `pairwise=False` against `pairwise=True`
-/

set_option linter.unusedSectionVars false

namespace FBE

variable {s : List ℕ} {r e c N M : ℕ}

theorem solveVecs_eq {ι : Type} (B : Backend) (hsv : B.stackedVectors = true) (c : ℕ) {n : ℕ} {κ : Type}
    (A : ι → Matrix (Fin n) (Fin n) ℝ) (b : ι → κ → Fin n → ℝ) (sel : ι → κ) :
    solveVecs B c A (fun i => b i (sel i)) = (solveStack A b).map fun sol i => sol i (sel i) := by
  unfold solveVecs solveStack
  rw [if_pos hsv]
  by_cases h : ∃ i, (A i).det = 0
  · rw [if_pos h, if_pos h]; rfl
  · rw [if_neg h, if_neg h]; rfl

theorem sdrCohDiag_eq (B : Backend) (o : Opts)
    (h : o.filterLength = 1 ∨ o.useCgIter ≠ none ∨ B.stackedVectors = true) (ref : Sig s c N) (est : Sig s c M) :
    sdrCohDiag B o ref est = (sdrCohPair B o ref est).map fun coh m k => coh m k k := by
  by_cases h0 : o.filterLength = 0
  · rw [sdrCohDiag_zero B h0, sdrCohPair_zero B h0]; rfl
  by_cases h1 : o.filterLength = 1
  · by_cases hNM : M = N
    case neg => rw [sdrCohDiag_ne B h1 hNM, sdrCohPair_ne B h1 hNM]; rfl
    subst hNM
    rw [sdrCohDiag_def, sdrCohPair_def, if_neg h0, if_neg h0, if_pos h1, if_pos h1]; rfl
  rw [sdrCohDiag_gen B (by omega), sdrCohPair_gen B (by omega)]; unfold sdrCohDiagGen sdrCohPairGen
  cases nFft N M with
  | error err => rfl
  | ok n =>
    simp only
    cases hcg : o.useCgIter with
    | some it => rfl
    | none =>
      have hsv : B.stackedVectors = true := by
        rcases h with h | h | h
        · exact absurd h h1
        · exact absurd hcg h
        · exact h
      simp only
      rw [solveVecs_eq B hsv c _ (fun (i : BIdx s × Fin c) j =>
        vec (min o.filterLength n) (sdrXcorr o n ref est i.1 i.2 j)) (fun i => i.2)]
      cases solveStack (fun i : BIdx s × Fin c => toeplitz B (min o.filterLength n) (sdrAcf o n ref i.1 i.2))
        (fun (i : BIdx s × Fin c) j => vec (min o.filterLength n) (sdrXcorr o n ref est i.1 i.2 j)) <;> rfl

theorem cohSar_x0 (B : Backend) (o : Opts) (hcg : o.useCgIter = none) (n K : ℕ) (ref : Sig s r N)
    (est : Sig s e M) (x0 x0' : BIdx s → Fin e → Fin K × Fin r → ℝ) :
    cohSar B o n K ref est x0 = cohSar B o n K ref est x0' := by
  unfold cohSar
  rw [hcg]

theorem sqCosDiag_or (B : Backend) (o : Opts)
    (h : o.filterLength = 1 ∨ (o.useCgIter = none ∧ B.stackedVectors = true)) (ref : Sig s c N) (est : Sig s c M) :
    sqCosDiag B o ref est = ((sqCosPair B o ref est).map fun p => (fun m k => p.1 m k k, p.2)) ∨
      sqCosPair B o ref est = .error (sizeErr B o.useCgIter) ∧ ∃ err, sqCosDiag B o ref est = .error err := by
  by_cases h0 : o.filterLength = 0
  · rw [sqCosDiag_zero B h0, sqCosPair_zero B h0]; exact Or.inl rfl
  by_cases h1 : o.filterLength = 1
  · by_cases hNM : M = N
    case neg => rw [sqCosDiag_ne B h1 hNM, sqCosPair_ne B h1 hNM]; exact Or.inl rfl
    subst hNM
    rw [sqCosDiag_def, sqCosPair_def, if_neg h0, if_neg h0, if_pos h1, if_pos h1]
    cases cohSarOne o ref est <;> exact Or.inl rfl
  rw [sqCosDiag_gen B (by omega), sqCosPair_gen B (by omega)]; unfold sqCosDiagGen sqCosPairGen
  obtain ⟨hcg, hsv⟩ := h.resolve_left h1
  cases nFft N M with
  | error err => exact Or.inl rfl
  | ok n =>
    simp only
    by_cases hK : min o.filterLength (min o.filterLength n + min o.filterLength n) ≠ min o.filterLength n
    · rw [if_pos hK, if_pos hK]; exact Or.inr ⟨rfl, _, rfl⟩
    refine Or.inl ?_
    rw [if_neg hK, if_neg hK, hcg]
    simp only
    rw [solveVecs_eq B hsv c _ (fun (i : BIdx s × Fin c) j =>
      vec (min o.filterLength n) (sdrXcorr o n ref est i.1 i.2 j)) (fun i => i.2)]
    cases solveStack (fun i : BIdx s × Fin c => toeplitz B (min o.filterLength n) (bssAcfSdr o n ref i.1 i.2))
        (fun (i : BIdx s × Fin c) j => vec (min o.filterLength n) (sdrXcorr o n ref est i.1 i.2 j)) with
    | error err => rfl
    | ok sol =>
      simp only [Except.map]
      rw [cohSar_x0 B o hcg n _ ref est (fun _ _ _ => 0) (fun m j p => sol (m, p.2) j p.1)]
      cases cohSar B o n (min o.filterLength n) ref est (fun m j p => sol (m, p.2) j p.1) <;> rfl

section pair

variable (B : Backend) (o : Opts) (h : o.filterLength = 1 ∨ (o.useCgIter = none ∧ B.stackedVectors = true))
include h

theorem sqCosDiag_eq (ref : Sig s c N) (est : Sig s c M) {q} : sqCosDiag B o ref est = .ok q ↔
      ((sqCosPair B o ref est).map fun p => (fun m k => p.1 m k k, p.2)) = .ok q := by
  rcases sqCosDiag_or B o h ref est with h | ⟨h1, err, h2⟩
  · rw [h]
  · rw [h1, h2]
    exact ⟨(nomatch ·), (nomatch ·)⟩

theorem sqCosDiag_of_pair {ref : Sig s c N} {est : Sig s c M} {p} (hp : sqCosPair B o ref est = .ok p) :
    sqCosDiag B o ref est = .ok (fun m k => p.1 m k k, p.2) := by
  rw [sqCosDiag_eq B o h, hp]
  rfl

theorem sqCosDiag_of_pair_error {ref : Sig s c N} {est : Sig s c M} {err} (hp : sqCosPair B o ref est = .error err) :
    ∃ err', sqCosDiag B o ref est = .error err' := by
  rcases sqCosDiag_or B o h ref est with h | ⟨-, h2⟩
  · rw [h, hp]
    exact ⟨_, rfl⟩
  · exact h2

theorem sqCosDiag_of_pair_linAlg {ref : Sig s c N} {est : Sig s c M} (hp : sqCosPair B o ref est = .error .linAlgError) :
    sqCosDiag B o ref est = .error .linAlgError := by
  rcases sqCosDiag_or B o h ref est with h | ⟨h1, -⟩
  · rw [h, hp]
    rfl
  · rw [hp] at h1
    cases hcg : o.useCgIter <;> cases hr : B.runtime <;> simp [sizeErr, Backend.shapeErr, hr, hcg] at h1

end pair

end FBE
