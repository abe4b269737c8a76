import Verif.Proofs.Related
import Verif.Proofs.Api

/-!
# Reordering channels, matrices and pairings
-/

set_option linter.unusedSectionVars false

namespace FBE

open Spec XR

variable {s : List ℕ} {r e N M : ℕ}

/-- Reordered channels. -/
theorem related_reorder (o : Opts) (ref : Sig s r N) (est : Sig s e M) (π : BIdx s → Equiv.Perm (Fin r))
    (σ : BIdx s → Equiv.Perm (Fin e)) :
    Related o ref est (fun m k => ref m (π m k)) (fun m j => est m (σ m j)) (fun m => m) π (fun m j => σ m j)
      (fun _ _ => 1) (fun _ _ => 1) :=
  related_of_prep (fun _ _ => one_mul 1) (fun _ _ => one_mul 1) (fun _ _ => by simp only [one_mul]; rfl)
    (fun _ _ => by simp only [one_mul]; rfl)

/-- The pairing of the original channels chosen by a pairing of the reordered ones. -/
def Spec.Pairing.map (P : Pairing r e) (π : Equiv.Perm (Fin r)) (σ : Equiv.Perm (Fin e)) : Pairing r e where
  ref k := π (P.ref k)
  est k := σ (P.est k)
  ref_inj := π.injective.comp P.ref_inj
  est_inj := σ.injective.comp P.est_inj

theorem solvable_reorder {M : Fin r → Fin e → XR} (π : Equiv.Perm (Fin r)) (σ : Equiv.Perm (Fin e))
    (h : Solvable M) : Solvable fun k j => M (π k) (σ j) where
  no_nan _ _ := h.no_nan _ _
  one_sign := fun ⟨⟨_, _, a⟩, _, _, b⟩ => h.one_sign ⟨⟨_, _, a⟩, _, _, b⟩
  some_finite := fun ⟨_, _, a⟩ => by
    obtain ⟨i, j, x, hx⟩ := h.some_finite ⟨_, _, a⟩
    exact ⟨π.symm i, σ.symm j, x, by simpa using hx⟩

theorem bestPairing_map {M : Fin r → Fin e → XR} {π : Equiv.Perm (Fin r)} {σ : Equiv.Perm (Fin e)} {P : Pairing r e}
    (h : BestPairing (fun k j => M (π k) (σ j)) P) : BestPairing M (P.map π σ) := by
  have hv : ∀ Q : Pairing r e, (Q.map π.symm σ.symm).values (fun k j => M (π k) (σ j)) = Q.values M := by
    intro Q
    funext k
    simp [Pairing.values, Pairing.map]
  have hP : (P.map π σ).values M = P.values fun k j => M (π k) (σ j) := rfl
  refine ⟨fun Q => ?_, fun Q => ?_, fun Q h1 h2 => ?_⟩
  · rw [hP, ← hv Q]; exact h.pos _
  · rw [hP, ← hv Q]; exact h.neg _
  · rw [hP, ← hv Q]
    exact h.fin _ (by rw [hv Q, h1, hP]) (by rw [hv Q, h2, hP])

/-- Best pairings have the same total. -/
theorem Spec.BestPairing.eTotal_eq {M : Fin r → Fin e → XR} {P P' : Pairing r e} (hM : Solvable M)
    (h : BestPairing M P) (h' : BestPairing M P') : eTotal (P.values M) = eTotal (P'.values M) :=
  le_antisymm (h.eTotal_le hM P') (h'.eTotal_le hM P)

/-! ### the SAR alone -/

section sar

variable {s s' : List ℕ} {c N N' M M' : ℕ} {o : Opts} {B : Backend} {ref : Sig s c N} {est : Sig s c M}
  {ref' : Sig s' c N'} {est' : Sig s' c M'}
  {μ : BIdx s' → BIdx s} {π : BIdx s' → Fin c ≃ Fin c} {σ : BIdx s' → Fin c → Fin c} {α β : BIdx s' → Fin c → ℝ}

theorem sqCosDiag_sar_related (hB : Covered B) (h : Related o ref est ref' est' μ π σ α β) {coh} (hc : sqCosDiag B o ref est = .ok coh) :
    ∃ sd, sqCosDiag B o ref' est' = .ok (sd, fun m j => coh.2 (μ m) (σ m j)) := by
  by_cases hcase : o.filterLength = 1 ∨ (o.useCgIter = none ∧ B.stackedVectors = true)
  · rw [sqCosDiag_eq B o hcase] at hc
    cases hp : sqCosPair B o ref est with
    | error err => rw [hp] at hc; cases hc
    | ok coh' =>
      rw [hp] at hc
      cases hc
      exact ⟨_, sqCosDiag_of_pair B o hcase (sqCosPair_related hB h hp)⟩
  obtain ⟨h1, hcase⟩ := not_or.1 hcase
  have h0 : o.filterLength ≠ 0 := by
    intro h0
    rw [sqCosDiag_zero B h0] at hc
    cases hc
  obtain ⟨n, hn⟩ : ∃ n, nFft N M = .ok n := by
    rw [sqCosDiag_gen B (by omega)] at hc; unfold sqCosDiagGen at hc
    cases hn : nFft N M with
    | error err => rw [hn] at hc; cases hc
    | ok n => exact ⟨n, rfl⟩
  have hLn : o.filterLength ≤ n := by
    by_contra hLn
    have := nFft_ne hn
    rw [sqCosDiag_gen B (by omega)] at hc; unfold sqCosDiagGen at hc
    rw [hn] at hc
    simp only at hc
    rw [if_pos (by omega)] at hc
    cases hc
  obtain ⟨n', hn', hK', hLn'⟩ := h.size n hn
  have hLn' := hLn' hLn
  obtain ⟨K, hK⟩ : ∃ K, min o.filterLength n = K := ⟨_, rfl⟩
  rw [hK] at hK'
  have hL : 2 ≤ o.filterLength := by omega
  have := nFft_ne hn
  have F := fam_of_nFft (o := o) hn
  have F' := fam_of_nFft (o := o) hn'
  rw [hK] at F
  rw [hK'] at F'
  rw [sqCosDiag_unfold hn hK hL hLn] at hc
  rw [sqCosDiag_unfold hn' hK' hL hLn']
  cases hcg : o.useCgIter with
  | none =>
    rw [hcg] at hc
    simp only at hc
    split at hc
    · cases hc
    · rename_i hsol
      exact absurd hsol (solveVecs_not_ok (fun hsv => hcase ⟨hcg, hsv⟩) _ _ _)
  | some it =>
    rw [hcg] at hc
    simp only at hc ⊢
    cases hs : cohSar B o n K ref est (fun _ _ _ => 0) with
    | error err => rw [hs] at hc; cases hc
    | ok sar =>
      rw [hs] at hc
      cases hc
      rw [related_cohSar h hn hn' hK hK' hL hB hLn (x0' := fun _ _ _ => 0)
        (fun m j => by funext p; exact (mul_zero _).symm) hs]
      exact ⟨_, rfl⟩

end sar

end FBE
