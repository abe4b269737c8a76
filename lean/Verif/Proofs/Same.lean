import Verif.Proofs.Related
import Verif.Spec.Same

/-!
# Calls with the same outcome
-/

set_option linter.unusedSectionVars false

namespace FBE

open Spec Matrix

variable {s s' : List ℕ} {r r' e e' c c' N N' M M' : ℕ} {B : Backend} {o : Opts}

/-! ### the exception depends on the sizes and the options only -/

/-- The exception of the functions based on `sdr_loss`, if there is one. -/
noncomputable def sdrErr (B : Backend) (o : Opts) (N M : ℕ) : PyErr :=
  if o.filterLength = 0 then .unmodelled
  else if o.filterLength = 1 then if M = N then .linAlgError else lengthErr B N M else match nFft N M with
    | .error err => err
    | .ok _ => .linAlgError

theorem solveStack_err {ι κ J : Type} [Fintype J] [DecidableEq J] {A : ι → Matrix J J ℝ} {b : ι → κ → J → ℝ} {err}
    (h : solveStack A b = .error err) : err = .linAlgError := by
  unfold solveStack at h
  split at h
  · cases h; rfl
  · cases h

theorem sdrCohPair_err {ref : Sig s r N} {est : Sig s e M} {err} (h : sdrCohPair B o ref est = .error err) :
    err = sdrErr B o N M := by
  unfold sdrErr
  by_cases h0 : o.filterLength = 0
  · rw [sdrCohPair_zero B h0] at h; rw [if_pos h0]; cases h; rfl
  rw [if_neg h0]
  by_cases h1 : o.filterLength = 1
  · rw [if_pos h1]
    by_cases hNM : M = N
    · subst hNM
      rw [sdrCohPair_def, if_neg h0, if_pos h1] at h; cases h
    · rw [sdrCohPair_ne B h1 hNM] at h; cases h; rw [if_neg hNM]
  rw [if_neg h1]
  rw [sdrCohPair_gen B (by omega)] at h
  unfold sdrCohPairGen at h
  cases hn : nFft N M with
  | error err => rw [hn] at h; cases h; rfl
  | ok n =>
    rw [hn] at h
    simp only at h ⊢
    cases hcg : o.useCgIter with
    | some it => rw [hcg] at h; cases h
    | none =>
      rw [hcg] at h
      simp only at h
      split at h
      · rename_i hs
        cases h
        exact solveStack_err hs
      · cases h

/-- The exception of the functions based on `bss_eval_sources`, if there is one. -/
noncomputable def sqCosErr (B : Backend) (o : Opts) (N M : ℕ) : PyErr :=
  if o.filterLength = 0 then .unmodelled
  else if o.filterLength = 1 then if M = N then .linAlgError else lengthErr B N M else match nFft N M with
    | .error err => err
    | .ok n => if o.filterLength ≤ n then .linAlgError else sizeErr B o.useCgIter

theorem cohSar_err {n K : ℕ} (hn : nFft N M = .ok n) (hK : min o.filterLength n = K) (hL : 2 ≤ o.filterLength)
    (hLn : o.filterLength ≤ n) {ref : Sig s r N} {est : Sig s e M} {x0} {err}
    (h : cohSar B o n K ref est x0 = .error err) : err = .linAlgError := by
  unfold cohSar at h
  have F := fam_of_nFft (o := o) hn
  subst hK
  cases hcg : o.useCgIter with
  | none =>
    rw [hcg, blockToeplitz_ok (by omega) _ (fun m k l => by rw [length_bssAcf F rfl (by omega)]; omega)] at h
    simp only at h
    split at h
    · rename_i hs
      cases h
      exact solveStack_err hs
    · cases h
  | some it =>
    rw [hcg] at h
    simp only [blockCg] at h
    split at h
    · rename_i hs
      split at hs
      · cases hs; cases h; rfl
      · cases hs
    · cases h

theorem sqCosPair_err {ref : Sig s r N} {est : Sig s e M} {err} (h : sqCosPair B o ref est = .error err) :
    err = sqCosErr B o N M := by
  unfold sqCosErr
  by_cases h0 : o.filterLength = 0
  · rw [sqCosPair_zero B h0] at h
    rw [if_pos h0]; cases h; rfl
  rw [if_neg h0]
  by_cases h1 : o.filterLength = 1
  · rw [if_pos h1]
    by_cases hNM : M = N
    case neg => rw [sqCosPair_ne B h1 hNM] at h; rw [if_neg hNM]; cases h; rfl
    rw [if_pos hNM]
    subst hNM
    simp only [sqCosPair_def] at h
    rw [if_neg h0, if_pos h1] at h
    split at h
    · rename_i hs
      cases h
      rw [cohSarOne_eq M le_rfl] at hs
      split at hs
      · cases hs; rfl
      · cases hs
    · cases h
  rw [if_neg h1]
  cases hn : nFft N M with
  | error err =>
    rw [sqCosPair_gen B (by omega)] at h; unfold sqCosPairGen at h
    rw [hn] at h; cases h; rfl
  | ok n =>
    simp only
    by_cases hLn : o.filterLength ≤ n
    · rw [if_pos hLn]
      rw [sqCosPair_unfold hn rfl (by omega) hLn] at h
      split at h
      · rename_i hs
        cases h
        split at hs
        · exact solveStack_err hs
        · cases hs
      · split at h
        · rename_i hs
          cases h
          exact cohSar_err hn rfl (by omega) hLn hs
        · cases h
    · rw [if_neg hLn]
      rw [sqCosPair_too_long h1 hn (by omega)] at h
      cases h; rfl

/-- The exception of the functions with `pairwise=False`. -/
noncomputable def vecsErr (B : Backend) (o : Opts) (c N M : ℕ) (dflt : PyErr) : PyErr :=
  if B.stackedVectors = true ∨ o.filterLength = 0 ∨ o.filterLength = 1 ∨ o.useCgIter ≠ none then dflt else match nFft N M with
    | .error err => err
    | .ok n => if dflt ≠ .linAlgError then dflt else if c ≠ min o.filterLength n then .valueError else .unmodelled

theorem solveVecs_err {ι : Type} {n : ℕ} {A : ι → Matrix (Fin n) (Fin n) ℝ} {b : ι → Fin n → ℝ} {err}
    (h : solveVecs B c A b = .error err) :
    err = if B.stackedVectors = true then .linAlgError else if c ≠ n then .valueError else .unmodelled := by
  unfold solveVecs at h
  split at h
  · rename_i hsv
    rw [if_pos hsv]
    split at h
    · rename_i hs
      cases h
      exact solveStack_err hs
    · cases h
  · rename_i hsv
    rw [if_neg hsv]
    split at h
    · rename_i hc; cases h; rw [if_pos hc]
    · rename_i hc; cases h; rw [if_neg hc]

theorem map_err {α β : Type} {x : Except PyErr α} {f : α → β} {err} (h : x.map f = .error err) : x = .error err := by
  cases x with
  | error e => cases h; rfl
  | ok a => cases h

theorem sdrCohDiag_err {ref : Sig s c N} {est : Sig s c M} {err} (h : sdrCohDiag B o ref est = .error err) :
    err = vecsErr B o c N M (sdrErr B o N M) := by
  unfold vecsErr
  by_cases hc : B.stackedVectors = true ∨ o.filterLength = 0 ∨ o.filterLength = 1 ∨ o.useCgIter ≠ none
  · rw [if_pos hc]
    by_cases h0 : o.filterLength = 0
    · rw [sdrCohDiag_zero B h0] at h
      unfold sdrErr
      rw [if_pos h0]; cases h; rfl
    rw [sdrCohDiag_eq B o (by tauto)] at h
    exact sdrCohPair_err (map_err h)
  · rw [if_neg hc]
    push Not at hc
    obtain ⟨hsv, h0, h1, hcg⟩ := hc
    rw [sdrCohDiag_gen B (by omega)] at h; unfold sdrCohDiagGen at h
    unfold sdrErr
    rw [if_neg h0, if_neg h1]
    cases hn : nFft N M with
    | error err => rw [hn] at h; cases h; rfl
    | ok n =>
      rw [hn, hcg] at h
      simp only at h ⊢
      rw [if_neg (by simp)]
      split at h
      · rename_i hs
        cases h
        rw [solveVecs_err hs, if_neg hsv]
      · cases h

/-- The systems of `bss_eval_sources` with `pairwise=False` have the wrong size, and there are as many
channels as lags. -/
def OddSizes (o : Opts) (c N M : ℕ) : Prop := o.filterLength ≠ 1 ∧ o.useCgIter = none ∧
  ∃ n, nFft N M = .ok n ∧ n < o.filterLength ∧ c = min o.filterLength (min o.filterLength n + min o.filterLength n)

open Classical in
/-- The exception of `bss_eval_sources` with `pairwise=False`. -/
noncomputable def sqCosDiagErr (B : Backend) (o : Opts) (c N M : ℕ) : PyErr :=
  if OddSizes o c N M then .unmodelled else vecsErr B o c N M (sqCosErr B o N M)

theorem sqCosDiag_err {ref : Sig s c N} {est : Sig s c M} {err} (h : sqCosDiag B o ref est = .error err) :
    err = sqCosDiagErr B o c N M := by
  unfold sqCosDiagErr
  by_cases h0 : o.filterLength = 0
  · rw [sqCosDiag_zero B h0] at h
    rw [if_neg (by rintro ⟨-, -, n, -, hn, -⟩; omega)]
    unfold vecsErr sqCosErr
    rw [if_pos (by tauto), if_pos h0]; cases h; rfl
  by_cases h1 : o.filterLength = 1
  · rw [if_neg (by rintro ⟨hn, -⟩; exact hn h1)]
    unfold vecsErr sqCosErr
    rw [if_pos (by tauto), if_neg h0, if_pos h1]
    by_cases hNM : M = N
    case neg => rw [sqCosDiag_ne B h1 hNM] at h; rw [if_neg hNM]; cases h; rfl
    rw [if_pos hNM]
    subst hNM
    simp only [sqCosDiag_def] at h
    rw [if_neg h0, if_pos h1] at h
    split at h
    · rename_i hs
      cases h
      rw [cohSarOne_eq M le_rfl] at hs
      split at hs
      · cases hs; rfl
      · cases hs
    · cases h
  cases hn : nFft N M with
  | error err =>
    rw [sqCosDiag_gen B (by omega)] at h; unfold sqCosDiagGen at h
    rw [hn] at h
    cases h
    rw [if_neg (by rintro ⟨-, -, n, hn', -⟩; rw [hn] at hn'; cases hn')]
    unfold vecsErr sqCosErr
    simp [h0, h1, hn]
  | ok n =>
    by_cases hLn : o.filterLength ≤ n
    · rw [if_neg (by rintro ⟨-, -, n', hn', hlt, -⟩; rw [hn] at hn'; cases hn'; omega)]
      unfold vecsErr sqCosErr
      simp only [if_neg h0, if_neg h1, hn, if_pos hLn]
      rw [sqCosDiag_unfold hn rfl (by omega) hLn] at h
      cases hcg : o.useCgIter with
      | none =>
        rw [hcg] at h
        simp only at h
        by_cases hsv : B.stackedVectors = true
        · rw [if_pos (by tauto)]
          split at h
          · rename_i hs
            cases h
            rw [solveVecs_err hs, if_pos hsv]
          · split at h
            · rename_i hs
              cases h
              exact cohSar_err hn rfl (by omega) hLn hs
            · cases h
        · rw [if_neg (by simp [hsv, h0, h1]), if_neg (by simp)]
          split at h
          · rename_i hs
            cases h
            rw [solveVecs_err hs, if_neg hsv]
          · rename_i hs
            exact absurd hs (solveVecs_not_ok hsv _ _ _)
      | some it =>
        rw [hcg] at h
        rw [if_pos (by simp)]
        simp only at h
        split at h
        · rename_i hs
          cases h
          exact cohSar_err hn rfl (by omega) hLn hs
        · cases h
    · have hne := nFft_ne hn
      rw [sqCosDiag_gen B (by omega)] at h; unfold sqCosDiagGen at h
      rw [hn] at h
      simp only at h
      rw [if_pos (by omega)] at h
      cases h
      by_cases hodd : o.useCgIter = none ∧ c = min o.filterLength (min o.filterLength n + min o.filterLength n)
      · rw [if_pos hodd, if_pos ⟨h1, hodd.1, n, hn, by omega, hodd.2⟩]
      · rw [if_neg hodd, if_neg (by
          rintro ⟨-, hcg, n', hn', -, hc⟩
          rw [hn] at hn'; cases hn'
          exact hodd ⟨hcg, hc⟩)]
        unfold vecsErr sqCosErr
        simp only [if_neg h0, if_neg h1, hn, if_neg hLn]
        have : sizeErr B o.useCgIter ≠ .linAlgError := by
          cases o.useCgIter <;> cases hr : B.runtime <;> simp [sizeErr, Backend.shapeErr, hr]
        simp [this]

/-! ### related in both directions -/

theorem except_eq {α β : Type} {x : Except β α} {y : Except β α} (h1 : ∀ a, x = .ok a → y = .ok a)
    (h2 : ∀ a, y = .ok a → x = .ok a) (h3 : ∀ a b, x = .error a → y = .error b → a = b) : y = x := by
  cases hx : x with
  | ok a => exact h1 a hx
  | error a =>
    cases hy : y with
    | ok b => rw [h2 b hy] at hx; cases hx
    | error b => rw [h3 a b hx hy]

/-- The same correlations up to signs, and the same exceptions. -/
structure Same (B : Backend) (o : Opts) (ref : Sig s r N) (est : Sig s e M) (ref' : Sig s r N') (est' : Sig s e M') :
    Prop where
  left : ∃ α β, Related o ref est ref' est' id (fun _ => Equiv.refl _) (fun _ => id) α β
  right : ∃ α β, Related o ref' est' ref est id (fun _ => Equiv.refl _) (fun _ => id) α β
  sdr_err : sdrErr B o N' M' = sdrErr B o N M
  sqCos_err : sqCosErr B o N' M' = sqCosErr B o N M
  vecs_err : ∀ c d, vecsErr B o c N' M' d = vecsErr B o c N M d
  odd : ∀ c, OddSizes o c N' M' ↔ OddSizes o c N M

/-- Channels reordered on both sides. -/
theorem Related.comp {a b : ℕ} {ref : Sig s r N} {est : Sig s e M} {ref' : Sig s r N'} {est' : Sig s e M'} {α β}
    (h : Related o ref est ref' est' id (fun _ => Equiv.refl _) (fun _ => id) α β) (φ : Fin a → Fin r) (ψ : Fin b → Fin e) :
    Related o (fun m k => ref m (φ k)) (fun m j => est m (ψ j)) (fun m k => ref' m (φ k)) (fun m j => est' m (ψ j)) id
      (fun _ => Equiv.refl _) (fun _ => id) (fun m k => α m (φ k)) (fun m j => β m (ψ j)) where
  sq_ref m k := h.sq_ref m (φ k)
  sq_est m j := h.sq_est m (ψ j)
  dot_ref m k l := h.dot_ref m (φ k) (φ l)
  dot_est m k j := h.dot_est m (φ k) (ψ j)
  len := h.len
  size := h.size
  circ_ref n n' hn hn' m k l := h.circ_ref n n' hn hn' m (φ k) (φ l)
  circ_est n n' hn hn' m k j := h.circ_est n n' hn hn' m (φ k) (ψ j)

theorem Same.comp {a b : ℕ} {ref : Sig s r N} {est : Sig s e M} {ref' : Sig s r N'} {est' : Sig s e M'}
    (h : Same B o ref est ref' est') (φ : Fin a → Fin r) (ψ : Fin b → Fin e) :
    Same B o (fun m k => ref m (φ k)) (fun m j => est m (ψ j)) (fun m k => ref' m (φ k)) (fun m j => est' m (ψ j)) :=
  ⟨by obtain ⟨α, β, hr⟩ := h.left; exact ⟨_, _, hr.comp φ ψ⟩, by obtain ⟨α, β, hr⟩ := h.right; exact ⟨_, _, hr.comp φ ψ⟩,
    h.sdr_err, h.sqCos_err, h.vecs_err, h.odd⟩

/-- Normalised signals of the same length that agree up to signs. -/
theorem same_of_prep {ref : Sig s r N} {est : Sig s e M} {ref' : Sig s r N} {est' : Sig s e M}
    {α : BIdx s → Fin r → ℝ} {β : BIdx s → Fin e → ℝ}
    (hα : ∀ m k, α m k * α m k = 1) (hβ : ∀ m j, β m j * β m j = 1)
    (hr : ∀ m k, prep o ref' m k = fun t => α m k * prep o ref m k t)
    (he : ∀ m j, prep o est' m j = fun t => β m j * prep o est m j t) : Same B o ref est ref' est' where
  left := ⟨α, β, related_of_prep hα hβ hr he⟩
  right := ⟨α, β, related_of_prep hα hβ
    (fun m k => by funext t; rw [hr]; show _ = α m k * (α m k * prep o ref m k t); rw [← mul_assoc, hα, one_mul])
    (fun m j => by funext t; rw [he]; show _ = β m j * (β m j * prep o est m j t); rw [← mul_assoc, hβ, one_mul])⟩
  sdr_err := rfl
  sqCos_err := rfl
  vecs_err _ _ := rfl
  odd _ := Iff.rfl

section same

variable (hB : Covered B) {ref : Sig s r N} {est : Sig s e M} {ref' : Sig s r N'} {est' : Sig s e M'}
  (h : Same B o ref est ref' est')
include hB h

theorem sdrCohPair_same : sdrCohPair B o ref' est' = sdrCohPair B o ref est := by
  obtain ⟨α, β, h1⟩ := h.left
  obtain ⟨α', β', h2⟩ := h.right
  refine except_eq (fun a ha => sdrCohPair_related hB h1 ha) (fun a ha => sdrCohPair_related hB h2 ha) fun a b ha hb => ?_
  rw [sdrCohPair_err ha, sdrCohPair_err hb, h.sdr_err]

theorem sqCosPair_same : sqCosPair B o ref' est' = sqCosPair B o ref est := by
  obtain ⟨α, β, h1⟩ := h.left
  obtain ⟨α', β', h2⟩ := h.right
  refine except_eq (fun a ha => sqCosPair_related hB h1 ha) (fun a ha => sqCosPair_related hB h2 ha) fun a b ha hb => ?_
  rw [sqCosPair_err ha, sqCosPair_err hb, h.sqCos_err]

end same

section sameDiag

variable (hB : Covered B) {ref : Sig s c N} {est : Sig s c M} {ref' : Sig s c N'}
  {est' : Sig s c M'} (h : Same B o ref est ref' est')
include hB h

theorem sdrCohDiag_same : sdrCohDiag B o ref' est' = sdrCohDiag B o ref est := by
  obtain ⟨α, β, h1⟩ := h.left
  obtain ⟨α', β', h2⟩ := h.right
  refine except_eq (fun a ha => sdrCohDiag_related hB (π := fun _ => Equiv.refl _) h1 ha)
    (fun a ha => sdrCohDiag_related hB (π := fun _ => Equiv.refl _) h2 ha) fun a b ha hb => ?_
  rw [sdrCohDiag_err ha, sdrCohDiag_err hb, h.sdr_err, h.vecs_err]

theorem sqCosDiag_same : sqCosDiag B o ref' est' = sqCosDiag B o ref est := by
  obtain ⟨α, β, h1⟩ := h.left
  obtain ⟨α', β', h2⟩ := h.right
  refine except_eq (fun a ha => sqCosDiag_related hB (π := fun _ => Equiv.refl _) h1 ha)
    (fun a ha => sqCosDiag_related hB (π := fun _ => Equiv.refl _) h2 ha) fun a b ha hb => ?_
  rw [sqCosDiag_err ha, sqCosDiag_err hb]
  unfold sqCosDiagErr
  rw [h.sqCos_err, h.vecs_err]
  by_cases hodd : OddSizes o c N M
  · rw [if_pos hodd, if_pos ((h.odd c).2 hodd)]
  · rw [if_neg hodd, if_neg (hodd ∘ (h.odd c).1)]

theorem sdrLossDiag_same : sdrLossDiag B o est' ref' = sdrLossDiag B o est ref := by
  unfold sdrLossDiag
  rw [sdrCohDiag_same hB h]

end sameDiag

section sameApi

variable (hB : Covered B) {ref : Sig s r N} {est : Sig s e M} {ref' : Sig s r N'} {est' : Sig s e M'}

section
variable (h : Same B o ref est ref' est')
include hB h

theorem sdrLossPair_same : sdrLossPair B o est' ref' = sdrLossPair B o est ref := by
  unfold sdrLossPair
  rw [sdrCohPair_same hB h]

theorem sdr_same (rp cs : Bool) : sdr B o rp cs ref' est' = sdr B o rp cs ref est := by
  unfold sdr
  rw [sdrLossPair_same hB h]

theorem bssEvalPerm_same : bssEvalPerm B o ref' est' = bssEvalPerm B o ref est := by
  unfold bssEvalPerm
  rw [sqCosPair_same hB h]

theorem bssEvalSources_same (cp : Bool) : bssEvalSources B o cp ref' est' = bssEvalSources B o cp ref est := by
  unfold bssEvalSources
  cases cp with
  | true => rw [if_pos rfl, if_pos rfl, bssEvalPerm_same hB h]
  | false =>
    have hD : bssEvalNoPerm B o (fun m k => ref' m (k.castLE (min_le_left r e)))
        (fun m k => est' m (k.castLE (min_le_right r e))) = bssEvalNoPerm B o
        (fun m k => ref m (k.castLE (min_le_left r e))) (fun m k => est m (k.castLE (min_le_right r e))) := by
      unfold bssEvalNoPerm
      rw [sqCosDiag_same hB (h.comp (fun k => k.castLE (min_le_left r e)) (fun k => k.castLE (min_le_right r e)))]
    rw [if_neg Bool.false_ne_true, if_neg Bool.false_ne_true, hD]

end

include hB in
theorem sameMetrics (h : Same B o ref est ref' est')
    (h1 : ∀ ld, Same B (siOpts o.zeroMean o.clampDb ld) ref est ref' est') : SameMetrics B o ref est ref' est' where
  sdr_loss := sdrLossPair_same hB h
  pairwise_sdr_loss := sdrLossPair_same hB h
  sdr := sdr_same hB h
  sdr_pit_loss := sdr_same hB h _ _
  bss_eval_sources := bssEvalSources_same hB h
  si_sdr_loss := sdrLossPair_same hB (h1 _)
  pairwise_si_sdr_loss := sdrLossPair_same hB (h1 _)
  si_sdr := sdr_same hB (h1 _)
  si_sdr_pit_loss := sdr_same hB (h1 _) _ _
  si_bss_eval_sources := bssEvalSources_same hB (h1 _)

end sameApi

theorem sameAligned (hB : Covered B) {ref : Sig s c N} {est : Sig s c M} {ref' : Sig s c N'}
  {est' : Sig s c M'} (h : Same B o ref est ref' est')
    (h1 : ∀ ld, Same B (siOpts o.zeroMean o.clampDb ld) ref est ref' est') : SameAligned B o ref est ref' est' where
  sdr_loss := sdrLossDiag_same hB h
  si_sdr_loss := sdrLossDiag_same hB (h1 _)

end FBE
