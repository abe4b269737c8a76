import Verif.Proofs.Example
import Verif.Proofs.Local
import Verif.Spec.Lengths
import Verif.Proofs.ExampleRuns

/-!
# C32–C34 — singular systems, diagonal loading, silent estimates
-/

namespace FBE.Props

open Spec XR

variable {s : List ℕ} {r e c N M : ℕ} {B : Backend} {o : Opts}

/-! ### C34 -/

/-- **C34.**  Direct solver, filters of at least two taps, no loading: `sdr_loss` raises `LinAlgError`
exactly when some reference is silent (after removal of the mean if asked for), and returns otherwise. -/
theorem C34_sdr_loss (hB : Covered B) (hcg : o.useCgIter = none) (hL : 2 ≤ o.filterLength)
    (hload : o.load = 0) (hN : 0 < N) (hfit : FilterFits N o.filterLength) (est : Sig s e N)
    (ref : Sig s r N) :
    (sdrLossPair B o est ref = .error .linAlgError ↔ ∃ m k, centred o.zeroMean (ref m k) = 0) ∧
    ((∃ L, sdrLossPair B o est ref = .ok L) ↔ ∀ m k, centred o.zeroMean (ref m k) ≠ 0) := by
  unfold sdrLossPair
  rcases sdrCohPair_success hB hcg hL hload hN hfit ref est with ⟨⟨coh, h⟩, h2⟩ | ⟨h, m, k, h2⟩
  · rw [h]
    exact ⟨iff_of_false (by simp) (fun ⟨m, k, h⟩ => h2 m k h), iff_of_true ⟨_, rfl⟩ h2⟩
  · rw [h]
    exact ⟨iff_of_true rfl ⟨m, k, h2⟩, iff_of_false (by rintro ⟨L, h⟩; cases h) fun h => h m k h2⟩

/-- **C34.**  With `filter_length=1`, `sdr_loss` always returns. -/
theorem C34_sdr_loss_length_one (hL : o.filterLength = 1) (est : Sig s e N) (ref : Sig s r N) :
    ∃ L, sdrLossPair B o est ref = .ok L := by
  unfold sdrLossPair; simp only [sdrCohPair_def]
  rw [if_neg (by omega), if_pos hL]
  exact ⟨_, rfl⟩

example : ∃ L, sdrLossPair torchBackend { Ex.opts with filterLength := 1 } Ex.est (fun _ => ![0, ![1, 2, 3]]) = .ok L :=
  C34_sdr_loss_length_one (o := { Ex.opts with filterLength := 1 }) rfl _ _

theorem solvePermutation_not_linAlg (hB : Covered B) {nArgs : ℕ} (loss : BIdx s → Fin r → Fin e → XR)
    (args : Fin nArgs → BIdx s → Fin r → Fin e → XR) :
    solvePermutation B loss args ≠ .error .linAlgError := by
  intro h
  by_cases hs : ∀ m, Solvable (loss m)
  · obtain ⟨out, ho⟩ := (solvePermutation_ok_iff B hB.lsa loss args).2 hs
    rw [ho] at h; cases h
  · push Not at hs
    obtain ⟨m, hm⟩ := hs
    obtain ⟨pre, m', post, h1, h2, h3⟩ := exists_first (fun m => Solvable (loss m)) (ndindex s)
      ⟨m, mem_ndindex m, hm⟩
    rw [solvePermutation_err B hB.lsa loss args pre m' post h1 h2 h3] at h
    unfold itemErr at h
    split at h
    · rcases hB with rfl | ⟨lsa, n2, -, rfl⟩ <;> cases h
    · cases h

/-- **C34.**  Direct solver, no loading: `bss_eval_sources` raises `LinAlgError` exactly when for some
batch item the shifts of all references are linearly dependent. -/
theorem C34_bss_eval (hB : Covered B) (hdir : o.direct) (hL : 1 ≤ o.filterLength)
    (hload : o.load = 0) (hN : 0 < N) (hfit : FilterFits N o.filterLength) (ref : Sig s r N)
    (est : Sig s e N) :
    bssEvalSources B o true ref est = .error .linAlgError ↔
      ∃ m, ¬ IndependentShifts o.filterLength fun k => centred o.zeroMean (ref m k) := by
  unfold bssEvalSources
  rw [if_pos rfl]
  unfold bssEvalPerm
  rcases sqCosPair_success hB hdir hL hload hN hfit ref est with ⟨⟨⟨sd, sa⟩, h⟩, h2⟩ | ⟨h, h2⟩
  · rw [h]
    refine iff_of_false (fun hc => ?_) (fun ⟨m, hm⟩ => hm (h2 m))
    simp only at hc
    split at hc
    · rename_i err herr
      cases hc
      exact solvePermutation_not_linAlg hB _ _ herr
    · cases hc
  · rw [h]
    exact iff_of_true rfl h2

example : bssEvalSources torchBackend Ex.opts true Ex.ref Ex.est ≠ .error .linAlgError := fun h => by
  obtain ⟨m, hm⟩ := (C34_bss_eval Ex.covered Ex.direct (by decide) Ex.load (by decide) Ex.fits _ _).1 h
  exact hm (Ex.independent m)

/-- **C34.**  The same without permutation solving, where nothing else can fail: the call returns if
and only if the shifts are independent. -/
theorem C34_bss_eval_no_permutation (hB : Covered B) (hdir : o.direct) (hL : 1 ≤ o.filterLength)
    (hsv : o.filterLength = 1 ∨ B.stackedVectors = true)
    (hload : o.load = 0) (hN : 0 < N) (hfit : FilterFits N o.filterLength) (ref est : Sig s c N) :
    (bssEvalNoPerm B o ref est = .error .linAlgError ↔
      ∃ m, ¬ IndependentShifts o.filterLength fun k => centred o.zeroMean (ref m k)) ∧
    ((∃ out, bssEvalNoPerm B o ref est = .ok out) ↔
      ∀ m, IndependentShifts o.filterLength fun k => centred o.zeroMean (ref m k)) := by
  have hsv' : o.filterLength = 1 ∨ (o.useCgIter = none ∧ B.stackedVectors = true) := by
    rcases hsv with h | h
    · exact Or.inl h
    · exact hdir.imp id fun h' => ⟨h', h⟩
  unfold bssEvalNoPerm
  rcases sqCosPair_success hB hdir hL hload hN hfit ref est with ⟨⟨⟨sd, sa⟩, h⟩, h2⟩ | ⟨h, m, h2⟩
  · rw [sqCosDiag_of_pair B o hsv' h]
    exact ⟨iff_of_false (by simp) (fun ⟨m, hm⟩ => hm (h2 m)), iff_of_true ⟨_, rfl⟩ h2⟩
  · rw [sqCosDiag_of_pair_linAlg B o hsv' h]
    exact ⟨iff_of_true rfl ⟨m, h2⟩, iff_of_false (by rintro ⟨L, h⟩; cases h) fun h => h2 (h m)⟩

/-- **C34.**  In particular two proportional (for instance equal) references make `bss_eval_sources`
raise. -/
theorem C34_duplicated_references (hB : Covered B) (hdir : o.direct) (hL : 1 ≤ o.filterLength)
    (hload : o.load = 0) (hN : 0 < N) (hfit : FilterFits N o.filterLength) (ref : Sig s r N)
    (est : Sig s e N) {m : BIdx s} {k l : Fin r} (hkl : k ≠ l) {a : ℝ}
    (h : centred o.zeroMean (ref m k) = fun t => a * centred o.zeroMean (ref m l) t) :
    bssEvalSources B o true ref est = .error .linAlgError := by
  refine (C34_bss_eval hB hdir hL hload hN hfit ref est).2 ⟨m, fun hi => ?_⟩
  unfold IndependentShifts at hi
  have hne : ((⟨0, hL⟩, k) : Fin o.filterLength × Fin r) ≠ (⟨0, hL⟩, l) := fun h => hkl (Prod.mk.inj h).2
  refine absurd hi ?_
  rw [Fintype.linearIndependent_iff]
  push Not
  refine ⟨fun p => if p = (⟨0, hL⟩, k) then 1 else if p = (⟨0, hL⟩, l) then -a else 0, ?_, (⟨0, hL⟩, k),
    by simp⟩
  rw [Finset.sum_eq_add_of_mem _ _ (Finset.mem_univ _) (Finset.mem_univ _) hne]
  · beta_reduce
    rw [if_pos rfl, if_neg hne.symm, if_pos rfl]
    simp only [h, shift_smul]
    simp
  · intro p _ hp
    beta_reduce
    rw [if_neg hp.1, if_neg hp.2, zero_smul]

/-! ### C32 -/

/-- **C32.**  With `load_diag > 0` the direct solver never fails in `sdr_loss`, whatever the signals
and the filter length. -/
theorem C32_loaded_sdr_loss (hB : Covered B) (hdir : o.direct) (hL : 1 ≤ o.filterLength)
    (hload : 0 < o.load) (hN : 0 < N) (h1 : o.filterLength = 1 → M = N) (est : Sig s e M) (ref : Sig s r N) :
    ∃ L, sdrLossPair B o est ref = .ok L := by
  obtain ⟨coh, h⟩ := sdrCohPair_loaded hB hdir hL hload hN h1 ref est
  unfold sdrLossPair
  rw [h]
  exact ⟨_, rfl⟩

/-- **C32.**  With `load_diag > 0` (and filters not longer than the FFT) the linear systems of
`bss_eval_sources` never fail: without permutation solving the call returns, with permutation solving
it does not raise `LinAlgError`. -/
theorem C32_loaded_bss_eval (hB : Covered B) (hdir : o.direct) (hL : 1 ≤ o.filterLength)
    (hload : 0 < o.load) (hN : 0 < N) (h1 : o.filterLength = 1 → M = N)
    (hfft : o.filterLength ≤ transformSize N M)
    (ref : Sig s r N) (est : Sig s e M) (ref' : Sig s c N) (est' : Sig s c M) :
    bssEvalSources B o true ref est ≠ .error .linAlgError ∧
    (o.filterLength = 1 ∨ B.stackedVectors = true → ∃ out, bssEvalNoPerm B o ref' est' = .ok out) := by
  by_cases hNM : 1 < N + max N M
  case neg => omega
  have hn : nFft N M = .ok (transformSize N M) := by
    unfold nFft; rw [if_neg (by omega)]; rfl
  constructor
  · obtain ⟨⟨sd, sa⟩, h⟩ := sqCosPair_loaded hB hdir hL hload hn hfft h1 ref est
    unfold bssEvalSources bssEvalPerm
    rw [if_pos rfl, h]
    intro hc
    simp only at hc
    split at hc
    · rename_i err herr
      cases hc
      exact solvePermutation_not_linAlg hB _ _ herr
    · cases hc
  · intro hsv
    have hsv' : o.filterLength = 1 ∨ (o.useCgIter = none ∧ B.stackedVectors = true) := by
      rcases hsv with h | h
      · exact Or.inl h
      · exact hdir.imp id fun h' => ⟨h', h⟩
    obtain ⟨⟨sd, sa⟩, h⟩ := sqCosPair_loaded hB hdir hL hload hn hfft h1 ref' est'
    unfold bssEvalNoPerm
    rw [sqCosDiag_of_pair B o hsv' h]
    exact ⟨_, rfl⟩

-- silent references
example : bssEvalSources torchBackend { Ex.opts with loadDiag := some 1 } true (fun _ _ _ => 0 : Sig [] 2 3) Ex.est ≠
      .error .linAlgError ∧
    ∃ out, bssEvalNoPerm torchBackend { Ex.opts with loadDiag := some 1 } (fun _ _ _ => 0 : Sig [] 2 3) Ex.est = .ok out := by
  have h := C32_loaded_bss_eval (o := { Ex.opts with loadDiag := some 1 }) Ex.covered Ex.direct (by decide)
    (by norm_num [Opts.load]) (by decide) (fun _ => rfl) (by decide) (fun _ _ _ => 0 : Sig [] 2 3) Ex.est
    (fun _ _ _ => 0 : Sig [] 2 3) Ex.est
  exact ⟨h.1, h.2 (Or.inr rfl)⟩

/-- **C32.**  More loading never gives a larger SDR: every loss of `sdr_loss` with `load_diag = d'` is
at least the one with `load_diag = d`, `0 ≤ d ≤ d'` (`d = 0` is no loading). -/
theorem C32_loading_lowers_sdr (hB : Covered B) (hdir : o.direct) {ld ld' : Option ℝ}
    (h0 : 0 ≤ ld.getD 0) (hle : ld.getD 0 ≤ ld'.getD 0) {est : Sig s e M} {ref : Sig s r N} {L L'}
    (h : sdrLossPair B { o with loadDiag := ld } est ref = .ok L)
    (h' : sdrLossPair B { o with loadDiag := ld' } est ref = .ok L') (m k j) :
    toEReal (L m k j) ≤ toEReal (L' m k j) := by
  obtain ⟨coh, hc, rfl⟩ := sdrLossPair_entry h
  obtain ⟨coh', hc', rfl⟩ := sdrLossPair_entry h'
  refine coherenceToNegSdr_anti o.clampDb ?_
  have e0 : ({ o with loadDiag := ld } : Opts).load = ld.getD 0 := rfl
  have e0' : ({ o with loadDiag := ld' } : Opts).load = ld'.getD 0 := rfl
  by_cases hl0 : o.filterLength = 0
  · rw [sdrCohPair_zero B (by exact hl0)] at hc; cases hc
  by_cases hl1 : o.filterLength = 1
  · by_cases hNM : M = N
    case neg => rw [sdrCohPair_ne B (by exact hl1) hNM] at hc; cases hc
    subst hNM
    simp only [sdrCohPair_def] at hc hc'
    rw [if_neg (by exact hl0), if_pos (by exact hl1)] at hc hc'
    cases hc; cases hc'
    exact le_rfl
  have hcg := hdir.resolve_left hl1
  cases hn : nFft N M with
  | error err =>
    rw [sdrCohPair_gen B (by show 2 ≤ o.filterLength; omega)] at hc; unfold sdrCohPairGen at hc
    rw [hn] at hc; cases hc
  | ok n =>
    have F := fam_of_nFft (o := o) hn
    rw [sdrCohPair_direct (o := { o with loadDiag := ld }) hn rfl (by show 2 ≤ o.filterLength; omega)
      F hB hcg] at hc
    rw [sdrCohPair_direct (o := { o with loadDiag := ld' }) hn rfl (by show 2 ≤ o.filterLength; omega)
      F hB hcg] at hc'
    split at hc
    · cases hc
    split at hc'
    · cases hc'
    rename_i hs hs'
    cases hc; cases hc'
    push Not at hs hs'
    exact quad_anti _ _ h0 hle (hs (m, k)) (hs' (m, k))

/-- **C32.**  The same for the SAR of `bss_eval_sources` (coherence of the estimate with all
references). -/
theorem C32_loading_lowers_square_cosines (hB : Covered B) (hdir : o.direct) {ld ld' : Option ℝ}
    (h0 : 0 ≤ ld.getD 0) (hle : ld.getD 0 ≤ ld'.getD 0) {ref : Sig s r N} {est : Sig s e M} {sd sa sd' sa'}
    (h : sqCosPair B { o with loadDiag := ld } ref est = .ok (sd, sa))
    (h' : sqCosPair B { o with loadDiag := ld' } ref est = .ok (sd', sa')) (m k j) :
    sd' m k j ≤ sd m k j ∧ sa' m j ≤ sa m j := by
  have e0 : ({ o with loadDiag := ld } : Opts).load = ld.getD 0 := rfl
  have e0' : ({ o with loadDiag := ld' } : Opts).load = ld'.getD 0 := rfl
  by_cases hl0 : o.filterLength = 0
  · rw [sqCosPair_zero B (by exact hl0)] at h; cases h
  by_cases hl1 : o.filterLength = 1
  · by_cases hNM : M = N
    case neg => rw [sqCosPair_ne B (by exact hl1) hNM] at h; cases h
    subst hNM
    simp only [sqCosPair_def] at h h'
    rw [if_neg (by exact hl0), if_pos (by exact hl1), cohSarOne_eq M le_rfl] at h h'
    by_cases hs : ∃ m : BIdx s,
        (gramD (oneFam M (prep { o with loadDiag := ld } ref m)) ({ o with loadDiag := ld } : Opts).load).det = 0
    · rw [if_pos hs] at h; cases h
    by_cases hs' : ∃ m : BIdx s,
        (gramD (oneFam M (prep { o with loadDiag := ld' } ref m)) ({ o with loadDiag := ld' } : Opts).load).det = 0
    · rw [if_pos hs'] at h'; cases h'
    rw [if_neg hs] at h
    rw [if_neg hs'] at h'
    cases h; cases h'
    push Not at hs hs'
    exact ⟨le_rfl, quad_anti _ _ h0 hle (hs m) (hs' m)⟩
  have hcg := hdir.resolve_left hl1
  cases hn : nFft N M with
  | error err =>
    rw [sqCosPair_gen B (by show 2 ≤ o.filterLength; omega)] at h; unfold sqCosPairGen at h
    rw [hn] at h; cases h
  | ok n =>
    by_cases hLn : o.filterLength ≤ n
    · have F := fam_of_nFft (o := o) hn
      rw [sqCosPair_direct (o := { o with loadDiag := ld }) hn rfl (by show 2 ≤ o.filterLength; omega)
        F hLn hB hcg] at h
      rw [sqCosPair_direct (o := { o with loadDiag := ld' }) hn rfl (by show 2 ≤ o.filterLength; omega)
        F hLn hB hcg] at h'
      split at h
      · cases h
      split at h'
      · cases h'
      rename_i hs hs'
      cases h; cases h'
      push Not at hs hs'
      exact ⟨quad_anti _ _ h0 hle (hs.1 (m, k)) (hs'.1 (m, k)), quad_anti _ _ h0 hle (hs.2 m) (hs'.2 m)⟩
    · rw [sqCosPair_too_long (o := { o with loadDiag := ld }) hl1 hn (by show n < o.filterLength; omega)] at h
      cases h

example : ∃ sd' sa', sqCosPair torchBackend { Ex.opts with loadDiag := some 1 } Ex.ref Ex.est = .ok (sd', sa') ∧
    ∀ m k j, sd' m k j ≤ (if k = j then 4 / 5 else 1 / 5) ∧ sa' m j ≤ 1 := by
  obtain ⟨⟨sd', sa'⟩, h'⟩ := sqCosPair_loaded (o := { Ex.opts with loadDiag := some 1 }) Ex.covered Ex.direct (by decide)
    (by norm_num [Opts.load]) Ex.nFft_three (by decide) (fun _ => rfl) Ex.ref Ex.est
  have h : sqCosPair torchBackend { Ex.opts with loadDiag := none } Ex.ref Ex.est = _ := Ex.sqCosPair_value
  exact ⟨sd', sa', h', C32_loading_lowers_square_cosines (o := Ex.opts) (ld := none) (ld' := some 1) Ex.covered Ex.direct
    (by simp) (by norm_num) h h'⟩

/-! ### C33 -/

theorem prep_silent {est : Sig s e M} {m : BIdx s} {j : Fin e}
    (h : centred o.zeroMean (est m j) = 0) : prep o est m j = fun _ => 0 * 0 := by
  rw [prep_eq, h]
  funext t
  simp

theorem dot_silent (x : Fin N → ℝ) : dot x (fun _ => 0 * 0) = 0 := by simp [dot]

theorem vec_silent {n : ℕ} (hn : nFft N M = .ok n) (hL : 2 ≤ o.filterLength) {ref : Sig s r N} {est : Sig s e M}
    {m : BIdx s} {j : Fin e} (h : centred o.zeroMean (est m j) = 0) (k : Fin r) :
    vec (min o.filterLength n) (sdrXcorr o n ref est m k j) = 0 := by
  have F := fam_of_nFft (o := o) hn
  rw [vec_sdrXcorr F rfl (by omega), prep_silent h, F.g_smul 0, zero_smul]
  funext l
  exact inner_zero_right _

theorem sdrCohPair_silent {ref : Sig s r N} {est : Sig s e M} {coh}
    (h : sdrCohPair B o ref est = .ok coh) {m : BIdx s} {j : Fin e}
    (hj : centred o.zeroMean (est m j) = 0) (k : Fin r) : coh m k j = 0 := by
  by_cases h0 : o.filterLength = 0
  · rw [sdrCohPair_zero B h0] at h; cases h
  by_cases h1 : o.filterLength = 1
  · by_cases hNM : M = N
    case neg => rw [sdrCohPair_ne B h1 hNM] at h; cases h
    subst hNM
    simp only [sdrCohPair_def] at h
    rw [if_neg h0, if_pos h1] at h
    cases h
    show dot _ (prep o est m j) ^ 2 = 0
    rw [prep_silent hj, dot_silent]; norm_num
  cases hn : nFft N M with
  | error err => rw [sdrCohPair_gen B (by omega)] at h; unfold sdrCohPairGen at h; rw [hn] at h; cases h
  | ok n =>
    rw [sdrCohPair_unfold hn rfl (by omega)] at h
    split at h
    · cases h
    · cases h
      simp only [vec_silent hn (by omega : 2 ≤ o.filterLength) hj k]
      simp

theorem cohSar_silent {n : ℕ} (hn : nFft N M = .ok n) (hL : 2 ≤ o.filterLength) {ref : Sig s r N}
    {est : Sig s e M} {x0 sar} (h : cohSar B o n (min o.filterLength n) ref est x0 = .ok sar) {m : BIdx s}
    {j : Fin e} (hj : centred o.zeroMean (est m j) = 0) : sar m j = 0 := by
  unfold cohSar at h
  simp only at h
  split at h
  · cases h
  · cases h
    refine Finset.sum_eq_zero fun p _ => ?_
    unfold xcorrFlat
    rw [vec_silent hn hL hj p.2]
    simp

theorem cohSarOne_silent {ref : Sig s r N} {est : Sig s e N} {sar} (h : cohSarOne o ref est = .ok sar)
    {m : BIdx s} {j : Fin e} (hj : centred o.zeroMean (est m j) = 0) : sar m j = 0 := by
  unfold cohSarOne at h
  simp only at h
  split at h
  · cases h
  · cases h
    refine Finset.sum_eq_zero fun k _ => ?_
    rw [prep_silent hj, dot_silent, zero_mul]

theorem sqCosPair_silent {ref : Sig s r N} {est : Sig s e M} {sd sa}
    (h : sqCosPair B o ref est = .ok (sd, sa)) {m : BIdx s} {j : Fin e}
    (hj : centred o.zeroMean (est m j) = 0) (k : Fin r) : sd m k j = 0 ∧ sa m j = 0 := by
  refine ⟨sdrCohPair_silent (sqCosPair_sdr ref est h) hj k, ?_⟩
  by_cases h0 : o.filterLength = 0
  · rw [sqCosPair_zero B h0] at h; cases h
  by_cases h1 : o.filterLength = 1
  · by_cases hNM : M = N
    case neg => rw [sqCosPair_ne B h1 hNM] at h; cases h
    subst hNM
    simp only [sqCosPair_def] at h
    rw [if_neg h0, if_pos h1] at h
    split at h
    · cases h
    · rename_i sar hs
      cases h
      exact cohSarOne_silent hs hj
  cases hn : nFft N M with
  | error err => rw [sqCosPair_gen B (by omega)] at h; unfold sqCosPairGen at h; rw [hn] at h; cases h
  | ok n =>
    by_cases hLn : o.filterLength ≤ n
    · rw [sqCosPair_unfold hn rfl (by omega) hLn] at h
      split at h
      · cases h
      · split at h
        · cases h
        · rename_i hs
          cases h
          exact cohSar_silent hn (by omega) hs hj
    · rw [sqCosPair_too_long h1 hn (by omega)] at h
      cases h

theorem sqCosDiag_silent {ref : Sig s c N} {est : Sig s c M} {sd sa}
    (h : sqCosDiag B o ref est = .ok (sd, sa)) {m : BIdx s} {k : Fin c}
    (hk : centred o.zeroMean (est m k) = 0) : sd m k = 0 ∧ sa m k = 0 := by
  by_cases h0 : o.filterLength = 0
  · rw [sqCosDiag_zero B h0] at h; cases h
  by_cases h1 : o.filterLength = 1
  · by_cases hNM : M = N
    case neg => rw [sqCosDiag_ne B h1 hNM] at h; cases h
    subst hNM
    simp only [sqCosDiag_def] at h
    rw [if_neg h0, if_pos h1] at h
    split at h
    · cases h
    · rename_i sar hs
      cases h
      refine ⟨?_, cohSarOne_silent hs hk⟩
      show dot _ (prep o est m k) ^ 2 = 0
      rw [prep_silent hk, dot_silent]; norm_num
  cases hn : nFft N M with
  | error err => rw [sqCosDiag_gen B (by omega)] at h; unfold sqCosDiagGen at h; rw [hn] at h; cases h
  | ok n =>
    by_cases hLn : o.filterLength ≤ n
    · rw [sqCosDiag_unfold hn rfl (by omega) hLn] at h
      split at h
      · cases h
      · split at h
        · cases h
        · rename_i hs
          cases h
          refine ⟨?_, cohSar_silent hn (by omega) hs hk⟩
          simp only [vec_silent hn (by omega : 2 ≤ o.filterLength) hk k]
          simp
    · have hne := nFft_ne hn
      rw [sqCosDiag_gen B (by omega)] at h; unfold sqCosDiagGen at h
      rw [hn] at h
      simp only at h
      rw [if_pos (by omega)] at h
      cases h

theorem loss_zero (hcl : o.clampOk) : coherenceToNegSdr o.clampDb (fin 0) = (report o.clampDb ninf).neg := by
  rw [coherenceToNegSdr_report hcl, coherenceToNegSdr_fin, cclamp_none le_rfl zero_le_one,
    ← report_neg hcl]
  simp [negDb, neg]

/-- **C33.**  Any solver, any options: for a silent estimate `sdr_loss` reports an SDR of `-inf`
(`-clamp_db` with clamping) for every reference. -/
theorem C33_silent_sdr_loss (hcl : o.clampOk) {est : Sig s e M} {ref : Sig s r N} {L}
    (h : sdrLossPair B o est ref = .ok L) {m : BIdx s} {j : Fin e}
    (hj : centred o.zeroMean (est m j) = 0) (k : Fin r) : L m k j = (report o.clampDb ninf).neg := by
  obtain ⟨coh, hc, rfl⟩ := sdrLossPair_entry h
  beta_reduce
  rw [sdrCohPair_silent hc hj k, loss_zero hcl]

example : ∃ L, sdrLossPair torchBackend Ex.opts (fun _ => ![![2, 0, 1], 0] : Sig [] 2 3) Ex.ref = .ok L ∧
    ∀ m k, L m k 1 = pinf := by
  obtain ⟨L, h⟩ := (C34_sdr_loss (o := Ex.opts) Ex.covered rfl (by decide) Ex.load (by decide) Ex.fits
    (fun _ => ![![2, 0, 1], 0] : Sig [] 2 3) Ex.ref).2.2 Ex.ref_ne_zero
  exact ⟨L, h, fun m k => C33_silent_sdr_loss Ex.clampOk h (by simp [centred, Ex.opts]) k⟩

/-- **C33.**  Any solver, any options: for a silent estimate `bss_eval_sources` without permutation
returns SDR and SAR `-inf` (or `-clamp_db`) and the SIR NaN, even with `clamp_db` or `load_diag`. -/
theorem C33_silent_bss_eval_no_permutation (hcl : o.clampOk) {ref : Sig s c N} {est : Sig s c M} {out}
    (h : bssEvalNoPerm B o ref est = .ok out) {m : BIdx s} {k : Fin c}
    (hk : centred o.zeroMean (est m k) = 0) :
    out.sdr m k = report o.clampDb ninf ∧ out.sir m k = nan ∧ out.sar m k = report o.clampDb ninf := by
  unfold bssEvalNoPerm at h
  split at h
  · cases h
  · rename_i sd sa hs
    cases h
    obtain ⟨h1, h2⟩ := sqCosDiag_silent hs hk
    simp only [h1, h2, baseMetrics]
    refine ⟨?_, ?_, ?_⟩
    · rw [loss_zero hcl, neg_neg']
    · simp [XR.div, signInf, coherenceToNegSdr_nan, neg]
    · rw [loss_zero hcl, neg_neg']

example : ∃ out, bssEvalNoPerm torchBackend Ex.opts Ex.ref (fun _ => ![![2, 0, 1], 0] : Sig [] 2 3) = .ok out ∧
    ∀ m, out.sdr m 1 = ninf ∧ out.sir m 1 = nan ∧ out.sar m 1 = ninf := by
  obtain ⟨out, h⟩ := (C34_bss_eval_no_permutation (o := Ex.opts) Ex.covered Ex.direct (by decide) (Or.inr rfl) Ex.load
    (by decide) Ex.fits Ex.ref (fun _ => ![![2, 0, 1], 0] : Sig [] 2 3)).2.2 Ex.independent
  exact ⟨out, h, fun m => C33_silent_bss_eval_no_permutation Ex.clampOk h (by simp [centred, Ex.opts])⟩

/-- **C33.**  Any solver, any options: with a silent estimate `bss_eval_sources` with permutation
solving never returns. -/
theorem C33_silent_bss_eval (hB : Covered B) {ref : Sig s r N} {est : Sig s e M} {m : BIdx s} {j : Fin e}
    (hj : centred o.zeroMean (est m j) = 0) (hr : 0 < r) :
    ∃ err, bssEvalSources B o true ref est = .error err := by
  cases hb : bssEvalSources B o true ref est with
  | error err => exact ⟨err, rfl⟩
  | ok out =>
    exfalso
    unfold bssEvalSources at hb
    rw [if_pos rfl] at hb
    obtain ⟨sd, sa, p, hL, hp, -⟩ := bssEvalPerm_ok hb
    have := ((solvePermutation_ok_iff B hB.lsa _ _).1 ⟨p, hp⟩ m).no_nan ⟨0, hr⟩ j
    obtain ⟨h1, h2⟩ := sqCosPair_silent hL hj ⟨0, hr⟩
    refine this ?_
    show (baseMetrics _ _ _).2.1 = _
    simp [baseMetrics, h1, h2, XR.div, signInf, coherenceToNegSdr_nan]

example (cl : Option ℝ) : ∃ err, bssEvalSources torchBackend (Ex.clamped cl) true Ex.ref
    (fun _ => ![![2, 0, 1], 0] : Sig [] 2 3) = .error err :=
  C33_silent_bss_eval Ex.covered (m := ()) (j := 1) (by simp [centred, Ex.clamped, Ex.opts]) (by decide)

/-- **C33.**  For a single item (no batch dimensions) the exception is a `ValueError` whenever the
linear systems could be solved. -/
theorem C33_silent_bss_eval_valueError (hB : Covered B) {ref : Sig [] r N} {est : Sig [] e N} {p}
    (hs : sqCosPair B o ref est = .ok p) {m : BIdx []} {j : Fin e}
    (hj : centred o.zeroMean (est m j) = 0) (hr : 0 < r) :
    bssEvalSources B o true ref est = .error .valueError := by
  obtain ⟨sd, sa⟩ := p
  have hnan : negSir o sd sa m ⟨0, hr⟩ j = nan := by
    obtain ⟨h1, h2⟩ := sqCosPair_silent hs hj ⟨0, hr⟩
    show (baseMetrics _ _ _).2.1 = _
    simp [baseMetrics, h1, h2, XR.div, signInf, coherenceToNegSdr_nan]
  have hbad : ¬ Solvable (negSir o sd sa m) := fun h => h.no_nan _ _ hnan
  obtain ⟨pre, m', post, h1, h2, h3⟩ := exists_first (fun m => Solvable (negSir o sd sa m)) (ndindex [])
    ⟨m, mem_ndindex m, hbad⟩
  have herr := solvePermutation_err B hB.lsa (negSir o sd sa) ![negSdr o sd sa, negSar o sd sa] pre m' post
    h1 h2 h3
  have hm : m' = m := rfl
  have hi : itemErr B (negSir o sd sa m') = .valueError := by
    unfold itemErr
    rw [if_neg]
    rw [hm]
    rintro (h | h) <;> · have := h ⟨0, hr⟩ j; rw [hnan] at this; cases this
  rw [hi] at herr
  unfold bssEvalSources bssEvalPerm
  rw [if_pos rfl, hs]
  simp only
  unfold negSir negSdr negSar at herr
  rw [herr]

/-! ### concrete instances -/

-- both sides of C34: references with independent shifts, a silent reference, two equal references
example : ∃ L, sdrLossPair torchBackend Ex.opts Ex.est Ex.ref = .ok L :=
  (C34_sdr_loss Ex.covered rfl (by decide) Ex.load (by decide) Ex.fits _ _).2.2 Ex.ref_ne_zero

example : sdrLossPair torchBackend Ex.opts Ex.est (fun _ => ![0, ![1, 2, 3]]) = .error .linAlgError :=
  (C34_sdr_loss Ex.covered rfl (by decide) Ex.load (by decide) Ex.fits _ _).1.2
    ⟨(), 0, by simp [centred, Ex.opts]⟩

example : bssEvalSources torchBackend Ex.opts true (fun _ => ![![1, 2, 3], ![1, 2, 3]]) Ex.est =
    .error .linAlgError :=
  C34_duplicated_references Ex.covered Ex.direct (by decide) Ex.load (by decide) Ex.fits _ _ (m := ())
    (k := 0) (l := 1) (by decide) (a := 1) (by simp)

example : ∃ out, bssEvalNoPerm torchBackend Ex.opts Ex.ref Ex.est = .ok out :=
  (C34_bss_eval_no_permutation Ex.covered Ex.direct (by decide) (Or.inr rfl) Ex.load (by decide) Ex.fits
    _ _).2.2 Ex.independent

-- C32: silent and duplicated references with loading
example : ∃ L, sdrLossPair torchBackend { Ex.opts with loadDiag := some 1 } Ex.est (fun _ _ _ => 0 : Sig [] 2 3) =
    .ok L := C32_loaded_sdr_loss (o := { Ex.opts with loadDiag := some 1 }) Ex.covered Ex.direct (by decide) (by norm_num [Opts.load]) (by decide) (fun _ => rfl) _ _

example : ∃ L L', sdrLossPair torchBackend Ex.opts Ex.est Ex.ref = .ok L ∧
    sdrLossPair torchBackend { Ex.opts with loadDiag := some 1 } Ex.est Ex.ref = .ok L' ∧
    ∀ m k j, toEReal (L m k j) ≤ toEReal (L' m k j) := by
  obtain ⟨L, h⟩ := Ex.sdrLossPair_ok
  obtain ⟨L', h'⟩ := C32_loaded_sdr_loss (o := { Ex.opts with loadDiag := some 1 }) Ex.covered Ex.direct
    (by decide) (by norm_num [Opts.load]) (by decide) (fun _ => rfl) Ex.est Ex.ref
  exact ⟨L, L', h, h', C32_loading_lowers_sdr (o := Ex.opts) (ld := none) (ld' := some 1) Ex.covered Ex.direct
    (by simp) (by norm_num) h h'⟩

-- C33: a silent estimate next to references with independent shifts
example : bssEvalSources torchBackend { Ex.opts with clampDb := some 30 } true Ex.ref
    (fun _ => ![![2, 0, 1], 0] : Sig [] 2 3) = .error .valueError := by
  obtain ⟨p, hp⟩ : ∃ p, sqCosPair torchBackend { Ex.opts with clampDb := some 30 } Ex.ref
      (fun _ => ![![2, 0, 1], 0] : Sig [] 2 3) = .ok p := by
    rcases sqCosPair_success (o := { Ex.opts with clampDb := some 30 }) Ex.covered Ex.direct (by decide)
      Ex.load (by decide) Ex.fits Ex.ref (fun _ => ![![2, 0, 1], 0] : Sig [] 2 3) with h | ⟨-, m, h⟩
    · exact h.1
    · exact absurd (Ex.independent m) h
  exact C33_silent_bss_eval_valueError Ex.covered hp (m := ()) (j := 1)
    (by simp [centred, Ex.opts]) (by decide)

end FBE.Props
