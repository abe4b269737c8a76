import Verif.Proofs.Success
import Verif.Proofs.Lengths

/-!
# Filters that are too long for the transform or for the number of samples
-/

set_option linter.unusedSectionVars false

namespace FBE

open Spec Matrix Module

variable {s : List ℕ} {r e c N M n K : ℕ} {B : Backend} {o : Opts}

/-! ### as many vectors as dimensions -/

theorem quad_full {J : Type*} [Fintype J] [DecidableEq J] {D : ℕ} (v : J → Space D) (hJ : D ≤ Fintype.card J)
    (h : (gramD v 0).det ≠ 0) (y : Space D) : quad v 0 y = ‖y‖ ^ 2 := by
  have h' : (gram ℝ v).det ≠ 0 := by rwa [gramD_zero] at h
  have hli : LinearIndependent ℝ v := Matrix.det_gram_ne_zero_iff_linearIndependent.1 h'
  have hc : Fintype.card J = finrank ℝ (Space D) := by
    refine le_antisymm hli.fintype_card_le_finrank ?_
    simpa using hJ
  have htop : famSpan v = ⊤ := hli.span_eq_top_of_card_eq_finrank' hc
  rw [quad_eq_proj v y h', htop, Submodule.starProjection_eq_self_iff.2 Submodule.mem_top]

theorem singular_of_card {J : Type*} [Fintype J] [DecidableEq J] {D : ℕ} (v : J → Space D) (hJ : D < Fintype.card J) :
    (gramD v 0).det = 0 := by
  by_contra h
  have h' : (gram ℝ v).det ≠ 0 := by rwa [gramD_zero] at h
  have hli : LinearIndependent ℝ v := Matrix.det_gram_ne_zero_iff_linearIndependent.1 h'
  have := hli.fintype_card_le_finrank
  rw [finrank_euclideanSpace_fin] at this
  omega

/-! ### filters longer than the transform -/

theorem nFft_transform (h : 1 < N + max N M) : nFft N M = .ok (transformSize N M) := by
  unfold nFft transformSize
  rw [if_neg (by omega)]

theorem sdrAcf_long {L : ℕ} (hL : n ≤ L) (ref : Sig s r N) :
    sdrAcf { o with filterLength := L } n ref = sdrAcf { o with filterLength := n } n ref := by
  funext m k
  unfold sdrAcf acf1
  rw [pySlice_take, pySlice_take, List.take_of_length_le (by simpa [irfft] using hL),
    List.take_of_length_le (by simp [irfft])]
  rfl

theorem sdrXcorr_long {L : ℕ} (hL : n ≤ L) (ref : Sig s r N) (est : Sig s e M) :
    sdrXcorr { o with filterLength := L } n ref est = sdrXcorr { o with filterLength := n } n ref est := by
  funext m k j
  unfold sdrXcorr xcorr1
  rw [pySlice_take, pySlice_take, List.take_of_length_le (by simpa [irfft] using hL),
    List.take_of_length_le (by simp [irfft])]
  rfl

theorem sdrCohPairGen_long {L : ℕ} (hn : nFft N M = .ok n) (hL : n ≤ L) (ref : Sig s r N) (est : Sig s e M) :
    sdrCohPairGen B { o with filterLength := L } ref est = sdrCohPairGen B { o with filterLength := n } ref est := by
  rw [sdrCohPairGen_unfold (o := { o with filterLength := L }) (K := n) hn (by exact min_eq_right hL),
    sdrCohPairGen_unfold (o := { o with filterLength := n }) (K := n) hn (by exact min_self n), sdrAcf_long hL,
    sdrXcorr_long hL]

theorem sdrCohDiagGen_long {L : ℕ} (hn : nFft N M = .ok n) (hL : n ≤ L) (ref : Sig s c N) (est : Sig s c M) :
    sdrCohDiagGen B { o with filterLength := L } ref est = sdrCohDiagGen B { o with filterLength := n } ref est := by
  rw [sdrCohDiagGen_unfold (o := { o with filterLength := L }) (K := n) hn (by exact min_eq_right hL),
    sdrCohDiagGen_unfold (o := { o with filterLength := n }) (K := n) hn (by exact min_self n), sdrAcf_long hL,
    sdrXcorr_long hL]

theorem sdrCohPair_long {L L' : ℕ} (h2 : 2 ≤ L) (h2' : 2 ≤ L') (hL : ∀ n, nFft N M = .ok n → n ≤ L ∧ n ≤ L')
    (ref : Sig s r N) (est : Sig s e M) :
    sdrCohPair B { o with filterLength := L' } ref est = sdrCohPair B { o with filterLength := L } ref est := by
  unfold sdrCohPair
  rw [if_neg (by show L' ≠ 0; omega), if_neg (by show L' ≠ 1; omega), if_neg (by show L ≠ 0; omega),
    if_neg (by show L ≠ 1; omega)]
  cases hn : nFft N M with
  | error err => unfold sdrCohPairGen; rw [hn]
  | ok n => rw [sdrCohPairGen_long hn (hL n hn).1, sdrCohPairGen_long hn (hL n hn).2]

theorem sdrCohDiag_long {L L' : ℕ} (h2 : 2 ≤ L) (h2' : 2 ≤ L') (hL : ∀ n, nFft N M = .ok n → n ≤ L ∧ n ≤ L')
    (ref : Sig s c N) (est : Sig s c M) :
    sdrCohDiag B { o with filterLength := L' } ref est = sdrCohDiag B { o with filterLength := L } ref est := by
  unfold sdrCohDiag
  rw [if_neg (by show L' ≠ 0; omega), if_neg (by show L' ≠ 1; omega), if_neg (by show L ≠ 0; omega),
    if_neg (by show L ≠ 1; omega)]
  cases hn : nFft N M with
  | error err => unfold sdrCohDiagGen; rw [hn]
  | ok n => rw [sdrCohDiagGen_long hn (hL n hn).1, sdrCohDiagGen_long hn (hL n hn).2]

/-- The cyclic shifts fill the space: every coherence is the energy of the (normalised) estimate. -/
theorem sdrCohPair_full (hB : Covered B) (hcg : o.useCgIter = none) (hload : o.load = 0) (hL : 2 ≤ o.filterLength)
    (hn : nFft N = .ok n) (hLn : n ≤ o.filterLength) (ref : Sig s r N) (est : Sig s e N) {coh}
    (h : sdrCohPair B o ref est = .ok coh) (m : BIdx s) (k : Fin r) (j : Fin e) :
    coh m k j = ∑ t, prep o est m j t ^ 2 := by
  have F := fam_of_nFft (o := o) hn
  rw [sdrCohPair_direct hn rfl hL F hB hcg] at h
  split at h
  · cases h
  rename_i hs
  push Not at hs
  have hs := hs (m, k)
  unfold SingularOne at hs
  rw [hload] at hs
  cases h
  beta_reduce
  rw [hload, quad_full _ _ hs, F.g_sq (nFft_le hn)]
  rw [Fintype.card_fin, min_eq_right hLn]

theorem loss_full {cl : Option ℝ} (hcl : ∀ d, cl = some d → 0 ≤ d) :
    coherenceToNegSdr cl (.fin 1) = (report cl .pinf).neg := by
  have := loss_eq hcl (a := 1) (b := 0) (E := 1) (c := 1) one_pos zero_le_one le_rfl (by norm_num) (by norm_num)
  rw [this]
  congr 2
  unfold dbRatio
  rw [if_pos rfl, if_neg one_ne_zero]

/-! ### more unknowns than samples -/

theorem independentShifts_card {L : ℕ} {x : Fin r → Fin N → ℝ} (h : IndependentShifts L x) : r * L ≤ N + L - 1 := by
  have := LinearIndependent.fintype_card_le_finrank h
  rw [finrank_euclideanSpace_fin, Fintype.card_prod, Fintype.card_fin, Fintype.card_fin] at this
  rw [mul_comm]
  exact this

theorem spanAll_top {L : ℕ} {x : Fin r → Fin N → ℝ} (h : IndependentShifts L x) (hc : N + L - 1 ≤ r * L) :
    spanAll (N + L - 1) L x = ⊤ := by
  refine LinearIndependent.span_eq_top_of_card_eq_finrank' h ?_
  rw [finrank_euclideanSpace_fin, Fintype.card_prod, Fintype.card_fin, Fintype.card_fin, mul_comm]
  have := independentShifts_card h
  omega

theorem sqCosPair_not_fit (hB : Covered B) (hdir : o.direct) (hload : o.load = 0) (hL : 1 ≤ o.filterLength)
    (hn : nFft N = .ok n) (hLn : o.filterLength ≤ n) (hfit : ¬ FilterFits N o.filterLength)
    (hfew : N + o.filterLength - 1 ≤ r * o.filterLength) [hne : Nonempty (BIdx s)] (ref : Sig s r N) (est : Sig s e N) :
    sqCosPair B o ref est = .error .linAlgError := by
  have hn' : n = 2 ^ Nat.clog 2 (2 * N - 1) := by
    rw [nFft_def] at hn
    split at hn
    · cases hn
    · cases hn
      rw [two_mul]
  unfold FilterFits at hfit
  rw [← hn'] at hfit
  have hN := nFft_le hn
  have h1 : o.filterLength ≠ 1 := by omega
  have F := fam_of_nFft (o := o) hn
  rw [sqCosPair_direct hn rfl (by omega) F hLn hB (hdir.resolve_left h1)]
  obtain ⟨m⟩ := hne
  refine if_pos (Or.inr ⟨m, ?_⟩)
  unfold SingularAll
  rw [hload]
  apply singular_of_card
  rw [Fintype.card_prod, Fintype.card_fin, Fintype.card_fin, min_eq_left hLn, mul_comm]
  omega

theorem sqCosPair_few (hB : Covered B) (hdir : o.direct) (hload : o.load = 0) (hL : 1 ≤ o.filterLength)
    (hn : nFft N = .ok n) (hLn : o.filterLength ≤ n) (hfew : N + o.filterLength - 1 < r * o.filterLength)
    [hne : Nonempty (BIdx s)] (ref : Sig s r N) (est : Sig s e N) :
    sqCosPair B o ref est = .error .linAlgError := by
  by_cases hfit : FilterFits N o.filterLength
  · have hN : 0 < N := by
      rcases Nat.eq_zero_or_pos N with rfl | h
      · cases hn
      · exact h
    rcases sqCosPair_success hB hdir hL hload hN hfit ref est with ⟨-, h⟩ | ⟨h, -⟩
    · obtain ⟨m⟩ := hne
      have := independentShifts_card (h m)
      omega
    · exact h
  · exact sqCosPair_not_fit hB hdir hload hL hn hLn hfit hfew.le ref est

end FBE
