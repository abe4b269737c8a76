import Verif.Proofs.Lengths
import Verif.Proofs.Example

/-!
# C53: references and estimates of different lengths

With filters of at least two taps nothing checks that references and estimates have the same number of
samples.  Here is what is computed: the shorter signals are silently followed by zeros.  The
scale-invariant functions reject such signals.
-/

set_option linter.unusedSectionVars false

namespace FBE.Props

open Spec XR Matrix

variable {s : List ℕ} {r e c N M : ℕ} {B : Backend} {o : Opts}

/-- Which lengths the theorem covers. -/
def Lengths (N M L : ℕ) : Prop := M ≤ N ∨ 0 < N ∧ FilterFits₂ N M L

theorem sameOpts : SameOpts o { o with zeroMean := false } := ⟨rfl, rfl, rfl, rfl⟩

theorem stats_extended (hB : Covered B) (hL : 2 ≤ o.filterLength) (h : Lengths N M o.filterLength) (ref : Sig s r N)
    (est : Sig s e M) :
    (∃ err, nFft N M = .error err ∧ nFft (max N M) = .error err) ∨
    ∃ n n' K, nFft N M = .ok n ∧ nFft (max N M) = .ok n' ∧ min o.filterLength n = K ∧ min o.filterLength n' = K ∧
      sdrAcf { o with zeroMean := false } n' (extended o.zeroMean (max N M) ref) = sdrAcf o n ref ∧
      (∀ m k j, vec K (sdrXcorr { o with zeroMean := false } n' (extended o.zeroMean (max N M) ref)
        (extended o.zeroMean (max N M) est) m k j) = vec K (sdrXcorr o n ref est m k j)) ∧
      bssAcfSdr { o with zeroMean := false } n' (extended o.zeroMean (max N M) ref) = bssAcfSdr o n ref ∧
      (min o.filterLength (K + K) = K → ∀ xc x0 : BIdx s → Fin e → Fin K × Fin r → ℝ,
        solAll B o.useCgIter K (bssAcf { o with zeroMean := false } n' (extended o.zeroMean (max N M) ref)) xc x0 =
          solAll B o.useCgIter K (bssAcf o n ref) xc x0) := by
  have ho : SameOpts o { o with zeroMean := false } := sameOpts
  have hz : ({ o with zeroMean := false } : Opts).zeroMean = false := rfl
  have hN : N ≤ max N M := le_max_left _ _
  have hM : M ≤ max N M := le_max_right _ _
  have eA := fun n => sdrAcf_extended ho hz n hN ref
  have eX := fun n => sdrXcorr_extended ho hz n hN hM ref est
  have eS := fun n => bssAcfSdr_extended ho hz n hN ref
  have eB := fun n => bssAcf_extended ho hz n hN ref
  have short := prep_short (o := o) hz hN ref
  generalize hR : extended o.zeroMean (max N M) ref = R at eA eX eS eB short
  generalize hE : extended o.zeroMean (max N M) est = E at eX
  rcases h with h | ⟨h0, hfit⟩
  · have hT : nFft (max N M) = nFft N M := by
      unfold nFft
      rw [max_self, max_eq_left h]
    cases hn : nFft N M with
    | error err => exact Or.inl ⟨err, rfl, by rw [hT, hn]⟩
    | ok n =>
      exact Or.inr ⟨n, n, _, rfl, by rw [hT, hn], rfl, rfl, eA n, fun m k j => by rw [eX], eS n,
        fun _ xc x0 => by rw [eB]⟩
  · unfold FilterFits₂ at hfit
    have hn : nFft N M = .ok (2 ^ Nat.clog 2 (N + max N M - 1)) := by
      unfold nFft
      rw [if_neg (by omega)]
    have hn' : nFft (max N M) = .ok (2 ^ Nat.clog 2 (max N M + max N M - 1)) := by
      rw [nFft_def, if_neg (by omega)]
    have hnn : 2 ^ Nat.clog 2 (N + max N M - 1) ≤ 2 ^ Nat.clog 2 (max N M + max N M - 1) :=
      Nat.pow_le_pow_right (by norm_num) (Nat.clog_mono_right 2 (by omega))
    have hle : N + max N M - 1 ≤ 2 ^ Nat.clog 2 (N + max N M - 1) := Nat.le_pow_clog (by norm_num) _
    generalize 2 ^ Nat.clog 2 (N + max N M - 1) = n at *
    generalize 2 ^ Nat.clog 2 (max N M + max N M - 1) = n' at *
    have hNn : N ≤ n := by omega
    have hTn : max N M ≤ n := by omega
    have hn0 : n ≠ 0 := by omega
    have hKn : o.filterLength ≤ n := by omega
    have eN : o.filterLength = ({ o with zeroMean := false } : Opts).filterLength := rfl
    have sA := sdrAcf_size (o := { o with zeroMean := false }) short hNn hTn hn0 hnn rfl hfit hKn hL
    have sX := sdrXcorr_size (o := { o with zeroMean := false }) (est := E) short hNn hTn hn0 hnn rfl hfit hKn hL
    have sB := bssAcf_size (o := { o with zeroMean := false }) short hNn hTn hn0 hnn rfl hfit hKn hL
    have sS := bssAcfSdr_size (o := { o with zeroMean := false }) short hNn hTn hn0 hnn rfl hfit hKn hL
    refine Or.inr ⟨n, n', o.filterLength, hn, hn', by omega, by omega, by rw [sA, eA], fun m k j => ?_, by rw [sS, eS],
      fun _ xc x0 => ?_⟩
    · exact (sX m k j).trans (by rw [eX])
    · rw [← eB]
      exact solAll_congr hB o.useCgIter hL sB xc x0

theorem coh_extended (hB : Covered B) (h1 : o.filterLength ≠ 1) (h : Lengths N M o.filterLength) (ref : Sig s r N)
    (est : Sig s e M) :
    sdrCohPair B { o with zeroMean := false } (extended o.zeroMean (max N M) ref) (extended o.zeroMean (max N M) est) =
      sdrCohPair B o ref est ∧
    sqCosPair B { o with zeroMean := false } (extended o.zeroMean (max N M) ref) (extended o.zeroMean (max N M) est) =
      sqCosPair B o ref est := by
  by_cases h0 : o.filterLength = 0
  · unfold sdrCohPair sqCosPair
    simp only
    rw [if_pos h0, if_pos h0, if_pos h0, if_pos h0]
    exact ⟨rfl, rfl⟩
  have e1 : sdrCohPair B { o with zeroMean := false } (extended o.zeroMean (max N M) ref)
      (extended o.zeroMean (max N M) est) = sdrCohPairGen B { o with zeroMean := false }
        (extended o.zeroMean (max N M) ref) (extended o.zeroMean (max N M) est) := by
    unfold sdrCohPair; rw [if_neg h0, if_neg h1]
  have e2 : sqCosPair B { o with zeroMean := false } (extended o.zeroMean (max N M) ref)
      (extended o.zeroMean (max N M) est) = sqCosPairGen B { o with zeroMean := false }
        (extended o.zeroMean (max N M) ref) (extended o.zeroMean (max N M) est) := by
    unfold sqCosPair; rw [if_neg h0, if_neg h1]
  have e3 : sdrCohPair B o ref est = sdrCohPairGen B o ref est := by
    unfold sdrCohPair; rw [if_neg h0, if_neg h1]
  have e4 : sqCosPair B o ref est = sqCosPairGen B o ref est := by
    unfold sqCosPair; rw [if_neg h0, if_neg h1]
  rw [e1, e2, e3, e4]
  rcases stats_extended hB (by omega) h ref est with ⟨err, hn, hn'⟩ | ⟨n, n', K, hn, hn', hK, hK', hA, hX, hS, hs⟩
  · unfold sdrCohPairGen sqCosPairGen
    rw [hn, hn']
    exact ⟨rfl, rfl⟩
  · exact ⟨sdrCohPairGen_congr sameOpts hn hn' hK hK' hA hX, sqCosPairGen_congr sameOpts hn hn' hK hK' hS hs hX⟩

theorem coh_extended_aligned (hB : Covered B) (h1 : o.filterLength ≠ 1) (h : Lengths N M o.filterLength)
    (ref : Sig s c N) (est : Sig s c M) :
    sdrCohDiag B { o with zeroMean := false } (extended o.zeroMean (max N M) ref) (extended o.zeroMean (max N M) est) =
      sdrCohDiag B o ref est ∧
    sqCosDiag B { o with zeroMean := false } (extended o.zeroMean (max N M) ref) (extended o.zeroMean (max N M) est) =
      sqCosDiag B o ref est := by
  by_cases h0 : o.filterLength = 0
  · unfold sdrCohDiag sqCosDiag
    simp only
    rw [if_pos h0, if_pos h0, if_pos h0, if_pos h0]
    exact ⟨rfl, rfl⟩
  have e1 : sdrCohDiag B { o with zeroMean := false } (extended o.zeroMean (max N M) ref)
      (extended o.zeroMean (max N M) est) = sdrCohDiagGen B { o with zeroMean := false }
        (extended o.zeroMean (max N M) ref) (extended o.zeroMean (max N M) est) := by
    unfold sdrCohDiag; rw [if_neg h0, if_neg h1]
  have e2 : sqCosDiag B { o with zeroMean := false } (extended o.zeroMean (max N M) ref)
      (extended o.zeroMean (max N M) est) = sqCosDiagGen B { o with zeroMean := false }
        (extended o.zeroMean (max N M) ref) (extended o.zeroMean (max N M) est) := by
    unfold sqCosDiag; rw [if_neg h0, if_neg h1]
  have e3 : sdrCohDiag B o ref est = sdrCohDiagGen B o ref est := by
    unfold sdrCohDiag; rw [if_neg h0, if_neg h1]
  have e4 : sqCosDiag B o ref est = sqCosDiagGen B o ref est := by
    unfold sqCosDiag; rw [if_neg h0, if_neg h1]
  rw [e1, e2, e3, e4]
  rcases stats_extended hB (by omega) h ref est with ⟨err, hn, hn'⟩ | ⟨n, n', K, hn, hn', hK, hK', hA, hX, hS, hs⟩
  · unfold sdrCohDiagGen sqCosDiagGen
    rw [hn, hn']
    exact ⟨rfl, rfl⟩
  · exact ⟨sdrCohDiagGen_congr sameOpts hn hn' hK hK' hA hX, sqCosDiagGen_congr sameOpts hn hn' hK hK' hS hs hX⟩

/-! ### filters of at least two taps -/

/-- **C53.**  References of `N` and estimates of `M` samples, filters of at least two taps.  Estimates not
longer than the references: every function returns what it returns after extending the estimates by
zeros (after the removal of the means, if asked for).  Estimates longer than the references: the same
for extended references, if the filters fit into the transform. -/
theorem C53_extended (hB : Covered B) (h1 : o.filterLength ≠ 1) (h : M ≤ N ∨ 0 < N ∧ FilterFits₂ N M o.filterLength)
    (ref : Sig s r N) (est : Sig s e M) :
    SameFiltered B o { o with zeroMean := false } ref est (extended o.zeroMean (max N M) ref)
      (extended o.zeroMean (max N M) est) := by
  obtain ⟨e1, e2⟩ := coh_extended hB h1 h ref est
  have el : sdrLossPair B { o with zeroMean := false } (extended o.zeroMean (max N M) est)
      (extended o.zeroMean (max N M) ref) = sdrLossPair B o est ref := by
    unfold sdrLossPair
    rw [e1]
  have es : ∀ rp cs, sdr B { o with zeroMean := false } rp cs (extended o.zeroMean (max N M) ref)
      (extended o.zeroMean (max N M) est) = sdr B o rp cs ref est := by
    intro rp cs
    unfold sdr
    rw [el]
  refine ⟨el, el, es, es _ _, fun cp => ?_⟩
  unfold bssEvalSources
  split
  · unfold bssEvalPerm
    rw [e2]
  split
  · rfl
  · have := (coh_extended_aligned hB h1 h (fun m k => ref m (k.castLE (min_le_left r e)))
      (fun m k => est m (k.castLE (min_le_right r e)))).2
    unfold bssEvalNoPerm
    rw [← this]
    rfl

/-- **C53.**  The same for `sdr_loss` with `pairwise=False`. -/
theorem C53_extended_aligned (hB : Covered B) (h1 : o.filterLength ≠ 1)
    (h : M ≤ N ∨ 0 < N ∧ FilterFits₂ N M o.filterLength) (ref : Sig s c N) (est : Sig s c M) :
    sdrLossDiag B { o with zeroMean := false } (extended o.zeroMean (max N M) est) (extended o.zeroMean (max N M) ref) =
      sdrLossDiag B o est ref := by
  unfold sdrLossDiag
  rw [(coh_extended_aligned hB h1 h ref est).1]

-- estimates of two samples with references of three, and the other way round
example : sdrLossDiag torchBackend Ex.opts (extended false 3 (fun _ _ => ![1, 2] : Sig [] 2 2)) (extended false 3 Ex.ref) =
    sdrLossDiag torchBackend Ex.opts (fun _ _ => ![1, 2] : Sig [] 2 2) Ex.ref :=
  C53_extended_aligned (o := Ex.opts) Ex.covered (by decide) (Or.inl (by decide)) Ex.ref _

example : sdrLossDiag torchBackend Ex.opts (extended false 3 Ex.est) (extended false 3 (fun _ _ => ![1, 2] : Sig [] 2 2)) =
    sdrLossDiag torchBackend Ex.opts Ex.est (fun _ _ => ![1, 2] : Sig [] 2 2) :=
  C53_extended_aligned (o := Ex.opts) Ex.covered (by decide) (Or.inr ⟨by decide, by
    show 2 + 2 ≤ 2 ^ Nat.clog 2 4 + 1
    decide⟩) _ Ex.est

/-- Three samples of reference, two of the estimates, filters of two taps: `sdr_loss` returns. -/
example : ∃ L, sdrLossPair torchBackend Ex.opts (fun _ _ _ => 1 : Sig [] 2 2) Ex.ref = .ok L := by
  have h := (C53_extended (B := torchBackend) (o := Ex.opts) Ex.covered (by decide) (Or.inl (by decide)) Ex.ref
    (fun _ _ _ => 1 : Sig [] 2 2)).sdr_loss
  rw [← h]
  have e : extended Ex.opts.zeroMean (max 3 2) Ex.ref = Ex.ref := by
    funext m k t
    show zpad (cen Ex.opts Ex.ref m k) t = _
    rw [Ex.cen_eq]
    exact zpad_val (Ex.ref m k) t
  rw [e]
  unfold sdrLossPair
  rcases sdrCohPair_success (o := Ex.opts) Ex.covered rfl (by decide) Ex.load (by decide) Ex.fits Ex.ref
    (extended Ex.opts.zeroMean (max 3 2) (fun _ _ _ => 1 : Sig [] 2 2)) with h | ⟨-, m, k, h⟩
  · obtain ⟨coh, hc⟩ := h.1
    exact ⟨_, by rw [show ({ Ex.opts with zeroMean := false } : Opts) = Ex.opts from rfl, hc]⟩
  · exact absurd h (Ex.ref_ne_zero m k)

/-- Two samples of reference, three of the estimates. -/
example : 0 < 2 ∧ FilterFits₂ 2 3 Ex.opts.filterLength := ⟨by norm_num, by
  show 2 + 2 ≤ 2 ^ Nat.clog 2 4 + 1
  decide⟩

/-! ### filters of one tap -/

theorem sameLength_error (h : M ≠ N) (hM : M ≠ 1) (hN : N ≠ 1) (x : Sig s c M) :
    sameLength B N x = .error B.shapeErr := by
  unfold sameLength
  rw [dif_neg h, if_neg (by tauto)]

theorem siRejects (h : M ≠ N) (hM : M ≠ 1) (hN : N ≠ 1) (ref : Sig s r N) (est : Sig s e M) :
    SiRejects B B.shapeErr ref est := by
  have hl : ∀ zm cl, siSdrLossPair B zm cl est ref = .error B.shapeErr := by
    intro zm cl
    unfold siSdrLossPair sdrLossPair sdrCohPair siOpts
    rw [if_neg (by simp), if_pos rfl, sameLength_error h hM hN]
    rfl
  have hs : ∀ zm cl rp cs, siSdr B zm cl rp cs ref est = .error B.shapeErr := by
    intro zm cl rp cs
    unfold siSdr sdr
    rw [show sdrLossPair B (siOpts zm cl none) est ref = .error B.shapeErr from hl zm cl]
  refine ⟨hl, hl, hs, fun zm cl => hs zm cl _ _, fun zm cl cp ld hcp => ?_⟩
  unfold siBssEvalSources bssEvalSources siOpts
  split
  · unfold bssEvalPerm sqCosPair
    rw [if_neg (by simp), if_pos rfl, sameLength_error h hM hN]
  · rename_i hc
    rw [if_neg (by tauto)]
    unfold bssEvalNoPerm sqCosDiag
    rw [if_neg (by simp), if_pos rfl, sameLength_error h hM hN]

/-- **C53.**  The scale-invariant functions reject references and estimates of different lengths (neither of
one sample): `RuntimeError` from torch, `ValueError` from numpy. -/
theorem C53_scale_invariant (h : M ≠ N) (hM : M ≠ 1) (hN : N ≠ 1) (ref : Sig s r N) (est : Sig s e M) :
    SiRejects torchBackend .runtimeError ref est ∧
      ∀ lsa numpy2, SiRejects (numpyBackend lsa numpy2) .valueError ref est :=
  ⟨siRejects h hM hN ref est, fun _ _ => siRejects h hM hN ref est⟩

/-- ... and so does `si_sdr_loss` with `pairwise=False`. -/
theorem C53_scale_invariant_aligned (h : M ≠ N) (hM : M ≠ 1) (hN : N ≠ 1) (ref : Sig s c N) (est : Sig s c M)
    (zm : Bool) (cl : Option ℝ) : siSdrLossDiag torchBackend zm cl est ref = .error .runtimeError ∧
      ∀ lsa numpy2, siSdrLossDiag (numpyBackend lsa numpy2) zm cl est ref = .error .valueError := by
  have key : ∀ B : Backend, siSdrLossDiag B zm cl est ref = .error B.shapeErr := by
    intro B
    unfold siSdrLossDiag sdrLossDiag sdrCohDiag siOpts
    rw [if_neg (by simp), if_pos rfl, sameLength_error h hM hN]
    rfl
  exact ⟨key _, fun _ _ => key _⟩

example : siSdrLossDiag torchBackend true none (fun _ _ => ![1, 2] : Sig [] 2 2) Ex.ref = .error .runtimeError :=
  (C53_scale_invariant_aligned (by decide) (by decide) (by decide) _ _ _ _).1

example : 2 ≠ 3 ∧ 2 ≠ 1 ∧ 3 ≠ 1 := by decide

end FBE.Props
