import Verif.Model.NoLength
import Verif.Proofs.LongFilter
import Verif.Proofs.Example
import Verif.Props.C01_C04_Documented
import Verif.Props.C11_C17_Permutation
import Verif.Props.C32_C34_Failures

/-!
# C54–C56: the choice of `filter_length`

C54: filters longer than the transform.  C55: more filter taps than samples.  C56: `filter_length=None`.
-/

set_option linter.unusedSectionVars false

namespace FBE.Props

open Spec XR Matrix

variable {s : List ℕ} {r e c N M : ℕ} {B : Backend} {o : Opts}

/-! ### C54: filters longer than the transform -/

theorem long_of_transform {L L' : ℕ} (hL : transformSize N M ≤ L) (hL' : transformSize N M ≤ L') (n : ℕ)
    (hn : nFft N M = .ok n) : n ≤ L ∧ n ≤ L' := by
  unfold nFft at hn
  split at hn
  · cases hn
  · cases hn
    exact ⟨hL, hL'⟩

/-- **C54.**  All filter lengths that are at least the size of the transform (and at least two) give the
same results in the functions for the SDR; any solver, signals of any lengths. -/
theorem C54_saturates {L L' : ℕ} (h2 : 2 ≤ L) (h2' : 2 ≤ L') (hL : transformSize N M ≤ L)
    (hL' : transformSize N M ≤ L') (ref : Sig s r N) (est : Sig s e M) :
    SameSdr B { o with filterLength := L } { o with filterLength := L' } ref est := by
  have hl : sdrLossPair B { o with filterLength := L' } est ref = sdrLossPair B { o with filterLength := L } est ref := by
    unfold sdrLossPair
    rw [sdrCohPair_long h2 h2' (long_of_transform hL hL')]
  have hs : ∀ rp cs, sdr B { o with filterLength := L' } rp cs ref est = sdr B { o with filterLength := L } rp cs ref est := by
    intro rp cs
    unfold sdr
    rw [hl]
  exact ⟨hl, hl, hs, hs _ _⟩

/-- **C54.**  The same for `sdr_loss` with `pairwise=False`. -/
theorem C54_saturates_aligned {L L' : ℕ} (h2 : 2 ≤ L) (h2' : 2 ≤ L') (hL : transformSize N M ≤ L)
    (hL' : transformSize N M ≤ L') (ref : Sig s c N) (est : Sig s c M) :
    sdrLossDiag B { o with filterLength := L' } est ref = sdrLossDiag B { o with filterLength := L } est ref := by
  unfold sdrLossDiag
  rw [sdrCohDiag_long h2 h2' (long_of_transform hL hL')]

-- three samples: a transform of eight points
example (ref est : Sig [] 2 3) : SameSdr torchBackend { filterLength := 8 } { filterLength := 512 } ref est :=
  C54_saturates (o := {}) (by norm_num) (by norm_num) (by decide) (by decide) ref est

example (ref est : Sig [] 2 3) :
    sdrLossDiag torchBackend { filterLength := 512 } est ref = sdrLossDiag torchBackend { filterLength := 8 } est ref :=
  C54_saturates_aligned (o := {}) (by norm_num) (by norm_num) (by decide) (by decide) ref est

/-- **C54.**  Direct solver, no loading, filters at least as long as the transform: whenever `sdr_loss`
returns, every estimate that is not too quiet is reported as perfect (SDR `+inf`, or `clamp_db`) for
every reference, whatever the signals are. -/
theorem C54_everything_perfect (hB : Covered B) (hcg : o.useCgIter = none) (hload : o.load = 0) (hcl : o.clampOk)
    (hL : 2 ≤ o.filterLength) (hlong : transformSize N N ≤ o.filterLength) {est : Sig s e N} {ref : Sig s r N} {L}
    (h : sdrLossPair B o est ref = .ok L) (m : BIdx s) (k : Fin r) (j : Fin e)
    (hest : Audible (centred o.zeroMean (est m j))) : L m k j = (report o.clampDb pinf).neg := by
  obtain ⟨coh, hc, rfl⟩ := sdrLossPair_entry h
  obtain ⟨n, hn⟩ := nFft_of_coh hL hc
  have hle : n ≤ o.filterLength := (long_of_transform hlong hlong n hn).1
  beta_reduce
  rw [sdrCohPair_full hB hcg hload hL hn hle ref est hc m k j, prep_sq_eq o est m j hest]
  exact loss_full hcl

/-- **C54.**  The same with `pairwise=False` (unless numpy ≥ 2 rejects the call, C43). -/
theorem C54_everything_perfect_aligned (hB : Covered B) (hsv : B.stackedVectors = true) (hcg : o.useCgIter = none)
    (hload : o.load = 0) (hcl : o.clampOk) (hL : 2 ≤ o.filterLength) (hlong : transformSize N N ≤ o.filterLength)
    {est ref : Sig s c N} {L} (h : sdrLossDiag B o est ref = .ok L) (m : BIdx s) (k : Fin c)
    (hest : Audible (centred o.zeroMean (est m k))) : L m k = (report o.clampDb pinf).neg := by
  obtain ⟨coh, hcoh, rfl⟩ := sdrLossDiag_entry h
  rw [sdrCohDiag_eq B o (Or.inr (Or.inr hsv))] at hcoh
  cases hc : sdrCohPair B o ref est with
  | error err => rw [hc] at hcoh; cases hcoh
  | ok coh' =>
    rw [hc] at hcoh
    cases hcoh
    have h' : sdrLossPair B o est ref =
        .ok fun m k j => coherenceToNegSdr o.clampDb (fin (coh' m k j)) := by
      unfold sdrLossPair; rw [hc]
    exact C54_everything_perfect hB hcg hload hcl hL hlong h' m k k hest

/-- **C54.**  Consequently, without `clamp_db`, `sdr` and `sdr_pit_loss` never return if all estimates of a
batch item are audible: there is no finite loss to compare pairings with. -/
theorem C54_sdr_never_returns (hB : Covered B) (hcg : o.useCgIter = none) (hload : o.load = 0)
    (hcl : o.clampDb = none) (hL : 2 ≤ o.filterLength) (hlong : transformSize N N ≤ o.filterLength)
    (hr : 0 < r) (he : 0 < e) (ref : Sig s r N) (est : Sig s e N) (m : BIdx s)
    (hest : ∀ j, Audible (centred o.zeroMean (est m j))) (rp cs : Bool) :
    ¬ ∃ out, sdr B o rp cs ref est = .ok out := by
  rw [C17_sdr_returns_iff hB]
  rintro ⟨L, hl, hs⟩
  have hv : ∀ k j, L m k j = ninf := fun k j => by
    rw [C54_everything_perfect hB hcg hload (fun d hd => by rw [hcl] at hd; cases hd) hL hlong hl m k j (hest j), hcl]
    rfl
  obtain ⟨k, j, x, hx⟩ := (hs m).some_finite ⟨⟨0, hr⟩, ⟨0, he⟩, Or.inr (hv _ _)⟩
  rw [hv] at hx
  cases hx

/-- What `bss_eval_sources` raises for filters longer than the transform. -/
def longFilterErr (B : Backend) (cg : Option ℕ) : PyErr := if cg = none then B.shapeErr else .assertionError

theorem sizeErr_eq (cg : Option ℕ) : sizeErr B cg = longFilterErr B cg := by
  cases cg <;> rfl

/-- **C54.**  `bss_eval_sources` raises for all filters (of at least two taps) longer than the transform:
with the direct solver `RuntimeError` (torch) or `ValueError` (numpy), with the iterative solver
`AssertionError`. -/
theorem C54_bss_eval_raises (h2 : 2 ≤ o.filterLength) (hN : 1 < N + max N M) (hlong : transformSize N M < o.filterLength)
    (ref : Sig s r N) (est : Sig s e M) :
    bssEvalSources B o true ref est = .error (longFilterErr B o.useCgIter) ∧
    (r = e → r ≠ min o.filterLength (2 * transformSize N M) ∨ o.useCgIter ≠ none →
      bssEvalSources B o false ref est = .error (longFilterErr B o.useCgIter)) := by
  have hn := nFft_transform hN
  have hpos : 0 < transformSize N M := by unfold transformSize; positivity
  have hK : min o.filterLength (transformSize N M) = transformSize N M := by omega
  have hne : min o.filterLength (transformSize N M + transformSize N M) ≠ transformSize N M := by omega
  constructor
  · unfold bssEvalSources bssEvalPerm sqCosPair
    rw [if_pos rfl, if_neg (by omega), if_neg (by omega), sqCosPairGen_unfold hn hK, if_pos hne, sizeErr_eq]
  · rintro rfl hc
    unfold bssEvalSources bssEvalNoPerm sqCosDiag
    rw [if_neg (by simp), if_neg (by simp), if_neg (by omega), if_neg (by omega), sqCosDiagGen_unfold hn hK, if_pos hne,
      if_neg, sizeErr_eq]
    rw [← two_mul, min_self]
    rintro ⟨h1, h2⟩
    tauto

/-- **C54.**  The defaults (`filter_length=512`, direct solver): `bss_eval_sources` raises for all signals of at
most 128 samples, and `sdr_loss` reports every audible estimate of at most 256 samples as perfect. -/
theorem C54_default (hB : Covered B) (h0 : 0 < N) (ref : Sig s r N) (est : Sig s e N) :
    (N ≤ 128 → bssEvalSources B {} true ref est = .error B.shapeErr) ∧
    (N ≤ 256 → ∀ L, sdrLossPair B {} est ref = .ok L → ∀ m k j, Audible (est m j) → L m k j = ninf) := by
  have hT : ∀ b, 2 * N - 1 ≤ 2 ^ b → transformSize N N ≤ 2 ^ b := fun b hb => by
    unfold transformSize
    refine Nat.pow_le_pow_right (by norm_num) (Nat.clog_le_of_le_pow ?_)
    rw [max_self]
    omega
  constructor
  · intro h
    have hl := hT 8 (by omega)
    exact (C54_bss_eval_raises (o := {}) (by decide) (by rw [max_self]; omega)
      (lt_of_le_of_lt hl (by decide)) ref est).1
  · intro h L hL m k j ha
    exact C54_everything_perfect (o := {}) hB rfl rfl (fun d hd => by cases hd) (by decide)
      ((hT 9 (by omega)).trans (by decide)) hL m k j ha

/-! ### C55: more filter taps than samples -/

/-- **C55.**  Direct solver, no loading, at least one batch item: `bss_eval_sources` raises `LinAlgError`
if the references need more filter taps (`r * filter_length`) than there are samples after filtering
(`n_samples + filter_length - 1`), for filters not longer than the transform. -/
theorem C55_too_few_samples (hB : Covered B) (hdir : o.direct) (hload : o.load = 0) (hL : 1 ≤ o.filterLength)
    (hN : 0 < N) (hT : o.filterLength ≤ transformSize N N) (hfew : N + o.filterLength - 1 < r * o.filterLength)
    [Nonempty (BIdx s)] (ref : Sig s r N) (est : Sig s e N) :
    bssEvalSources B o true ref est = .error .linAlgError ∧
    (r = e → o.filterLength = 1 ∨ B.stackedVectors = true →
      bssEvalSources B o false ref est = .error .linAlgError) := by
  have hn : nFft N = .ok (transformSize N N) := nFft_transform (by rw [max_self]; omega)
  constructor
  · unfold bssEvalSources bssEvalPerm
    rw [if_pos rfl, sqCosPair_few hB hdir hload hL hn hT hfew]
  · rintro rfl hsv
    have hsv' : o.filterLength = 1 ∨ (o.useCgIter = none ∧ B.stackedVectors = true) := by
      rcases hdir with h | h
      · exact Or.inl h
      · exact hsv.imp_right fun h' => ⟨h, h'⟩
    unfold bssEvalSources bssEvalNoPerm
    rw [if_neg (by simp), if_neg (by simp), sqCosDiag_of_pair_linAlg B o hsv'
      (sqCosPair_few hB hdir hload hL hn hT (by rwa [min_self]) _ _)]

theorem docSar_full {L : ℕ} (hL : 1 ≤ L) {x : Fin r → Fin N → ℝ} (h : IndependentShifts L x)
    (hc : N + L - 1 ≤ r * L) {y : Fin N → ℝ} (hy : Audible y) : docSar L x y = pinf := by
  unfold docSar
  simp only
  rw [Submodule.starProjection_eq_self_iff.2 (by rw [spanAll_top h hc]; exact Submodule.mem_top), sub_self]
  unfold dbRatio
  rw [if_pos (by unfold energy; simp), if_neg (gain_sq_energy (by omega) hy).2.ne']

/-- **C55.**  Direct solver, no loading: if the references have as many filter taps as there are samples
after filtering (or more), every SAR that `bss_eval_sources` returns for an audible estimate is `+inf` (or
`clamp_db`), whatever the signals are. -/
theorem C55_sar_meaningless (hB : Covered B) (hdir : o.direct) (hload : o.load = 0) (hcl : o.clampOk)
    (hL : 1 ≤ o.filterLength) (hN : 0 < N) (hT : o.filterLength ≤ transformSize N N)
    (hfew : N + o.filterLength - 1 ≤ r * o.filterLength) {ref : Sig s r N} {est : Sig s e N} {out}
    (h : bssEvalSources B o true ref est = .ok out) (m : BIdx s)
    (hest : ∀ j, Audible (centred o.zeroMean (est m j)))
    (href : o.filterLength = 1 → ∀ k, Normalisable (centred o.zeroMean (ref m k))) (k : Fin (min r e)) :
    out.sar m k = report o.clampDb pinf := by
  have hn : nFft N = .ok (transformSize N N) := nFft_transform (by rw [max_self]; omega)
  have hfit : FilterFits N o.filterLength := by
    by_contra hfit
    have : Nonempty (BIdx s) := ⟨m⟩
    unfold bssEvalSources bssEvalPerm at h
    rw [if_pos rfl, sqCosPair_not_fit hB hdir hload hL hn hT hfit hfew] at h
    cases h
  obtain ⟨P, perm, -, -, h1, -⟩ := C12_bss_eval_documented hB hdir hload hcl hfit h m hest href
  rw [(h1 k).2.2, docSar_full hL _ hfew (hest _)]
  rcases sqCosPair_success hB hdir hL hload hN hfit ref est with ⟨-, h⟩ | ⟨h', -⟩
  · exact h m
  · unfold bssEvalSources bssEvalPerm at h
    rw [if_pos rfl, h'] at h
    cases h

/-- **C55.**  The defaults (`filter_length=512`, direct solver): two references need at least 513 samples, three
at least 1025, and so on; with fewer samples `bss_eval_sources` always raises. -/
theorem C55_default (hB : Covered B) (hr : 0 < r) (hN : 0 < N) (hfew : N ≤ 512 * (r - 1)) [Nonempty (BIdx s)]
    (ref : Sig s r N) (est : Sig s e N) : ∃ err, bssEvalSources B {} true ref est = .error err := by
  by_cases hT : 512 ≤ transformSize N N
  · exact ⟨_, (C55_too_few_samples (o := {}) hB (Or.inr rfl) rfl (by decide) hN hT
      (by show N + 512 - 1 < r * 512; omega) ref est).1⟩
  · exact ⟨_, (C54_bss_eval_raises (o := {}) (by decide) (by rw [max_self]; omega)
      (by show transformSize N N < 512; omega) ref est).1⟩

/-! ### C56: `filter_length=None` -/

theorem atLength_coh (h2 : 2 ≤ N) (ref : Sig s r N) (est : Sig s e M) :
    sdrCohPairGen B (o.atLength N) ref est = sdrCohPair B (o.atLength N) ref est := by
  unfold sdrCohPair
  rw [if_neg (by show N ≠ 0; omega), if_neg (by show N ≠ 1; omega)]

theorem atLength_fits (hN : 0 < N) : FilterFits N N := by
  unfold FilterFits
  have := Nat.le_pow_clog (b := 2) (by norm_num) (2 * N - 1)
  omega

/-- **C56.**  Direct solver, no loading, signals of `N ≥ 2` samples: with `filter_length=None`, `sdr_loss` returns
exactly if no reference is silent, and then every loss is minus the documented SDR for filters of `N` taps. -/
theorem C56_none_sdr_loss (hB : Covered B) (hcg : o.useCgIter = none) (hload : o.load = 0) (hcl : o.clampOk)
    (h2 : 2 ≤ N) (est : Sig s e N) (ref : Sig s r N) :
    ((∃ L, sdrLossPairNone B o est ref = .ok L) ↔ ∀ m k, centred o.zeroMean (ref m k) ≠ 0) ∧
    ∀ L, sdrLossPairNone B o est ref = .ok L → ∀ m k j, Audible (centred o.zeroMean (est m j)) →
      L m k j = (report o.clampDb (docSdr N (fun k => centred o.zeroMean (ref m k)) k
        (centred o.zeroMean (est m j)))).neg := by
  have e1 : sdrLossPairNone B o est ref = sdrLossPair B (o.atLength N) est ref := by
    unfold sdrLossPairNone sdrLossPair
    rw [atLength_coh h2]
    rfl
  rw [e1]
  refine ⟨?_, fun L h m k j hest => ?_⟩
  · have hN : 0 < N := by omega
    have hfit : FilterFits N (o.atLength N).filterLength := atLength_fits hN
    unfold sdrLossPair
    rcases sdrCohPair_success (o := o.atLength N) hB hcg h2 hload hN hfit ref est with
      ⟨⟨coh, h⟩, h'⟩ | ⟨h, m, k, h'⟩
    · rw [h]
      exact iff_of_true ⟨_, rfl⟩ h'
    · rw [h]
      exact iff_of_false (fun ⟨L, h⟩ => by cases h) fun hc => hc m k h'
  · have hfit : FilterFits N (o.atLength N).filterLength := atLength_fits (N := N) (by omega)
    exact C01_sdr_loss_pairwise (o := o.atLength N) hB (Or.inr hcg) hload hcl hfit h m k j hest
      (fun h1 => absurd h1 (by show N ≠ 1; omega))

/-- **C56.**  For references of `N ≥ 2` samples, estimates of any length, any solver: `filter_length=None` gives in
`sdr_loss` and `sdr` what `filter_length=N` gives. -/
theorem C56_none_same (h2 : 2 ≤ N) (ref : Sig s r N) (est : Sig s e M) (ref' : Sig s c N) (est' : Sig s c M) :
    sdrLossPairNone B o est ref = sdrLossPair B { o with filterLength := N } est ref ∧
    sdrLossDiagNone B o est' ref' = sdrLossDiag B { o with filterLength := N } est' ref' ∧
    ∀ rp cs, sdrNone B o rp cs ref est = sdr B { o with filterLength := N } rp cs ref est := by
  have e1 : sdrLossPairNone B o est ref = sdrLossPair B { o with filterLength := N } est ref := by
    unfold sdrLossPairNone sdrLossPair
    rw [atLength_coh h2]
    rfl
  refine ⟨e1, ?_, fun rp cs => ?_⟩
  · unfold sdrLossDiagNone sdrLossDiag sdrCohDiag
    rw [if_neg (by show N ≠ 0; omega), if_neg (by show N ≠ 1; omega)]
    rfl
  · unfold sdrNone sdr
    rw [e1]
    rfl

/-- **C56.**  `bss_eval_sources(filter_length=None)` never returns, for any signals with at least one sample of
reference: `RuntimeError` (torch) or `ValueError` (numpy) with the direct solver, `AssertionError` with the
iterative solver.  (Without a search for the permutation: if the number of channels is not twice the number
of samples.) -/
theorem C56_none_bss_eval (hN : 0 < N) (ref : Sig s r N) (est : Sig s e M) :
    bssEvalSourcesNone B o true ref est = .error (longFilterErr B o.useCgIter) ∧
    (r ≠ e → bssEvalSourcesNone B o false ref est = .error .assertionError) ∧
    (r = e → r ≠ 2 * N → bssEvalSourcesNone B o false ref est = .error (longFilterErr B o.useCgIter)) := by
  have hn : nFft N M = .ok (transformSize N M) := nFft_transform (by omega)
  have hle : N ≤ transformSize N M := by
    have : N + max N M - 1 ≤ transformSize N M := Nat.le_pow_clog (by norm_num) _
    omega
  have hp : sqCosPairNone B o N M = longFilterErr B o.useCgIter := by
    unfold sqCosPairNone noneSizes
    rw [hn]
    simp only
    rw [if_neg (by omega), sizeErr_eq]
  have hd : r ≠ 2 * N → sqCosDiagNone B o r N M = longFilterErr B o.useCgIter := by
    intro h
    unfold sqCosDiagNone noneSizes
    rw [hn]
    simp only
    rw [if_neg (by omega), sizeErr_eq]
  unfold bssEvalSourcesNone
  refine ⟨by rw [if_pos rfl, hp], fun h => ?_, fun h h' => ?_⟩
  · rw [if_neg (by simp), if_pos h]
  · rw [if_neg (by simp), if_neg (by simpa using h), hd h']

/-! ### concrete cases -/

/-- Two references of three samples, transform of eight points. -/
example : transformSize 3 3 = 8 := by decide

/-- One click of two samples as reference and `(1, 1)` as estimate: `sdr_loss` with `filter_length=7` returns and
reports a perfect estimate. -/
def clickRef : Sig [] 1 2 := fun _ _ => ![1, 0]

def clickEst : Sig [] 1 2 := fun _ _ => ![1, 1]

theorem click_prep (o : Opts) (hz : o.zeroMean = false) (m : BIdx []) (k : Fin 1) : prep o clickRef m k = ![1, 0] := by
  rw [prep_eq, hz]
  have e : centred false (clickRef m k) = ![1, 0] := rfl
  rw [e]
  have hs : sigNorm (![1, 0] : Fin 2 → ℝ) = 1 := by
    unfold sigNorm
    rw [Fin.sum_univ_two]
    simp
  unfold gain
  rw [hs, max_eq_left (by norm_num)]
  funext t
  fin_cases t <;> simp

theorem click_ok : ∃ L, sdrLossPair torchBackend { filterLength := 7 } clickEst clickRef = .ok L := by
  have hn : nFft 2 = .ok 4 := by decide
  have F := fam_of_nFft (o := { filterLength := 7 }) hn
  unfold sdrLossPair
  rw [sdrCohPair_direct (o := { filterLength := 7 }) hn rfl (by decide) F (Or.inl rfl) rfl, if_neg]
  · exact ⟨_, rfl⟩
  · rintro ⟨i, hi⟩
    unfold SingularOne at hi
    have hg : gramD (refFam (fun x i => cshift 4 x i) (min 7 4) (prep { filterLength := 7 } clickRef i.1 i.2)) 0 = 1 := by
      rw [click_prep _ rfl, gramD_zero]
      have hz : ∀ u : Fin 4, zpad (![1, 0] : Fin 2 → ℝ) u = if u = 0 then 1 else 0 := by
        intro u
        fin_cases u <;> simp [zpad]
      have hc : ∀ (l : Fin 4) (t : Fin 4), cshift 4 (![1, 0] : Fin 2 → ℝ) l t = if t = l then 1 else 0 := by
        intro l t
        show zpad (![1, 0] : Fin 2 → ℝ) ((t.val + (4 - l)) % 4) = _
        have := hz ⟨(t.val + (4 - l)) % 4, by omega⟩
        rw [this]
        clear this
        have hi : ((⟨(t.val + (4 - l)) % 4, by omega⟩ : Fin 4) = 0) ↔ t = l := by
          revert l t
          decide
        by_cases h : t = l
        · rw [if_pos h, if_pos (hi.2 h)]
        · rw [if_neg h, if_neg fun h' => h (hi.1 h')]
      ext a b
      rw [Matrix.gram_apply, inner_space]
      show ∑ t, cshift 4 (![1, 0] : Fin 2 → ℝ) a t * cshift 4 (![1, 0] : Fin 2 → ℝ) b t = _
      have key : ∀ a b : Fin 4, ∑ t, cshift 4 (![1, 0] : Fin 2 → ℝ) a t * cshift 4 (![1, 0] : Fin 2 → ℝ) b t =
          (1 : Matrix (Fin 4) (Fin 4) ℝ) a b := by
        intro a b
        simp only [hc, Matrix.one_apply]
        rw [Finset.sum_eq_single a (fun t _ ht => by rw [if_neg ht, zero_mul]) (fun h => absurd (Finset.mem_univ _) h),
          if_pos rfl, one_mul]
      exact key a b
    rw [show ({ filterLength := 7 } : Opts).load = 0 from rfl] at hi
    rw [hg] at hi
    simp at hi

theorem click_audible (m : BIdx []) (k : Fin 1) : Audible (clickEst m k) := by
  unfold Audible sigNorm
  rw [Real.le_sqrt' (by norm_num), Fin.sum_univ_two]
  simp [clickEst]
  norm_num

-- the same call with `pairwise=False`
example (m : BIdx []) : ∃ L, sdrLossDiag torchBackend { filterLength := 7 } clickEst clickRef = .ok L ∧ L m 0 = ninf := by
  obtain ⟨L, h⟩ := click_ok
  obtain ⟨coh, hc, -⟩ := sdrLossPair_entry h
  have h' : ∃ L', sdrLossDiag torchBackend { filterLength := 7 } clickEst clickRef = .ok L' := by
    unfold sdrLossDiag
    rw [sdrCohDiag_eq _ _ (Or.inr (Or.inr rfl)), hc]
    exact ⟨_, rfl⟩
  obtain ⟨L', h'⟩ := h'
  exact ⟨L', h', C54_everything_perfect_aligned (o := { filterLength := 7 }) (Or.inl rfl) rfl rfl rfl
    (fun d hd => by cases hd) (by decide) (by decide) h' m 0 (click_audible m 0)⟩

-- `sdr` raises for it
example : ¬ ∃ out, sdr torchBackend { filterLength := 7 } true false clickRef clickEst = .ok out :=
  C54_sdr_never_returns (o := { filterLength := 7 }) (Or.inl rfl) rfl rfl rfl (by decide) (by decide) one_pos one_pos
    clickRef clickEst () (click_audible ()) true false

-- the defaults
example : bssEvalSources torchBackend {} true Ex.ref Ex.est = .error .runtimeError :=
  (C54_default Ex.covered (by norm_num) Ex.ref Ex.est).1 (by norm_num)

example : ∃ L, sdrLossPair torchBackend {} clickEst clickRef = .ok L ∧ ∀ m, L m 0 0 = ninf := by
  obtain ⟨L, h⟩ := click_ok
  have h' : sdrLossPair torchBackend {} clickEst clickRef = .ok L :=
    (C54_saturates (o := {}) (L := 7) (L' := 512) (by norm_num) (by norm_num) (by decide) (by decide) clickRef
      clickEst).sdr_loss.trans h
  exact ⟨L, h', fun m => (C54_default (Or.inl rfl) (by norm_num) clickRef clickEst).2 (by norm_num) L h' m 0 0
    (click_audible m 0)⟩

example (ref est : Sig [] 2 500) : ∃ err, bssEvalSources torchBackend {} true ref est = .error err :=
  have : Nonempty (BIdx []) := ⟨()⟩
  C55_default (Or.inl rfl) (by norm_num) (by norm_num) (by norm_num) ref est

-- `filter_length=None` with three samples: the filters have three taps
example : sdrNone torchBackend Ex.opts true false Ex.ref Ex.est = sdr torchBackend { filterLength := 3 } true false Ex.ref Ex.est :=
  (C56_none_same (o := Ex.opts) (by norm_num) Ex.ref Ex.est Ex.ref Ex.est).2.2 true false

example : bssEvalSourcesNone torchBackend Ex.opts false Ex.ref Ex.est = .error .runtimeError :=
  (C56_none_bss_eval (o := Ex.opts) (by norm_num) Ex.ref Ex.est).2.2 rfl (by norm_num)

example (m : BIdx []) : ∃ L, sdrLossPair torchBackend { filterLength := 7 } clickEst clickRef = .ok L ∧ L m 0 0 = ninf := by
  obtain ⟨L, h⟩ := click_ok
  refine ⟨L, h, C54_everything_perfect (o := { filterLength := 7 }) (Or.inl rfl) rfl rfl (fun d hd => by cases hd)
    (by decide) (by decide) h m 0 0 ?_⟩
  unfold Audible sigNorm
  rw [Real.le_sqrt' (by norm_num), Fin.sum_univ_two]
  simp [centred, clickEst]
  norm_num

-- filters of nine taps for three samples
example : bssEvalSources torchBackend { Ex.opts with filterLength := 9 } true Ex.ref Ex.est = .error .runtimeError :=
  (C54_bss_eval_raises (o := { Ex.opts with filterLength := 9 }) (by decide) (by decide) (by decide) Ex.ref Ex.est).1

-- two references of three samples and filters of five taps: ten taps for seven samples
example : bssEvalSources torchBackend { Ex.opts with filterLength := 5 } true Ex.ref Ex.est = .error .linAlgError :=
  have : Nonempty (BIdx []) := ⟨()⟩
  (C55_too_few_samples (o := { Ex.opts with filterLength := 5 }) Ex.covered (Or.inr rfl) rfl (by decide) (by decide)
    (by decide) (by decide) Ex.ref Ex.est).1

-- two references of three samples and filters of two taps: four taps for four samples
example (m : BIdx []) : ∃ out, bssEvalSources torchBackend { Ex.opts with clampDb := some 30 } true Ex.ref Ex.est = .ok out ∧
    ∀ k, out.sar m k = fin 30 := by
  obtain ⟨out, h⟩ := Ex.bssEval_ok (d := 30)
  exact ⟨out, h, fun k => C55_sar_meaningless (o := { Ex.opts with clampDb := some 30 }) Ex.covered Ex.direct Ex.load
    (fun d hd => by cases hd; norm_num) (by decide) (by decide) (by decide) (by decide) h m (fun j => Ex.est_audible m j)
    (fun h => absurd h (by decide)) k⟩

example : ∃ L, sdrLossPairNone torchBackend Ex.opts Ex.est Ex.ref = .ok L :=
  (C56_none_sdr_loss (o := Ex.opts) Ex.covered rfl Ex.load (fun d hd => by cases hd) (by decide) Ex.est Ex.ref).1.2
    fun m k => Ex.ref_ne_zero m k

end FBE.Props
