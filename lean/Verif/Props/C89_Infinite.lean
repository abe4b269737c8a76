import Verif.Proofs.Infinite
import Verif.Props.C11_C17_Permutation
import Verif.Props.C32_C34_Failures
import Verif.Proofs.ExampleRuns

/-!
# C89 — exactly which signals give infinite metrics, and when the permutation functions fail on them

Without `clamp_db`.  `Perfect`, `Uncorrelated`, `IsRemix`, `TargetOnly` (Spec/Infinite.lean) are sums over the samples.
-/

namespace FBE.Props

open Spec XR

variable {s : List ℕ} {r e c N : ℕ} {B : Backend} {o : Opts}

/-! The references `[1, 0, 0]` and `[0, 0, 1]`, two taps; each is a perfect estimate of itself, and uncorrelated with the other. -/

theorem exInf_perfect (k : Fin 2) : Perfect 2 (centred Ex.opts.zeroMean (Ex.ref () k)) (centred Ex.opts.zeroMean (Ex.ref () k)) := by
  show Perfect 2 (Ex.ref () k) (Ex.ref () k)
  refine ⟨?_, ![1, 0], fun t => by simp [Fin.sum_univ_two]⟩
  fin_cases k
  · exact Ex.audible _ 0 (by simp [Ex.ref])
  · exact Ex.audible _ 2 (by simp [Ex.ref])

theorem exInf_uncorrelated : Uncorrelated 2 (centred Ex.opts.zeroMean (Ex.ref () 0)) (centred Ex.opts.zeroMean (Ex.ref () 1)) := by
  show Uncorrelated 2 (Ex.ref () 0) (Ex.ref () 1)
  intro l hl
  interval_cases l <;> simp [corr, Ex.ref, Fin.sum_univ_three, zpad]

/-- **C89.**  Every entry of `sdr_loss(est, ref, pairwise=True)`: `-inf` exactly for the filtered copies of the reference that are
not too quiet, `+inf` exactly for the estimates uncorrelated with the delayed reference, never NaN. -/
theorem C89_sdr_loss_pairwise (hB : Covered B) (hdir : o.direct) (hload : o.load = 0) (hcl : o.clampDb = none)
    (hfit : FilterFits N o.filterLength) {est : Sig s e N} {ref : Sig s r N} {L} (h : sdrLossPair B o est ref = .ok L)
    (m : BIdx s) (k : Fin r) (j : Fin e) (href : o.filterLength = 1 → Normalisable (centred o.zeroMean (ref m k))) :
    (L m k j = ninf ↔ Perfect o.filterLength (centred o.zeroMean (ref m k)) (centred o.zeroMean (est m j))) ∧
    (L m k j = pinf ↔ Uncorrelated o.filterLength (centred o.zeroMean (ref m k)) (centred o.zeroMean (est m j))) ∧
    L m k j ≠ nan :=
  loss_infinite hB hdir hload hcl hfit h m k j href

-- the references as estimates: both infinities
example : ∃ L, sdrLossPair torchBackend Ex.opts Ex.ref Ex.ref = .ok L ∧ L () 0 0 = ninf ∧ L () 0 1 = pinf := by
  obtain ⟨L, h⟩ := (C34_sdr_loss (o := Ex.opts) Ex.covered rfl (by decide) Ex.load (by decide) Ex.fits Ex.ref Ex.ref).2.2 Ex.ref_ne_zero
  have hc := fun k j => C89_sdr_loss_pairwise Ex.covered Ex.direct Ex.load rfl Ex.fits h () k j fun h => absurd h (by decide)
  exact ⟨L, h, (hc 0 0).1.2 (exInf_perfect 0), (hc 0 1).2.1.2 exInf_uncorrelated⟩

/-- **C89.**  The same with `pairwise=False`. -/
theorem C89_sdr_loss (hB : Covered B) (hdir : o.direct) (hsv : o.filterLength = 1 ∨ B.stackedVectors = true)
    (hload : o.load = 0) (hcl : o.clampDb = none) (hfit : FilterFits N o.filterLength) {est ref : Sig s c N} {L}
    (h : sdrLossDiag B o est ref = .ok L) (m : BIdx s) (k : Fin c)
    (href : o.filterLength = 1 → Normalisable (centred o.zeroMean (ref m k))) :
    (L m k = ninf ↔ Perfect o.filterLength (centred o.zeroMean (ref m k)) (centred o.zeroMean (est m k))) ∧
    (L m k = pinf ↔ Uncorrelated o.filterLength (centred o.zeroMean (ref m k)) (centred o.zeroMean (est m k))) ∧
    L m k ≠ nan := by
  obtain ⟨coh, hcoh, rfl⟩ := sdrLossDiag_entry h
  rw [sdrCohDiag_eq B o (hsv.imp_right Or.inr)] at hcoh
  cases hc : sdrCohPair B o ref est with
  | error err => rw [hc] at hcoh; cases hcoh
  | ok coh' =>
    rw [hc] at hcoh
    cases hcoh
    have h' : sdrLossPair B o est ref =
        .ok fun m k j => coherenceToNegSdr o.clampDb (fin (coh' m k j)) := by
      unfold sdrLossPair; rw [hc]
    exact loss_infinite hB hdir hload hcl hfit h' m k k href

example : ∃ L, sdrLossDiag torchBackend Ex.opts Ex.est Ex.ref = .ok L ∧ L () 0 ≠ nan := by
  obtain ⟨L, h⟩ := Ex.sdrLossDiag_ok
  exact ⟨L, h, (C89_sdr_loss Ex.covered Ex.direct (Or.inr rfl) Ex.load rfl Ex.fits h () 0 fun h => absurd h (by decide)).2.2⟩

/-- **C89.**  `bss_eval_sources(ref, est, compute_permutation=False)`: each channel's SDR, SIR and SAR are infinite or NaN exactly
where the signals say so. -/
theorem C89_bss_eval (hB : Covered B) (hdir : o.direct) (hsv : o.filterLength = 1 ∨ B.stackedVectors = true)
    (hload : o.load = 0) (hcl : o.clampDb = none) (hfit : FilterFits N o.filterLength) {ref est : Sig s c N} {out}
    (h : bssEvalSources B o false ref est = .ok out) (m : BIdx s) (k : Fin c)
    (href : o.filterLength = 1 → Normalisable (centred o.zeroMean (ref m k))) :
    InfiniteExactly o.filterLength (fun k => centred o.zeroMean (ref m k)) k (centred o.zeroMean (est m k))
      (out.sdr m (k.cast (min_self c).symm)) (out.sir m (k.cast (min_self c).symm)) (out.sar m (k.cast (min_self c).symm)) := by
  obtain ⟨sd, sa, hs, rfl⟩ := bssEvalSources_false h
  have hsv' : o.filterLength = 1 ∨ (o.useCgIter = none ∧ B.stackedVectors = true) := by
    rcases hsv with h | h
    · exact Or.inl h
    · rcases hdir with h' | h'
      · exact Or.inl h'
      · exact Or.inr ⟨h', h⟩
  rw [sqCosDiag_eq B o hsv'] at hs
  cases hp : sqCosPair B o (fun m (k : Fin (min c c)) => ref m (k.castLE (min_le_left c c)))
        (fun m (k : Fin (min c c)) => est m (k.castLE (min_le_right c c))) with
  | error err => rw [hp] at hs; cases hs
  | ok p =>
    obtain ⟨sd', sa'⟩ := p
    rw [hp] at hs
    cases hs
    exact infinite_cast (min_self c) (x := fun k => centred o.zeroMean (ref m k))
      (base_infinite hB hdir hload hcl hfit _ _ hp m (k.cast (min_self c).symm) (k.cast (min_self c).symm) href)

-- the references as estimates: everything is `+inf`
example : ∃ out, bssEvalSources torchBackend Ex.opts false Ex.ref Ex.ref = .ok out ∧
    out.sdr () ⟨0, by decide⟩ = pinf ∧ out.sir () ⟨0, by decide⟩ = pinf ∧ out.sar () ⟨0, by decide⟩ = pinf := by
  obtain ⟨out, h⟩ := (C34_bss_eval_no_permutation Ex.covered Ex.direct (by decide) (Or.inr rfl) Ex.load (by decide) Ex.fits Ex.ref Ex.ref).2.2
    Ex.independent
  have h' : bssEvalSources torchBackend Ex.opts false Ex.ref Ex.ref = .ok out := h
  have hc := C89_bss_eval Ex.covered Ex.direct (Or.inr rfl) Ex.load rfl Ex.fits h' () 0 fun h => absurd h (by decide)
  have hp := exInf_perfect 0
  have hd := hc.sdr_pinf.2 hp
  refine ⟨out, h', hd, hc.sir_pinf.2 ⟨fun hu => ?_, ?_⟩, hc.sar_pinf.2 ⟨hp.1, ?_⟩⟩
  · have := hc.sdr_ninf.2 hu
    rw [hd] at this
    cases this
  · obtain ⟨f, hf⟩ := hp.2
    refine ⟨f, fun g => ?_⟩
    have : residualOne f (centred Ex.opts.zeroMean (Ex.ref () 0)) (centred Ex.opts.zeroMean (Ex.ref () 0)) = 0 := by
      unfold residualOne
      refine Finset.sum_eq_zero fun t _ => ?_
      rw [show zpad _ _ = filtered f _ _ from hf t, sub_self, sq, mul_zero]
    exact this.le.trans (Finset.sum_nonneg fun t _ => sq_nonneg _)
  · obtain ⟨f, hf⟩ := hp.2
    refine ⟨fun k => if k = 0 then f else 0, fun t => ?_⟩
    have h0 : ∀ x : Fin 3 → ℝ, filtered (0 : Fin 2 → ℝ) x t = 0 := fun x => by simp [filtered]
    rw [Fin.sum_univ_two]
    show _ = filtered f _ t + filtered (0 : Fin 2 → ℝ) _ t
    rw [h0, add_zero]
    exact hf t

/-- **C89.**  `bss_eval_sources` with permutation solving: so for the pairs described by the permutation. -/
theorem C89_bss_eval_permutation (hB : Covered B) (hdir : o.direct) (hload : o.load = 0) (hcl : o.clampDb = none)
    (hfit : FilterFits N o.filterLength) {ref : Sig s r N} {est : Sig s e N} {out}
    (h : bssEvalSources B o true ref est = .ok out) (m : BIdx s)
    (href : o.filterLength = 1 → ∀ k, Normalisable (centred o.zeroMean (ref m k))) :
    ∃ (P : Pairing r e) (perm : BIdx s → Fin (min r e) → ℕ), out.perm = some perm ∧ Describes (perm m) P ∧
      ∀ k, InfiniteExactly o.filterLength (fun k => centred o.zeroMean (ref m k)) (P.ref k) (centred o.zeroMean (est m (P.est k)))
        (out.sdr m k) (out.sir m k) (out.sar m k) := by
  obtain ⟨sd, sa, perm, hs, hp, hm⟩ := C12_bss_eval_best_pairing hB h
  obtain ⟨P, h1, -, h3, -⟩ := hm m
  refine ⟨P, perm, hp, h1, fun k => ?_⟩
  obtain ⟨e1, e2, e3⟩ := h3 k
  rw [e1, e2, e3]
  exact base_infinite hB hdir hload hcl hfit ref est hs m _ _ fun h => href h _

example : ∃ out, bssEvalSources torchBackend Ex.opts true Ex.ref Ex.est = .ok out ∧ ∀ k, out.sdr () k ≠ nan ∧ out.sar () k ≠ nan := by
  obtain ⟨out, h⟩ := Ex.bss_cl none true
  obtain ⟨P, perm, -, -, hk⟩ := C89_bss_eval_permutation (o := Ex.opts) Ex.covered Ex.direct Ex.load rfl Ex.fits h () fun h => absurd h (by decide)
  exact ⟨out, h, fun k => ⟨(hk k).sdr_nan, (hk k).sar_nan⟩⟩

/-- **C89.**  `sdr` and `sdr_pit_loss` without `clamp_db` return exactly when no reference is silent (unless
`filter_length=1`) and, in every batch item, there
are not both a perfect and an uncorrelated pair, and some pair is neither if there is one of either. -/
theorem C89_sdr_returns_iff (hB : Covered B) (hdir : o.direct) (hL : 1 ≤ o.filterLength) (hload : o.load = 0) (hcl : o.clampDb = none)
    (hN : 0 < N) (hfit : FilterFits N o.filterLength) (ref : Sig s r N) (est : Sig s e N) (returnPerm changeSign : Bool)
    (href : o.filterLength = 1 → ∀ m k, Normalisable (centred o.zeroMean (ref m k))) :
    (∃ out, sdr B o returnPerm changeSign ref est = .ok out) ↔ (2 ≤ o.filterLength → ∀ m k, centred o.zeroMean (ref m k) ≠ 0) ∧
      ∀ m, Mixable (fun k j => Perfect o.filterLength (centred o.zeroMean (ref m k)) (centred o.zeroMean (est m j)))
        (fun k j => Uncorrelated o.filterLength (centred o.zeroMean (ref m k)) (centred o.zeroMean (est m j))) := by
  rw [C17_sdr_returns_iff hB]
  have hsol : ∀ {L}, pairwiseSdrLoss B o est ref = .ok L → ∀ m, (Solvable (L m) ↔
      Mixable (fun k j => Perfect o.filterLength (centred o.zeroMean (ref m k)) (centred o.zeroMean (est m j)))
        (fun k j => Uncorrelated o.filterLength (centred o.zeroMean (ref m k)) (centred o.zeroMean (est m j)))) := fun hLs m =>
    solvable_iff_mixable (fun k j => (loss_infinite hB hdir hload hcl hfit hLs m k j fun h => href h m k).1)
      (fun k j => (loss_infinite hB hdir hload hcl hfit hLs m k j fun h => href h m k).2.1)
      (fun k j => (loss_infinite hB hdir hload hcl hfit hLs m k j fun h => href h m k).2.2)
  have hret : (∃ L, pairwiseSdrLoss B o est ref = .ok L) ↔ (2 ≤ o.filterLength → ∀ m k, centred o.zeroMean (ref m k) ≠ 0) := by
    rcases Nat.lt_or_ge 1 o.filterLength with h2 | h1
    · exact (C34_sdr_loss hB (hdir.resolve_left (by omega)) h2 hload hN hfit est ref).2.trans ⟨fun h _ => h, fun h => h h2⟩
    · have h1 : o.filterLength = 1 := by omega
      exact iff_of_true (C34_sdr_loss_length_one h1 est ref) fun h2 => by omega
  constructor
  · rintro ⟨L, hLs, hm⟩
    exact ⟨hret.1 ⟨L, hLs⟩, fun m => (hsol hLs m).1 (hm m)⟩
  · rintro ⟨h0, hm⟩
    obtain ⟨L, hLs⟩ := hret.2 h0
    exact ⟨L, hLs, fun m => (hsol hLs m).2 (hm m)⟩

-- a perfect separation of sources that do not overlap is an error without `clamp_db`
example : ¬ ∃ out, sdr torchBackend Ex.opts true true Ex.ref Ex.ref = .ok out := fun h =>
  ((((C89_sdr_returns_iff (o := Ex.opts) Ex.covered Ex.direct (by decide) Ex.load rfl (by decide) Ex.fits Ex.ref Ex.ref true true
    fun h => absurd h (by decide)).1 h).2 ()).one_sign ⟨⟨0, 0, exInf_perfect 0⟩, 0, 1, exInf_uncorrelated⟩)

/-- **C89.**  `bss_eval_sources` with permutation solving and without `clamp_db` returns exactly when the delayed references are
linearly independent, every estimate correlates with some reference, and the pairs of infinite SIR can be ranked. -/
theorem C89_bss_eval_returns_iff (hB : Covered B) (hdir : o.direct) (hL : 1 ≤ o.filterLength) (hload : o.load = 0)
    (hcl : o.clampDb = none) (hN : 0 < N) (hr : 0 < r) (hfit : FilterFits N o.filterLength) (ref : Sig s r N) (est : Sig s e N)
    (href : o.filterLength = 1 → ∀ m k, Normalisable (centred o.zeroMean (ref m k))) :
    (∃ out, bssEvalSources B o true ref est = .ok out) ↔
      (∀ m, IndependentShifts o.filterLength fun k => centred o.zeroMean (ref m k)) ∧
      (∀ m j, ∃ k, ¬ Uncorrelated o.filterLength (centred o.zeroMean (ref m k)) (centred o.zeroMean (est m j))) ∧
      ∀ m, Mixable
        (fun k j => ¬ Uncorrelated o.filterLength (centred o.zeroMean (ref m k)) (centred o.zeroMean (est m j)) ∧
          TargetOnly o.filterLength (fun k => centred o.zeroMean (ref m k)) k (centred o.zeroMean (est m j)))
        (fun k j => Uncorrelated o.filterLength (centred o.zeroMean (ref m k)) (centred o.zeroMean (est m j))) := by
  rw [C17_bss_eval_returns_iff hB]
  have hbase := fun {sd sa} (hs : sqCosPair B o ref est = .ok (sd, sa)) m k j =>
    base_infinite hB hdir hload hcl hfit ref est hs m k j fun h => href h m k
  have hret : (∃ sd sa, sqCosPair B o ref est = .ok (sd, sa)) ↔
      ∀ m, IndependentShifts o.filterLength fun k => centred o.zeroMean (ref m k) := by
    rcases sqCosPair_success hB hdir hL hload hN hfit ref est with ⟨⟨⟨sd, sa⟩, h⟩, h2⟩ | ⟨h, m, h2⟩
    · exact iff_of_true ⟨sd, sa, h⟩ h2
    · exact iff_of_false (fun ⟨sd, sa, h'⟩ => by rw [h] at h'; cases h') fun h => h2 (h m)
  constructor
  · rintro ⟨sd, sa, hs, hm⟩
    have hnn : ∀ m j, ∃ k, ¬ Uncorrelated o.filterLength (centred o.zeroMean (ref m k)) (centred o.zeroMean (est m j)) := fun m j => by
      by_contra hk
      push Not at hk
      exact (hm m).no_nan ⟨0, hr⟩ j (neg_eq_iff.2.2.1 ((hbase hs m ⟨0, hr⟩ j).sir_nan.2 hk))
    refine ⟨hret.1 ⟨sd, sa, hs⟩, hnn, fun m => (solvable_iff_mixable (fun k j => ?_) (fun k j => ?_) (hm m).no_nan).1 (hm m)⟩
    · rw [← (hbase hs m k j).sir_pinf, neg_eq_iff.1]
    · rw [← neg_eq_iff.2.1, (hbase hs m k j).sir_ninf]
      exact and_iff_left (hnn m j)
  · rintro ⟨hi, hnn, hm⟩
    obtain ⟨sd, sa, hs⟩ := hret.2 hi
    refine ⟨sd, sa, hs, fun m => (solvable_iff_mixable (fun k j => ?_) (fun k j => ?_) fun k j h => ?_).2 (hm m)⟩
    · rw [← (hbase hs m k j).sir_pinf, neg_eq_iff.1]
    · rw [← neg_eq_iff.2.1, (hbase hs m k j).sir_ninf]
      exact and_iff_left (hnn m j)
    · obtain ⟨k', hk'⟩ := hnn m j
      exact hk' ((hbase hs m k j).sir_nan.1 (neg_eq_iff.2.2.2 h) k')

example : ∀ j, ∃ k, ¬ Uncorrelated 2 (centred Ex.opts.zeroMean (Ex.ref () k)) (centred Ex.opts.zeroMean (Ex.est () j)) :=
  ((C89_bss_eval_returns_iff (o := Ex.opts) Ex.covered Ex.direct (by decide) Ex.load rfl (by decide) (by decide) Ex.fits Ex.ref Ex.est
    fun h => absurd h (by decide)).1 (Ex.bss_cl none true)).2.1 ()

end FBE.Props
