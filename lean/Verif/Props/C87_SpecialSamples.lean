import Verif.Proofs.SpecialRaise
import Verif.Proofs.Example
import Verif.Props.C11_C17_Permutation
import Verif.Props.C32_C34_Failures

/-!
# C87: NaN or infinite samples, and energies beyond the range of the data type

In the theorems `ref'` and `est'` stand for the signals given: channels of numbers within the range as they are, channels
whose energy exceeds the range replaced by silence, channels with a sample that is not a number replaced by anything.
-/

namespace FBE.Props

open Classical Spec XR Special

variable {s : List ℕ} {r e c N M : ℕ} {B : Backend} {o : Opts} {Ω : ℝ}

/-- **C87.**  `sdr_loss(pairwise=True)`: exactly the entries of a channel with a NaN or infinite sample are NaN; all other entries
are those for the signals in which channels of energy beyond the range are replaced by silence. -/
theorem C87_sdr_loss (hΩ : 0 ≤ Ω) {est : XSig s e M} {ref : XSig s r N} {est' : Sig s e M} {ref' : Sig s r N}
    (hr : ∀ m k, StandsFor Ω o.zeroMean (ref m k) (ref' m k)) (he : ∀ m j, StandsFor Ω o.zeroMean (est m j) (est' m j))
    {L} (h : sdrLossPair B o est' ref' = .ok L) :
    sdrLossPairX Ω B o est ref =
      .ok fun m k j => if FiniteSamples (ref m k) ∧ FiniteSamples (est m j) then L m k j else nan := by
  obtain ⟨coh, hc, rfl⟩ := sdrLossPair_entry h
  unfold sdrLossPairX
  rw [sdrCohPairX_eq hΩ hr he hc]
  dsimp only
  congr 1
  funext m k j
  rw [toX_mask]
  split
  · rfl
  · exact Special.coherenceToNegSdr_nan _

/-- **C87.**  `sdr_loss(pairwise=False)`. -/
theorem C87_sdr_loss_diag (hΩ : 0 ≤ Ω) {est : XSig s c M} {ref : XSig s c N} {est' : Sig s c M} {ref' : Sig s c N}
    (hr : ∀ m k, StandsFor Ω o.zeroMean (ref m k) (ref' m k)) (he : ∀ m j, StandsFor Ω o.zeroMean (est m j) (est' m j))
    {L} (h : sdrLossDiag B o est' ref' = .ok L) :
    sdrLossDiagX Ω B o est ref =
      .ok fun m k => if FiniteSamples (ref m k) ∧ FiniteSamples (est m k) then L m k else nan := by
  unfold sdrLossDiag at h
  split at h
  · cases h
  rename_i coh hc
  cases h
  unfold sdrLossDiagX
  rw [sdrCohDiagX_eq hΩ hr he hc]
  dsimp only
  congr 1
  funext m k
  rw [toX_mask]
  split
  · rfl
  · exact Special.coherenceToNegSdr_nan _

/-- **C87.**  A finite signal within the range stands for itself. -/
theorem standsFor_self {n : ℕ} {zm : Bool} {u : Fin n → ℝ} (h : ∑ t, centred zm u t ^ 2 ≤ Ω) :
    StandsFor Ω zm (fun t => fin (u t)) u := by
  intro u' hu'
  have : u' = u := by
    funext t
    have := hu' t
    injection this with this
    exact this.symm
  subst this
  exact ⟨fun _ => rfl, fun h' => absurd h' (not_lt.2 h)⟩

theorem standsFor_bad {n : ℕ} {zm : Bool} {x : Fin n → XR} (h : ¬ FiniteSamples x) (v : Fin n → ℝ) : StandsFor Ω zm x v :=
  fun _ hu => absurd (fun t => ⟨_, hu t⟩) h

theorem standsFor_loud {n : ℕ} {zm : Bool} {u : Fin n → ℝ} (h : Ω < ∑ t, centred zm u t ^ 2) :
    StandsFor Ω zm (fun t => fin (u t)) 0 := by
  intro u' hu'
  have : u' = u := by
    funext t
    have := hu' t
    injection this with this
    exact this.symm
  subst this
  exact ⟨fun h' => absurd h (not_lt.2 h'), fun _ => rfl⟩

/-- **C87.**  An estimate whose energy exceeds the range has the SDR of silence, the lowest value, with every finite reference,
also if it equals that reference. -/
theorem C87_loud_estimate (hΩ : 0 ≤ Ω) (hcl : o.clampOk) {est : XSig s e M} {ref : XSig s r N} {est' : Sig s e M} {ref' : Sig s r N}
    (hr : ∀ m k, StandsFor Ω o.zeroMean (ref m k) (ref' m k)) (he : ∀ m j, StandsFor Ω o.zeroMean (est m j) (est' m j))
    {L} (h : sdrLossPair B o est' ref' = .ok L) {m : BIdx s} {j : Fin e} {u : Fin M → ℝ} (hu : ∀ t, est m j t = fin (u t))
    (hloud : Ω < ∑ t, centred o.zeroMean u t ^ 2) :
    ∃ LX, sdrLossPairX Ω B o est ref = .ok LX ∧
      ∀ k, FiniteSamples (ref m k) → LX m k j = (report o.clampDb ninf).neg := by
  refine ⟨_, C87_sdr_loss hΩ hr he h, fun k hk => ?_⟩
  rw [if_pos ⟨hk, fun t => ⟨_, hu t⟩⟩]
  refine C33_silent_sdr_loss hcl h ?_ k
  rw [(he m j u hu).2 hloud]
  funext t
  simp only [centred]
  split <;> simp

/-- **C87.**  Direct solver, filters of at least two taps, no loading: `sdr_loss` raises `LinAlgError` exactly when some reference
of finite samples is silent or has an energy beyond the range, and returns otherwise.  References and estimates with NaN or
infinite samples do not make it raise. -/
theorem C87_sdr_loss_raises (hΩ : 0 ≤ Ω) (hB : Covered B) (hcg : o.useCgIter = none) (hL : 2 ≤ o.filterLength)
    (hload : o.load = 0) (hN : 0 < N) (hfit : FilterFits N o.filterLength) (est : XSig s e N) (ref : XSig s r N) :
    let Silent : Prop := ∃ m k u, (∀ t, ref m k t = fin (u t)) ∧
      (centred o.zeroMean u = 0 ∨ Ω < ∑ t, centred o.zeroMean u t ^ 2)
    (sdrLossPairX Ω B o est ref = .error .linAlgError ↔ Silent) ∧ ((∃ L, sdrLossPairX Ω B o est ref = .ok L) ↔ ¬ Silent) := by
  intro Silent
  choose ref' hr using fun m k => exists_standsFor Ω o.zeroMean (ref m k)
  have hS : Silent ↔ ∃ m k, FiniteSamples (ref m k) ∧ centred o.zeroMean (ref' m k) = 0 := by
    constructor
    · rintro ⟨m, k, u, hu, h⟩
      refine ⟨m, k, fun t => ⟨_, hu t⟩, ?_⟩
      obtain ⟨h1, h2⟩ := hr m k u hu
      by_cases hE : Ω < ∑ t, centred o.zeroMean u t ^ 2
      · rw [h2 hE]
        funext t
        simp only [centred]
        split <;> simp
      · rw [h1 (not_lt.1 hE)]
        exact h.resolve_right hE
    · rintro ⟨m, k, hf, h⟩
      choose u hu using hf
      obtain ⟨h1, h2⟩ := hr m k u hu
      refine ⟨m, k, u, hu, ?_⟩
      by_cases hE : Ω < ∑ t, centred o.zeroMean u t ^ 2
      · exact Or.inr hE
      · rw [h1 (not_lt.1 hE)] at h
        exact Or.inl h
  rw [hS]
  unfold sdrLossPairX
  rcases sdrCohPairX_success hΩ hB hcg hL hload hN hfit (ex := est) hr with ⟨⟨coh, h⟩, h2⟩ | ⟨h, m, k, h2⟩
  · rw [h]
    exact ⟨iff_of_false (by simp) (fun ⟨m, k, h, h'⟩ => h2 m k h h'), iff_of_true ⟨_, rfl⟩ fun ⟨m, k, h, h'⟩ => h2 m k h h'⟩
  · rw [h]
    exact ⟨iff_of_true rfl ⟨m, k, h2⟩, iff_of_false (by rintro ⟨L, h⟩; cases h) fun h => h ⟨m, k, h2⟩⟩

/-- **C87.**  `sdr` never returns when a reference or an estimate has a NaN or infinite sample (and there is a channel to pair
it with). -/
theorem C87_sdr (hΩ : 0 ≤ Ω) (hB : Covered B) (returnPerm changeSign : Bool) {ref : XSig s r N} {est : XSig s e M} {m : BIdx s}
    {k : Fin r} {j : Fin e} (hb : ¬ FiniteSamples (ref m k) ∨ ¬ FiniteSamples (est m j)) :
    ∃ err, sdrX Ω B o returnPerm changeSign ref est = .error err := by
  unfold sdrX
  cases hl : sdrLossPairX Ω B o est ref with
  | error err => exact ⟨err, rfl⟩
  | ok L =>
    have hnan : L m k j = nan := by
      unfold sdrLossPairX at hl
      split at hl
      · cases hl
      · rename_i coh hc
        cases hl
        beta_reduce
        rw [sdrCohPairX_none hΩ hc hb]
        exact Special.coherenceToNegSdr_nan _
    obtain ⟨err, he, -⟩ := C20_nan_never_returns hB L (fun i : Fin 0 => i.elim0) hnan
    dsimp only
    rw [he]
    exact ⟨err, rfl⟩

/-- **C87.**  If all samples are numbers, `sdr` is that for the signals in which channels of energy beyond the range are replaced
by silence. -/
theorem C87_sdr_finite (hΩ : 0 ≤ Ω) (returnPerm changeSign : Bool) {est : XSig s e M} {ref : XSig s r N} {est' : Sig s e M}
    {ref' : Sig s r N} (hr : ∀ m k, StandsFor Ω o.zeroMean (ref m k) (ref' m k))
    (he : ∀ m j, StandsFor Ω o.zeroMean (est m j) (est' m j)) (hrf : ∀ m k, FiniteSamples (ref m k))
    (hef : ∀ m j, FiniteSamples (est m j)) {L} (h : sdrLossPair B o est' ref' = .ok L) :
    sdrX Ω B o returnPerm changeSign ref est = sdr B o returnPerm changeSign ref' est' := by
  have h1 : sdrLossPairX Ω B o est ref = .ok L := by
    rw [C87_sdr_loss hΩ hr he h]
    congr 1
    funext m k j
    exact if_pos ⟨hrf m k, hef m j⟩
  unfold sdrX sdr
  rw [h, h1]
  rfl

/-- **C87.**  `bss_eval_sources(compute_permutation=False)`: a NaN or infinite sample in a channel makes its SDR NaN; in an
estimate, its SIR and SAR as well; in a reference, SIR and SAR of all estimates of the batch item.  Everything else is as for the
signals in which channels of energy beyond the range are replaced by silence.  If `solve` and `inv` raise for some matrices with NaN
entries (`q`), this holds for references of finite samples. -/
theorem C87_bss_no_permutation (hΩ : 0 ≤ Ω) {q : Bool} {ref : XSig s c N} {est : XSig s c M} {ref' : Sig s c N} {est' : Sig s c M}
    (hr : ∀ m k, StandsFor Ω o.zeroMean (ref m k) (ref' m k)) (he : ∀ m j, StandsFor Ω o.zeroMean (est m j) (est' m j))
    {out} (h : bssEvalNoPerm B o ref' est' = .ok out) (hq : q = true → ∀ m k, FiniteSamples (ref m k)) :
    bssEvalNoPermX Ω q B o ref est = .ok
      ⟨fun m k => if FiniteSamples (ref m k) ∧ FiniteSamples (est m k) then out.sdr m k else nan,
        fun m k => if (∀ l, FiniteSamples (ref m l)) ∧ FiniteSamples (est m k) then out.sir m k else nan,
        fun m k => if (∀ l, FiniteSamples (ref m l)) ∧ FiniteSamples (est m k) then out.sar m k else nan, none⟩ := by
  unfold bssEvalNoPerm at h
  split at h
  · cases h
  rename_i sd sar hs
  cases h
  unfold bssEvalNoPermX
  rw [sqCosDiagX_eq hΩ hr he hs hq]
  dsimp only
  have hall : ∀ (m : BIdx s) (k : Fin c), (∀ l, FiniteSamples (ref m l) ∧ FiniteSamples (est m k)) ↔
      (∀ l, FiniteSamples (ref m l)) ∧ FiniteSamples (est m k) := by
    intro m k
    exact ⟨fun h => ⟨fun l => (h l).1, (h k).2⟩, fun h l => ⟨h.1 l, h.2⟩⟩
  congr 2
  · funext m k
    simp only [baseMetricsX, baseMetrics, toX_mask]
    split
    · rfl
    · rw [Special.coherenceToNegSdr_nan]; rfl
  · funext m k
    simp only [baseMetricsX, baseMetrics, toX_mask, hall]
    by_cases hh : (∀ l, FiniteSamples (ref m l)) ∧ FiniteSamples (est m k)
    · rw [if_pos hh, if_pos hh, if_pos ⟨hh.1 k, hh.2⟩]
    · rw [if_neg hh, if_neg hh]
      have : ∀ a : XR, XR.div a nan = nan := by intro a; cases a <;> rfl
      rw [this, Special.coherenceToNegSdr_nan]
      rfl
  · funext m k
    simp only [baseMetricsX, baseMetrics, toX_mask, hall]
    by_cases hh : (∀ l, FiniteSamples (ref m l)) ∧ FiniteSamples (est m k)
    · rw [if_pos hh, if_pos hh]
    · rw [if_neg hh, if_neg hh, Special.coherenceToNegSdr_nan]
      rfl

/-- **C87.**  `bss_eval_sources(compute_permutation=True)` never returns when a reference or an estimate has a NaN or infinite
sample, whatever `solve` and `inv` do with NaN entries. -/
theorem C87_bss_permutation (hΩ : 0 ≤ Ω) (hB : Covered B) {q : Bool} {ref : XSig s r N} {est : XSig s e M} {m : BIdx s}
    {k : Fin r} {j : Fin e} (hb : ¬ FiniteSamples (ref m k) ∨ ¬ FiniteSamples (est m j)) :
    ∃ err, bssEvalPermX Ω q B o ref est = .error err := by
  unfold bssEvalPermX
  cases hs : sqCosPairX Ω q B o ref est with
  | error err => exact ⟨err, rfl⟩
  | ok p =>
    obtain ⟨sd, sar⟩ := p
    have hnan : (baseMetricsX o.clampDb (toX (sd m k j)) (toX (sar m j))).2.1 = nan := by
      rw [sqCosPairX_none hΩ hs hb]
      have : ∀ a : XR, XR.div nan a = nan := by intro a; cases a <;> rfl
      show coherenceToNegSdr o.clampDb (XR.div nan (toX (sar m j))) = nan
      rw [this, Special.coherenceToNegSdr_nan]
    obtain ⟨err, he, -⟩ := C20_nan_never_returns hB
      (fun m k j => (baseMetricsX o.clampDb (toX (sd m k j)) (toX (sar m j))).2.1)
      ![fun m k j => (baseMetricsX o.clampDb (toX (sd m k j)) (toX (sar m j))).1,
        fun m k j => (baseMetricsX o.clampDb (toX (sd m k j)) (toX (sar m j))).2.2] hnan
    dsimp only
    rw [he]
    exact ⟨err, rfl⟩

/-- **C87.**  If all samples are numbers, `bss_eval_sources` with permutations is that for the signals in which channels of energy
beyond the range are replaced by silence. -/
theorem C87_bss_finite (hΩ : 0 ≤ Ω) {q : Bool} {ref : XSig s r N} {est : XSig s e M} {ref' : Sig s r N} {est' : Sig s e M}
    (hr : ∀ m k, StandsFor Ω o.zeroMean (ref m k) (ref' m k)) (he : ∀ m j, StandsFor Ω o.zeroMean (est m j) (est' m j))
    (hrf : ∀ m k, FiniteSamples (ref m k)) (hef : ∀ m j, FiniteSamples (est m j)) {p} (h : sqCosPair B o ref' est' = .ok p) :
    bssEvalPermX Ω q B o ref est = bssEvalPerm B o ref' est' := by
  obtain ⟨sd, sar⟩ := p
  unfold bssEvalPermX bssEvalPerm
  rw [sqCosPairX_eq hΩ hr he h (fun _ => hrf), h]
  have h1 : ∀ m k j, (FiniteSamples (ref m k) ∧ FiniteSamples (est m j)) = True := fun m k j => eq_true ⟨hrf m k, hef m j⟩
  simp only [h1, toX_mask, implies_true, if_true, baseMetricsX, baseMetrics]
  rfl

/-! ### Examples -/

/-- Two estimates of which the second has a NaN sample. -/
noncomputable def exNanX : XSig [] 2 3 := fun _ => ![![fin 2, fin 0, fin 1], ![fin 1, nan, fin 2]]

noncomputable def exRefX : XSig [] 2 3 := fun m k t => fin (Ex.ref m k t)

theorem exNanX_bad (m : BIdx []) : ¬ FiniteSamples (exNanX m 1) := fun h => by
  obtain ⟨a, ha⟩ := h 1
  cases ha

theorem exNanX_good (m : BIdx []) : FiniteSamples (exNanX m 0) := fun t => by
  fin_cases t <;> exact ⟨_, rfl⟩

theorem exRefX_stands (m : BIdx []) (k : Fin 2) : StandsFor 10 Ex.opts.zeroMean (exRefX m k) (Ex.ref m k) := by
  refine standsFor_self ?_
  rw [show Ex.opts.zeroMean = false from rfl]
  fin_cases k <;> simp [centred, Ex.ref, Fin.sum_univ_three]

theorem exNanX_stands (m : BIdx []) (j : Fin 2) : StandsFor 10 Ex.opts.zeroMean (exNanX m j) (Ex.est m j) := by
  fin_cases j
  · have : exNanX m 0 = fun t => fin (Ex.est m 0 t) := by
      funext t
      fin_cases t <;> rfl
    show StandsFor 10 _ (exNanX m 0) (Ex.est m 0)
    rw [this]
    refine standsFor_self ?_
    rw [show Ex.opts.zeroMean = false from rfl]
    simp [centred, Ex.est, Fin.sum_univ_three]
    norm_num
  · exact standsFor_bad (exNanX_bad m) _

example : ∃ L LX, sdrLossPair torchBackend Ex.opts Ex.est Ex.ref = .ok L ∧
    sdrLossPairX 10 torchBackend Ex.opts exNanX exRefX = .ok LX ∧
    ∀ m k, LX m k 0 = L m k 0 ∧ LX m k 1 = nan := by
  obtain ⟨L, h⟩ := (C34_sdr_loss (o := Ex.opts) Ex.covered rfl (by decide) Ex.load (by decide) Ex.fits Ex.est Ex.ref).2.2
    Ex.ref_ne_zero
  refine ⟨L, _, h, C87_sdr_loss (by norm_num) exRefX_stands exNanX_stands h, fun m k => ⟨?_, ?_⟩⟩
  · exact if_pos ⟨fun t => ⟨_, rfl⟩, exNanX_good m⟩
  · exact if_neg fun h => exNanX_bad m h.2

example : ∃ err, sdrX 10 torchBackend Ex.opts true false exRefX exNanX = .error err :=
  C87_sdr (m := ()) (k := 0) (by norm_num) Ex.covered true false (Or.inr (exNanX_bad ()))

example : ∃ err, bssEvalPermX 10 true torchBackend Ex.opts exRefX exNanX = .error err :=
  C87_bss_permutation (m := ()) (k := 0) (by norm_num) Ex.covered (Or.inr (exNanX_bad ()))

example : ∃ L LX, sdrLossDiag torchBackend Ex.opts Ex.est Ex.ref = .ok L ∧
    sdrLossDiagX 10 torchBackend Ex.opts exNanX exRefX = .ok LX ∧ LX () 0 = L () 0 ∧ LX () 1 = nan := by
  obtain ⟨L, h⟩ := Ex.sdrLossDiag_ok
  refine ⟨L, _, h, C87_sdr_loss_diag (by norm_num) exRefX_stands exNanX_stands h, ?_, ?_⟩
  · exact if_pos ⟨fun t => ⟨_, rfl⟩, exNanX_good ()⟩
  · exact if_neg fun h => exNanX_bad () h.2

/-- An infinite sample in the second reference: SIR and SAR of the first estimate are NaN, its SDR is not concerned. -/
example : ∃ out outX, bssEvalNoPerm torchBackend Ex.opts Ex.ref Ex.est = .ok out ∧
    bssEvalNoPermX 10 false torchBackend Ex.opts (fun m => ![exRefX m 0, fun _ => pinf])
      (fun m j t => fin (Ex.est m j t)) = .ok outX ∧
    outX.sdr () 0 = out.sdr () 0 ∧ outX.sir () 0 = nan ∧ outX.sar () 0 = nan ∧ outX.sdr () 1 = nan := by
  obtain ⟨⟨sd, sa⟩, hs⟩ := Ex.sqCosPair_ok
  obtain ⟨out, h⟩ : ∃ out, bssEvalNoPerm torchBackend Ex.opts Ex.ref Ex.est = .ok out := by
    unfold bssEvalNoPerm
    rw [sqCosDiag_of_pair _ _ (Or.inr ⟨rfl, rfl⟩) hs]
    exact ⟨_, rfl⟩
  have hbad : ¬ FiniteSamples (fun _ : Fin 3 => pinf) := fun h => by
    obtain ⟨a, ha⟩ := h 0
    cases ha
  have hest : ∀ (m : BIdx []) (j : Fin 2), StandsFor 10 Ex.opts.zeroMean (fun t => fin (Ex.est m j t)) (Ex.est m j) := by
    intro m j
    refine standsFor_self ?_
    rw [show Ex.opts.zeroMean = false from rfl]
    fin_cases j <;> simp [centred, Ex.est, Fin.sum_univ_three] <;> norm_num
  refine ⟨out, _, h, C87_bss_no_permutation (by norm_num) ?_ hest h (by simp), ?_, ?_, ?_, ?_⟩
  · intro m k
    fin_cases k
    · exact exRefX_stands m 0
    · exact standsFor_bad hbad _
  · exact if_pos ⟨fun t => ⟨_, rfl⟩, fun t => ⟨_, rfl⟩⟩
  · exact if_neg fun h => hbad (h.1 1)
  · exact if_neg fun h => hbad (h.1 1)
  · exact if_neg fun h => hbad h.1

example : sdrX 10 torchBackend Ex.opts true false exRefX (fun _ _ => fun t => fin (![4, 0, 0] t) : XSig [] 2 3) =
    sdr torchBackend Ex.opts true false Ex.ref (fun _ _ => 0 : Sig [] 2 3) := by
  have hE : (10 : ℝ) < ∑ t, centred Ex.opts.zeroMean (![4, 0, 0] : Fin 3 → ℝ) t ^ 2 := by
    rw [show Ex.opts.zeroMean = false from rfl]
    simp [centred, Fin.sum_univ_three]
    norm_num
  obtain ⟨L, h⟩ := (C34_sdr_loss (o := Ex.opts) Ex.covered rfl (by decide) Ex.load (by decide) Ex.fits
    (fun _ _ => 0 : Sig [] 2 3) Ex.ref).2.2 Ex.ref_ne_zero
  exact C87_sdr_finite (by norm_num) true false exRefX_stands (fun _ _ => standsFor_loud hE) (fun m k t => ⟨_, rfl⟩)
    (fun m k t => ⟨_, rfl⟩) h

example : bssEvalPermX 10 true torchBackend Ex.opts exRefX (fun m j t => fin (Ex.est m j t)) =
    bssEvalPerm torchBackend Ex.opts Ex.ref Ex.est := by
  obtain ⟨p, hs⟩ := Ex.sqCosPair_ok
  refine C87_bss_finite (by norm_num) exRefX_stands (fun m j => standsFor_self ?_) (fun m k t => ⟨_, rfl⟩)
    (fun m k t => ⟨_, rfl⟩) hs
  rw [show Ex.opts.zeroMean = false from rfl]
  fin_cases j <;> simp [centred, Ex.est, Fin.sum_univ_three] <;> norm_num

/-- The references themselves as estimates, with the range exceeded: `LinAlgError` with the references, the lowest SDR as
estimates of references within the range. -/
example : sdrLossPairX (1/2) torchBackend Ex.opts exRefX exRefX = .error .linAlgError := by
  refine (C87_sdr_loss_raises (o := Ex.opts) (by norm_num) Ex.covered rfl (by decide) Ex.load (by decide) Ex.fits exRefX exRefX).1.2 ?_
  refine ⟨(), 0, Ex.ref () 0, fun t => rfl, Or.inr ?_⟩
  rw [show Ex.opts.zeroMean = false from rfl]
  simp [centred, Ex.ref, Fin.sum_univ_three]
  norm_num

example : ∃ LX, sdrLossPairX 10 torchBackend Ex.opts (fun _ _ => fun t => fin (![4, 0, 0] t) : XSig [] 1 3) exRefX = .ok LX ∧
    LX () 0 0 = pinf := by
  have hE : (10 : ℝ) < ∑ t, centred Ex.opts.zeroMean (![4, 0, 0] : Fin 3 → ℝ) t ^ 2 := by
    rw [show Ex.opts.zeroMean = false from rfl]
    simp [centred, Fin.sum_univ_three]
    norm_num
  obtain ⟨L, h⟩ := (C34_sdr_loss (o := Ex.opts) Ex.covered rfl (by decide) Ex.load (by decide) Ex.fits
    (fun _ _ => 0 : Sig [] 1 3) Ex.ref).2.2 Ex.ref_ne_zero
  obtain ⟨LX, h1, h2⟩ := C87_loud_estimate (by norm_num) Ex.clampOk exRefX_stands (fun _ _ => standsFor_loud hE) h
    (m := ()) (j := 0) (fun t => rfl) hE
  exact ⟨LX, h1, h2 0 fun t => ⟨_, rfl⟩⟩

end FBE.Props
