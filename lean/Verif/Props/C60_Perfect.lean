import Verif.Props.C01_C04_Documented
import Verif.Props.C05_C06_Clamp
import Verif.Props.C09_C10_Filters
import Verif.Props.C11_C17_Permutation
import Verif.Props.C32_C34_Failures
import Verif.Proofs.ExampleRuns

/-!
# C60: perfectly separated sources are recognised

If every reference has an estimate that is a filtered copy of it, in whatever order, the values reported
are the best ones that can be reported, and the permutation is the order.
-/

set_option linter.unusedSectionVars false

namespace FBE.Props

open Spec XR

variable {s : List ℕ} {r e c N : ℕ} {B : Backend} {o : Opts}

/-- If some pairing only selects the least value `b` that the losses can have, every best one does. -/
theorem best_of_least {M : Fin r → Fin e → XR} (hs : Solvable M) {b : XR} (hb : b = ninf ∨ ∃ x, b = fin x)
    (hle : ∀ k j, toEReal b ≤ toEReal (M k j)) {P₀ P : Pairing r e} (h0 : ∀ i, M (P₀.ref i) (P₀.est i) = b)
    (hP : BestPairing M P) (i : Fin (min r e)) : M (P.ref i) (P.est i) = b := by
  have hv0 : P₀.values M = fun _ => b := funext h0
  rcases hb with rfl | ⟨x, rfl⟩
  · have h1 := hP.neg P₀
    rw [hv0] at h1
    have h2 : nNeg (fun _ : Fin (min r e) => (ninf : XR)) = min r e := by
      unfold nNeg
      simp [XR.isNegInf]
    rw [h2] at h1
    unfold nNeg at h1
    have h3 : (Finset.univ.filter fun k => ((P.values M) k).isNegInf = true) = Finset.univ := by
      apply Finset.eq_univ_of_card
      rw [Fintype.card_fin]
      refine le_antisymm ?_ h1
      have := Finset.card_filter_le (Finset.univ : Finset (Fin (min r e))) (fun k => ((P.values M) k).isNegInf = true)
      simpa using this
    have h4 := Finset.mem_univ i
    rw [← h3] at h4
    have h5 := (Finset.mem_filter.1 h4).2
    unfold Pairing.values at h5
    revert h5
    cases M (P.ref i) (P.est i) <;> simp [XR.isNegInf]
  · have hneg : ∀ k j, (M k j).isNegInf = false := by
      intro k j
      have := hle k j
      cases hm : M k j with
      | ninf =>
        rw [hm] at this
        exact absurd (le_bot_iff.1 this) (EReal.coe_ne_bot x)
      | _ => rfl
    have hn0 : ∀ Q : Pairing r e, nNeg (Q.values M) = 0 := by
      intro Q
      unfold nNeg
      rw [Finset.filter_false_of_mem (fun k _ => by unfold Pairing.values; rw [hneg]; simp)]
      rfl
    have hp0 : nPos (P₀.values M) = 0 := by
      rw [hv0]
      unfold nPos
      rw [Finset.filter_false_of_mem (fun k _ => by simp [XR.isPosInf])]
      rfl
    have hp : nPos (P.values M) = 0 := Nat.le_zero.1 (hp0 ▸ hP.pos P₀)
    have hf := hP.fin P₀ (hp0.trans hp.symm) ((hn0 _).trans (hn0 _).symm)
    have hval : ∀ k, ∃ y, M (P.ref k) (P.est k) = fin y ∧ x ≤ y := by
      intro k
      have h1 := hle (P.ref k) (P.est k)
      cases hm : M (P.ref k) (P.est k) with
      | fin y =>
        rw [hm] at h1
        exact ⟨y, rfl, EReal.coe_le_coe_iff.1 h1⟩
      | pinf =>
        have h2 := Finset.card_eq_zero.1 hp
        have h3 : k ∈ Finset.univ.filter fun k => ((P.values M) k).isPosInf = true :=
          Finset.mem_filter.2 ⟨Finset.mem_univ _, by unfold Pairing.values; rw [hm]; rfl⟩
        rw [h2] at h3
        exact absurd h3 (Finset.notMem_empty _)
      | ninf =>
        have := hneg (P.ref k) (P.est k)
        rw [hm] at this
        exact absurd this (by simp [XR.isNegInf])
      | nan => exact absurd hm (hs.no_nan _ _)
    choose y hy hxy using hval
    have e1 : finSum (P.values M) = ∑ k, y k := by
      unfold finSum
      refine Finset.sum_congr rfl fun k _ => ?_
      unfold Pairing.values
      rw [hy]
      rfl
    have e2 : finSum (P₀.values M) = ∑ _k : Fin (min r e), x := by
      rw [hv0]
      rfl
    rw [e1, e2] at hf
    have hsum := le_antisymm (Finset.sum_le_sum fun k (_ : k ∈ Finset.univ) => hxy k) hf
    have := (Finset.sum_eq_sum_iff_of_le fun k _ => hxy k).1 hsum i (Finset.mem_univ i)
    rw [hy, ← this]

/-- The pairing that joins reference `k` with estimate `π k`. -/
def pairingOf (π : Fin r → Fin e) (hπ : Function.Injective π) : Pairing r e where
  ref i := i.castLE (min_le_left r e)
  est i := π (i.castLE (min_le_left r e))
  ref_inj := Fin.castLE_injective _
  est_inj := hπ.comp (Fin.castLE_injective _)

theorem report_le {cl : Option ℝ} (hcl : ∀ d, cl = some d → 0 ≤ d) (x : XR) (hx : x ≠ nan) :
    toEReal (report cl pinf).neg ≤ toEReal (report cl x).neg := by
  cases cl with
  | none => exact bot_le
  | some d =>
    have hd := hcl d rfl
    show ((-d : ℝ) : EReal) ≤ toEReal (clip d x).neg
    rw [toEReal_neg (clip_ne_nan hx), toEReal_clip hd hx, EReal.coe_neg, EReal.neg_le_neg_iff]
    refine max_le ?_ (min_le_left _ _)
    rw [← EReal.coe_neg]
    exact EReal.coe_le_coe_iff.2 (by linarith)

theorem report_pinf (cl : Option ℝ) : (report cl pinf).neg = ninf ∨ ∃ x, (report cl pinf).neg = fin x := by
  cases cl with
  | none => exact Or.inl rfl
  | some d => exact Or.inr ⟨-d, rfl⟩

theorem loss_bound (hcl : o.clampOk) {ref : Sig s r N} {est : Sig s e N} {M} (h : sdrLossPair B o est ref = .ok M)
    (m k j) : toEReal (report o.clampDb pinf).neg ≤ toEReal (M m k j) := by
  obtain ⟨coh, -, rfl⟩ := sdrLossPair_entry h
  have hn : (coherenceToNegSdr none (fin (coh m k j))).neg ≠ nan := fun h =>
    absurd (coherenceToNegSdr_eq_nan.1 (neg_eq_nan.1 h)) (by simp)
  have := report_le hcl _ hn
  show _ ≤ toEReal (coherenceToNegSdr o.clampDb (fin (coh m k j)))
  rw [coherenceToNegSdr_report hcl]
  rwa [report_neg hcl, neg_neg'] at this

/-- **C60** for `sdr`: if estimate `π k` is a filtered copy of reference `k`, for every `k`, the values
reported are `+inf`, or `clamp_db`, whichever other estimates there are. -/
theorem C60_sdr (hB : Covered B) (hdir : o.direct) (hload : o.load = 0) (hcl : o.clampOk)
    (hfit : FilterFits N o.filterLength) (rp cs : Bool) {ref : Sig s r N} {est : Sig s e N}
    (π : BIdx s → Fin r → Fin e) (hπ : ∀ m, Function.Injective (π m))
    (hest : ∀ m k, Audible (centred o.zeroMean (est m (π m k))))
    (href : o.filterLength = 1 → ∀ m k, Normalisable (centred o.zeroMean (ref m k)))
    (hfilt : ∀ m k, IsFiltered o.filterLength (centred o.zeroMean (ref m k)) (centred o.zeroMean (est m (π m k)))) {out}
    (h : sdr B o rp cs ref est = .ok out) (m : BIdx s) (i) :
    out.sdr m i = if cs then (report o.clampDb pinf).neg else report o.clampDb pinf := by
  obtain ⟨M, p, hM, hp, h1, -⟩ := sdr_ok h
  obtain ⟨hsol, P, hP⟩ := solvePermutation_spec B hB.lsa M _ hp m
  have hL : 1 ≤ o.filterLength := by
    obtain ⟨coh, hc, -⟩ := sdrLossPair_entry hM
    by_contra h0
    simp only [sdrCohPair_def] at hc
    unfold sdrCohPairGen at hc
    rw [if_pos (by omega)] at hc
    cases hc
  have hb := best_of_least hsol (report_pinf o.clampDb) (loss_bound hcl hM m) (P₀ := pairingOf (π m) (hπ m))
    (fun k => C10_filtered_reference hB hdir hload hcl hL hfit hM m _ _ (hest m _) (fun h1 => href h1 m _) (hfilt m _))
    hP.best i
  rw [← hP.loss_eq] at hb
  rw [h1]
  cases cs
  · show (p.loss m i).neg = report o.clampDb pinf
    rw [hb, neg_neg']
  · exact hb

/-- **C60**, the permutation: if no other estimate is perfect for a reference, the permutation is the order
of the estimates. -/
theorem C60_sdr_permutation (hB : Covered B) (hdir : o.direct) (hload : o.load = 0) (hcl : o.clampOk)
    (hfit : FilterFits N o.filterLength) (cs : Bool) {ref : Sig s r N} {est : Sig s e N}
    (π : BIdx s → Fin r → Fin e) (hπ : ∀ m, Function.Injective (π m))
    (hest : ∀ m k, Audible (centred o.zeroMean (est m (π m k))))
    (href : o.filterLength = 1 → ∀ m k, Normalisable (centred o.zeroMean (ref m k)))
    (hfilt : ∀ m k, IsFiltered o.filterLength (centred o.zeroMean (ref m k)) (centred o.zeroMean (est m (π m k))))
    {M} (hM : pairwiseSdrLoss B o est ref = .ok M) (hu : ∀ m k j, j ≠ π m k → M m k j ≠ (report o.clampDb pinf).neg)
    {out} (h : sdr B o true cs ref est = .ok out) :
    ∃ p, out.perm = some p ∧ ∀ m i, p m i = π m (i.castLE (min_le_left r e)) := by
  obtain ⟨M', p, hM', hp, h1, h2⟩ := sdr_ok h
  cases hM.symm.trans hM'
  refine ⟨p.perm, h2, fun m i => ?_⟩
  obtain ⟨hsol, P, hP⟩ := solvePermutation_spec B hB.lsa M _ hp m
  have hb := C60_sdr hB hdir hload hcl hfit true cs π hπ hest href hfilt h m i
  rw [h1] at hb
  have hb' : p.loss m i = (report o.clampDb pinf).neg := by
    cases cs
    · have hb : (p.loss m i).neg = report o.clampDb pinf := hb
      rw [← hb, neg_neg']
    · exact hb
  have hre : r ≤ e := by
    have := Fintype.card_le_of_injective _ (hπ m)
    simpa using this
  obtain ⟨e1, e2⟩ := hP.perm_est hre i
  rw [e2]
  rw [hP.loss_eq] at hb'
  have h3 : P.est i = π m (P.ref i) := by
    by_contra hne
    exact hu m _ _ hne hb'
  rw [h3]
  congr 2
  exact Fin.ext e1

/-- Spans of the shifts of different references only have zero in common. -/
theorem disjoint_spans {L : ℕ} {x : Fin r → Fin N → ℝ} (h : IndependentShifts L x) {k k' : Fin r} (hk : k ≠ k')
    {u : Space (N + L - 1)} (h1 : u ∈ spanOne (N + L - 1) L (x k)) (h2 : u ∈ spanOne (N + L - 1) L (x k')) : u = 0 := by
  have hd : Disjoint {p : Fin L × Fin r | p.2 = k} {p : Fin L × Fin r | p.2 = k'} :=
    Set.disjoint_left.2 fun p (hp : p.2 = k) (hp' : p.2 = k') => hk (hp.symm.trans hp')
  have hs := h.disjoint_span_image hd
  have hsp : ∀ q : Fin r, spanOne (N + L - 1) L (x q) =
      Submodule.span ℝ ((fun p : Fin L × Fin r => shift (N + L - 1) (x p.2) p.1) '' {p | p.2 = q}) := by
    intro q
    unfold spanOne
    congr 1
    ext v
    constructor
    · rintro ⟨l, rfl⟩
      exact ⟨(l, q), rfl, rfl⟩
    · rintro ⟨⟨l, q'⟩, hq, rfl⟩
      cases hq
      exact ⟨l, rfl⟩
  rw [hsp] at h1 h2
  exact (Submodule.disjoint_def.1 hs) u h1 h2

/-- An infinite SDR: the estimate is in the span of the shifts. -/
theorem docSdr_eq_pinf {L : ℕ} {x : Fin r → Fin N → ℝ} {k : Fin r} {y : Fin N → ℝ} (h : docSdr L x k y = pinf) :
    shift (N + L - 1) y 0 ∈ spanOne (N + L - 1) L (x k) := by
  unfold docSdr dbRatio at h
  simp only at h
  split at h
  · rename_i h0
    rw [← Submodule.starProjection_eq_self_iff]
    unfold energy at h0
    have := norm_eq_zero.1 (pow_eq_zero_iff (two_ne_zero)|>.1 h0)
    exact (sub_eq_zero.1 this).symm
  · split at h <;> cases h

/-- **C60**, independent references: without `clamp_db`, if the shifts of all references are linearly
independent, the permutation is the order of the estimates. -/
theorem C60_sdr_independent (hB : Covered B) (hdir : o.direct) (hload : o.load = 0) (hcl : o.clampDb = none)
    (hfit : FilterFits N o.filterLength) (cs : Bool) {ref : Sig s c N} {est : Sig s c N}
    (π : BIdx s → Equiv.Perm (Fin c))
    (hest : ∀ m k, Audible (centred o.zeroMean (est m k)))
    (href : o.filterLength = 1 → ∀ m k, Normalisable (centred o.zeroMean (ref m k)))
    (hind : ∀ m, IndependentShifts o.filterLength fun k => centred o.zeroMean (ref m k))
    (hfilt : ∀ m k, IsFiltered o.filterLength (centred o.zeroMean (ref m k)) (centred o.zeroMean (est m (π m k))))
    {out} (h : sdr B o true cs ref est = .ok out) :
    ∃ p, out.perm = some p ∧ ∀ m i, p m i = π m (i.castLE (min_le_left c c)) := by
  have hclok : o.clampOk := fun d hd => by rw [hcl] at hd; cases hd
  obtain ⟨M, p, hM, -⟩ := sdr_ok h
  have hL : 1 ≤ o.filterLength := by
    obtain ⟨coh, hc, -⟩ := sdrLossPair_entry hM
    by_contra h0
    simp only [sdrCohPair_def] at hc
    unfold sdrCohPairGen at hc
    rw [if_pos (by omega)] at hc
    cases hc
  refine C60_sdr_permutation hB hdir hload hclok hfit cs (fun m => π m) (fun m => (π m).injective)
    (fun m k => hest m _) href hfilt hM ?_ h
  intro m k j hj heq
  rw [C01_sdr_loss_pairwise hB hdir hload hclok hfit hM m k j (hest m j) (fun h1 => href h1 m k), hcl] at heq
  have h1 : docSdr o.filterLength (fun k => centred o.zeroMean (ref m k)) k (centred o.zeroMean (est m j)) = pinf := by
    have heq : (docSdr o.filterLength (fun k => centred o.zeroMean (ref m k)) k (centred o.zeroMean (est m j))).neg =
      ninf := heq
    revert heq
    cases docSdr o.filterLength (fun k => centred o.zeroMean (ref m k)) k (centred o.zeroMean (est m j)) <;>
      simp [XR.neg]
  have h2 := docSdr_eq_pinf h1
  have h3 := shift_filtered (N + o.filterLength - 1) (hfilt m ((π m).symm j))
  rw [Equiv.apply_symm_apply] at h3
  have hne : k ≠ (π m).symm j := fun hk => hj (by rw [hk, Equiv.apply_symm_apply])
  have h4 := disjoint_spans (hind m) hne h2 h3
  have h5 := (gain_sq_energy (D := N + o.filterLength - 1) (by omega) (hest m j)).2
  rw [h4] at h5
  unfold energy at h5
  simp at h5

/-- An estimate that is a filtered copy of a reference has no artifacts. -/
theorem docSar_filtered {L : ℕ} {x : Fin r → Fin N → ℝ} {k : Fin r} {y : Fin N → ℝ} (hL : 1 ≤ L)
    (hy : Audible y) (h : IsFiltered L (x k) y) :
    docSar L x y = pinf ∧ ∀ k', docSir L x k' y = docSdr L x k' y := by
  have hmem : shift (N + L - 1) y 0 ∈ spanAll (N + L - 1) L x := by
    have hle : spanOne (N + L - 1) L (x k) ≤ spanAll (N + L - 1) L x := by
      unfold spanOne spanAll
      refine Submodule.span_mono ?_
      rintro _ ⟨l, rfl⟩
      exact ⟨(l, k), rfl⟩
    exact hle (shift_filtered _ h)
  have hp := Submodule.starProjection_eq_self_iff.2 hmem
  have hE := (gain_sq_energy (D := N + L - 1) (by omega) hy).2
  constructor
  · unfold docSar
    simp only [hp]
    unfold dbRatio
    rw [if_pos (by simp [energy]), if_neg hE.ne']
  · intro k'
    unfold docSir docSdr
    simp only [hp]

/-- **C60** for `bss_eval_sources`: if the estimates are filtered copies of the references, in any order,
all of SDR, SIR and SAR are `+inf`, or `clamp_db`. -/
theorem C60_bss_eval (hB : Covered B) (hdir : o.direct) (hload : o.load = 0) (hcl : o.clampOk)
    (hfit : FilterFits N o.filterLength) {ref est : Sig s c N} (π : BIdx s → Equiv.Perm (Fin c))
    (hest : ∀ m k, Audible (centred o.zeroMean (est m k)))
    (href : o.filterLength = 1 → ∀ m k, Normalisable (centred o.zeroMean (ref m k)))
    (hfilt : ∀ m k, IsFiltered o.filterLength (centred o.zeroMean (ref m k)) (centred o.zeroMean (est m (π m k)))) {out}
    (h : bssEvalSources B o true ref est = .ok out) (m : BIdx s) (i) :
    out.sdr m i = report o.clampDb pinf ∧ out.sir m i = report o.clampDb pinf ∧ out.sar m i = report o.clampDb pinf := by
  unfold bssEvalSources at h
  rw [if_pos rfl] at h
  obtain ⟨sd, sa, p, hs, hp, rfl⟩ := bssEvalPerm_ok h
  obtain ⟨hsol, P, hP⟩ := solvePermutation_spec B hB.lsa _ _ hp m
  have hL : 1 ≤ o.filterLength := by
    by_contra h0
    simp only [sqCosPair_def] at hs
    rw [if_pos (by omega)] at hs
    cases hs
  have hd := fun k j => baseMetrics_doc hB hdir hload hcl hfit ref est hs m k j (fun h1 => href h1 m k)
  have hsar : ∀ j, docSar o.filterLength (cen o ref m) (cen o est m j) = pinf ∧
      ∀ k, docSir o.filterLength (cen o ref m) k (cen o est m j) = docSdr o.filterLength (cen o ref m) k (cen o est m j) := by
    intro j
    have := hfilt m ((π m).symm j)
    rw [Equiv.apply_symm_apply] at this
    exact docSar_filtered (x := cen o ref m) (k := (π m).symm j) hL (hest m j) this
  have hne : ∀ k j, docSir o.filterLength (cen o ref m) k (cen o est m j) ≠ nan := by
    intro k j hn
    have h1 := (hd k j).2.1
    rw [hn] at h1
    refine hsol.no_nan k j (h1.trans ?_)
    cases o.clampDb <;> rfl
  have hb := best_of_least hsol (report_pinf o.clampDb)
    (fun k j => by
      show _ ≤ toEReal (baseMetrics o.clampDb (sd m k j) (sa m j)).2.1
      rw [(hd k j).2.1]
      exact report_le hcl _ (hne k j))
    (P₀ := pairingOf (π m) (π m).injective)
    (fun k => by
      show (baseMetrics o.clampDb _ _).2.1 = _
      rw [(hd _ _).2.1, (hsar _).2, docSdr_filtered hL (hest m _) (hfilt m _)])
    hP.best i
  have hb2 : (baseMetrics o.clampDb (sd m (P.ref i) (P.est i)) (sa m (P.est i))).2.1 = (report o.clampDb pinf).neg := hb
  refine ⟨?_, ?_, ?_⟩
  · show (p.args 0 m i).neg = _
    rw [hP.args_eq 0 i]
    show (baseMetrics o.clampDb (sd m (P.ref i) (P.est i)) (sa m (P.est i))).1.neg = _
    rw [(hd _ _).1 (hest m _), ← (hsar _).2, ← (hd _ _).2.1, hb2, neg_neg']
  · show (p.loss m i).neg = _
    rw [hP.loss_eq, hb, neg_neg']
  · show (p.args 1 m i).neg = _
    rw [hP.args_eq 1 i]
    show (baseMetrics o.clampDb (sd m (P.ref i) (P.est i)) (sa m (P.est i))).2.2.neg = _
    rw [(hd _ _).2.2 (hest m _), (hsar _).1, neg_neg']

/-- **C60**, the permutation of `bss_eval_sources`: without `clamp_db`, if the shifts of all references are
linearly independent, it is the order of the estimates. -/
theorem C60_bss_eval_permutation (hB : Covered B) (hdir : o.direct) (hload : o.load = 0) (hcl : o.clampDb = none)
    (hfit : FilterFits N o.filterLength) {ref est : Sig s c N} (π : BIdx s → Equiv.Perm (Fin c))
    (hest : ∀ m k, Audible (centred o.zeroMean (est m k)))
    (href : o.filterLength = 1 → ∀ m k, Normalisable (centred o.zeroMean (ref m k)))
    (hind : ∀ m, IndependentShifts o.filterLength fun k => centred o.zeroMean (ref m k))
    (hfilt : ∀ m k, IsFiltered o.filterLength (centred o.zeroMean (ref m k)) (centred o.zeroMean (est m (π m k)))) {out}
    (h : bssEvalSources B o true ref est = .ok out) :
    ∃ p, out.perm = some p ∧ ∀ m i, p m i = π m (i.castLE (min_le_left c c)) := by
  have hclok : o.clampOk := fun d hd => by rw [hcl] at hd; cases hd
  have h' := h
  unfold bssEvalSources at h'
  rw [if_pos rfl] at h'
  obtain ⟨sd, sa, p, hs, -, rfl⟩ := bssEvalPerm_ok h'
  refine ⟨p.perm, rfl, fun m i => ?_⟩
  obtain ⟨P, perm, hperm, hdes, hv, -⟩ := C12_bss_eval_documented hB hdir hload hclok hfit h m (hest m) (fun h1 => href h1 m)
  have hperm : p.perm = perm := Option.some.inj hperm
  rw [hperm]
  have hL : 1 ≤ o.filterLength := by
    by_contra h0
    simp only [sqCosPair_def] at hs
    rw [if_pos (by omega)] at hs
    cases hs
  have h1 := (C60_bss_eval hB hdir hload hclok hfit π hest href hfilt h m i).1
  rw [(hv i).1, hcl] at h1
  have h2 : shift (N + o.filterLength - 1) (centred o.zeroMean (est m (P.est i))) 0 ∈
      spanOne (N + o.filterLength - 1) o.filterLength (centred o.zeroMean (ref m (P.ref i))) :=
    docSdr_eq_pinf (x := fun k => centred o.zeroMean (ref m k)) h1
  have h3 := shift_filtered (N + o.filterLength - 1) (hfilt m ((π m).symm (P.est i)))
  rw [Equiv.apply_symm_apply] at h3
  obtain ⟨e1, e2⟩ := hdes.est le_rfl i
  rw [e2]
  by_cases hk : P.ref i = (π m).symm (P.est i)
  · have : P.est i = π m (P.ref i) := by rw [hk, Equiv.apply_symm_apply]
    have e3 : P.ref i = i.castLE (min_le_left c c) := Fin.ext e1
    rw [this, e3]
  · have h4 := disjoint_spans (hind m) hk h2 h3
    have h5 := (gain_sq_energy (D := N + o.filterLength - 1) (by omega) (hest m (P.est i))).2
    rw [h4] at h5
    unfold energy at h5
    simp at h5

/-- **C60**, returning: for filtered copies of references with independent shifts, `bss_eval_sources` returns
exactly when `sdr` does. -/
theorem C60_returns_iff (hB : Covered B) (hdir : o.direct) (hload : o.load = 0) (hcl : o.clampOk)
    (hfit : FilterFits N o.filterLength) (hN : 0 < N) (hL : 1 ≤ o.filterLength) {ref est : Sig s c N}
    (π : BIdx s → Equiv.Perm (Fin c))
    (hest : ∀ m k, Audible (centred o.zeroMean (est m k)))
    (href : o.filterLength = 1 → ∀ m k, Normalisable (centred o.zeroMean (ref m k)))
    (hind : ∀ m, IndependentShifts o.filterLength fun k => centred o.zeroMean (ref m k))
    (hfilt : ∀ m k, IsFiltered o.filterLength (centred o.zeroMean (ref m k)) (centred o.zeroMean (est m (π m k))))
    (rp cs : Bool) :
    (∃ out, bssEvalSources B o true ref est = .ok out) ↔ ∃ out, sdr B o rp cs ref est = .ok out := by
  rw [C17_bss_eval_returns_iff hB, C17_sdr_returns_iff hB]
  rcases sqCosPair_success hB hdir hL hload hN hfit ref est with ⟨⟨⟨sd, sa⟩, hs⟩, -⟩ | ⟨-, m, hm⟩
  · have hM : pairwiseSdrLoss B o est ref = .ok fun m k j => coherenceToNegSdr o.clampDb (fin (sd m k j)) := by
      unfold pairwiseSdrLoss sdrLossPair
      rw [sqCosPair_sdr _ _ hs]
    have heq : ∀ m, (fun k j => (baseMetrics o.clampDb (sd m k j) (sa m j)).2.1) =
        fun k j => coherenceToNegSdr o.clampDb (fin (sd m k j)) := by
      intro m
      funext k j
      have hf := hfilt m ((π m).symm j)
      rw [Equiv.apply_symm_apply] at hf
      obtain ⟨-, h2⟩ := docSar_filtered (x := cen o ref m) (k := (π m).symm j) hL (hest m j) hf
      have hd := baseMetrics_doc hB hdir hload hcl hfit ref est hs m k j (fun h1 => href h1 m k)
      rw [hd.2.1, h2, ← hd.1 (hest m j)]
      rfl
    constructor
    · rintro ⟨sd', sa', hs', h⟩
      cases hs.symm.trans hs'
      exact ⟨_, hM, fun m => heq m ▸ h m⟩
    · rintro ⟨M, hM', h⟩
      cases hM.symm.trans hM'
      exact ⟨sd, sa, hs, fun m => (heq m).symm ▸ h m⟩
  · exact absurd (hind m) hm

/-! ### Cases

With filters of two taps and `clamp_db=30`: the first reference filtered by `1, 2`, the second one scaled by
`-3`, in exchanged order. -/

noncomputable def swapped : Sig [] 2 3 := fun _ => ![![0, 0, -3], ![1, 2, 0]]

theorem swapped_filtered (m : BIdx []) (k : Fin 2) : IsFiltered 2 (centred false (Ex.ref m k))
    (centred false (swapped m (Equiv.swap 0 1 k))) := by
  have hc : ∀ x : Fin 3 → ℝ, centred false x = x := fun x => rfl
  rw [hc, hc]
  fin_cases k
  · refine ⟨![1, 2], fun t => ?_⟩
    rcases t with _ | _ | _ | _ | t <;> simp [zpad, Ex.ref, swapped, Fin.sum_univ_two]
  · refine ⟨![-3, 0], fun t => ?_⟩
    rcases t with _ | _ | _ | _ | t <;> simp [zpad, Ex.ref, swapped, Fin.sum_univ_two]

theorem swapped_audible (m : BIdx []) (k : Fin 2) : Audible (centred false (swapped m k)) := by
  have hc : ∀ x : Fin 3 → ℝ, centred false x = x := fun x => rfl
  rw [hc]
  have h : (1 : ℝ) ≤ sigNorm (swapped m k) := by
    unfold sigNorm
    rw [Real.one_le_sqrt]
    fin_cases k <;> simp [Fin.sum_univ_three, swapped]
  exact le_trans (by norm_num) h

theorem swapped_sdr : ∃ out, sdr torchBackend { Ex.opts with clampDb := some 30 } true false Ex.ref swapped = .ok out := by
  rw [C17_sdr_returns_iff Ex.covered]
  have h := (C34_sdr_loss (o := { Ex.opts with clampDb := some 30 }) Ex.covered rfl le_rfl rfl (by decide) Ex.fits swapped Ex.ref).2.2
    (fun m k => Ex.ref_ne_zero m k)
  obtain ⟨L, hL⟩ := h
  refine ⟨L, hL, fun m => solvable_of_finite fun k j => ?_⟩
  obtain ⟨x, hx, -⟩ := C05_sdr_loss_pairwise (o := { Ex.opts with clampDb := some 30 }) (by norm_num) rfl hL m k j
  exact ⟨x, hx⟩

example : ∃ out, sdr torchBackend { Ex.opts with clampDb := some 30 } true false Ex.ref swapped = .ok out ∧
    ∀ m i, out.sdr m i = fin 30 := by
  obtain ⟨out, h⟩ := swapped_sdr
  exact ⟨out, h, C60_sdr (o := { Ex.opts with clampDb := some 30 }) Ex.covered (Or.inr rfl) rfl
    (fun d hd => by cases hd; norm_num) Ex.fits true false (fun _ k => Equiv.swap 0 1 k) (fun _ => (Equiv.swap 0 1).injective)
    (fun m k => swapped_audible m _) (fun h => absurd h (by decide)) swapped_filtered h⟩

example : ∃ out, bssEvalSources torchBackend { Ex.opts with clampDb := some 30 } true Ex.ref swapped = .ok out ∧
    ∀ m i, out.sdr m i = fin 30 ∧ out.sir m i = fin 30 ∧ out.sar m i = fin 30 := by
  have hcl : Opts.clampOk { Ex.opts with clampDb := some 30 } := fun d hd => by cases hd; norm_num
  obtain ⟨out, h⟩ := (C60_returns_iff (o := { Ex.opts with clampDb := some 30 }) Ex.covered (Or.inr rfl) rfl hcl
    Ex.fits (by decide) (by decide) (fun _ => Equiv.swap 0 1) swapped_audible (fun h => absurd h (by decide))
    Ex.independent swapped_filtered true false).2 swapped_sdr
  exact ⟨out, h, C60_bss_eval (o := { Ex.opts with clampDb := some 30 }) Ex.covered (Or.inr rfl) rfl hcl
    Ex.fits (fun _ => Equiv.swap 0 1) swapped_audible (fun h => absurd h (by decide)) swapped_filtered h⟩

/-! With `filter_length=1` and without `clamp_db`: scaled copies of correlated references, exchanged. -/

noncomputable def corrRef : Sig [] 2 3 := fun _ => ![![1, 0, 0], ![1, 1, 0]]
noncomputable def corrEst : Sig [] 2 3 := fun _ => ![![2, 2, 0], ![-1, 0, 0]]

theorem corr_audible (m : BIdx []) (k : Fin 2) : Audible (centred false (corrRef m k)) ∧
    Audible (centred false (corrEst m k)) := by
  have hc : ∀ x : Fin 3 → ℝ, centred false x = x := fun x => rfl
  rw [hc, hc]
  have h1 : (1 : ℝ) ≤ sigNorm (corrRef m k) := by
    unfold sigNorm
    rw [Real.one_le_sqrt]
    fin_cases k <;> simp [Fin.sum_univ_three, corrRef]
  have h2 : (1 : ℝ) ≤ sigNorm (corrEst m k) := by
    unfold sigNorm
    rw [Real.one_le_sqrt]
    fin_cases k <;> simp [Fin.sum_univ_three, corrEst]; norm_num
  exact ⟨le_trans (by norm_num) h1, le_trans (by norm_num) h2⟩

theorem corr_filtered (m : BIdx []) (k : Fin 2) : IsFiltered 1 (centred false (corrRef m k))
    (centred false (corrEst m (Equiv.swap 0 1 k))) := by
  have hc : ∀ x : Fin 3 → ℝ, centred false x = x := fun x => rfl
  rw [hc, hc]
  fin_cases k
  · refine ⟨![-1], fun t => ?_⟩
    rcases t with _ | _ | _ | _ | t <;> simp [zpad, corrRef, corrEst]
  · refine ⟨![2], fun t => ?_⟩
    rcases t with _ | _ | _ | _ | t <;> simp [zpad, corrRef, corrEst]

theorem corr_independent (m : BIdx []) : IndependentShifts 1 fun k => centred false (corrRef m k) := by
  show LinearIndependent ℝ fun p : Fin 1 × Fin 2 => shift 3 (corrRef m p.2) p.1
  rw [Fintype.linearIndependent_iff]
  intro g hg
  have h1 := congrArg (fun v : Space 3 => v 0) hg
  have h2 := congrArg (fun v : Space 3 => v 1) hg
  simp [Fintype.sum_prod_type, Fin.sum_univ_two, shift_apply, zpad, corrRef] at h1 h2
  rintro ⟨l, k⟩
  have hl : l = 0 := Subsingleton.elim _ _
  subst hl
  fin_cases k
  · show g (0, 0) = 0
    linarith
  · exact h2

theorem corr_coh (m : BIdx []) (k j : Fin 2) : dot (prep (siOpts false none none) corrRef m k)
    (prep (siOpts false none none) corrEst m j) ^ 2 = if k = j then 1 / 2 else 1 := by
  have g1 := gain_sq_energy (D := 3) le_rfl (corr_audible m k).1
  have g2 := gain_sq_energy (D := 3) le_rfl (corr_audible m j).2
  rw [energy_shift 3 le_rfl, sigNorm_sq] at g1 g2
  have hc : ∀ x : Fin 3 → ℝ, centred false x = x := fun x => rfl
  rw [prep_eq, prep_eq]
  have hz : (siOpts false none none).zeroMean = false := rfl
  rw [hz]
  rw [hc] at g1 g2 ⊢
  rw [hc]
  have e : dot (fun t => gain (corrRef m k) * corrRef m k t) (fun t => gain (corrEst m j) * corrEst m j t) =
      gain (corrRef m k) * gain (corrEst m j) * ∑ t, corrRef m k t * corrEst m j t := by
    unfold dot
    rw [Finset.mul_sum]
    exact Finset.sum_congr rfl fun t _ => by ring
  rw [e, mul_pow, mul_pow]
  have h1 := g1.1
  have h2 := g2.1
  fin_cases k <;> fin_cases j <;> simp [Fin.sum_univ_three, corrRef, corrEst] at h1 h2 ⊢ <;>
    norm_num at h1 h2 ⊢
  · rcases h1 with h1 | h1 <;> rw [h1] <;> linarith
  · rcases h1 with h1 | h1 <;> rcases h2 with h2 | h2 <;> rw [h1, h2] <;> norm_num
  · linear_combination (8 * gain ![2, 2, 0] ^ 2) * h1 + h2
  · rcases h2 with h2 | h2 <;> rw [h2] <;> linarith

theorem corr_sdr : ∃ out, sdr torchBackend (siOpts false none none) true false corrRef corrEst = .ok out := by
  rw [C17_sdr_returns_iff Ex.covered]
  refine ⟨fun m k j => coherenceToNegSdr none (fin (dot (prep (siOpts false none none) corrRef m k)
        (prep (siOpts false none none) corrEst m j) ^ 2)), ?_, fun m => ?_⟩
  · unfold pairwiseSdrLoss sdrLossPair
    rw [sdrCohPair_def, if_neg (by simp [siOpts]), if_pos (by rfl)]
    rfl
  · have hv : (fun k j => coherenceToNegSdr none (fin (dot (prep (siOpts false none none) corrRef m k)
        (prep (siOpts false none none) corrEst m j) ^ 2))) = fun k j => if k = j then fin (10 * Real.logb 10 ((1 - 1 / 2) / (1 / 2)))
          else ninf := by
      funext k j
      rw [corr_coh, coherenceToNegSdr_fin]
      split_ifs
      · rw [cclamp_none (by norm_num) (by norm_num)]
        unfold negDb
        rw [if_neg (by norm_num), if_neg (by norm_num)]
      · rw [cclamp_none (by norm_num) (by norm_num)]
        unfold negDb
        rw [if_neg (by norm_num), if_pos rfl]
    show Solvable (fun k j => coherenceToNegSdr none (fin (dot (prep (siOpts false none none) corrRef m k)
        (prep (siOpts false none none) corrEst m j) ^ 2)))
    rw [hv]
    refine ⟨fun i j => by split_ifs <;> simp, ?_, fun _ => ⟨0, 0, _, if_pos rfl⟩⟩
    rintro ⟨⟨i, j, h⟩, -⟩
    split_ifs at h

example : ∃ out p, siSdr torchBackend false none true true corrRef corrEst = .ok out ∧
    out.perm = some p ∧ ∀ m i, p m i = Equiv.swap (0 : Fin 2) 1 (i.castLE (min_le_left 2 2)) := by
  obtain ⟨out, h⟩ : ∃ out, sdr torchBackend (siOpts false none none) true true corrRef corrEst = .ok out := by
    rw [C17_sdr_returns_iff Ex.covered, ← C17_sdr_returns_iff Ex.covered true false]
    exact corr_sdr
  have hfit : FilterFits 3 1 := by
    show 1 + 3 ≤ 2 ^ Nat.clog 2 5 + 1
    decide
  have hM : pairwiseSdrLoss torchBackend (siOpts false none none) corrEst corrRef =
      .ok fun m k j => coherenceToNegSdr none (fin (dot (prep (siOpts false none none) corrRef m k)
        (prep (siOpts false none none) corrEst m j) ^ 2)) := by
    unfold pairwiseSdrLoss sdrLossPair
    rw [sdrCohPair_def, if_neg (by simp [siOpts]), if_pos (by rfl)]
    rfl
  obtain ⟨p, hp, hpv⟩ := C60_sdr_permutation (o := siOpts false none none) Ex.covered (Or.inl rfl) rfl
    (fun d hd => by cases hd) hfit true (fun _ k => Equiv.swap 0 1 k) (fun _ => (Equiv.swap 0 1).injective)
    (fun m k => (corr_audible m _).2) (fun _ m k => Or.inl (corr_audible m k).1) corr_filtered hM
    (fun m k j hj => by
      have hkj : k = j := by revert k j; decide
      rw [corr_coh, if_pos hkj, Ex.loss_mid (by norm_num) (by norm_num)]
      show fin _ ≠ ninf
      simp) h
  exact ⟨out, p, h, hp, hpv⟩

example : ∃ out p, siSdr torchBackend false none true false corrRef corrEst = .ok out ∧
    (∀ m i, out.sdr m i = pinf) ∧ out.perm = some p ∧ ∀ m, p m ⟨0, by decide⟩ = 1 ∧ p m ⟨1, by decide⟩ = 0 := by
  obtain ⟨out, h⟩ := corr_sdr
  have hfit : FilterFits 3 1 := by
    show 1 + 3 ≤ 2 ^ Nat.clog 2 5 + 1
    decide
  obtain ⟨p, hp, hpv⟩ := C60_sdr_independent (o := siOpts false none none) Ex.covered (Or.inl rfl) rfl rfl hfit false
    (fun _ => Equiv.swap 0 1) (fun m k => (corr_audible m k).2) (fun _ m k => Or.inl (corr_audible m k).1)
    corr_independent corr_filtered h
  exact ⟨out, p, h, C60_sdr (o := siOpts false none none) Ex.covered (Or.inl rfl) rfl (fun d hd => by cases hd) hfit true false
    (fun _ k => Equiv.swap 0 1 k) (fun _ => (Equiv.swap 0 1).injective) (fun m k => (corr_audible m _).2)
    (fun _ m k => Or.inl (corr_audible m k).1) corr_filtered h, hp, fun m => ⟨hpv m ⟨0, by decide⟩, hpv m ⟨1, by decide⟩⟩⟩

example : ∃ out p, siBssEvalSources torchBackend false none true none corrRef corrEst = .ok out ∧
    out.perm = some p ∧ ∀ m, p m ⟨0, by decide⟩ = 1 ∧ p m ⟨1, by decide⟩ = 0 := by
  have hfit : FilterFits 3 1 := by
    show 1 + 3 ≤ 2 ^ Nat.clog 2 5 + 1
    decide
  obtain ⟨out, h⟩ := (C60_returns_iff (o := siOpts false none none) Ex.covered (Or.inl rfl) rfl (fun d hd => by cases hd) hfit
    (by decide) le_rfl (fun _ => Equiv.swap 0 1) (fun m k => (corr_audible m k).2) (fun _ m k => Or.inl (corr_audible m k).1)
    corr_independent corr_filtered true false).2 corr_sdr
  obtain ⟨p, hp, hpv⟩ := C60_bss_eval_permutation (o := siOpts false none none) Ex.covered (Or.inl rfl) rfl rfl hfit
    (fun _ => Equiv.swap 0 1) (fun m k => (corr_audible m k).2) (fun _ m k => Or.inl (corr_audible m k).1)
    corr_independent corr_filtered h
  exact ⟨out, p, h, hp, fun m => ⟨hpv m ⟨0, by decide⟩, hpv m ⟨1, by decide⟩⟩⟩

end FBE.Props
