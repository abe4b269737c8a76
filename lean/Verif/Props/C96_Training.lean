import Verif.Proofs.Training
import Verif.Props.C59_Gradient

/-!
# C96: one step of training

What a step of gradient descent does to the loss and to the estimates, for the gradients that torch computes.
-/

namespace FBE.Props

open Classical FBE.Spec FBE.Backward FBE.Training XR Filter Topology

variable {s : List ℕ} {r e c N T it : ℕ} {o : Opts}

/-- `y` is the sum of the losses of all pairs with weights `w`. -/
def LossSum (o : Opts) (ref : Sig s r N) (w : BIdx s → Fin r → Fin e → ℝ) (est : Sig s e T) (y : ℝ) : Prop :=
  ∃ (M : BIdx s → Fin r → Fin e → XR) (x : BIdx s → Fin r → Fin e → ℝ), sdrLossPair torchBackend o est ref = .ok M ∧
    (∀ m k j, M m k j = fin (x m k j)) ∧ y = ∑ m, ∑ k, ∑ j, w m k j * x m k j

/-- The channels that are at most as loud as the threshold of the normalisation. -/
def Quiet (o : Opts) (est : Sig s e T) (m : BIdx s) (j : Fin e) : Prop := sigNorm (centred o.zeroMean (est m j)) ≤ 1e-6

/-! ### the losses are functions of the normalised estimates -/

theorem lossSum_fun (ref : Sig s r N) (w : BIdx s → Fin r → Fin e → ℝ) (est : Sig s e T) (y y' : ℝ) (h : LossSum o ref w est y)
    (h' : LossSum o ref w est y') : y = y' := by
  obtain ⟨M, x, h1, h2, rfl⟩ := h
  obtain ⟨M', x', h1', h2', rfl⟩ := h'
  rw [h1] at h1'
  cases h1'
  have : x = x' := by
    funext m k j
    exact XR.fin.inj ((h2 m k j).symm.trans (h2' m k j))
  rw [this]

theorem lossDiag_fun (ref : Sig s c N) (w : BIdx s → Fin c → ℝ) (est : Sig s c T) (y y' : ℝ) (h : LossDiag o ref est w y)
    (h' : LossDiag o ref est w y') : y = y' := by
  obtain ⟨M, x, h1, h2, rfl⟩ := h
  obtain ⟨M', x', h1', h2', rfl⟩ := h'
  rw [h1] at h1'
  cases h1'
  have : x = x' := by
    funext m k
    exact XR.fin.inj ((h2 m k).symm.trans (h2' m k))
  rw [this]

theorem pitTotal_fun {cs : Bool} (ref : Sig s r N) (v : BIdx s → Fin (min r e) → ℝ) (est : Sig s e T) (y y' : ℝ)
    (h : PitTotal o cs ref est v y) (h' : PitTotal o cs ref est v y') : y = y' := by
  obtain ⟨M, x, h1, h2, rfl⟩ := h
  obtain ⟨M', x', h1', h2', rfl⟩ := h'
  rw [h1] at h1'
  cases h1'
  have : x = x' := by
    funext m k
    exact XR.fin.inj ((h2 m k).symm.trans (h2' m k))
  rw [this]

theorem uses_fun {ι : Type} [Fintype ι] {w : Option (ι → ℝ)} {v : ι → XR} {y y' : ℝ} (h : Uses w v y) (h' : Uses w v y') :
    y = y' := by
  cases w with
  | none => exact h.trans h'.symm
  | some w =>
    obtain ⟨x, h2, rfl⟩ := h
    obtain ⟨x', h2', rfl⟩ := h'
    have : x = x' := by
      funext i
      exact XR.fin.inj ((h2 i).symm.trans (h2' i))
    rw [this]

theorem bssTotal_fun (ref : Sig s r N) (v : BssWeights (BIdx s × Fin (min r e))) (est : Sig s e T) (y y' : ℝ)
    (h : BssTotal o ref est v y) (h' : BssTotal o ref est v y') : y = y' := by
  obtain ⟨out, h1, a, b, d, ha, hb, hd, rfl⟩ := h
  obtain ⟨out', h1', a', b', d', ha', hb', hd', rfl⟩ := h'
  rw [h1] at h1'
  cases h1'
  rw [uses_fun ha ha', uses_fun hb hb', uses_fun hd hd']

theorem bssTotalDiag_fun (ref : Sig s c N) (v : BssWeights (BIdx s × Fin c)) (est : Sig s c T) (y y' : ℝ)
    (h : BssTotalDiag o ref est v y) (h' : BssTotalDiag o ref est v y') : y = y' := by
  obtain ⟨out, h1, a, b, d, ha, hb, hd, rfl⟩ := h
  obtain ⟨out', h1', a', b', d', ha', hb', hd', rfl⟩ := h'
  rw [h1] at h1'
  cases h1'
  rw [uses_fun ha ha', uses_fun hb hb', uses_fun hd hd']

theorem torch_covered : Covered torchBackend := Or.inl rfl

theorem lossSum_inv (ref : Sig s r N) (w : BIdx s → Fin r → Fin e → ℝ) (p p' : Sig s e T) (h : SamePrep o p p') (y : ℝ)
    (hy : LossSum o ref w p' y) : LossSum o ref w p y := by
  unfold LossSum at hy
  rw [sdrLossPair_same torch_covered (h.same (ref := ref))] at hy
  exact hy

theorem lossDiag_inv (ref : Sig s c N) (w : BIdx s → Fin c → ℝ) (p p' : Sig s c T) (h : SamePrep o p p') (y : ℝ)
    (hy : LossDiag o ref p' w y) : LossDiag o ref p w y := by
  unfold LossDiag at hy
  rw [sdrLossDiag_same torch_covered (h.same (ref := ref))] at hy
  exact hy

theorem pitTotal_inv {cs : Bool} (ref : Sig s r N) (v : BIdx s → Fin (min r e) → ℝ) (p p' : Sig s e T) (h : SamePrep o p p') (y : ℝ)
    (hy : PitTotal o cs ref p' v y) : PitTotal o cs ref p v y := by
  unfold PitTotal at hy
  rw [sdr_same torch_covered (h.same (ref := ref))] at hy
  exact hy

theorem bssTotal_inv (ref : Sig s r N) (v : BssWeights (BIdx s × Fin (min r e))) (p p' : Sig s e T) (h : SamePrep o p p') (y : ℝ)
    (hy : BssTotal o ref p' v y) : BssTotal o ref p v y := by
  unfold BssTotal at hy
  rw [bssEvalSources_same torch_covered (h.same (ref := ref))] at hy
  exact hy

theorem bssTotalDiag_inv (ref : Sig s c N) (v : BssWeights (BIdx s × Fin c)) (p p' : Sig s c T) (h : SamePrep o p p') (y : ℝ)
    (hy : BssTotalDiag o ref p' v y) : BssTotalDiag o ref p v y := by
  unfold BssTotalDiag at hy
  rw [bssEvalSources_same torch_covered (h.same (ref := ref))] at hy
  exact hy

/-! ### the steps -/

/-- **C96**, `sdr_loss` with `filter_length=1` and `si_sdr_loss`, all pairs. -/
theorem C96_si_pairwise (h1 : o.filterLength = 1) {ref : Sig s r N} {est : Sig s e N} {M}
    (h : sdrLossPair torchBackend { o with clampDb := none } est ref = .ok M) (hb : ∀ m k j, OffBounds o.clampDb (M m k j))
    (hx : ∀ m j, sigNorm (centred o.zeroMean (est m j)) ≠ 1e-6) (w : BIdx s → Fin r → Fin e → ℝ) :
    GoodStep o.zeroMean (Quiet o est) (LossSum o ref w) (gradEst o ref est w) est := by
  obtain ⟨f, hf, hg⟩ := C71_gradient_est h1 h hb hx w
  exact goodStep (lossSum_fun ref w) (lossSum_inv ref w) (touches_of hf) hg

/-- **C96**, `sdr_loss` with `filter_length=1` and `si_sdr_loss`, channel by channel. -/
theorem C96_si (h1 : o.filterLength = 1) {ref est : Sig s c N} {M}
    (h : sdrLossDiag torchBackend { o with clampDb := none } est ref = .ok M) (hb : ∀ m k, OffBounds o.clampDb (M m k))
    (hx : ∀ m j, sigNorm (centred o.zeroMean (est m j)) ≠ 1e-6) (w : BIdx s → Fin c → ℝ) :
    GoodStep o.zeroMean (Quiet o est) (fun p => LossDiag o ref p w) (gradEstDiag o ref est w) est := by
  obtain ⟨f, hf, hg⟩ := (C71_gradient_diag h1 h hb w).1 hx
  exact goodStep (lossDiag_fun ref w) (lossDiag_inv ref w) (touches_of hf) hg

/-- **C96**, `sdr_loss` with longer filters and the direct solver, all pairs. -/
theorem C96_sdr_pairwise (hN : 0 < N) (hL : 2 ≤ o.filterLength) (hcg : o.useCgIter = none) {ref : Sig s r N} {est : Sig s e T} {V}
    (h : sdrLossPair torchBackend { o with clampDb := none } est ref = .ok V) (hb : ∀ m k j, OffBounds o.clampDb (V m k j))
    (hx : ∀ m j, sigNorm (centred o.zeroMean (est m j)) ≠ 1e-6) (w : BIdx s → Fin r → Fin e → ℝ) :
    ∃ g, gradEstFir o ref est w = .ok g ∧ GoodStep o.zeroMean (Quiet o est) (LossSum o ref w) g est := by
  obtain ⟨f, g, hf, hk, hg⟩ := C72_gradient_est hN hL hcg h hb hx w
  exact ⟨g, hk, goodStep (lossSum_fun ref w) (lossSum_inv ref w) (touches_of hf) hg⟩

/-- **C96**, `sdr_loss` with longer filters and the direct solver, channel by channel. -/
theorem C96_sdr (hN : 0 < N) (hL : 2 ≤ o.filterLength) (hcg : o.useCgIter = none) {ref : Sig s c N} {est : Sig s c T} {V}
    (h : sdrLossDiag torchBackend { o with clampDb := none } est ref = .ok V) (hb : ∀ m k, OffBounds o.clampDb (V m k))
    (hx : ∀ m j, sigNorm (centred o.zeroMean (est m j)) ≠ 1e-6) (w : BIdx s → Fin c → ℝ) :
    ∃ g, gradEstFirDiag o ref est w = .ok g ∧ GoodStep o.zeroMean (Quiet o est) (fun p => LossDiag o ref p w) g est := by
  obtain ⟨f, g, hf, hk, hg⟩ := (C72_gradient_diag hN hL hcg h hb w).1 hx
  exact ⟨g, hk, goodStep (lossDiag_fun ref w) (lossDiag_inv ref w) (touches_of hf) hg⟩

/-- **C96**, `sdr_loss` with `use_cg_iter`, all pairs. -/
theorem C96_iterative_pairwise (hN : 0 < N) (hL : 2 ≤ o.filterLength) (hcg : o.useCgIter = some it) {ref : Sig s r N}
    {est : Sig s e T} {V} (h : sdrLossPair torchBackend { o with clampDb := none } est ref = .ok V)
    (hb : ∀ m k j, OffBounds o.clampDb (V m k j)) (hs : ∀ m k j, PairSmooth o it ref est m k j)
    (hx : ∀ m j, sigNorm (centred o.zeroMean (est m j)) ≠ 1e-6) (w : BIdx s → Fin r → Fin e → ℝ) :
    ∃ g, gradEstCg o it ref est w = .ok g ∧ GoodStep o.zeroMean (Quiet o est) (LossSum o ref w) g est := by
  obtain ⟨f, g, hf, hk, hg⟩ := C75_gradient_est hN hL hcg h hb hs hx w
  exact ⟨g, hk, goodStep (lossSum_fun ref w) (lossSum_inv ref w) (touches_of hf) hg⟩

/-- **C96**, `sdr_loss` with `use_cg_iter`, channel by channel. -/
theorem C96_iterative (hN : 0 < N) (hL : 2 ≤ o.filterLength) (hcg : o.useCgIter = some it) {ref : Sig s c N} {est : Sig s c T} {V}
    (h : sdrLossDiag torchBackend { o with clampDb := none } est ref = .ok V) (hb : ∀ m k, OffBounds o.clampDb (V m k))
    (hs : ∀ m k, PairSmooth o it ref est m k k)
    (hx : ∀ m j, sigNorm (centred o.zeroMean (est m j)) ≠ 1e-6) (w : BIdx s → Fin c → ℝ) :
    ∃ g, gradEstCgDiag o it ref est w = .ok g ∧ GoodStep o.zeroMean (Quiet o est) (fun p => LossDiag o ref p w) g est := by
  obtain ⟨f, g, hf, hk, hg⟩ := (C75_gradient_diag hN hL hcg h hb hs w).1 hx
  exact ⟨g, hk, goodStep (lossDiag_fun ref w) (lossDiag_inv ref w) (touches_of hf) hg⟩

/-- **C96**, `sdr_pit_loss` with `filter_length=1` and `si_sdr_pit_loss`, also where several permutations are best: the step lowers the
loss of the best permutation after the step. -/
theorem C96_pit_si (h1 : o.filterLength = 1) {ref : Sig s r N} {est : Sig s e N} {V out}
    (hV : sdrLossPair torchBackend { o with clampDb := none } est ref = .ok V) (hb : ∀ m k j, OffBounds o.clampDb (V m k j))
    (hout : sdrPitLoss torchBackend o est ref = .ok out) {v : BIdx s → ℝ} (hv : ∀ m, 0 ≤ v m)
    (hx : ∀ m j, sigNorm (centred o.zeroMean (est m j)) ≠ 1e-6) :
    ∃ g, gradEstPit o true ref est (fun m _ => v m) = .ok g ∧
      GoodStep o.zeroMean (Quiet o est) (fun p => PitTotal o true ref p fun m _ => v m) g est := by
  obtain ⟨f, g, hf, hk, hg⟩ := C73_ties_si h1 hV hb hout hv hx
  exact ⟨g, hk, goodStep (pitTotal_fun ref _) (pitTotal_inv ref _) hf hg⟩

/-- **C96**, `sdr_pit_loss` with longer filters and the direct solver, also where several permutations are best. -/
theorem C96_pit (hN : 0 < N) (hL : 2 ≤ o.filterLength) (hcg : o.useCgIter = none) {ref : Sig s r N} {est : Sig s e T} {V out}
    (hV : sdrLossPair torchBackend { o with clampDb := none } est ref = .ok V) (hb : ∀ m k j, OffBounds o.clampDb (V m k j))
    (hout : sdrPitLoss torchBackend o est ref = .ok out) {v : BIdx s → ℝ} (hv : ∀ m, 0 ≤ v m)
    (hx : ∀ m j, sigNorm (centred o.zeroMean (est m j)) ≠ 1e-6) :
    ∃ g, gradEstFirPit o true ref est (fun m _ => v m) = .ok g ∧
      GoodStep o.zeroMean (Quiet o est) (fun p => PitTotal o true ref p fun m _ => v m) g est := by
  obtain ⟨f, g, hf, hk, hg⟩ := C73_ties_fir hN hL hcg hV hb hout hv hx
  exact ⟨g, hk, goodStep (pitTotal_fun ref _) (pitTotal_inv ref _) hf hg⟩

/-- **C96**, `sdr_pit_loss` (`sdr` with `cs = false`) with `filter_length=1` and `si_sdr_pit_loss`, one best permutation, arbitrary weights. -/
theorem C96_pit_si_unique (h1 : o.filterLength = 1) {ref : Sig s r N} {est : Sig s e N} {V M}
    (hV : sdrLossPair torchBackend { o with clampDb := none } est ref = .ok V) (hb : ∀ m k j, OffBounds o.clampDb (V m k j))
    (hM : sdrLossPair torchBackend o est ref = .ok M) (hu : ∀ m, UniqueBest (M m)) (cs : Bool)
    (v : BIdx s → Fin (min r e) → ℝ) (hx : ∀ m j, sigNorm (centred o.zeroMean (est m j)) ≠ 1e-6) :
    ∃ g, gradEstPit o cs ref est v = .ok g ∧ GoodStep o.zeroMean (Quiet o est) (fun p => PitTotal o cs ref p v) g est := by
  obtain ⟨f, g, hf, hk, hg⟩ := (C73_gradient_si h1 hV hb hM hu cs v).1 hx
  exact ⟨g, hk, goodStep (pitTotal_fun ref _) (pitTotal_inv ref _) (touches_of hf) hg⟩

/-- **C96**, `sdr_pit_loss` (`sdr` with `cs = false`) with longer filters and the direct solver, one best permutation, arbitrary weights. -/
theorem C96_pit_unique (hN : 0 < N) (hL : 2 ≤ o.filterLength) (hcg : o.useCgIter = none) {ref : Sig s r N} {est : Sig s e T} {V M}
    (hV : sdrLossPair torchBackend { o with clampDb := none } est ref = .ok V) (hb : ∀ m k j, OffBounds o.clampDb (V m k j))
    (hM : sdrLossPair torchBackend o est ref = .ok M) (hu : ∀ m, UniqueBest (M m)) (cs : Bool)
    (v : BIdx s → Fin (min r e) → ℝ) (hx : ∀ m j, sigNorm (centred o.zeroMean (est m j)) ≠ 1e-6) :
    ∃ g, gradEstFirPit o cs ref est v = .ok g ∧ GoodStep o.zeroMean (Quiet o est) (fun p => PitTotal o cs ref p v) g est := by
  obtain ⟨f, g, hf, hk, hg⟩ := (C73_gradient_fir hN hL hcg hV hb hM hu cs v).1 hx
  exact ⟨g, hk, goodStep (pitTotal_fun ref _) (pitTotal_inv ref _) (touches_of hf) hg⟩

/-- **C96**, losses made of the SDR, SIR and SAR of `bss_eval_sources(compute_permutation=False)`, direct solver. -/
theorem C96_bss_eval (hN : 0 < N) (hdir : o.direct) (hload : 0 ≤ o.load) {ref : Sig s c N} {est : Sig s c T} {out}
    (h : bssEvalSources torchBackend { o with clampDb := none } false ref est = .ok out) (v : BssWeights (BIdx s × Fin c))
    (hv : Smooth o.clampDb v (fun i => out.sdr i.1 (i.2.cast (min_self c).symm)) (fun i => out.sir i.1 (i.2.cast (min_self c).symm))
      fun i => out.sar i.1 (i.2.cast (min_self c).symm)) (hx : ∀ m j, sigNorm (centred o.zeroMean (est m j)) ≠ 1e-6) :
    ∃ gE gR, bssBackwardDiag o ref est v = .ok (gE, gR) ∧
      GoodStep o.zeroMean (Quiet o est) (fun p => BssTotalDiag o ref p v) gE est := by
  obtain ⟨gE, gR, hk, h1, -⟩ := C85_gradient_diag hN hdir hload h v hv
  obtain ⟨f, hf, hg⟩ := h1 hx
  exact ⟨gE, gR, hk, goodStep (bssTotalDiag_fun ref v) (bssTotalDiag_inv ref v) (touches_of hf) hg⟩

/-- **C96**, `sdr_pit_loss` (`sdr` with `cs = false`) with `use_cg_iter`, one best permutation. -/
theorem C96_pit_iterative (hN : 0 < N) (hL : 2 ≤ o.filterLength) (hcg : o.useCgIter = some it) {ref : Sig s r N}
    {est : Sig s e T} {V M} (hV : sdrLossPair torchBackend { o with clampDb := none } est ref = .ok V)
    (hb : ∀ m k j, OffBounds o.clampDb (V m k j)) (hs : ∀ m k j, PairSmooth o it ref est m k j)
    (hM : sdrLossPair torchBackend o est ref = .ok M) (hu : ∀ m, UniqueBest (M m)) (cs : Bool)
    (v : BIdx s → Fin (min r e) → ℝ) (hx : ∀ m j, sigNorm (centred o.zeroMean (est m j)) ≠ 1e-6) :
    ∃ g, gradEstCgPit o it cs ref est v = .ok g ∧
      GoodStep o.zeroMean (Quiet o est) (fun p => PitTotal o cs ref p v) g est := by
  obtain ⟨f, g, hf, hk, hg⟩ := (C75_gradient_pit hN hL hcg hV hb hs hM hu cs v).1 hx
  exact ⟨g, hk, goodStep (pitTotal_fun ref _) (pitTotal_inv ref _) (touches_of hf) hg⟩

/-- **C96**, `sdr_pit_loss` with `use_cg_iter`, also where several permutations are best. -/
theorem C96_pit_iterative_ties (hN : 0 < N) (hL : 2 ≤ o.filterLength) (hcg : o.useCgIter = some it) {ref : Sig s r N} {est : Sig s e T}
    {V out} (hV : sdrLossPair torchBackend { o with clampDb := none } est ref = .ok V) (hb : ∀ m k j, OffBounds o.clampDb (V m k j))
    (hs : ∀ m k j, PairSmooth o it ref est m k j) (hout : sdrPitLoss torchBackend o est ref = .ok out) {v : BIdx s → ℝ}
    (hv : ∀ m, 0 ≤ v m) (hx : ∀ m j, sigNorm (centred o.zeroMean (est m j)) ≠ 1e-6) :
    ∃ g, gradEstCgPit o it true ref est (fun m _ => v m) = .ok g ∧
      GoodStep o.zeroMean (Quiet o est) (fun p => PitTotal o true ref p fun m _ => v m) g est := by
  obtain ⟨f, g, hf, hk, hg⟩ := C75_ties hN hL hcg hV hb hs hout hv hx
  exact ⟨g, hk, goodStep (pitTotal_fun ref _) (pitTotal_inv ref _) hf hg⟩

/-- **C96**, losses made of the SDR, SIR and SAR of `bss_eval_sources`, direct solver, one best permutation. -/
theorem C96_bss_eval_perm (hN : 0 < N) (hdir : o.direct) (hload : 0 ≤ o.load) {ref : Sig s r N} {est : Sig s e T} {S A}
    (h : sqCosPair torchBackend o ref est = .ok (S, A)) (v : BssWeights (BIdx s × Fin (min r e)))
    (hd : v.sdr ≠ none → ∀ m k j, OffBounds o.clampDb (baseMetrics none (S m k j) (A m j)).1)
    (hi : ∀ m k j, (baseMetrics none (S m k j) (A m j)).2.1 ≠ nan ∧ OffBounds o.clampDb (baseMetrics none (S m k j) (A m j)).2.1)
    (ha : v.sar ≠ none → ∀ m (_ : Fin r) j, OffBounds o.clampDb (coherenceToNegSdr none (fin (A m j))))
    (hu : ∀ m, UniqueBest fun k j => (baseMetrics o.clampDb (S m k j) (A m j)).2.1)
    (hx : ∀ m j, sigNorm (centred o.zeroMean (est m j)) ≠ 1e-6) :
    ∃ gE gR, bssBackward o ref est v = .ok (gE, gR) ∧ GoodStep o.zeroMean (Quiet o est) (fun p => BssTotal o ref p v) gE est := by
  obtain ⟨gE, gR, hk, h1, -⟩ := C85_gradient_perm hN hdir hload h v hd hi ha hu
  obtain ⟨f, hf, hg⟩ := h1 hx
  exact ⟨gE, gR, hk, goodStep (bssTotal_fun ref v) (bssTotal_inv ref v) (touches_of hf) hg⟩

/-- **C96**, losses made of the SDR, SIR and SAR of `bss_eval_sources(compute_permutation=False)`, with `use_cg_iter`. -/
theorem C96_bss_eval_iterative (hN : 0 < N) (hL : 2 ≤ o.filterLength) (hcg : o.useCgIter = some it) {ref : Sig s c N} {est : Sig s c T}
    {S A} (h : sqCosDiag torchBackend o ref est = .ok (S, A)) (v : BssWeights (BIdx s × Fin c))
    (hv : SmoothCoh o.clampDb v (fun i => S i.1 i.2) (fun i => A i.1 i.2))
    (hS : ∀ m k, PairSmooth o it ref est m k k) (hB : ∀ m j, BlockSmooth false o it ref est m j)
    (hx : ∀ m j, sigNorm (centred o.zeroMean (est m j)) ≠ 1e-6) :
    ∃ gE gR, bssBackwardCgDiag o it ref est v = .ok (gE, gR) ∧
      GoodStep o.zeroMean (Quiet o est) (fun p => BssTotalDiag o ref p v) gE est := by
  obtain ⟨gE, gR, hk, h1, -⟩ := C88_gradient_diag hN hL hcg h v hv hS hB
  obtain ⟨f, hf, hg⟩ := h1 hx
  exact ⟨gE, gR, hk, goodStep (bssTotalDiag_fun ref v) (bssTotalDiag_inv ref v) (touches_of hf) hg⟩

/-- **C96**, losses made of the SDR, SIR and SAR of `bss_eval_sources`, with `use_cg_iter`, one best permutation. -/
theorem C96_bss_eval_perm_iterative (hN : 0 < N) (hL : 2 ≤ o.filterLength) (hcg : o.useCgIter = some it) {ref : Sig s r N}
    {est : Sig s e T} {S A} (h : sqCosPair torchBackend o ref est = .ok (S, A)) (v : BssWeights (BIdx s × Fin (min r e)))
    (hsdr : v.sdr ≠ none → ∀ m k j, OffBounds o.clampDb (coherenceToNegSdr none (fin (S m k j))))
    (hsir : ∀ m k j, A m j ≠ 0 ∧ OffBounds o.clampDb (coherenceToNegSdr none (fin (S m k j / A m j))))
    (hsar : v.sar ≠ none → ∀ m (_ : Fin r) j, OffBounds o.clampDb (coherenceToNegSdr none (fin (A m j))))
    (hu : ∀ m, UniqueBest fun k j => (baseMetrics o.clampDb (S m k j) (A m j)).2.1)
    (hS : ∀ m k j, PairSmooth o it ref est m k j) (hB : ∀ m j, BlockSmooth true o it ref est m j)
    (hx : ∀ m j, sigNorm (centred o.zeroMean (est m j)) ≠ 1e-6) :
    ∃ gE gR, bssBackwardCg o it ref est v = .ok (gE, gR) ∧
      GoodStep o.zeroMean (Quiet o est) (fun p => BssTotal o ref p v) gE est := by
  obtain ⟨gE, gR, hk, h1, -⟩ := C88_gradient_perm hN hL hcg h v hsdr hsir hsar hu hS hB
  obtain ⟨f, hf, hg⟩ := h1 hx
  exact ⟨gE, gR, hk, goodStep (bssTotal_fun ref v) (bssTotal_inv ref v) (touches_of hf) hg⟩

/-! ### `filter_length=1`: every step that is small enough lowers the loss -/

theorem sum_eq_add_of {X : Type} [Fintype X] (i : X) {a b : X → ℝ} (h : ∀ x, x ≠ i → a x = b x) :
    ∑ x, a x = (∑ x, b x - b i) + a i := by
  rw [← Finset.add_sum_erase _ a (Finset.mem_univ i), ← Finset.add_sum_erase _ b (Finset.mem_univ i),
    Finset.sum_congr rfl fun x hx => h x (Finset.ne_of_mem_erase hx)]
  ring

/-- **C96**, `filter_length=1` and `si_sdr_loss`, channel by channel: the gradient of a loss that counts and is not clamped is never zero. -/
theorem C96_si_gradient_ne (h1 : o.filterLength = 1) {ref est : Sig s c N} {M}
    (h : sdrLossDiag torchBackend { o with clampDb := none } est ref = .ok M) (hb : ∀ m k, OffBounds o.clampDb (M m k))
    (hx : ∀ m j, sigNorm (centred o.zeroMean (est m j)) ≠ 1e-6) (w : BIdx s → Fin c → ℝ) {m : BIdx s} {k : Fin c}
    (hw : w m k ≠ 0) (hr : 1e-6 ≤ sigNorm (centred o.zeroMean (ref m k))) (he : 1e-6 < sigNorm (centred o.zeroMean (est m k)))
    (hin : ∀ d, o.clampDb = some d → ∃ x, M m k = fin x ∧ |x| < d) :
    ∃ t, gradEstDiag o ref est w m k t ≠ fin 0 := by
  obtain ⟨f, hf, γ, f', hγ, hf', hγ'⟩ := (C71_gradient_diag h1 h hb w).1 hx
  rw [lossDiag_one (o := { o with clampDb := none }) h1] at h
  cases h
  by_contra hall
  push Not at hall
  have hz : ∀ t, γ m k t = 0 := fun t => XR.fin.inj ((hγ m k t).symm.trans (hall t))
  -- the loss of the pair alone, as a function that C59 is about
  set o' : Opts := { o with loadDiag := none } with ho'
  have hN : 0 < N := by
    rcases Nat.eq_zero_or_pos N with h0 | h0
    · subst h0
      exfalso
      have : sigNorm (centred o.zeroMean (ref m k)) = 0 := by simp [sigNorm]
      rw [this] at hr
      norm_num at hr
    · exact h0
  have hpair : ∀ p : Sig s c N, sdrLossPair torchBackend o' p ref = .ok fun m k j =>
      coherenceToNegSdr o.clampDb (fin (dot (prep o ref m k) (prep o p m j) ^ 2)) := fun p => lossPair_one (o := o') h1 ref p
  have hfin : ∃ x, coherenceToNegSdr o.clampDb (fin (dot (prep o ref m k) (prep o est m k) ^ 2)) = fin x ∧
      ∀ d, o.clampDb = some d → |x| < d := by
    cases hcl : o.clampDb with
    | none =>
      have := hb m k
      rw [hcl] at this
      obtain ⟨y, hy⟩ := this
      exact ⟨y, hy, fun d hd => by cases hd⟩
    | some d =>
      obtain ⟨x, hx1, hx2⟩ := hin d hcl
      refine ⟨x, ?_, fun d' hd' => by cases hd'; exact hx2⟩
      have hx1 : coherenceToNegSdr none (fin (dot (prep o ref m k) (prep o est m k) ^ 2)) = fin x := hx1
      rw [coherenceToNegSdr_clip ((abs_nonneg x).trans hx2.le), hx1]
      have := abs_lt.1 hx2
      simp [clip, this.1.le, this.2.le]
  have H : Regular torchBackend o' ref est m k k :=
    { covered := torch_covered
      direct := Or.inl h1
      load := rfl
      fits := by rw [show o'.filterLength = 1 from h1]; exact fits_one hN
      audible := he
      refOk := fun _ => hr
      inside := by
        obtain ⟨x, h2, h3⟩ := hfin
        exact ⟨_, x, hpair est, h2, h3⟩ }
  obtain ⟨f1, hf1⟩ := (C59_gradient H).1
  obtain ⟨f1', hd1, -⟩ := (C59_gradient H).2 f1 hf1
  refine C59_no_stationary H h1 hf1 hd1 (ContinuousLinearMap.ext fun v => ?_)
  set u := only m k (v m k) with hu
  have huv : f1' (v - u) = 0 := C59_other_channels H hf1 hd1 (by
    funext t
    show v m k t - (if m = m ∧ k = k then v m k t else 0) = 0
    rw [if_pos ⟨rfl, rfl⟩, sub_self])
  have hfu : f' u = 0 := by
    rw [hγ', hu, sum_only]
    exact Finset.sum_eq_zero fun t _ => by rw [hz t, zero_mul]
  -- along `u` the total is the loss of the pair, up to a constant
  obtain ⟨C, hC⟩ : ∃ C, ∀ᶠ a : ℝ in 𝓝 0, f (est + a • u) = C + w m k * f1 (est + a • u) := by
    obtain ⟨M0, y0, h2, h3, h4⟩ := hf.self_of_nhds
    refine ⟨∑ m, ∑ k, w m k * y0 m k - w m k * y0 m k, ?_⟩
    filter_upwards [(tendsto_line est u).eventually hf, (tendsto_line est u).eventually hf1] with a ⟨M1, y1, h5, h6, h7⟩ ⟨M2, h8, h9⟩
    rw [lossDiag_one h1] at h2 h5
    cases h2
    cases h5
    rw [hpair] at h8
    cases h8
    have e1 : y1 m k = f1 (est + a • u) := XR.fin.inj ((h6 m k).symm.trans h9)
    rw [h7, ← e1]
    have hch : ∀ m' k', ¬ (m' = m ∧ k' = k) → y1 m' k' = y0 m' k' := by
      intro m' k' hne
      refine XR.fin.inj ((h6 m' k').symm.trans (Eq.trans ?_ (h3 m' k')))
      have : prep o (est + a • u) m' k' = prep o est m' k' := by
        rw [prep_eq, prep_eq]
        have : (est + a • u) m' k' = est m' k' := by
          funext t
          show est m' k' t + a * (if m' = m ∧ k' = k then v m k t else 0) = _
          rw [if_neg hne, mul_zero, add_zero]
        rw [this]
      show coherenceToNegSdr _ _ = coherenceToNegSdr _ _
      rw [this]
    rw [← Fintype.sum_prod_type' (fun m k => w m k * y1 m k),
      ← Fintype.sum_prod_type' (fun m k => w m k * y0 m k)]
    exact sum_eq_add_of (m, k) fun x hne => by rw [hch x.1 x.2 fun h => hne (Prod.ext h.1 h.2)]
  have hA := hasDerivAt_line hf' u
  have hB := ((hasDerivAt_line hd1 u).const_mul (w m k)).const_add C
  have := hA.unique (hB.congr_of_eventuallyEq hC)
  rw [hfu] at this
  have h0 : f1' u = 0 := (mul_eq_zero.1 this.symm).resolve_left hw
  have : f1' v = f1' (v - u) + f1' u := by rw [← map_add, sub_add_cancel]
  rw [this, huv, h0]
  simp

/-- **C96**, `filter_length=1` and `si_sdr_loss`, channel by channel: if some loss counts and is not clamped, every step that is small
enough makes the loss strictly smaller. -/
theorem C96_si_strict (h1 : o.filterLength = 1) {ref est : Sig s c N} {M}
    (h : sdrLossDiag torchBackend { o with clampDb := none } est ref = .ok M) (hb : ∀ m k, OffBounds o.clampDb (M m k))
    (hx : ∀ m j, sigNorm (centred o.zeroMean (est m j)) ≠ 1e-6) (w : BIdx s → Fin c → ℝ) {m : BIdx s} {k : Fin c}
    (hw : w m k ≠ 0) (hr : 1e-6 ≤ sigNorm (centred o.zeroMean (ref m k))) (he : 1e-6 < sigNorm (centred o.zeroMean (est m k)))
    (hin : ∀ d, o.clampDb = some d → ∃ x, M m k = fin x ∧ |x| < d) :
    ∃ γ y, FiniteValues (gradEstDiag o ref est w) γ ∧ LossDiag o ref est w y ∧
      ∃ η₀ > 0, ∀ η, 0 < η → η < η₀ → ∃ y', LossDiag o ref (descend η γ est) w y' ∧ y' < y := by
  obtain ⟨γ, hγ, ⟨y, hy, hlow⟩, -, -⟩ := C96_si h1 h hb hx w
  obtain ⟨t, ht⟩ := C96_si_gradient_ne h1 h hb hx w hw hr he hin
  obtain ⟨η₀, h0, hstep⟩ := hlow (1 / 2) (by norm_num)
  refine ⟨γ, y, hγ, hy, η₀, h0, fun η h2 h3 => ?_⟩
  obtain ⟨y', h4, h5⟩ := hstep η h2 h3
  refine ⟨y', h4, lt_of_le_of_lt h5 ?_⟩
  have hne : γ m k t ≠ 0 := fun h => ht (by rw [hγ m k t, h])
  have hpos : 0 < ∑ m, ∑ j, ∑ t, γ m j t ^ 2 := by
    refine Finset.sum_pos' (fun m _ => Finset.sum_nonneg fun j _ => Finset.sum_nonneg fun t _ => sq_nonneg _) ⟨m, Finset.mem_univ _, ?_⟩
    refine Finset.sum_pos' (fun j _ => Finset.sum_nonneg fun t _ => sq_nonneg _) ⟨k, Finset.mem_univ _, ?_⟩
    exact Finset.sum_pos' (fun t _ => sq_nonneg _) ⟨t, Finset.mem_univ _, by positivity⟩
  have : 0 < 1 / 2 * η * ∑ m, ∑ j, ∑ t, γ m j t ^ 2 := by positivity
  linarith

/-! ### examples -/

theorem one_norm (m : BIdx []) (j : Fin 1) : sigNorm (centred true (estOne m j)) ≠ 1e-6 := by
  rw [Subsingleton.elim j 0]
  exact (one_regular m).audible.ne'

theorem one_off' (m : BIdx []) (k j : Fin 1) :
    OffBounds (some 30) (coherenceToNegSdr none (fin (dot (prep optsOne refOne m k) (prep optsOne estOne m j) ^ 2))) := by
  rw [Subsingleton.elim k 0, Subsingleton.elim j 0, one_loss]
  exact one_off _ (Or.inr rfl)

example (w : BIdx [] → Fin 1 → Fin 1 → ℝ) : GoodStep true (Quiet optsOne estOne) (LossSum optsOne refOne w) (gradEst optsOne refOne estOne w) estOne :=
  C96_si_pairwise (o := optsOne) rfl (lossPair_one rfl _ _) one_off' one_norm w

example (w : BIdx [] → Fin 1 → ℝ) : GoodStep true (Quiet optsOne estOne) (fun p => LossDiag optsOne refOne p w)
    (gradEstDiag optsOne refOne estOne w) estOne :=
  C96_si (o := optsOne) rfl (lossDiag_one rfl _ _) (fun m k => one_off' m k k) one_norm w

/-- The step makes the loss of an ordinary estimate strictly smaller. -/
example (m : BIdx []) : ∃ γ y, FiniteValues (gradEstDiag optsOne refOne estOne fun _ _ => 1) γ ∧ LossDiag optsOne refOne estOne (fun _ _ => 1) y ∧
    ∃ η₀ > 0, ∀ η, 0 < η → η < η₀ → ∃ y', LossDiag optsOne refOne (descend η γ estOne) (fun _ _ => 1) y' ∧ y' < y := by
  have hr := one_regular m
  refine C96_si_strict (o := optsOne) rfl (lossDiag_one rfl _ _) (fun m k => one_off' m k k) one_norm (fun _ _ => 1) (m := m) (k := 0)
    one_ne_zero (hr.refOk rfl) hr.audible fun d hd => ⟨-(10 * Real.logb 10 3), ?_, ?_⟩
  · show coherenceToNegSdr none (fin (dot (prep optsOne refOne m 0) (prep optsOne estOne m 0) ^ 2)) = _
    rw [one_loss]
    exact one_value
  · cases hd
    obtain ⟨l0, l1⟩ := logb_three
    rw [abs_lt]
    constructor <;> linarith

example (cl : Option ℝ) (hcl : cl = none ∨ cl = some 30) (w : BIdx [] → Fin 2 → Fin 2 → ℝ) :
    ∃ g, gradEstFir (Ex.clamped cl) Ex.ref Ex.est w = .ok g ∧
      GoodStep false (Quiet (Ex.clamped cl) Ex.est) (LossSum (Ex.clamped cl) Ex.ref w) g Ex.est :=
  C96_sdr_pairwise (o := Ex.clamped cl) (by norm_num) le_rfl rfl (Ex.sdrLossPair_cl none) (fun _ _ _ => fifth_off cl hcl _)
    (fun m j => (ex_norm m j).1) w

theorem four_fifths_off (cl : Option ℝ) (hcl : cl = none ∨ cl = some 30) : OffBounds cl (coherenceToNegSdr none (fin (4 / 5))) := by
  have := fifth_off cl hcl True
  rwa [if_pos trivial] at this

example (w : BIdx [] → Fin 2 → ℝ) : ∃ g, gradEstFirDiag (Ex.clamped none) Ex.ref Ex.est w = .ok g ∧
    GoodStep false (Quiet (Ex.clamped none) Ex.est) (fun p => LossDiag (Ex.clamped none) Ex.ref p w) g Ex.est :=
  C96_sdr (o := Ex.clamped none) (by norm_num) (by decide) rfl (Ex.sdrLossDiag_cl none) (fun _ _ => four_fifths_off none (Or.inl rfl))
    (fun m j => (ex_norm m j).1) w

example (cl : Option ℝ) (hcl : cl = none ∨ cl = some 30) (w : BIdx [] → Fin 2 → Fin 2 → ℝ) :
    ∃ g, gradEstCg (exCg cl) 2 Ex.ref Ex.est w = .ok g ∧
      GoodStep false (Quiet (exCg cl) Ex.est) (LossSum (exCg cl) Ex.ref w) g Ex.est :=
  C96_iterative_pairwise (o := exCg cl) (by norm_num) le_rfl rfl (ex_cg none) (fun _ _ _ => fifth_off cl hcl _) (ex_smooth cl 2)
    (fun m j => (ex_norm m j).1) w

example (w : BIdx [] → Fin 2 → ℝ) : ∃ g, gradEstCgDiag (exCg none) 2 Ex.ref Ex.est w = .ok g ∧
    GoodStep false (Quiet (exCg none) Ex.est) (fun p => LossDiag (exCg none) Ex.ref p w) g Ex.est :=
  C96_iterative (o := exCg none) (by norm_num) (by decide) rfl (ex_cg_diag none) (fun _ _ => four_fifths_off none (Or.inl rfl))
    (fun m k => ex_smooth none 2 m k k) (fun m j => (ex_norm m j).1) w

/-- Two equal references and two equal estimates: both permutations are best. -/
example : ∃ g, gradEstPit optsOne true refTwice estTwice (fun _ _ => 1) = .ok g ∧
    GoodStep true (Quiet optsOne estTwice) (fun p => PitTotal optsOne true refTwice p fun _ _ => 1) g estTwice := by
  obtain ⟨out, h⟩ := twice_ok
  refine C96_pit_si (o := optsOne) rfl (lossPair_one rfl _ _) (fun m k j => ?_) h (v := fun _ => 1) (fun _ => zero_le_one) twice_norm
  show OffBounds (some 30) (coherenceToNegSdr none (fin (dot (prep optsOne refTwice m k) (prep optsOne estTwice m j) ^ 2)))
  rw [twice_value]
  exact one_off _ (Or.inr rfl)

example : ∃ g, gradEstFirPit (Ex.clamped (some 30)) true Ex.ref Ex.est (fun _ _ => 1) = .ok g ∧
    GoodStep false (Quiet (Ex.clamped (some 30)) Ex.est) (fun p => PitTotal (Ex.clamped (some 30)) true Ex.ref p fun _ _ => 1) g Ex.est := by
  obtain ⟨out, h⟩ := Ex.sdr_cl (some 30) false true
  exact C96_pit (o := Ex.clamped (some 30)) (by norm_num) le_rfl rfl (Ex.sdrLossPair_cl none)
    (fun _ _ _ => fifth_off _ (Or.inr rfl) _) h (v := fun _ => 1) (fun _ => zero_le_one) fun m j => (ex_norm m j).1

example (cs : Bool) (v : BIdx [] → Fin 2 → ℝ) : ∃ g, gradEstFirPit (Ex.clamped none) cs Ex.ref Ex.est v = .ok g ∧
    GoodStep false (Quiet (Ex.clamped none) Ex.est) (fun p => PitTotal (Ex.clamped none) cs Ex.ref p v) g Ex.est :=
  C96_pit_unique (o := Ex.clamped none) (by norm_num) le_rfl rfl (Ex.sdrLossPair_cl none)
    (fun _ _ _ => fifth_off none (Or.inl rfl) _) (Ex.sdrLossPair_cl none) (fun _ => Ex.unique_loss) cs v fun m j => (ex_norm m j).1

/-- A single source: there is only one permutation. -/
example (cs : Bool) (v : BIdx [] → Fin 1 → ℝ) : ∃ g, gradEstPit optsOne cs refOne estOne v = .ok g ∧
    GoodStep true (Quiet optsOne estOne) (fun p => PitTotal optsOne cs refOne p v) g estOne :=
  C96_pit_si_unique (o := optsOne) (ref := refOne) (est := estOne) rfl (lossPair_one rfl _ _) one_off' (lossPair_one rfl _ _)
    (fun m P P' _ _ k j => by rw [Subsingleton.elim P.ref P'.ref, Subsingleton.elim P.est P'.est]) cs v one_norm

example (cs : Bool) (v : BIdx [] → Fin 2 → ℝ) : ∃ g, gradEstCgPit (exCg none) 2 cs Ex.ref Ex.est v = .ok g ∧
    GoodStep false (Quiet (exCg none) Ex.est) (fun p => PitTotal (exCg none) cs Ex.ref p v) g Ex.est :=
  C96_pit_iterative (o := exCg none) (by norm_num) le_rfl rfl (ex_cg none) (fun _ _ _ => fifth_off none (Or.inl rfl) _) (ex_smooth none 2)
    (ex_cg none) (fun _ => Ex.unique_loss) cs v fun m j => (ex_norm m j).1

example : ∃ g, gradEstCgPit (exCg (some 30)) 2 true Ex.ref Ex.est (fun _ _ => 1) = .ok g ∧
    GoodStep false (Quiet (exCg (some 30)) Ex.est) (fun p => PitTotal (exCg (some 30)) true Ex.ref p fun _ _ => 1) g Ex.est := by
  obtain ⟨out, h⟩ := exCg_pit 30
  exact C96_pit_iterative_ties (o := exCg (some 30)) (by norm_num) le_rfl rfl (ex_cg none) (fun _ _ _ => fifth_off _ (Or.inr rfl) _)
    (ex_smooth (some 30) 2) h (v := fun _ => 1) (fun _ => zero_le_one) fun m j => (ex_norm m j).1

example (w w' : BIdx [] × Fin 2 → ℝ) : ∃ gE gR, bssBackward (Ex.clamped none) Ex.ref Ex.est ⟨some w, some w', none⟩ = .ok (gE, gR) ∧
    GoodStep false (Quiet (Ex.clamped none) Ex.est) (fun p => BssTotal (Ex.clamped none) Ex.ref p ⟨some w, some w', none⟩) gE Ex.est :=
  C96_bss_eval_perm (o := Ex.clamped none) (by norm_num) (Or.inr rfl) le_rfl Ex.sqCosPair_value
    ⟨some w, some w', none⟩ (fun _ _ k j => fifth_off none (Or.inl rfl) (k = j))
    (fun _ k j => by rw [(ex_base none _).2.1]; exact ex_fin none (Or.inl rfl) (k = j)) (fun h => absurd rfl h)
    (fun m => by simp only [(ex_base _ _).2.1]; exact Ex.unique_loss) fun m j => (ex_norm m j).1

example (w w' w'' : BIdx [] × Fin 2 → ℝ) :
    ∃ gE gR, bssBackwardDiag (Ex.clamped (some 30)) Ex.ref Ex.est ⟨some w, some w', some w''⟩ = .ok (gE, gR) ∧
    GoodStep false (Quiet (Ex.clamped (some 30)) Ex.est)
      (fun p => BssTotalDiag (Ex.clamped (some 30)) Ex.ref p ⟨some w, some w', some w''⟩) gE Ex.est := by
  obtain ⟨out, h⟩ := Ex.bssNoPerm_cl none
  obtain ⟨P, -, -, -, -, -, hs, h1, h2, h3⟩ := diag_ok (o := Ex.clamped none) (by norm_num) (Or.inr rfl) le_rfl (cl := none) h
  rw [show sqCosPair torchBackend (Ex.clamped none) Ex.ref Ex.est = _ from Ex.sqCosPair_value] at hs
  obtain ⟨e1, e2⟩ := Prod.mk.inj (Except.ok.inj hs)
  rw [← e1, ← e2] at h1 h2 h3
  refine C96_bss_eval (o := Ex.clamped (some 30)) (by norm_num) (Or.inr rfl) le_rfl h _ ⟨fun _ i => ?_, fun _ i => ?_, fun _ i => ?_⟩
    fun m j => (ex_norm m j).1
  · rw [h1, offBounds_neg]
    exact fifth_off _ (Or.inr rfl) _
  · rw [h2, offBounds_neg, ne_eq, neg_nan_iff, (ex_base none _).2.1]
    exact ex_fin _ (Or.inr rfl) _
  · rw [h3, offBounds_neg]
    exact ex_sar_off

example (w w' : BIdx [] × Fin 2 → ℝ) : ∃ gE gR, bssBackwardCg (exCg4 none) 4 Ex.ref Ex.est ⟨some w, some w', none⟩ = .ok (gE, gR) ∧
    GoodStep false (Quiet (exCg4 none) Ex.est) (fun p => BssTotal (exCg4 none) Ex.ref p ⟨some w, some w', none⟩) gE Ex.est :=
  C96_bss_eval_perm_iterative (o := exCg4 none) (by norm_num) le_rfl rfl (ex4_pair none)
    ⟨some w, some w', none⟩ (fun _ _ k j => fifth_off none (Or.inl rfl) (k = j))
    (fun _ k j => ⟨one_ne_zero, by rw [div_one]; exact fifth_off none (Or.inl rfl) (k = j)⟩) (fun h => absurd rfl h)
    (fun m => by simp only [(ex_base _ _).2.1]; exact Ex.unique_loss) (ex4_smooth none) (ex4_block none true)
    fun m j => (ex_norm m j).1

example (w w' w'' : BIdx [] × Fin 2 → ℝ) :
    ∃ gE gR, bssBackwardCgDiag (exCg4 (some 30)) 4 Ex.ref Ex.est ⟨some w, some w', some w''⟩ = .ok (gE, gR) ∧
    GoodStep false (Quiet (exCg4 (some 30)) Ex.est)
      (fun p => BssTotalDiag (exCg4 (some 30)) Ex.ref p ⟨some w, some w', some w''⟩) gE Ex.est := by
  have h45 := four_fifths_off (some 30) (Or.inr rfl)
  exact C96_bss_eval_iterative (o := exCg4 (some 30)) (by norm_num) le_rfl rfl (ex4_diag (some 30)) ⟨some w, some w', some w''⟩
    ⟨fun _ _ => h45, fun _ _ => ⟨one_ne_zero, by rw [div_one]; exact h45⟩, fun _ _ => ex_sar_off⟩
    (fun m k => ex4_smooth (some 30) m k k) (ex4_block (some 30) false) fun m j => (ex_norm m j).1

end FBE.Props
