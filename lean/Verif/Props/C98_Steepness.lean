import Verif.Proofs.Steepness
import Verif.Props.C97_Volume

/-!
# C98: the size of the gradients

How long the gradients are that torch computes for the losses: a function of the loss and of the norm of the signal only
(`filter_length=1`), or at most that (longer filters).
-/

namespace FBE.Props

open Classical FBE.Spec FBE.Backward FBE.Steepness XR

variable {s : List ℕ} {r e c N T : ℕ} {o : Opts}

/-- Without `clamp_db` the loss is finite.  (The gradients of infinite losses are NaN: C71, C72.) -/
def FiniteUnlessClamped (cl : Option ℝ) (x : XR) : Prop := cl = none → ∃ y, x = fin y

theorem inside_of {cl : Option ℝ} {v : ℝ} (h : FiniteUnlessClamped cl (coherenceToNegSdr none (fin v))) :
    0 < cclamp cl v ∧ cclamp cl v < 1 := by
  cases cl with
  | none =>
    obtain ⟨y, hy⟩ := h rfl
    exact negDb_finite hy
  | some d => exact cclamp_some_inside d v

theorem unclamped_diag (h1 : o.filterLength = 1) {ref est : Sig s c N} {V}
    (h : sdrLossDiag torchBackend { o with clampDb := none } est ref = .ok V) :
    V = fun m k => coherenceToNegSdr none (fin (dot (prep o ref m k) (preprocess o.zeroMean (est m k)) ^ 2)) := by
  rw [lossDiag_one (o := { o with clampDb := none }) h1] at h
  cases h
  rfl

theorem unclamped_pair (h1 : o.filterLength = 1) {ref : Sig s r N} {est : Sig s e N} {V}
    (h : sdrLossPair torchBackend { o with clampDb := none } est ref = .ok V) :
    V = fun m k j => coherenceToNegSdr none (fin (dot (prep o ref m k) (preprocess o.zeroMean (est m j)) ^ 2)) := by
  rw [lossPair_one (o := { o with clampDb := none }) h1] at h
  cases h
  rfl

/-! ### one tap -/

/-- **C98**, `sdr_loss` with `filter_length=1` and `si_sdr_loss`, channel by channel: the norms of the gradients of an estimate and of a
reference are the weight of the loss times its steepness, divided by the norm of the signal. -/
theorem C98_si (h1 : o.filterLength = 1) {ref est : Sig s c N} {V}
    (h : sdrLossDiag torchBackend { o with clampDb := none } est ref = .ok V) {m : BIdx s} {k : Fin c}
    (hf : FiniteUnlessClamped o.clampDb (V m k)) (he : 1e-6 ≤ sigNorm (centred o.zeroMean (est m k)))
    (hr : 1e-6 ≤ sigNorm (centred o.zeroMean (ref m k))) (w : BIdx s → Fin c → ℝ) :
    HasLength (gradEstDiag o ref est w m k) (|w m k| * steepAt o.clampDb (V m k) / sigNorm (centred o.zeroMean (est m k))) ∧
      HasLength (gradRefDiag o ref est w m k) (|w m k| * steepAt o.clampDb (V m k) / sigNorm (centred o.zeroMean (ref m k))) := by
  obtain rfl := unclamped_diag h1 h
  have hin := inside_of hf
  constructor
  · rw [gradEstDiag_eq, chanGrad_fin fun _ => hin]
    refine ⟨_, fun t => rfl, ?_⟩
    exact chan_len (k := 0) (R := fun _ => prep o ref m k) he (preprocess_sq hr)
      (fun hz => by
        show ∑ t, preprocess o.zeroMean (ref m k) t = 0
        rw [hz]
        exact sum_preprocess _) fun k' hk => absurd (Subsingleton.elim k' 0) hk
  · rw [gradRefDiag_eq, chanGrad_fin fun _ => by
      rw [dot_comm']
      exact hin]
    refine ⟨_, fun t => rfl, ?_⟩
    have := chan_len (cl := o.clampDb) (k := 0) (R := fun _ : Fin 1 => prep o est m k) hr (preprocess_sq he)
      (fun hz => by
        show ∑ t, preprocess o.zeroMean (est m k) t = 0
        rw [hz]
        exact sum_preprocess _) (w := fun _ => w m k) fun k' hk => absurd (Subsingleton.elim k' 0) hk
    rw [dot_comm'] at this
    exact this

/-- **C98**, the smallest gradient: a loss between the limits of `clamp_db` has a gradient of at least `40 / ln 10`, times weight and divided
by the norm of the estimate; there are no flat regions. -/
theorem C98_si_least (h1 : o.filterLength = 1) {ref est : Sig s c N} {V}
    (h : sdrLossDiag torchBackend { o with clampDb := none } est ref = .ok V) {m : BIdx s} {k : Fin c} {y : ℝ} (hy : V m k = fin y)
    (hin : ∀ d, o.clampDb = some d → |y| ≤ d) (he : 1e-6 ≤ sigNorm (centred o.zeroMean (est m k)))
    (hr : 1e-6 ≤ sigNorm (centred o.zeroMean (ref m k))) (w : BIdx s → Fin c → ℝ) :
    ∃ a, HasLength (gradEstDiag o ref est w m k) a ∧ |w m k| * (40 / Real.log 10) / sigNorm (centred o.zeroMean (est m k)) ≤ a := by
  refine ⟨_, (C98_si h1 h (fun _ => ⟨y, hy⟩) he hr w).1, ?_⟩
  have hs : steepAt o.clampDb (V m k) = steepness y := by
    rw [hy]
    exact if_pos hin
  rw [hs]
  have h0 : 0 ≤ sigNorm (centred o.zeroMean (est m k)) := le_trans (by norm_num) he
  exact div_le_div_of_nonneg_right (mul_le_mul_of_nonneg_left (steepness_least y) (abs_nonneg _)) h0

/-- **C98**, `sdr_loss` with `filter_length=1` and `si_sdr_loss`, all pairs: at most the sum over the losses of the estimate (reference). -/
theorem C98_si_pairwise (h1 : o.filterLength = 1) {ref : Sig s r N} {est : Sig s e N} {V}
    (h : sdrLossPair torchBackend { o with clampDb := none } est ref = .ok V) (w : BIdx s → Fin r → Fin e → ℝ) (m : BIdx s) :
    (∀ j, (∀ k, FiniteUnlessClamped o.clampDb (V m k j)) → 1e-6 ≤ sigNorm (centred o.zeroMean (est m j)) →
      LengthAtMost (gradEst o ref est w m j)
        ((∑ k, |w m k j| * steepAt o.clampDb (V m k j)) / sigNorm (centred o.zeroMean (est m j)))) ∧
    ∀ k, (∀ j, FiniteUnlessClamped o.clampDb (V m k j)) → 1e-6 ≤ sigNorm (centred o.zeroMean (ref m k)) →
      LengthAtMost (gradRef o ref est w m k)
        ((∑ j, |w m k j| * steepAt o.clampDb (V m k j)) / sigNorm (centred o.zeroMean (ref m k))) := by
  obtain rfl := unclamped_pair h1 h
  refine ⟨fun j hf he => ?_, fun k hf hr => ?_⟩
  · rw [gradEst_eq, chanGrad_fin fun k => inside_of (hf k)]
    exact ⟨_, fun t => rfl, chan_len_le he (fun k => prep_sq_le o ref m k) _⟩
  · rw [gradRef_eq, chanGrad_fin fun j => by
      rw [dot_comm']
      exact inside_of (hf j)]
    refine ⟨_, fun t => rfl, ?_⟩
    have := chan_len_le (cl := o.clampDb) hr (fun j => prep_sq_le o est m j) (w m k)
    simp only [dot_comm' _ (preprocess o.zeroMean (ref m k))] at this
    exact this

/-! ### several taps -/

/-- **C98**, `sdr_loss` with longer filters and the direct solver, all pairs: at most the sum over the losses of the estimate. -/
theorem C98_sdr_pairwise (hN : 0 < N) (hL : 2 ≤ o.filterLength) (hcg : o.useCgIter = none) (hload : 0 ≤ o.load) {ref : Sig s r N}
    {est : Sig s e T} {V} (h : sdrLossPair torchBackend { o with clampDb := none } est ref = .ok V) (w : BIdx s → Fin r → Fin e → ℝ) :
    ∃ g, gradEstFir o ref est w = .ok g ∧ ∀ m j, (∀ k, FiniteUnlessClamped o.clampDb (V m k j)) →
      1e-6 ≤ sigNorm (centred o.zeroMean (est m j)) → LengthAtMost (g m j)
        ((∑ k, |w m k j| * steepAt o.clampDb (V m k j)) / sigNorm (centred o.zeroMean (est m j))) := by
  obtain ⟨n, hn, hd, rfl⟩ := lossPair_fir (o := { o with clampDb := none }) hL hcg h
  have hd : ∀ m k, (acfM n (min o.filterLength n) o.load (prep o ref m k)).det ≠ 0 := hd
  have hnb := nFft_bounds hn
  refine ⟨_, gradEstFir_eq hL hn hd w, fun m j hf he => ?_⟩
  rw [finite_of (v := fun k => firCoh n (min o.filterLength n) o.load (prep o ref m k) (prep o est m j))
    (w := fun k => w m k j) fun k => inside_of (hf k)]
  exact ⟨_, fun t => rfl, fir_len_le (fftSize_ne hn) (min_le_right _ _) (by omega) hload (hd m) he _⟩

/-- **C98**, `sdr_loss` with longer filters and the direct solver, channel by channel. -/
theorem C98_sdr (hN : 0 < N) (hL : 2 ≤ o.filterLength) (hcg : o.useCgIter = none) (hload : 0 ≤ o.load) {ref : Sig s c N}
    {est : Sig s c T} {V} (h : sdrLossDiag torchBackend { o with clampDb := none } est ref = .ok V) (w : BIdx s → Fin c → ℝ) :
    ∃ g, gradEstFirDiag o ref est w = .ok g ∧ ∀ m k, FiniteUnlessClamped o.clampDb (V m k) →
      1e-6 ≤ sigNorm (centred o.zeroMean (est m k)) → LengthAtMost (g m k)
        (|w m k| * steepAt o.clampDb (V m k) / sigNorm (centred o.zeroMean (est m k))) := by
  obtain ⟨n, hn, hd, rfl⟩ := lossDiag_fir (o := { o with clampDb := none }) hL hcg h
  have hd : ∀ m k, (acfM n (min o.filterLength n) o.load (prep o ref m k)).det ≠ 0 := hd
  have hnb := nFft_bounds hn
  refine ⟨_, gradEstFirDiag_eq hL hn hd w, fun m k hf he => ?_⟩
  rw [finite_of (κ := Fin 1) (v := fun _ => firCoh n (min o.filterLength n) o.load (prep o ref m k) (prep o est m k))
    (w := fun _ => w m k) fun _ => inside_of hf]
  refine ⟨_, fun t => rfl, ?_⟩
  have := fir_len_le (cl := o.clampDb) (r := 1) (x := fun _ => prep o ref m k) (fftSize_ne hn) (min_le_right o.filterLength n)
    (show T ≤ n by omega) hload (fun _ => hd m k) he fun _ => w m k
  rw [Fin.sum_univ_one] at this
  exact this

/-! ### the best permutation -/

/-- **C98**, `sdr` and `si_sdr` with `change_sign=cs`, thus also `sdr_pit_loss` and `si_sdr_pit_loss` (`cs` true), one tap: matched signals
have the gradient of their own loss, and signals without partner have none. -/
theorem C98_pit_si (h1 : o.filterLength = 1) {cs : Bool} {ref : Sig s r N} {est : Sig s e N} {V out}
    (hV : sdrLossPair torchBackend { o with clampDb := none } est ref = .ok V)
    (hf : ∀ m k j, FiniteUnlessClamped o.clampDb (V m k j)) (hout : sdr torchBackend o true cs ref est = .ok out)
    (he : ∀ m j, 1e-6 ≤ sigNorm (centred o.zeroMean (est m j))) (hr : ∀ m k, 1e-6 ≤ sigNorm (centred o.zeroMean (ref m k)))
    (v : BIdx s → Fin (min r e) → ℝ) :
    ∃ gE gR perm, gradEstPit o cs ref est v = .ok gE ∧ gradRefPit o cs ref est v = .ok gR ∧ out.perm = some perm ∧
      ∀ m, ∃ P : Pairing r e, Describes (perm m) P ∧
        (∀ i, HasLength (gE m (P.est i))
            (|v m i| * steepAt o.clampDb (V m (P.ref i) (P.est i)) / sigNorm (centred o.zeroMean (est m (P.est i)))) ∧
          HasLength (gR m (P.ref i))
            (|v m i| * steepAt o.clampDb (V m (P.ref i) (P.est i)) / sigNorm (centred o.zeroMean (ref m (P.ref i))))) ∧
        (∀ j, (∀ i, P.est i ≠ j) → HasLength (gE m j) 0) ∧ ∀ k, (∀ i, P.ref i ≠ k) → HasLength (gR m k) 0 := by
  obtain ⟨M, p, hM, hp, hw⟩ := sdr_ok hout
  have hperm : out.perm = some p.perm := by
    unfold sdr at hout
    rw [hM] at hout
    dsimp only at hout
    rw [hp] at hout
    cases hout
    rfl
  have gE : gradEstPit o cs ref est v = .ok (gradEst o ref est (permGrad p.perm fun m i => if cs then v m i else -v m i)) := by
    unfold gradEstPit
    rw [hw]
  have gR : gradRefPit o cs ref est v = .ok (gradRef o ref est (permGrad p.perm fun m i => if cs then v m i else -v m i)) := by
    unfold gradRefPit
    rw [hw]
  refine ⟨_, _, _, gE, gR, hperm, fun m => ?_⟩
  obtain ⟨-, P, hP⟩ := solvePermutation_spec torchBackend torchLsa_correct M _ hp m
  have hD := hP.describes
  obtain rfl := unclamped_pair h1 hV
  have habs : ∀ i, |if cs then v m i else -v m i| = |v m i| := fun i => by
    split
    · rfl
    · exact abs_neg _
  have zE : ∀ k, o.zeroMean = true → ∑ t, prep o ref m k t = 0 := fun k hz => by
    show ∑ t, preprocess o.zeroMean (ref m k) t = 0
    rw [hz]
    exact sum_preprocess _
  have zR : ∀ j, o.zeroMean = true → ∑ t, prep o est m j t = 0 := fun j hz => by
    show ∑ t, preprocess o.zeroMean (est m j) t = 0
    rw [hz]
    exact sum_preprocess _
  have iR : ∀ k j, 0 < cclamp o.clampDb (dot (prep o est m j) (preprocess o.zeroMean (ref m k)) ^ 2) ∧
      cclamp o.clampDb (dot (prep o est m j) (preprocess o.zeroMean (ref m k)) ^ 2) < 1 := fun k j => by
    rw [dot_comm']
    exact inside_of (hf m k j)
  have hzero : ∀ {r' : ℕ} (R : Fin r' → Fin N → ℝ) (x : Fin N → ℝ) (w : Fin r' → ℝ), (∀ k, w k = 0) →
      √(∑ t, chanR o.clampDb o.zeroMean R w x t ^ 2) = 0 := by
    intro r' R x w hw
    unfold chanR
    simp only [hw, zero_mul, Finset.sum_const_zero, prepR_zero]
    simp
  refine ⟨P, hD, fun i => ⟨?_, ?_⟩, fun j hj => ?_, fun k hk => ?_⟩
  · rw [gradEst_eq, chanGrad_fin fun k => inside_of (hf m k _)]
    refine ⟨_, fun t => rfl, ?_⟩
    have := chan_len (cl := o.clampDb) (k := P.ref i) (he m (P.est i)) (preprocess_sq (hr m (P.ref i))) (zE _)
      (R := prep o ref m) (w := fun k => permGrad p.perm (fun m i => if cs then v m i else -v m i) m k (P.est i))
      fun k' hk => permGrad_est hD _ fun i' hi hki => hk (by rw [← hki, P.est_inj hi])
    rw [permGrad_pair hD, habs] at this
    exact this
  · rw [gradRef_eq, chanGrad_fin (iR _)]
    refine ⟨_, fun t => rfl, ?_⟩
    have := chan_len (cl := o.clampDb) (k := P.est i) (hr m (P.ref i)) (preprocess_sq (he m (P.est i))) (zR _)
      (R := prep o est m) (w := permGrad p.perm (fun m i => if cs then v m i else -v m i) m (P.ref i))
      fun j' hj => permGrad_est hD _ fun i' hi hki => hj (by rw [← hi, P.ref_inj hki])
    rw [permGrad_pair hD, habs, dot_comm'] at this
    exact this
  · rw [gradEst_eq, chanGrad_fin fun k => inside_of (hf m k _)]
    exact ⟨_, fun t => rfl, hzero _ _ _ fun k => permGrad_est hD _ fun i hi => absurd hi (hj i)⟩
  · rw [gradRef_eq, chanGrad_fin (iR _)]
    exact ⟨_, fun t => rfl, hzero _ _ _ fun j => permGrad_est hD _ fun i hi => hk i⟩

/-- **C98**, `sdr` with `change_sign=cs`, thus also `sdr_pit_loss` (`cs` true), longer filters and the direct solver. -/
theorem C98_pit (hN : 0 < N) (hL : 2 ≤ o.filterLength) (hcg : o.useCgIter = none) (hload : 0 ≤ o.load) {cs : Bool} {ref : Sig s r N}
    {est : Sig s e T} {V out} (hV : sdrLossPair torchBackend { o with clampDb := none } est ref = .ok V)
    (hf : ∀ m k j, FiniteUnlessClamped o.clampDb (V m k j)) (hout : sdr torchBackend o true cs ref est = .ok out)
    (he : ∀ m j, 1e-6 ≤ sigNorm (centred o.zeroMean (est m j))) (v : BIdx s → Fin (min r e) → ℝ) :
    ∃ g perm, gradEstFirPit o cs ref est v = .ok g ∧ out.perm = some perm ∧
      ∀ m, ∃ P : Pairing r e, Describes (perm m) P ∧
        (∀ i, LengthAtMost (g m (P.est i))
            (|v m i| * steepAt o.clampDb (V m (P.ref i) (P.est i)) / sigNorm (centred o.zeroMean (est m (P.est i))))) ∧
        ∀ j, (∀ i, P.est i ≠ j) → LengthAtMost (g m j) 0 := by
  obtain ⟨M, p, hM, hp, hw⟩ := sdr_ok hout
  have hperm : out.perm = some p.perm := by
    unfold sdr at hout
    rw [hM] at hout
    dsimp only at hout
    rw [hp] at hout
    cases hout
    rfl
  obtain ⟨g, hg, hlen⟩ := C98_sdr_pairwise hN hL hcg hload hV (permGrad p.perm fun m i => if cs then v m i else -v m i)
  have gE : gradEstFirPit o cs ref est v = .ok g := by
    unfold gradEstFirPit
    rw [hw]
    exact hg
  refine ⟨g, _, gE, hperm, fun m => ?_⟩
  obtain ⟨-, P, hP⟩ := solvePermutation_spec torchBackend torchLsa_correct M _ hp m
  have hD := hP.describes
  have habs : ∀ i, |if cs then v m i else -v m i| = |v m i| := fun i => by
    split
    · rfl
    · exact abs_neg _
  refine ⟨P, hD, fun i => ?_, fun j hj => ?_⟩
  · have := hlen m (P.est i) (fun k => hf m k _) (he m _)
    rw [Finset.sum_eq_single (P.ref i) (fun k _ hk => by
      rw [permGrad_est hD _ fun i' hi hki => hk (by rw [← hki, P.est_inj hi]), abs_zero, zero_mul])
      fun h => absurd (Finset.mem_univ _) h, permGrad_pair hD, habs] at this
    exact this
  · have := hlen m j (fun k => hf m k _) (he m _)
    rw [Finset.sum_eq_zero fun k _ => by
      rw [permGrad_est hD _ fun i hi => absurd hi (hj i), abs_zero, zero_mul], zero_div] at this
    exact this

/-! ### `clamp_db` -/

/-- **C98**, with `clamp_db=d` no gradient of `sdr_loss`, with a filter of any length and the direct solver, is longer than that of a loss of
`d` dB, whatever the references. -/
theorem C98_clamped (hN : 0 < N) (hcg : o.useCgIter = none) (hload : 0 ≤ o.load) {d : ℝ} (hcl : o.clampDb = some d) {ref est : Sig s c N} {V}
    (h : sdrLossDiag torchBackend { o with clampDb := none } est ref = .ok V) (w : BIdx s → Fin c → ℝ) :
    (o.filterLength = 1 → ∀ m k, 1e-6 ≤ sigNorm (centred o.zeroMean (est m k)) → LengthAtMost (gradEstDiag o ref est w m k)
      (|w m k| * steepness d / sigNorm (centred o.zeroMean (est m k)))) ∧
    (2 ≤ o.filterLength → ∃ g, gradEstFirDiag o ref est w = .ok g ∧ ∀ m k, 1e-6 ≤ sigNorm (centred o.zeroMean (est m k)) →
      LengthAtMost (g m k) (|w m k| * steepness d / sigNorm (centred o.zeroMean (est m k)))) := by
  have mono : ∀ {N : ℕ} {g : Fin N → XR} {a b : ℝ}, LengthAtMost g a → a ≤ b → LengthAtMost g b :=
    fun ⟨γ, h1, h2⟩ hab => ⟨γ, h1, h2.trans hab⟩
  have hle : ∀ m k, 1e-6 ≤ sigNorm (centred o.zeroMean (est m k)) → |w m k| * steepAt o.clampDb (V m k) /
      sigNorm (centred o.zeroMean (est m k)) ≤ |w m k| * steepness d / sigNorm (centred o.zeroMean (est m k)) := by
    intro m k he
    have h0 : 0 ≤ sigNorm (centred o.zeroMean (est m k)) := le_trans (by norm_num) he
    rw [hcl]
    exact div_le_div_of_nonneg_right (mul_le_mul_of_nonneg_left (steepAt_clamped d _) (abs_nonneg _)) h0
  have hf : ∀ m k, FiniteUnlessClamped o.clampDb (V m k) := fun m k hn => by
    rw [hcl] at hn
    cases hn
  refine ⟨fun h1 m k he => ?_, fun hL => ?_⟩
  · refine mono ?_ (hle m k he)
    obtain rfl := unclamped_diag h1 h
    rw [gradEstDiag_eq, chanGrad_fin fun _ => inside_of (hf m k)]
    refine ⟨_, fun t => rfl, ?_⟩
    have := chan_len_le (cl := o.clampDb) (r := 1) (R := fun _ => prep o ref m k) he (fun _ => prep_sq_le o ref m k) fun _ => w m k
    rw [Fin.sum_univ_one] at this
    exact this
  · obtain ⟨g, hg, hlen⟩ := C98_sdr hN hL hcg hload h w
    exact ⟨g, hg, fun m k he => mono (hlen m k (hf m k) he) (hle m k he)⟩

/-! ### examples -/

theorem one_audible (m : BIdx []) (k : Fin 1) : 1e-6 ≤ sigNorm (centred true (estOne m k)) ∧ 1e-6 ≤ sigNorm (centred true (refOne m k)) := by
  rw [Subsingleton.elim k 0]
  exact ⟨(one_regular m).audible.le, (one_regular m).refOk rfl⟩

theorem one_fine (cl : Option ℝ) : FiniteUnlessClamped cl (coherenceToNegSdr none (fin (3 / 4))) := fun _ => ⟨_, one_value⟩

/-- A loss of `-10 log10 3` dB without `clamp_db`: the gradient is `20 / ln 10 * (√3 + 1 / √3)` over the norm of the estimate. -/
example (m : BIdx []) : HasLength (gradEstDiag optsNone refOne estOne (fun _ _ => 1) m 0)
    (steepness (-(10 * Real.logb 10 3)) / sigNorm (centred true (estOne m 0))) := by
  have hv : coherenceToNegSdr none (fin (dot (prep optsOne refOne m 0) (prep optsOne estOne m 0) ^ 2)) = fin (-(10 * Real.logb 10 3)) := by
    rw [one_loss, one_value]
  obtain ⟨γ, h1, h2⟩ := (C98_si (o := optsNone) (ref := refOne) (est := estOne) (m := m) (k := 0) rfl (lossDiag_one rfl _ _)
    (fun _ => ⟨_, hv⟩) (one_audible m 0).1 (one_audible m 0).2 fun _ _ => 1).1
  refine ⟨γ, h1, h2.trans ?_⟩
  show |(1 : ℝ)| * steepAt none (coherenceToNegSdr none (fin (dot (prep optsOne refOne m 0) (prep optsOne estOne m 0) ^ 2))) / _ = _
  rw [hv, abs_one, one_mul]
  refine congrArg (· / _) ?_
  unfold steepAt
  dsimp only
  exact if_pos fun d hd => absurd hd.symm (Option.some_ne_none d)

example (m : BIdx []) (w : BIdx [] → Fin 1 → ℝ) : ∃ a, HasLength (gradEstDiag optsOne refOne estOne w m 0) a ∧
    |w m 0| * (40 / Real.log 10) / sigNorm (centred true (estOne m 0)) ≤ a := by
  refine C98_si_least (o := optsOne) rfl (lossDiag_one rfl _ _) (y := -(10 * Real.logb 10 3)) ?_ (fun d hd => ?_) (one_audible m 0).1
    (one_audible m 0).2 w
  · show coherenceToNegSdr none (fin (dot (prep optsOne refOne m 0) (prep optsOne estOne m 0) ^ 2)) = _
    rw [one_loss, one_value]
  · cases hd
    obtain ⟨l0, l1⟩ := logb_three
    rw [abs_le]
    constructor <;> linarith

example (w : BIdx [] → Fin 2 → Fin 2 → ℝ) (m : BIdx []) (j : Fin 2) : ∃ a, LengthAtMost (gradEst optsOne refTwice estTwice w m j) a := by
  refine ⟨_, (C98_si_pairwise (o := optsOne) rfl (lossPair_one rfl _ _) w m).1 j (fun k h => ?_) (one_regular m).audible.le⟩
  cases h

/-- Two equal references and two equal estimates: each estimate has the gradient of one loss. -/
example (v : BIdx [] → Fin 2 → ℝ) : ∃ gE gR V, ∃ perm : BIdx [] → Fin (min 2 2) → ℕ, gradEstPit optsOne true refTwice estTwice v = .ok gE ∧
    gradRefPit optsOne true refTwice estTwice v = .ok gR ∧ sdrLossPair torchBackend optsNone estTwice refTwice = .ok V ∧
    ∀ m, ∃ P : Pairing 2 2, Describes (perm m) P ∧ ∀ i, HasLength (gE m (P.est i))
      (|v m i| * steepAt (some 30) (V m (P.ref i) (P.est i)) / sigNorm (centred true (estTwice m (P.est i)))) := by
  obtain ⟨out, h⟩ : ∃ out, sdr torchBackend optsOne true true refTwice estTwice = .ok out := by
    obtain ⟨out, h⟩ := twice_ok
    obtain ⟨V, p, hV, hp, -⟩ := sdr_ok h
    unfold sdr
    rw [hV]
    dsimp only
    rw [hp]
    exact ⟨_, rfl⟩
  obtain ⟨gE, gR, perm, h1, h2, -, h3⟩ := C98_pit_si (o := optsOne) rfl (lossPair_one rfl _ _) (fun m k j hn => by cases hn) h
    (fun m _ => (one_regular m).audible.le) (fun m _ => (one_regular m).refOk rfl) v
  refine ⟨gE, gR, _, perm, h1, h2, lossPair_one rfl _ _, fun m => ?_⟩
  obtain ⟨P, hP, h4, -⟩ := h3 m
  exact ⟨P, hP, fun i => (h4 i).1⟩

theorem fifth_fine (cl : Option ℝ) (b : Prop) [Decidable b] :
    FiniteUnlessClamped cl (coherenceToNegSdr none (fin (if b then 4 / 5 else 1 / 5))) := fun _ => fifth_off none (Or.inl rfl) b

/-- Filters of two taps, with and without `clamp_db`. -/
example (cl : Option ℝ) (w : BIdx [] → Fin 2 → Fin 2 → ℝ) : ∃ g, gradEstFir (Ex.clamped cl) Ex.ref Ex.est w = .ok g ∧ ∀ m j,
    LengthAtMost (g m j) ((∑ k, |w m k j| * steepAt cl (coherenceToNegSdr none (fin (if k = j then 4 / 5 else 1 / 5)))) /
      sigNorm (centred false (Ex.est m j))) := by
  obtain ⟨g, h1, h2⟩ := C98_sdr_pairwise (o := Ex.clamped cl) (by norm_num) le_rfl rfl le_rfl (Ex.sdrLossPair_cl none) w
  exact ⟨g, h1, fun m j => h2 m j (fun k => fifth_fine cl (k = j)) (le_trans (by norm_num) (ex_loud m j).1)⟩

example (cl : Option ℝ) (w : BIdx [] → Fin 2 → ℝ) : ∃ g, gradEstFirDiag (Ex.clamped cl) Ex.ref Ex.est w = .ok g ∧ ∀ m k,
    LengthAtMost (g m k) (|w m k| * steepAt cl (coherenceToNegSdr none (fin (4 / 5))) / sigNorm (centred false (Ex.est m k))) := by
  obtain ⟨g, h1, h2⟩ := C98_sdr (o := Ex.clamped cl) (by norm_num) le_rfl rfl le_rfl (Ex.sdrLossDiag_cl none) w
  refine ⟨g, h1, fun m k => h2 m k ?_ (le_trans (by norm_num) (ex_loud m k).1)⟩
  have := fifth_fine cl True
  rwa [if_pos trivial] at this

example (cs : Bool) (v : BIdx [] → Fin 2 → ℝ) : ∃ g, ∃ perm : BIdx [] → Fin (min 2 2) → ℕ, gradEstFirPit (Ex.clamped (some 30)) cs Ex.ref Ex.est v = .ok g ∧
    ∀ m, ∃ P : Pairing 2 2, Describes (perm m) P ∧ ∀ i, LengthAtMost (g m (P.est i)) (|v m i| *
      steepAt (some 30) (coherenceToNegSdr none (fin (if P.ref i = P.est i then 4 / 5 else 1 / 5))) /
        sigNorm (centred false (Ex.est m (P.est i)))) := by
  obtain ⟨out, h⟩ := Ex.sdr_cl (some 30) true cs
  obtain ⟨g, perm, h1, -, h2⟩ := C98_pit (o := Ex.clamped (some 30)) (by norm_num) le_rfl rfl le_rfl (Ex.sdrLossPair_cl none)
    (fun m k j => fifth_fine (some 30) (k = j)) h (fun m j => le_trans (by norm_num) (ex_loud m j).1) v
  exact ⟨g, perm, h1, fun m => (h2 m).imp fun P hP => ⟨hP.1, hP.2.1⟩⟩

example (w : BIdx [] → Fin 2 → ℝ) : ∃ g, gradEstFirDiag (Ex.clamped (some 30)) Ex.ref Ex.est w = .ok g ∧ ∀ m k,
    LengthAtMost (g m k) (|w m k| * steepness 30 / sigNorm (centred false (Ex.est m k))) := by
  obtain ⟨g, h1, h2⟩ := (C98_clamped (o := Ex.clamped (some 30)) (by norm_num) rfl le_rfl rfl (Ex.sdrLossDiag_cl none) w).2 le_rfl
  exact ⟨g, h1, fun m k => h2 m k (le_trans (by norm_num) (ex_loud m k).1)⟩

end FBE.Props
