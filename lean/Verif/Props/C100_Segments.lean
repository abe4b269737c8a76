import Verif.Proofs.Segments
import Verif.Props.C66_LeastSquares
import Verif.Props.C32_C34_Failures
import Verif.Props.C07_C08_C40_Invariance
import Verif.Props.C94_Late
import Verif.Props.C90_Remix

/-!
# C100 — a recording and its segments
-/

namespace FBE.Props

open Spec XR

variable {s : List ℕ} {r e c N M : ℕ} {B : Backend} {o : Opts}

theorem audible_joined {y : Fin N → ℝ} (hy : Audible y) (y' : Fin M → ℝ) : Audible (Fin.append y y') := by
  refine le_trans hy (Real.sqrt_le_sqrt ?_)
  have h := power_append y y'
  unfold power at h
  rw [h]
  exact le_add_of_nonneg_right (Finset.sum_nonneg fun _ _ => sq_nonneg _)

theorem audible_joined' (y : Fin N → ℝ) {y' : Fin M → ℝ} (hy : Audible y') : Audible (Fin.append y y') := by
  refine le_trans hy (Real.sqrt_le_sqrt ?_)
  have h := power_append y y'
  unfold power at h
  rw [h]
  exact le_add_of_nonneg_left (Finset.sum_nonneg fun _ _ => sq_nonneg _)

theorem normalisable_joined {x : Fin N → ℝ} {x' : Fin M → ℝ} (h : Normalisable x) (h' : Normalisable x') :
    Normalisable (Fin.append x x') := by
  rcases h with h | rfl
  · exact Or.inl (audible_joined h x')
  · rcases h' with h' | rfl
    · exact Or.inl (audible_joined' _ h')
    · refine Or.inr (funext fun t => ?_)
      refine Fin.addCases (fun i => ?_) (fun i => ?_) t
      · rw [Fin.append_left]; rfl
      · rw [Fin.append_right]; rfl

theorem power_pos {y : Fin N → ℝ} (hy : Audible y) : 0 < power y := by
  rw [power_eq le_rfl]
  exact (gain_sq_energy le_rfl hy).2

theorem sdrLossPair_length {est : Sig s e N} {ref : Sig s r N} {L} (h : sdrLossPair B o est ref = .ok L) :
    0 < o.filterLength := by
  obtain ⟨coh, hcoh, rfl⟩ := sdrLossPair_entry h
  refine Nat.pos_of_ne_zero fun h0 => ?_
  simp only [sdrCohPair_def] at hcoh
  rw [if_pos h0] at hcoh
  cases hcoh

/-- What `sdr_loss` says about the energies. -/
theorem loss_residual (hB : Covered B) (hdir : o.direct) (hload : o.load = 0) (hcl : o.clampOk)
    (hz : o.zeroMean = false) (hfit : FilterFits N o.filterLength) {est : Sig s e N} {ref : Sig s r N} {L}
    (h : sdrLossPair B o est ref = .ok L) (m : BIdx s) (k : Fin r) (j : Fin e) (hest : Audible (est m j))
    (href : o.filterLength = 1 → Normalisable (ref m k)) :
    ∃ f : Fin o.filterLength → ℝ, IsBestFilter f (ref m k) (est m j) ∧ 0 ≤ residualOne f (ref m k) (est m j) ∧
      residualOne f (ref m k) (est m j) ≤ power (est m j) ∧ (L m k j).neg =
        report o.clampDb (dbRatio (power (est m j) - residualOne f (ref m k) (est m j)) (residualOne f (ref m k) (est m j))) := by
  obtain ⟨f, hf⟩ := exists_bestFilter o.filterLength (ref m k) (est m j)
  have hc : ∀ {n : ℕ} (x : Fin n → ℝ), centred o.zeroMean x = x := fun x => by rw [hz]; rfl
  have := C66_sdr_loss hB hdir hload hcl hfit h m k j (by rwa [hc]) (by rwa [hc]) (f := f) (by rwa [hc, hc])
  dsimp only at this
  rw [hc, hc] at this
  refine ⟨f, hf, Finset.sum_nonneg fun _ _ => sq_nonneg _, ?_, by rw [this, neg_neg']⟩
  rw [residualOne_all]
  exact best_residual_le (sdrLossPair_length h) (bestOne_all hf)

/-- **C100.**  Direct solver, no loading, no mean removal: an estimate that is evaluated as a whole never has a larger
SDR than the better of two segments it is cut into, if the references end in `filter_length - 1` zeros before the cut
(no condition for one tap). -/
theorem C100_sdr_loss (hB : Covered B) (hdir : o.direct) (hload : o.load = 0) (hcl : o.clampOk)
    (hz : o.zeroMean = false) (hf1 : FilterFits N o.filterLength) (hf2 : FilterFits M o.filterLength)
    (hf : FilterFits (N + M) o.filterLength) {est : Sig s e N} {ref : Sig s r N} {est' : Sig s e M} {ref' : Sig s r M}
    {L1 L2 L}
    (h1 : sdrLossPair B o est ref = .ok L1) (h2 : sdrLossPair B o est' ref' = .ok L2)
    (h : sdrLossPair B o (joined est est') (joined ref ref') = .ok L) (m : BIdx s) (k : Fin r) (j : Fin e)
    (hest : Audible (est m j)) (hest' : Audible (est' m j))
    (href : o.filterLength = 1 → Normalisable (ref m k) ∧ Normalisable (ref' m k))
    (htail : TailSilent o.filterLength (ref m k)) :
    toEReal (L m k j).neg ≤ max (toEReal (L1 m k j).neg) (toEReal (L2 m k j).neg) := by
  have hL := sdrLossPair_length h
  obtain ⟨f1, b1, p1, q1, e1⟩ := loss_residual hB hdir hload hcl hz hf1 h1 m k j hest fun h => (href h).1
  obtain ⟨f2, b2, p2, q2, e2⟩ := loss_residual hB hdir hload hcl hz hf2 h2 m k j hest' fun h => (href h).2
  obtain ⟨f, b, p, q, e3⟩ := loss_residual hB hdir hload hcl hz hf h m k j (audible_joined hest (est' m j))
    fun h => normalisable_joined (href h).1 (href h).2
  rw [e1, e2, e3]
  have hp : power (joined est est' m j) = power (est m j) + power (est' m j) := power_append _ _
  have hr : residualOne f (joined ref ref' m k) (joined est est' m j) =
      residualOne f (ref m k) (est m j) + residualOne f (ref' m k) (est' m j) := residualOne_append hL f htail _ _ _
  rw [hp] at q ⊢
  refine whole_le hcl (power_pos hest) (power_pos hest') p1 p2 ?_ q
  rw [hr]
  exact add_le_add (b1 f) (b2 f)

/-- **C100.**  Without clamping: the distortion of the whole (its share of the energy, from the reported value, times the
energy) is at least the sum of the distortions of the segments. -/
theorem C100_distortion (hB : Covered B) (hdir : o.direct) (hload : o.load = 0) (hcl : o.clampDb = none)
    (hz : o.zeroMean = false) (hf1 : FilterFits N o.filterLength) (hf2 : FilterFits M o.filterLength)
    (hf : FilterFits (N + M) o.filterLength) {est : Sig s e N} {ref : Sig s r N} {est' : Sig s e M} {ref' : Sig s r M}
    {L1 L2 L}
    (h1 : sdrLossPair B o est ref = .ok L1) (h2 : sdrLossPair B o est' ref' = .ok L2)
    (h : sdrLossPair B o (joined est est') (joined ref ref') = .ok L) (m : BIdx s) (k : Fin r) (j : Fin e)
    (hest : Audible (est m j)) (hest' : Audible (est' m j))
    (href : o.filterLength = 1 → Normalisable (ref m k) ∧ Normalisable (ref' m k))
    (htail : TailSilent o.filterLength (ref m k)) :
    power (est m j) * distortionShare (L1 m k j).neg + power (est' m j) * distortionShare (L2 m k j).neg ≤
      (power (est m j) + power (est' m j)) * distortionShare (L m k j).neg := by
  have hcl' : o.clampOk := fun d hd => by rw [hcl] at hd; cases hd
  have hL := sdrLossPair_length h
  obtain ⟨f1, b1, p1, q1, e1⟩ := loss_residual hB hdir hload hcl' hz hf1 h1 m k j hest fun h => (href h).1
  obtain ⟨f2, b2, p2, q2, e2⟩ := loss_residual hB hdir hload hcl' hz hf2 h2 m k j hest' fun h => (href h).2
  obtain ⟨f, b, p, q, e3⟩ := loss_residual hB hdir hload hcl' hz hf h m k j (audible_joined hest (est' m j))
    fun h => normalisable_joined (href h).1 (href h).2
  rw [hcl] at e1 e2 e3
  have hp : power (joined est est' m j) = power (est m j) + power (est' m j) := power_append _ _
  have hr : residualOne f (joined ref ref' m k) (joined est est' m j) =
      residualOne f (ref m k) (est m j) + residualOne f (ref' m k) (est' m j) := residualOne_append hL f htail _ _ _
  have g1 := power_pos hest
  have g2 := power_pos hest'
  rw [e1, e2, e3]
  unfold report
  rw [distortionShare_eq g1 p1 q1, distortionShare_eq g2 p2 q2,
    distortionShare_eq (by rw [hp]; positivity) p q, hp, mul_div_cancel₀ _ g1.ne', mul_div_cancel₀ _ g2.ne',
    mul_div_cancel₀ _ (by positivity), hr]
  exact add_le_add (b1 f) (b2 f)

/-- **C100** for the SDR and the SAR of `bss_eval_sources` with the given alignment. -/
theorem C100_bss_eval (hB : Covered B) (hdir : o.direct) (hsv : o.filterLength = 1 ∨ B.stackedVectors = true)
    (hload : o.load = 0) (hcl : o.clampOk) (hz : o.zeroMean = false)
    (hf1 : FilterFits N o.filterLength) (hf2 : FilterFits M o.filterLength) (hf : FilterFits (N + M) o.filterLength)
    {ref est : Sig s c N} {ref' est' : Sig s c M} {out1 out2 out}
    (h1 : bssEvalSources B o false ref est = .ok out1) (h2 : bssEvalSources B o false ref' est' = .ok out2)
    (h : bssEvalSources B o false (joined ref ref') (joined est est') = .ok out) (m : BIdx s) (k : Fin c)
    (hest : Audible (est m k)) (hest' : Audible (est' m k))
    (href : o.filterLength = 1 → Normalisable (ref m k) ∧ Normalisable (ref' m k))
    (htail : ∀ k, TailSilent o.filterLength (ref m k)) :
    let k' := k.cast (min_self c).symm
    toEReal (out.sdr m k') ≤ max (toEReal (out1.sdr m k')) (toEReal (out2.sdr m k')) ∧
    toEReal (out.sar m k') ≤ max (toEReal (out1.sar m k')) (toEReal (out2.sar m k')) := by
  intro k'
  have hc : ∀ {n : ℕ} (x : Fin n → ℝ), centred o.zeroMean x = x := fun x => by rw [hz]; rfl
  have hL : 0 < o.filterLength := by
    obtain ⟨sd, sa, hs, -⟩ := bssEvalSources_false h
    refine Nat.pos_of_ne_zero fun h0 => ?_
    unfold sqCosDiag at hs
    rw [if_pos h0] at hs
    cases hs
  have val : ∀ {n : ℕ} {ref est : Sig s c n} {out}, FilterFits n o.filterLength →
      bssEvalSources B o false ref est = .ok out → Audible (est m k) →
      (o.filterLength = 1 → Normalisable (ref m k)) →
      ∃ (f : Fin o.filterLength → ℝ) (g : Fin c → Fin o.filterLength → ℝ), IsBestFilter f (ref m k) (est m k) ∧
        AreBestFilters g (ref m) (est m k) ∧
        out.sdr m k' = report o.clampDb (dbRatio (power (est m k) - residualOne f (ref m k) (est m k))
          (residualOne f (ref m k) (est m k))) ∧
        out.sar m k' = report o.clampDb (dbRatio (power (est m k) - residualAll g (ref m) (est m k))
          (residualAll g (ref m) (est m k))) := by
    intro n ref est out hfit h hest href
    obtain ⟨f, hf⟩ := exists_bestFilter o.filterLength (ref m k) (est m k)
    obtain ⟨g, hg⟩ := exists_bestFilters o.filterLength (ref m) (est m k)
    have := C66_bss_eval hB hdir hsv hload hcl hfit h m k (by rwa [hc]) (by rwa [hc]) (f := f) (g := g)
      (by rwa [hc, hc]) (by simp only [hc]; exact hg)
    simp only [hc] at this
    exact ⟨f, g, hf, hg, this.1, this.2.2⟩
  obtain ⟨f1, g1, a1, b1, c1, d1⟩ := val hf1 h1 hest fun h => (href h).1
  obtain ⟨f2, g2, a2, b2, c2, d2⟩ := val hf2 h2 hest' fun h => (href h).2
  obtain ⟨f, g, a, b, c3, d3⟩ := val hf h (audible_joined hest (est' m k))
    fun h => normalisable_joined (href h).1 (href h).2
  have hp : power (joined est est' m k) = power (est m k) + power (est' m k) := power_append _ _
  rw [c1, c2, c3, d1, d2, d3, hp]
  refine ⟨whole_le hcl (power_pos hest) (power_pos hest') (Finset.sum_nonneg fun _ _ => sq_nonneg _)
      (Finset.sum_nonneg fun _ _ => sq_nonneg _) ?_ ?_,
    whole_le hcl (power_pos hest) (power_pos hest') (residual_nonneg _ _ _) (residual_nonneg _ _ _) ?_ ?_⟩
  · have hr : residualOne f (joined ref ref' m k) (joined est est' m k) =
      residualOne f (ref m k) (est m k) + residualOne f (ref' m k) (est' m k) := residualOne_append hL f (htail k) _ _ _
    rw [hr]
    exact add_le_add (a1 f) (a2 f)
  · rw [residualOne_all, ← hp]
    exact best_residual_le hL (bestOne_all a)
  · have hr : residualAll g (joined ref ref' m) (joined est est' m k) =
      residualAll g (ref m) (est m k) + residualAll g (ref' m) (est' m k) := residualAll_append hL g htail _ _ _
    rw [hr]
    exact add_le_add (b1 g) (b2 g)
  · rw [← hp]
    exact best_residual_le hL b

/-- **C100** — `bss_eval_sources` succeeds for the whole recording if it does for one of the segments. -/
theorem C100_bss_eval_succeeds (hB : Covered B) (hdir : o.direct) (hsv : o.filterLength = 1 ∨ B.stackedVectors = true)
    (hL : 1 ≤ o.filterLength) (hload : o.load = 0) (hz : o.zeroMean = false) (hN : 0 < N) (hM : 0 < M)
    (hf1 : FilterFits N o.filterLength) (hf2 : FilterFits M o.filterLength) (hf : FilterFits (N + M) o.filterLength)
    {ref est : Sig s c N} {ref' est' : Sig s c M} (htail : ∀ m k, TailSilent o.filterLength (ref m k))
    (h : (∃ out, bssEvalSources B o false ref est = .ok out) ∨ ∃ out, bssEvalSources B o false ref' est' = .ok out) :
    ∃ out, bssEvalSources B o false (joined ref ref') (joined est est') = .ok out := by
  have hc : ∀ {n : ℕ} (x : Fin n → ℝ), centred o.zeroMean x = x := fun x => by rw [hz]; rfl
  have key : ∀ {n : ℕ}, 0 < n → FilterFits n o.filterLength → ∀ ref est : Sig s c n,
      (∃ out, bssEvalSources B o false ref est = .ok out) ↔ ∀ m, IndependentShifts o.filterLength (ref m) :=
    fun hn hf ref est => by
      rw [bss_false_returns hB hdir hL hsv hload hn hf]
      refine forall_congr' fun m => ?_
      rw [show cen o ref m = ref m from funext fun k => hc (ref m k)]
  rw [key hN hf1, key hM hf2] at h
  rw [key (by omega) hf]
  intro m
  exact independentShifts_append hL (htail m) (ref' m) (h.imp (fun h => h m) fun h => h m)

theorem filtered_one (h : Fin 1 → ℝ) (x : Fin N → ℝ) (t : ℕ) : filtered h x t = h 0 * zpad x t := by
  unfold filtered
  simp

theorem residualOne_one (h : Fin 1 → ℝ) (x y : Fin N → ℝ) : residualOne h x y = ∑ t, (y t - h 0 * x t) ^ 2 := by
  unfold residualOne
  rw [show N + 1 - 1 = N by omega, Finset.sum_range]
  refine Finset.sum_congr rfl fun t _ => ?_
  rw [filtered_one]
  simp [zpad]

theorem residualOne_first {L : ℕ} (h1 : L = 1) (h0 : 0 < L) (f : Fin L → ℝ) (x y : Fin N → ℝ) :
    residualOne f x y = ∑ t, (y t - f ⟨0, h0⟩ * x t) ^ 2 := by
  subst h1
  exact residualOne_one f x y

theorem tailSilent_one (x : Fin N → ℝ) : TailSilent 1 x := fun t ht => absurd t.2 (by omega)

/-- **C100 — there is no bound from below.**  Whatever the (audible) reference `x`: an estimate that is `x` in the first
segment and `-x` in the second is perfect in both, SI-SDR `+inf`, but has SI-SDR `-inf` as a whole. -/
theorem C100_no_lower_bound (hB : Covered B) (hz : o.zeroMean = false) (h1 : o.filterLength = 1) (hcl : o.clampDb = none)
    (hload : o.load = 0) (hN : 0 < N) (x : Fin N → ℝ) (hx : Audible x) :
    let ref : Sig [] 1 N := fun _ _ => x
    let est : Sig [] 1 N := fun _ _ t => -x t
    ∃ L1 L2 L, sdrLossPair B o ref ref = .ok L1 ∧ sdrLossPair B o est ref = .ok L2 ∧
      sdrLossPair B o (joined ref est) (joined ref ref) = .ok L ∧
      ∀ m, (L1 m 0 0).neg = pinf ∧ (L2 m 0 0).neg = pinf ∧ (L m 0 0).neg = ninf := by
  intro ref est
  obtain ⟨L1, e1⟩ := C34_sdr_loss_length_one (B := B) h1 ref ref
  obtain ⟨L2, e2⟩ := C34_sdr_loss_length_one (B := B) h1 est ref
  obtain ⟨L, e3⟩ := C34_sdr_loss_length_one (B := B) h1 (joined ref est) (joined ref ref)
  have hcl' : o.clampOk := fun d hd => by rw [hcl] at hd; cases hd
  have hneg : ∀ m, Audible (est m 0) := fun m => by
    have : sigNorm (est m 0) = sigNorm x := by
      unfold sigNorm
      congr 1
      exact Finset.sum_congr rfl fun t _ => neg_sq _
    unfold Audible
    rw [this]
    exact hx
  refine ⟨L1, L2, L, e1, e2, e3, fun m => ?_⟩
  have hdir : o.direct := Or.inl h1
  have hp := power_pos hx
  have hp2 : power (est m 0) = power x := Finset.sum_congr rfl fun t _ => neg_sq _
  have hn : Normalisable x := Or.inl hx
  have res : ∀ {n : ℕ} (f : Fin o.filterLength → ℝ) (u v : Fin n → ℝ),
      residualOne f u v = ∑ t, (v t - f ⟨0, by omega⟩ * u t) ^ 2 := fun f u v => residualOne_first h1 (by omega) f u v
  have fit : ∀ {n : ℕ}, 0 < n → FilterFits n o.filterLength := fun hn => by
    rw [h1]
    exact fits_one hn
  obtain ⟨f1, b1, p1, q1, v1⟩ := loss_residual hB hdir hload hcl' hz (fit hN) e1 m 0 0 hx fun _ => hn
  obtain ⟨f2, b2, p2, q2, v2⟩ := loss_residual hB hdir hload hcl' hz (fit hN) e2 m 0 0 (hneg m) fun _ => hn
  obtain ⟨f, b, p, q, v⟩ := loss_residual hB hdir hload hcl' hz (fit (by omega)) e3 m 0 0
    (audible_joined hx (est m 0)) fun _ => normalisable_joined hn hn
  rw [v1, v2, v, hcl]
  have r1 : residualOne f1 (ref m 0) (ref m 0) = 0 := le_antisymm ((b1 fun _ => 1).trans_eq (by
    rw [res]; exact Finset.sum_eq_zero fun t _ => by ring)) p1
  have r2 : residualOne f2 (ref m 0) (est m 0) = 0 := le_antisymm ((b2 fun _ => -1).trans_eq (by
    rw [res]; exact Finset.sum_eq_zero fun t _ => by show (-x t - -1 * x t) ^ 2 = 0; ring)) p2
  have hpw : power (joined ref est m 0) = power x + power x := by
    have := power_append (ref m 0) (est m 0)
    rw [hp2] at this
    exact this
  have hge : power x + power x ≤ residualOne f (joined ref ref m 0) (joined ref est m 0) := by
    have : residualOne f (joined ref ref m 0) (joined ref est m 0) =
        residualOne f (ref m 0) (ref m 0) + residualOne f (ref m 0) (est m 0) :=
      residualOne_append (by omega) f (by rw [h1]; exact tailSilent_one _) _ _ _
    rw [this, res, res, ← Finset.sum_add_distrib]
    unfold power
    rw [← Finset.sum_add_distrib]
    refine Finset.sum_le_sum fun t _ => ?_
    show x t ^ 2 + x t ^ 2 ≤ (x t - f ⟨0, by omega⟩ * x t) ^ 2 + (-x t - f ⟨0, by omega⟩ * x t) ^ 2
    nlinarith [sq_nonneg (f ⟨0, by omega⟩ * x t)]
  rw [hpw] at q
  rw [r1, r2, hpw, le_antisymm q hge, sub_self, sub_zero, sub_zero, hp2]
  unfold report dbRatio
  have : power (ref m 0) = power x := rfl
  rw [this]
  simp [hp.ne']

/-! ### the hypotheses can be met -/

-- one tap, two references
example : ∃ L1 L2 L, sdrLossPair torchBackend { Ex.opts with filterLength := 1 } Ex.est Ex.ref = .ok L1 ∧
    sdrLossPair torchBackend { Ex.opts with filterLength := 1 } Ex.ref Ex.ref = .ok L2 ∧
    sdrLossPair torchBackend { Ex.opts with filterLength := 1 } (joined Ex.est Ex.ref) (joined Ex.ref Ex.ref) = .ok L ∧
    ∀ m k j, toEReal (L m k j).neg ≤ max (toEReal (L1 m k j).neg) (toEReal (L2 m k j).neg) := by
  obtain ⟨L1, h1⟩ := C34_sdr_loss_length_one (B := torchBackend) (o := { Ex.opts with filterLength := 1 }) rfl Ex.est Ex.ref
  obtain ⟨L2, h2⟩ := C34_sdr_loss_length_one (B := torchBackend) (o := { Ex.opts with filterLength := 1 }) rfl Ex.ref Ex.ref
  obtain ⟨L, h⟩ := C34_sdr_loss_length_one (B := torchBackend) (o := { Ex.opts with filterLength := 1 }) rfl
    (joined Ex.est Ex.ref) (joined Ex.ref Ex.ref)
  have ha : ∀ m k, Audible (Ex.ref m k) := fun m k => by
    fin_cases k
    · exact Ex.audible _ 0 (by simp [Ex.ref])
    · exact Ex.audible _ 2 (by simp [Ex.ref])
  refine ⟨L1, L2, L, h1, h2, h, fun m k j => ?_⟩
  exact C100_sdr_loss Ex.covered (Or.inl rfl) rfl (fun d hd => by cases hd) rfl (fits_one (by norm_num))
    (fits_one (by norm_num)) (fits_one (by norm_num)) h1 h2 h m k j (Ex.est_audible m j) (ha m j)
    (fun _ => ⟨Or.inl (ha m k), Or.inl (ha m k)⟩) (tailSilent_one _)

-- two taps: the reference `(1, 0)` followed by `(0, 1, 2)`
example : ∃ L1 L2 L, sdrLossPair (s := []) torchBackend Ex.opts (fun _ (_ : Fin 1) => ![1, 3]) (fun _ (_ : Fin 1) => ![1, 0]) = .ok L1 ∧
    sdrLossPair (s := []) torchBackend Ex.opts (fun _ (_ : Fin 1) => ![1, 1, 1]) (fun _ (_ : Fin 1) => ![0, 1, 2]) = .ok L2 ∧
    sdrLossPair (s := []) torchBackend Ex.opts (joined (fun _ (_ : Fin 1) => ![1, 3]) fun _ (_ : Fin 1) => ![1, 1, 1])
      (joined (fun _ (_ : Fin 1) => ![1, 0]) fun _ (_ : Fin 1) => ![0, 1, 2]) = .ok L ∧
    ∀ m, power ![1, 3] * distortionShare (L1 m 0 0).neg + power ![1, 1, 1] * distortionShare (L2 m 0 0).neg ≤
      (power ![1, 3] + power ![1, 1, 1]) * distortionShare (L m 0 0).neg := by
  have f2 : FilterFits 2 Ex.opts.filterLength := by show 2 + 2 ≤ 2 ^ Nat.clog 2 3 + 1; decide
  have f5 : FilterFits (2 + 3) Ex.opts.filterLength := by show 2 + 5 ≤ 2 ^ Nat.clog 2 9 + 1; decide
  have ok : ∀ {n : ℕ} (est ref : Sig [] 1 n), 0 < n → FilterFits n Ex.opts.filterLength → (∀ m, ref m 0 ≠ 0) →
      ∃ L, sdrLossPair torchBackend Ex.opts est ref = .ok L := fun est ref hn hf h =>
    (C34_sdr_loss Ex.covered rfl le_rfl rfl hn hf est ref).2.2 fun m k => by
      rw [Subsingleton.elim k 0]
      exact h m
  have n1 : (![1, 0] : Fin 2 → ℝ) ≠ 0 := fun h => by simpa using congrFun h 0
  have n2 : (![0, 1, 2] : Fin 3 → ℝ) ≠ 0 := fun h => by simpa using congrFun h 1
  obtain ⟨L1, h1⟩ := ok (fun _ _ => ![1, 3]) (fun _ _ => ![1, 0]) (by norm_num) f2 fun _ => n1
  obtain ⟨L2, h2⟩ := ok (fun _ _ => ![1, 1, 1]) (fun _ _ => ![0, 1, 2]) (by norm_num) Ex.fits fun _ => n2
  obtain ⟨L, h⟩ := ok (joined (fun _ _ => ![1, 3]) fun _ _ => ![1, 1, 1])
    (joined (fun _ _ => ![1, 0]) fun _ _ => ![0, 1, 2]) (by norm_num) f5 fun m hz => n1 <| funext fun t => by
      have := congrFun hz (Fin.castAdd 3 t)
      unfold joined at this
      rw [Fin.append_left] at this
      exact this
  refine ⟨L1, L2, L, h1, h2, h, fun m => ?_⟩
  have a1 : Audible (![1, 3] : Fin 2 → ℝ) := by
    unfold Audible sigNorm
    exact Real.le_sqrt_of_sq_le (by simp [Fin.sum_univ_two]; norm_num)
  have a2 : Audible (![1, 1, 1] : Fin 3 → ℝ) := by
    unfold Audible sigNorm
    exact Real.le_sqrt_of_sq_le (by simp [Fin.sum_univ_three]; norm_num)
  refine C100_distortion Ex.covered Ex.direct Ex.load rfl rfl f2 Ex.fits f5 h1 h2 h m 0 0 a1 a2
    (fun h => absurd h (by decide)) fun t ht => ?_
  have ht : 2 < t.val + 2 := ht
  have : t = 1 := by ext; show t.val = 1; omega
  rw [this]
  rfl

example : ∃ L1 L2 L, sdrLossPair torchBackend { Ex.opts with filterLength := 1 } (fun _ (_ : Fin 1) => ![3, 4]) (fun _ (_ : Fin 1) => ![3, 4]) = .ok L1 ∧
    sdrLossPair torchBackend { Ex.opts with filterLength := 1 } (fun _ (_ : Fin 1) t => -![3, 4] t) (fun _ (_ : Fin 1) => ![3, 4]) = .ok L2 ∧
    sdrLossPair (s := []) torchBackend { Ex.opts with filterLength := 1 } (joined (fun _ (_ : Fin 1) => ![3, 4]) fun _ (_ : Fin 1) t => -![3, 4] t)
      (joined (fun _ (_ : Fin 1) => ![3, 4]) fun _ (_ : Fin 1) => ![3, 4]) = .ok L ∧
    ∀ m, (L1 m 0 0).neg = pinf ∧ (L2 m 0 0).neg = pinf ∧ (L m 0 0).neg = ninf :=
  C100_no_lower_bound (o := { Ex.opts with filterLength := 1 }) Ex.covered rfl rfl rfl rfl (by norm_num) ![3, 4] (by
    unfold Audible sigNorm
    exact Real.le_sqrt_of_sq_le (by simp [Fin.sum_univ_two]; norm_num))

-- two taps: the references `(1, 0)` followed by `(0, 1, 2)`; the estimates `(1, 3)` followed by `(1, 1, 1)`
example : ∃ out1 out2 out,
    bssEvalSources (s := []) torchBackend Ex.opts false (fun _ (_ : Fin 1) => ![1, 0]) (fun _ (_ : Fin 1) => ![1, 3]) = .ok out1 ∧
    bssEvalSources (s := []) torchBackend Ex.opts false (fun _ (_ : Fin 1) => ![0, 1, 2]) (fun _ (_ : Fin 1) => ![1, 1, 1]) = .ok out2 ∧
    bssEvalSources (s := []) torchBackend Ex.opts false (joined (fun _ (_ : Fin 1) => ![1, 0]) fun _ (_ : Fin 1) => ![0, 1, 2])
      (joined (fun _ (_ : Fin 1) => ![1, 3]) fun _ (_ : Fin 1) => ![1, 1, 1]) = .ok out ∧
    ∀ m k, toEReal (out.sar m k) ≤ max (toEReal (out1.sar m k)) (toEReal (out2.sar m k)) := by
  have f2 : FilterFits 2 Ex.opts.filterLength := by show 2 + 2 ≤ 2 ^ Nat.clog 2 3 + 1; decide
  have f5 : FilterFits (2 + 3) Ex.opts.filterLength := by show 2 + 5 ≤ 2 ^ Nat.clog 2 9 + 1; decide
  have ok : ∀ {n : ℕ} (ref est : Sig [] 1 n), 0 < n → FilterFits n Ex.opts.filterLength → (∀ m, ref m 0 ≠ 0) →
      ∃ out, bssEvalSources torchBackend Ex.opts false ref est = .ok out := fun ref est hn hf h =>
    (bss_false_returns Ex.covered Ex.direct (by decide) (Or.inr rfl) Ex.load hn hf ref est).2 fun m =>
      ExLate.one_independent _ (by decide) (h m)
  have n1 : (![1, 0] : Fin 2 → ℝ) ≠ 0 := fun h => by simpa using congrFun h 0
  have n2 : (![0, 1, 2] : Fin 3 → ℝ) ≠ 0 := fun h => by simpa using congrFun h 1
  have ht : ∀ (m : BIdx []) (k : Fin 1), TailSilent Ex.opts.filterLength
      ((fun (_ : BIdx []) (_ : Fin 1) => (![1, 0] : Fin 2 → ℝ)) m k) := fun m k t ht => by
    have ht : 2 < t.val + 2 := ht
    have : t = 1 := by ext; show t.val = 1; omega
    rw [this]
    rfl
  obtain ⟨out1, h1⟩ := ok (fun _ _ => ![1, 0]) (fun _ _ => ![1, 3]) (by norm_num) f2 fun _ => n1
  obtain ⟨out2, h2⟩ := ok (fun _ _ => ![0, 1, 2]) (fun _ _ => ![1, 1, 1]) (by norm_num) Ex.fits fun _ => n2
  obtain ⟨out, h⟩ := C100_bss_eval_succeeds Ex.covered Ex.direct (Or.inr rfl) (by decide) Ex.load rfl (by norm_num)
    (by norm_num) f2 Ex.fits f5 (est := fun _ (_ : Fin 1) => ![1, 3]) (est' := fun _ (_ : Fin 1) => ![1, 1, 1]) ht
    (Or.inl ⟨out1, h1⟩)
  exact ⟨out1, out2, out, h1, h2, h, fun m k => (C100_bss_eval Ex.covered Ex.direct (Or.inr rfl) Ex.load Ex.clampOk rfl f2
    Ex.fits f5 h1 h2 h m k (Ex.audible _ 0 (by simp)) (Ex.audible _ 0 (by simp)) (fun h => absurd h (by decide))
    (ht m)).2⟩

end FBE.Props
