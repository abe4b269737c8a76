import Verif.Props.C103_Shares

/-!
# C103 — one estimate for several references, in `bss_eval_sources`
-/

namespace FBE.Props

open Spec XR

variable {s : List ℕ} {r e N c : ℕ} {B : Backend} {o : Opts}

theorem docSir_share {L : ℕ} {x : Fin r → Fin N → ℝ} (k : Fin r) (y : Fin N → ℝ) :
    share (docSir L x k y) = energy ((spanOne (N + L - 1) L (x k)).starProjection
        ((spanAll (N + L - 1) L x).starProjection (shift (N + L - 1) y 0))) /
      energy ((spanAll (N + L - 1) L x).starProjection (shift (N + L - 1) y 0)) := by
  set K := spanOne (N + L - 1) L (x k) with hK
  set A := spanAll (N + L - 1) L x with hA
  set u := shift (N + L - 1) y 0
  have hle : K ≤ A := spanOne_le_spanAll _ _ _ _
  have e1 : K.starProjection (A.starProjection u) = K.starProjection u := by
    have := Submodule.starProjection_comp_starProjection_of_le hle
    exact congrArg (fun f => f u) this
  have hd : docSir L x k y = dbRatio (energy (K.starProjection (A.starProjection u)))
      (energy (A.starProjection u - K.starProjection (A.starProjection u))) := by
    rw [e1]
    rfl
  rw [hd]
  set v := A.starProjection u
  have hp := energy_parts K v
  rcases eq_or_ne v 0 with h0 | h0
  · rw [h0, map_zero, sub_zero]
    simp [energy, dbRatio, share]
  · have : share (dbRatio (energy (K.starProjection v)) (energy (v - K.starProjection v))) = _ :=
      share_ratio (sq_nonneg _) (sq_nonneg _) (hp ▸ energy_pos h0)
    rw [← hp] at this
    exact this

theorem docSir_shares {L : ℕ} {x : Fin r → Fin N → ℝ} (y : Fin N → ℝ) {b : ℝ} (h0 : 0 ≤ b) {J : Finset (Fin r)} (hJ : J.Nonempty)
    (hc : ∀ k ∈ J, ∀ k' ∈ J, k ≠ k' → AtMostCorrelated L b (x k) (x k')) :
    ∑ k ∈ J, share (docSir L x k y) ≤ 1 + (J.card - 1) * b := by
  rw [Finset.sum_congr rfl fun k _ => docSir_share k y, ← Finset.sum_div]
  set v := (spanAll (N + L - 1) L x).starProjection (shift (N + L - 1) y 0)
  have hJ1 : (1 : ℝ) ≤ J.card := by exact_mod_cast Finset.card_pos.2 hJ
  rcases eq_or_ne v 0 with hv | hv
  · have : energy v = 0 := by rw [hv]; simp [energy]
    rw [this, div_zero]
    nlinarith
  · rw [div_le_iff₀ (energy_pos hv)]
    exact many_projections J _ h0 (fun i hi j hj hij => correlated_spans (hc i hi j hj hij)) hJ v

/-- **C103** for `bss_eval_sources`: the same estimate `y` is compared with the references of `J`.  The shares
`1 / (1 + 10^(-SIR/10))` add up to at most `1 + (n - 1) c`, and so do those of the SDRs; the SARs are equal. -/
theorem C103_bss_eval_shares (hB : Covered B) (hdir : o.direct) (hsv : o.filterLength = 1 ∨ B.stackedVectors = true)
    (hload : o.load = 0) (hcl : o.clampDb = none) (hf : FilterFits N o.filterLength) {ref est : Sig s c N} {out}
    (h : bssEvalSources B o false ref est = .ok out) (m : BIdx s) {y : Fin N → ℝ} (hy : Audible (centred o.zeroMean y))
    (href : o.filterLength = 1 → ∀ k, Normalisable (centred o.zeroMean (ref m k))) {b : ℝ} (h0 : 0 ≤ b)
    {J : Finset (Fin c)} (hJ : J.Nonempty) (hJy : ∀ k ∈ J, est m k = y)
    (hc : ∀ k ∈ J, ∀ k' ∈ J, k ≠ k' →
      AtMostCorrelated o.filterLength b (centred o.zeroMean (ref m k)) (centred o.zeroMean (ref m k'))) :
    ∑ k ∈ J, share (out.sir m (k.cast (min_self c).symm)) ≤ 1 + (J.card - 1) * b ∧
    ∑ k ∈ J, share (out.sdr m (k.cast (min_self c).symm)) ≤ 1 + (J.card - 1) * b ∧
    ∀ k ∈ J, ∀ k' ∈ J, out.sar m (k.cast (min_self c).symm) = out.sar m (k'.cast (min_self c).symm) := by
  have hd := fun k (hk : k ∈ J) => C02_bss_eval hB hdir hsv hload (fun d hd => by rw [hcl] at hd; cases hd) hf h m k
    (by rw [hJy k hk]; exact hy) (fun h => href h k)
  simp only [hcl] at hd
  have e1 : ∀ k ∈ J, share (out.sir m (k.cast (min_self c).symm)) =
      share (docSir o.filterLength (fun k => centred o.zeroMean (ref m k)) k (centred o.zeroMean y)) := fun k hk => by
    rw [(hd k hk).2.1, hJy k hk]
    rfl
  have hs := docSir_shares (L := o.filterLength) (x := fun k => centred o.zeroMean (ref m k)) (centred o.zeroMean y) h0 hJ hc
  refine ⟨?_, ?_, fun k hk k' hk' => ?_⟩
  · rw [Finset.sum_congr rfl e1]
    exact hs
  · have hl : 0 < o.filterLength := by
      obtain ⟨sd, sa, hs, -⟩ := bssEvalSources_false h
      refine Nat.pos_of_ne_zero fun h0 => ?_
      unfold sqCosDiag at hs
      rw [if_pos h0] at hs
      cases hs
    set u := shift (N + o.filterLength - 1) (centred o.zeroMean y) 0 with hu
    have hu0 : 0 < energy u := energy_pos (shift_ne_zero' hl hy)
    have hk : ∀ k ∈ J, share (out.sdr m (k.cast (min_self c).symm)) = energy ((spanOne (N + o.filterLength - 1) o.filterLength
        (centred o.zeroMean (ref m k))).starProjection u) / energy u := fun k hk => by
      rw [(hd k hk).1, hJy k hk]
      set K := spanOne (N + o.filterLength - 1) o.filterLength (centred o.zeroMean (ref m k))
      have hp := energy_parts K u
      have : share (dbRatio (energy (K.starProjection u)) (energy (u - K.starProjection u))) = _ :=
        share_ratio (sq_nonneg _) (sq_nonneg _) (hp ▸ hu0)
      rw [← hp] at this
      exact this
    rw [Finset.sum_congr rfl hk, ← Finset.sum_div, div_le_iff₀ hu0]
    exact many_projections J _ h0 (fun i hi j hj hij => correlated_spans (hc i hi j hj hij)) hJ u
  · rw [(hd k hk).2.2, (hd k' hk').2.2, hJy k hk, hJy k' hk']

theorem mixture_mem {L : ℕ} (hL : 0 < L) (x : Fin r → Fin N → ℝ) (g : Fin r → ℝ) :
    shift (N + L - 1) (fun t => ∑ k, g k * x k t) 0 ∈ spanAll (N + L - 1) L x := by
  rw [shift_sum]
  exact Submodule.sum_mem _ fun k _ => Submodule.smul_mem _ _ (Submodule.subset_span ⟨(⟨0, hL⟩, k), rfl⟩)

theorem docSir_mixture {L : ℕ} (hL : 0 < L) (x : Fin r → Fin N → ℝ) (g : Fin r → ℝ) (k : Fin r) :
    docSir L x k (fun t => ∑ k, g k * x k t) = docSdr L x k fun t => ∑ k, g k * x k t := by
  unfold docSir docSdr
  dsimp only
  rw [Submodule.starProjection_eq_self_iff.2 (mixture_mem hL x g)]

theorem docSar_mixture {L : ℕ} (hL : 0 < L) (x : Fin r → Fin N → ℝ) (g : Fin r → ℝ)
    (h : shift (N + L - 1) (fun t => ∑ k, g k * x k t) 0 ≠ 0) : docSar L x (fun t => ∑ k, g k * x k t) = .pinf := by
  unfold docSar
  dsimp only
  rw [Submodule.starProjection_eq_self_iff.2 (mixture_mem hL x g), sub_self]
  unfold dbRatio
  rw [if_pos (by simp [energy]), if_neg (energy_pos h).ne']

/-- **C103 — the baseline** in `bss_eval_sources`: every estimate is the mixture of uncorrelated references.  For every reference
that the permutation uses, SDR and SIR are both the energy of its part of the mixture against that of all the other parts, and
the SAR is `+inf` (`clamp_db` if given). -/
theorem C103_bss_eval_baseline (hB : Covered B) (hdir : o.direct) (hload : o.load = 0) (hcl : o.clampOk)
    (hf : FilterFits N o.filterLength) {g : Fin r → ℝ} {ref : Sig s r N} {out}
    (h : bssEvalSources B o true ref (mixtureOf e g ref) = .ok out) (m : BIdx s)
    (hmix : Audible (fun t => ∑ k, g k * centred o.zeroMean (ref m k) t))
    (href : o.filterLength = 1 → ∀ k, Normalisable (centred o.zeroMean (ref m k)))
    (hc : ∀ k k', k ≠ k' →
      AtMostCorrelated o.filterLength 0 (centred o.zeroMean (ref m k)) (centred o.zeroMean (ref m k'))) :
    ∃ (P : Pairing r e) (perm : BIdx s → Fin (min r e) → ℕ), out.perm = some perm ∧ Describes (perm m) P ∧
      ∀ k, out.sdr m k = report o.clampDb (dbRatio (g (P.ref k) ^ 2 * power (centred o.zeroMean (ref m (P.ref k))))
          (∑ i ∈ Finset.univ.erase (P.ref k), g i ^ 2 * power (centred o.zeroMean (ref m i)))) ∧
        out.sir m k = out.sdr m k ∧ out.sar m k = report o.clampDb .pinf := by
  have hl : 0 < o.filterLength := by
    by_contra h0
    simp only [Nat.not_lt, Nat.le_zero] at h0
    unfold bssEvalSources at h
    rw [if_pos rfl] at h
    obtain ⟨sd, sa, p, hL, -, -⟩ := bssEvalPerm_ok h
    simp only [sqCosPair_def] at hL
    rw [if_pos h0] at hL
    cases hL
  have hcen : ∀ j, centred o.zeroMean (mixtureOf e g ref m j) = fun t => ∑ k, g k * centred o.zeroMean (ref m k) t :=
    fun j => centred_sum o.zeroMean g (ref m)
  obtain ⟨P, perm, h1, h2, h3, -⟩ := C12_bss_eval_documented hB hdir hload hcl hf h m (fun j => by rw [hcen]; exact hmix) href
  refine ⟨P, perm, h1, h2, fun k => ?_⟩
  obtain ⟨a1, a2, a3⟩ := h3 k
  dsimp only at a1 a2 a3
  rw [hcen] at a1 a2 a3
  rw [docSir_mixture hl, ← a1] at a2
  rw [docSdr_mixture hl g hc] at a1
  rw [docSar_mixture hl _ g (shift_ne_zero' hl hmix)] at a3
  exact ⟨a1, a2, a3⟩

theorem independent_of_uncorrelated {L : ℕ} {x : Fin r → Fin N → ℝ} (hx : ∀ k, x k ≠ 0)
    (hc : ∀ k k', k ≠ k' → AtMostCorrelated L 0 (x k) (x k')) : IndependentShifts L x := by
  unfold IndependentShifts
  rw [Fintype.linearIndependent_iff]
  intro a ha
  set v : Fin r → Space (N + L - 1) := fun k => ∑ l, a (l, k) • shift (N + L - 1) (x k) l with hv
  have hmem : ∀ k, v k ∈ spanOne (N + L - 1) L (x k) := fun k =>
    Submodule.sum_mem _ fun l _ => Submodule.smul_mem _ _ (Submodule.subset_span ⟨l, rfl⟩)
  have hsum : ∑ k, v k = 0 := by
    rw [Fintype.sum_prod_type_right] at ha
    exact ha
  have hz : ∀ k, v k = 0 := fun k => by
    have h1 : inner ℝ (v k) (∑ k, v k) = inner ℝ (v k) (v k) := by
      rw [inner_sum, Finset.sum_eq_single k]
      · intro i _ hi
        have := correlated_spans (hc k i hi.symm) (v k) (hmem k) (v i) (hmem i)
        rw [zero_mul] at this
        exact abs_nonpos_iff.1 this
      · exact fun h => absurd (Finset.mem_univ k) h
    rw [hsum, inner_zero_right] at h1
    exact inner_self_eq_zero.1 h1.symm
  rintro ⟨l, k⟩
  have := Fintype.linearIndependent_iff.1 (shift_linearIndependent (N + L - 1) L (by omega) (hx k)) (fun l => a (l, k)) (hz k)
  exact this l

/-- **C103 — the baseline can be computed** by `bss_eval_sources`. -/
theorem C103_bss_eval_succeeds (hB : Covered B) (hdir : o.direct) (hL : 1 ≤ o.filterLength) (hload : o.load = 0)
    (hcl : o.clampOk) (hN : 0 < N) (hf : FilterFits N o.filterLength) {g : Fin r → ℝ} {ref : Sig s r N} (hr : 2 ≤ r)
    (hpart : ∀ m k, 0 < g k ^ 2 * power (centred o.zeroMean (ref m k)))
    (href : o.filterLength = 1 → ∀ m k, Normalisable (centred o.zeroMean (ref m k)))
    (hc : ∀ m k k', k ≠ k' →
      AtMostCorrelated o.filterLength 0 (centred o.zeroMean (ref m k)) (centred o.zeroMean (ref m k'))) :
    ∃ out, bssEvalSources B o true ref (mixtureOf e g ref) = .ok out := by
  have hx : ∀ m k, centred o.zeroMean (ref m k) ≠ 0 := fun m k h0 => by
    have := hpart m k
    rw [h0] at this
    simp [power] at this
  rcases sqCosPair_success hB hdir hL hload hN hf ref (mixtureOf e g ref) with ⟨⟨⟨sd, sa⟩, hs⟩, -⟩ | ⟨-, m, hm⟩
  swap
  · exact absurd (independent_of_uncorrelated (hx m) (hc m)) hm
  refine (C17_bss_eval_returns_iff hB).2 ⟨sd, sa, hs, fun m => solvable_of_finite fun k j => ?_⟩
  have hcen : cen o (mixtureOf e g ref) m j = fun t => ∑ k, g k * centred o.zeroMean (ref m k) t :=
    centred_sum o.zeroMean g (ref m)
  rw [(baseMetrics_doc hB hdir hload hcl hf ref _ hs m k j fun h => href h m k).2.1, hcen]
  have e1 := (docSir_mixture hL (fun k => centred o.zeroMean (ref m k)) g k).trans (docSdr_mixture hL g (hc m) k)
  have hb : 0 < ∑ i ∈ Finset.univ.erase k, g i ^ 2 * power (centred o.zeroMean (ref m i)) := by
    refine Finset.sum_pos (fun i _ => hpart m i) (Finset.card_pos.1 ?_)
    rw [Finset.card_erase_of_mem (Finset.mem_univ k), Finset.card_univ, Fintype.card_fin]
    omega
  unfold dbRatio at e1
  rw [if_neg hb.ne', if_neg (hpart m k).ne'] at e1
  change ∃ x, (report o.clampDb (docSir o.filterLength (fun k => centred o.zeroMean (ref m k)) k _)).neg = fin x
  rw [e1]
  cases o.clampDb with
  | none => exact ⟨_, rfl⟩
  | some d => exact ⟨_, rfl⟩

/-! ### the hypotheses can be met -/

example (m : BIdx []) : ∃ out, bssEvalSources torchBackend Ex.opts true Ex.ref (mixtureOf 2 1 Ex.ref) = .ok out ∧
    ∀ k, out.sdr m k = fin 0 ∧ out.sir m k = fin 0 ∧ out.sar m k = .pinf := by
  obtain ⟨out, h⟩ := C103_bss_eval_succeeds (e := 2) (o := Ex.opts) Ex.covered Ex.direct (by decide) Ex.load Ex.clampOk (by decide)
    Ex.fits (g := 1) (ref := Ex.ref) le_rfl (fun m k => by rw [exRef_power]; exact one_pos) (fun h => absurd h (by decide))
    exRef_uncorrelated
  obtain ⟨P, perm, -, -, h3⟩ := C103_bss_eval_baseline Ex.covered Ex.direct Ex.load Ex.clampOk Ex.fits h m (exMix_audible m)
    (fun h => absurd h (by decide)) (exRef_uncorrelated m)
  refine ⟨out, h, fun k => ?_⟩
  obtain ⟨a1, a2, a3⟩ := h3 k
  have : out.sdr m k = fin 0 := by
    rw [a1, exRef_power, Finset.sum_congr rfl fun i _ => exRef_power m i]
    show dbRatio 1 (∑ i ∈ Finset.univ.erase (P.ref k), 1) = fin 0
    rw [Finset.sum_const, Finset.card_erase_of_mem (Finset.mem_univ _)]
    norm_num [dbRatio]
  exact ⟨this, a2.trans this, a3⟩

-- both channels of the estimate equal to the first one
example (m : BIdx []) : ∃ out, bssEvalSources torchBackend Ex.opts false Ex.ref (fun m _ => Ex.est m 0) = .ok out ∧
    ∑ k : Fin 2, share (out.sir m (k.cast (min_self 2).symm)) ≤ 1 := by
  obtain ⟨out, h⟩ := (bss_false_returns (o := Ex.opts) Ex.covered Ex.direct (by decide) (Or.inr rfl) Ex.load (by decide) Ex.fits
    Ex.ref (fun m _ => Ex.est m 0)).2 fun m => independent_of_uncorrelated (Ex.ref_ne_zero m) (exRef_uncorrelated m)
  have h1 := (C103_bss_eval_shares Ex.covered Ex.direct (Or.inr rfl) Ex.load rfl Ex.fits h m (y := Ex.est m 0)
    (Ex.est_audible m 0) (fun h => absurd h (by decide)) le_rfl (J := Finset.univ) Finset.univ_nonempty (fun _ _ => rfl)
    (fun k _ k' _ => exRef_uncorrelated m k k')).1
  exact ⟨out, h, by simpa using h1⟩

end FBE.Props
