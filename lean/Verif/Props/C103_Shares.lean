import Verif.Proofs.Shares
import Verif.Props.C102_Owners

/-!
# C103 — one estimate for several references
-/

namespace FBE.Props

open Spec XR

variable {s : List ℕ} {r e N : ℕ} {B : Backend} {o : Opts}

/-- **C103.**  The SDRs of one estimate for any `n` references correlated at most by `c` (whatever filters of this length are
applied): the shares `1 / (1 + 10^(-SDR/10))` add up to at most `1 + (n - 1) c`, to at most one if the references are
uncorrelated. -/
theorem C103_shares (hB : Covered B) (hdir : o.direct) (hload : o.load = 0) (hcl : o.clampDb = none)
    (hf : FilterFits N o.filterLength) {est : Sig s e N} {ref : Sig s r N} {L} (h : sdrLossPair B o est ref = .ok L)
    (m : BIdx s) (j : Fin e) (hest : Audible (centred o.zeroMean (est m j)))
    (href : o.filterLength = 1 → ∀ k, Normalisable (centred o.zeroMean (ref m k))) {c : ℝ} (h0 : 0 ≤ c)
    {J : Finset (Fin r)} (hJ : J.Nonempty)
    (hc : ∀ k ∈ J, ∀ k' ∈ J, k ≠ k' →
      AtMostCorrelated o.filterLength c (centred o.zeroMean (ref m k)) (centred o.zeroMean (ref m k'))) :
    ∑ k ∈ J, share (L m k j).neg ≤ 1 + (J.card - 1) * c := by
  have hL := sdrLossPair_length h
  set u := shift (N + o.filterLength - 1) (centred o.zeroMean (est m j)) 0 with hu
  have hu0 : 0 < energy u := energy_pos (shift_ne_zero' hL hest)
  have hk : ∀ k, share (L m k j).neg = energy ((spanOne (N + o.filterLength - 1) o.filterLength
      (centred o.zeroMean (ref m k))).starProjection u) / energy u := fun k => by
    rw [C01_sdr_loss_pairwise hB hdir hload (fun d hd => by rw [hcl] at hd; cases hd) hf h m k j hest (fun h => href h k),
      neg_neg', hcl]
    set K := spanOne (N + o.filterLength - 1) o.filterLength (centred o.zeroMean (ref m k))
    have hp := energy_parts K u
    have : share (dbRatio (energy (K.starProjection u)) (energy (u - K.starProjection u))) = _ :=
      share_ratio (sq_nonneg _) (sq_nonneg _) (hp ▸ hu0)
    rw [← hp] at this
    exact this
  rw [Finset.sum_congr rfl fun k _ => hk k, ← Finset.sum_div, div_le_iff₀ hu0]
  exact many_projections J _ h0 (fun i hi j hj hij => correlated_spans (hc i hi j hj hij)) hJ u

/-- **C103.**  Of any `n ≥ 2` references one has an SDR of at most `10 log10 ((1 + (n - 1) c) / ((n - 1) (1 - c)))` for this
estimate, `-10 log10 (n - 1)` without correlation. -/
theorem C103_worst (hB : Covered B) (hdir : o.direct) (hload : o.load = 0) (hcl : o.clampOk)
    (hf : FilterFits N o.filterLength) {est : Sig s e N} {ref : Sig s r N} {L} (h : sdrLossPair B o est ref = .ok L)
    (m : BIdx s) (j : Fin e) (hest : Audible (centred o.zeroMean (est m j)))
    (href : o.filterLength = 1 → ∀ k, Normalisable (centred o.zeroMean (ref m k))) {c : ℝ} (h0 : 0 ≤ c) (h1 : c < 1)
    {J : Finset (Fin r)} (hJ : 2 ≤ J.card)
    (hc : ∀ k ∈ J, ∀ k' ∈ J, k ≠ k' →
      AtMostCorrelated o.filterLength c (centred o.zeroMean (ref m k)) (centred o.zeroMean (ref m k'))) :
    ∃ k ∈ J, toEReal (L m k j).neg ≤ toEReal (report o.clampDb (fin (sharedDb J.card c))) := by
  have hL := sdrLossPair_length h
  set u := shift (N + o.filterLength - 1) (centred o.zeroMean (est m j)) 0 with hu
  have hu0 : 0 < energy u := energy_pos (shift_ne_zero' hL hest)
  have hJ0 : J.Nonempty := Finset.card_pos.1 (by omega)
  have hn : (2 : ℝ) ≤ J.card := by exact_mod_cast hJ
  set K := fun k => spanOne (N + o.filterLength - 1) o.filterLength (centred o.zeroMean (ref m k)) with hK
  have hsum := many_projections J K h0 (fun i hi j hj hij => correlated_spans (hc i hi j hj hij)) hJ0 u
  obtain ⟨k, hkJ, hk⟩ : ∃ k ∈ J, J.card * energy ((K k).starProjection u) ≤ (1 + (J.card - 1) * c) * energy u := by
    by_contra hne
    push Not at hne
    have := Finset.sum_lt_sum_of_nonempty hJ0 hne
    rw [Finset.sum_const, ← Finset.mul_sum, nsmul_eq_mul] at this
    nlinarith
  refine ⟨k, hkJ, ?_⟩
  rw [C01_sdr_loss_pairwise hB hdir hload hcl hf h m k j hest (fun h => href h k), neg_neg', ← dbRatio_shared hJ h0 h1]
  have hp := energy_parts (K k) u
  have hkk : 0 ≤ 1 + ((J.card : ℝ) - 1) * c := by nlinarith
  have hb : 0 ≤ ((J.card : ℝ) - 1) * (1 - c) := mul_nonneg (by linarith) (by linarith)
  refine report_ratio_le hcl (sq_nonneg _) hb (hp ▸ hu0) (by nlinarith) ?_
  change energy ((K k).starProjection u) * _ ≤ _ * energy (u - (K k).starProjection u)
  nlinarith

theorem docSdr_mixture {L : ℕ} (hL : 0 < L) {x : Fin r → Fin N → ℝ} (g : Fin r → ℝ)
    (hc : ∀ k k', k ≠ k' → AtMostCorrelated L 0 (x k) (x k')) (k : Fin r) :
    docSdr L x k (fun t => ∑ k, g k * x k t) =
      dbRatio (g k ^ 2 * power (x k)) (∑ i ∈ Finset.univ.erase k, g i ^ 2 * power (x i)) := by
  unfold docSdr
  dsimp only
  rw [mixture_projection hL g hc k]
  have e1 := mixture_energy hL g hc {k}
  rw [Finset.sum_singleton, Finset.sum_singleton] at e1
  have e2 := mixture_energy hL g hc (Finset.univ.erase k)
  rw [e1, shift_sum, ← Finset.add_sum_erase _ _ (Finset.mem_univ k), add_sub_cancel_left, e2]

/-- **C103 — the baseline.**  Every estimate is the mixture of uncorrelated references with weights `g`: for every reference
that the permutation uses, `sdr` reports the energy of its part of the mixture against that of all the other parts, whatever
the filter length and whichever permutation is returned. -/
theorem C103_baseline (hB : Covered B) (hdir : o.direct) (hload : o.load = 0) (hcl : o.clampOk)
    (hf : FilterFits N o.filterLength) {g : Fin r → ℝ} {ref : Sig s r N} {out}
    (h : sdr B o true false ref (mixtureOf e g ref) = .ok out) (m : BIdx s)
    (hmix : Audible (fun t => ∑ k, g k * centred o.zeroMean (ref m k) t))
    (href : o.filterLength = 1 → ∀ k, Normalisable (centred o.zeroMean (ref m k)))
    (hc : ∀ k k', k ≠ k' →
      AtMostCorrelated o.filterLength 0 (centred o.zeroMean (ref m k)) (centred o.zeroMean (ref m k'))) :
    ∃ (P : Pairing r e) (perm : BIdx s → Fin (min r e) → ℕ), out.perm = some perm ∧ Describes (perm m) P ∧
      ∀ k, out.sdr m k = report o.clampDb (dbRatio (g (P.ref k) ^ 2 * power (centred o.zeroMean (ref m (P.ref k))))
        (∑ i ∈ Finset.univ.erase (P.ref k), g i ^ 2 * power (centred o.zeroMean (ref m i)))) := by
  obtain ⟨L, p, hL, hp, e1, e2⟩ := sdr_ok h
  obtain ⟨hsol, P, hP⟩ := solvePermutation_spec B hB.lsa L _ hp m
  have hL' : sdrLossPair B o (mixtureOf e g ref) ref = .ok L := hL
  have hl := sdrLossPair_length hL'
  have hcen : ∀ j, centred o.zeroMean (mixtureOf e g ref m j) = fun t => ∑ k, g k * centred o.zeroMean (ref m k) t :=
    fun j => centred_sum o.zeroMean g (ref m)
  refine ⟨P, p.perm, e2, hP.describes, fun k => ?_⟩
  rw [e1]
  show (p.loss m k).neg = _
  rw [hP.loss_eq]
  show (L m (P.ref k) (P.est k)).neg = _
  rw [C01_sdr_loss_pairwise hB hdir hload hcl hf hL' m (P.ref k) (P.est k) (by rw [hcen]; exact hmix)
    (fun h => href h _), neg_neg', hcen, docSdr_mixture hl g hc]

/-- **C103 — the baseline can be computed**: with at least two references, each with some part in the mixture, `sdr` succeeds. -/
theorem C103_baseline_succeeds (hB : Covered B) (hcg : o.useCgIter = none) (hL : 1 ≤ o.filterLength) (hload : o.load = 0)
    (hcl : o.clampOk) (hN : 0 < N) (hf : FilterFits N o.filterLength) {g : Fin r → ℝ} {ref : Sig s r N} (hr : 2 ≤ r)
    (hpart : ∀ m k, 0 < g k ^ 2 * power (centred o.zeroMean (ref m k)))
    (hmix : ∀ m, Audible (fun t => ∑ k, g k * centred o.zeroMean (ref m k) t))
    (href : o.filterLength = 1 → ∀ m k, Normalisable (centred o.zeroMean (ref m k)))
    (hc : ∀ m k k', k ≠ k' →
      AtMostCorrelated o.filterLength 0 (centred o.zeroMean (ref m k)) (centred o.zeroMean (ref m k'))) (rp cs : Bool) :
    ∃ out, sdr B o rp cs ref (mixtureOf e g ref) = .ok out := by
  have hok : ∃ L, sdrLossPair B o (mixtureOf e g ref) ref = .ok L := by
    rcases eq_or_lt_of_le hL with h1 | h1
    · exact C34_sdr_loss_length_one h1.symm _ _
    · refine (C34_sdr_loss hB hcg h1 hload hN hf _ _).2.2 fun m k h0 => ?_
      have := hpart m k
      rw [h0] at this
      simp [power] at this
  obtain ⟨L, hLs⟩ := hok
  refine (C17_sdr_returns_iff hB rp cs).2 ⟨L, hLs, fun m => solvable_of_finite fun k j => ?_⟩
  have hcen : centred o.zeroMean (mixtureOf e g ref m j) = fun t => ∑ k, g k * centred o.zeroMean (ref m k) t :=
    centred_sum o.zeroMean g (ref m)
  rw [C01_sdr_loss_pairwise hB (Or.inr hcg) hload hcl hf hLs m k j (by rw [hcen]; exact hmix m) (fun h => href h m k), hcen,
    docSdr_mixture hL g (hc m)]
  have hb : 0 < ∑ i ∈ Finset.univ.erase k, g i ^ 2 * power (centred o.zeroMean (ref m i)) := by
    refine Finset.sum_pos (fun i _ => hpart m i) (Finset.card_pos.1 ?_)
    rw [Finset.card_erase_of_mem (Finset.mem_univ k), Finset.card_univ, Fintype.card_fin]
    omega
  unfold dbRatio
  rw [if_neg hb.ne', if_neg (hpart m k).ne']
  cases o.clampDb with
  | none => exact ⟨_, rfl⟩
  | some d => exact ⟨_, rfl⟩

/-- **C103 — both bounds are reached** by the mixture of uncorrelated references: the shares add up to one, and if the parts
have equal energies, all the SDRs are `-10 log10 (n - 1)`. -/
theorem C103_sharp {L : ℕ} (hL : 0 < L) {x : Fin r → Fin N → ℝ} {g : Fin r → ℝ}
    (hc : ∀ k k', k ≠ k' → AtMostCorrelated L 0 (x k) (x k')) (hpos : 0 < ∑ k, g k ^ 2 * power (x k)) :
    (∑ k, share (docSdr L x k fun t => ∑ k, g k * x k t) = 1) ∧
    ∀ {a : ℝ}, 2 ≤ r → (∀ k, g k ^ 2 * power (x k) = a) → ∀ k, docSdr L x k (fun t => ∑ k, g k * x k t) = fin (sharedDb r 0) := by
  have hp0 : ∀ k, 0 ≤ g k ^ 2 * power (x k) := fun k => mul_nonneg (sq_nonneg _) (Finset.sum_nonneg fun _ _ => sq_nonneg _)
  constructor
  · have hk : ∀ k, share (docSdr L x k fun t => ∑ k, g k * x k t) = g k ^ 2 * power (x k) / ∑ k, g k ^ 2 * power (x k) := fun k => by
      have hs := Finset.add_sum_erase Finset.univ (fun k => g k ^ 2 * power (x k)) (Finset.mem_univ k)
      rw [docSdr_mixture hL g hc, share_ratio (hp0 k) (Finset.sum_nonneg fun i _ => hp0 i) (by rw [hs]; exact hpos), hs]
    rw [Finset.sum_congr rfl fun k _ => hk k, ← Finset.sum_div, div_self hpos.ne']
  · intro a hr ha k
    have hr' : (2 : ℝ) ≤ r := by exact_mod_cast hr
    have ha0 : 0 < a := by
      rw [Finset.sum_congr rfl fun k _ => ha k, Finset.sum_const, nsmul_eq_mul] at hpos
      exact pos_of_mul_pos_right hpos (Nat.cast_nonneg _)
    rw [docSdr_mixture hL g hc, Finset.sum_congr rfl fun i _ => ha i, ha, Finset.sum_const, nsmul_eq_mul,
      Finset.card_erase_of_mem (Finset.mem_univ k), Finset.card_univ, Fintype.card_fin, Nat.cast_sub (by omega), Nat.cast_one]
    unfold dbRatio sharedDb
    rw [if_neg (mul_pos (by linarith) ha0).ne', if_neg ha0.ne']
    congr 3
    rw [mul_zero, add_zero, sub_zero, mul_one]
    field_simp

/-! ### the hypotheses can be met -/

/-- Two references for filters of two taps and their sum as both estimates: 0 dB for both references. -/
theorem exMix_audible (m : BIdx []) : Audible (fun t => ∑ k, (1 : Fin 2 → ℝ) k * centred Ex.opts.zeroMean (Ex.ref m k) t) := by
  refine le_trans (by norm_num : (1e-6 : ℝ) ≤ 1) (Real.one_le_sqrt.2 ?_)
  simp [Ex.ref, Ex.opts, centred, Fin.sum_univ_two, Fin.sum_univ_three]

theorem exRef_power (m : BIdx []) (k : Fin 2) : (1 : Fin 2 → ℝ) k ^ 2 * power (centred Ex.opts.zeroMean (Ex.ref m k)) = 1 := by
  fin_cases k <;> simp [power, Ex.ref, Ex.opts, centred, Fin.sum_univ_three]

example (m : BIdx []) : ∃ out, sdr torchBackend Ex.opts true false Ex.ref (mixtureOf 2 1 Ex.ref) = .ok out ∧
    ∀ k, out.sdr m k = fin 0 := by
  obtain ⟨out, h⟩ := C103_baseline_succeeds (e := 2) (o := Ex.opts) Ex.covered rfl (by decide) Ex.load Ex.clampOk (by decide) Ex.fits
    (g := 1) (ref := Ex.ref) le_rfl (fun m k => by rw [exRef_power]; exact one_pos) exMix_audible (fun h => absurd h (by decide))
    exRef_uncorrelated true false
  obtain ⟨P, perm, -, -, h3⟩ := C103_baseline Ex.covered Ex.direct Ex.load Ex.clampOk Ex.fits h m (exMix_audible m)
    (fun h => absurd h (by decide)) (exRef_uncorrelated m)
  refine ⟨out, h, fun k => ?_⟩
  rw [h3, exRef_power, Finset.sum_congr rfl fun i _ => exRef_power m i]
  show dbRatio 1 (∑ i ∈ Finset.univ.erase (P.ref k), 1) = fin 0
  rw [Finset.sum_const, Finset.card_erase_of_mem (Finset.mem_univ _)]
  norm_num [dbRatio]

example (m : BIdx []) (j : Fin 2) : ∃ L, sdrLossPair torchBackend Ex.opts Ex.est Ex.ref = .ok L ∧
    ∑ k, share (L m k j).neg ≤ 1 ∧ ∃ k, toEReal (L m k j).neg ≤ toEReal (fin (sharedDb 2 0)) := by
  obtain ⟨L, h⟩ := (C34_sdr_loss (o := Ex.opts) Ex.covered rfl (by decide) Ex.load (by decide) Ex.fits Ex.est Ex.ref).2.2 Ex.ref_ne_zero
  have h1 := C103_shares Ex.covered Ex.direct Ex.load rfl Ex.fits h m j (Ex.est_audible m j) (fun h => absurd h (by decide)) le_rfl
    (J := Finset.univ) Finset.univ_nonempty (fun k _ k' _ => exRef_uncorrelated m k k')
  obtain ⟨k, -, hk⟩ := C103_worst Ex.covered Ex.direct Ex.load Ex.clampOk Ex.fits h m j (Ex.est_audible m j)
    (fun h => absurd h (by decide)) le_rfl one_pos (J := Finset.univ) (by decide) (fun k _ k' _ => exRef_uncorrelated m k k')
  refine ⟨L, h, by simpa using h1, k, hk⟩

example : (∑ k, share (docSdr 2 (fun k => centred false (Ex.ref () k)) k fun t => ∑ k, (1 : Fin 2 → ℝ) k * centred false (Ex.ref () k) t) = 1) ∧
    ∀ k, docSdr 2 (fun k => centred false (Ex.ref () k)) k (fun t => ∑ k, (1 : Fin 2 → ℝ) k * centred false (Ex.ref () k) t) =
      fin (sharedDb 2 0) := by
  have hp : ∀ k, (1 : Fin 2 → ℝ) k ^ 2 * power (centred false (Ex.ref () k)) = 1 := exRef_power ()
  have := C103_sharp (L := 2) (by decide) (x := fun k => centred false (Ex.ref () k)) (g := (1 : Fin 2 → ℝ)) (exRef_uncorrelated ())
    (by rw [Finset.sum_congr rfl fun k _ => hp k]; norm_num)
  exact ⟨this.1, this.2 le_rfl hp⟩

end FBE.Props
