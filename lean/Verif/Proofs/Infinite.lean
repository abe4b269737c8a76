import Verif.Spec.Infinite
import Verif.Proofs.LeastSquares

/-!
# Where the metrics are infinite
-/

namespace FBE

open Spec XR

variable {s : List ℕ} {N L r e D : ℕ}

theorem negSdr_none_class (a : ℝ) : (coherenceToNegSdr none (fin a) = ninf ↔ 1 ≤ a) ∧ (coherenceToNegSdr none (fin a) = pinf ↔ a ≤ 0) ∧
    coherenceToNegSdr none (fin a) ≠ nan := by
  rw [coherenceToNegSdr_fin]
  have hc : cclamp none a = min (max a 0) 1 := by
    unfold cclamp
    rw [show epsOf none = 0 from rfl, sub_zero]
  rw [hc]
  refine ⟨?_, ?_, negDb_ne_nan _⟩
  · unfold negDb
    constructor
    · intro h
      by_contra hlt
      have h1 : max a 0 < 1 := max_lt (not_le.1 hlt) one_pos
      rw [min_eq_left h1.le] at h
      split at h
      · cases h
      · rw [if_neg h1.ne] at h
        cases h
    · intro h
      rw [max_eq_left (zero_le_one.trans h), min_eq_right h, if_neg one_ne_zero, if_pos rfl]
  · unfold negDb
    constructor
    · intro h
      by_contra hlt
      have h1 : 0 < min (max a 0) 1 := lt_min (lt_max_of_lt_left (not_le.1 hlt)) one_pos
      rw [if_neg h1.ne'] at h
      split at h <;> cases h
    · intro h
      rw [max_eq_right h, min_eq_left zero_le_one, if_pos rfl]

theorem energy_eq_zero {v : Space D} : energy v = 0 ↔ v = 0 := by
  unfold energy
  rw [sq_eq_zero_iff, norm_eq_zero]

theorem proj_zero_iff (K : Submodule ℝ (Space D)) (u : Space D) : energy (K.starProjection u) = 0 ↔ ∀ v ∈ K, inner ℝ v u = 0 := by
  rw [energy_eq_zero]
  constructor
  · intro h v hv
    rw [← inner_proj_eq hv, h, inner_zero_right]
  · intro h
    have := inner_proj_self K u
    rw [h _ (K.starProjection_apply_mem u)] at this
    exact energy_eq_zero.1 this.symm

theorem proj_self_iff (K : Submodule ℝ (Space D)) (u : Space D) : energy (K.starProjection u) = energy u ↔ u ∈ K := by
  rw [← Submodule.starProjection_eq_self_iff]
  have h := energy_sub_proj K u
  constructor
  · intro he
    rw [he, sub_self, energy_eq_zero, sub_eq_zero] at h
    exact h.symm
  · intro he
    rw [he]

theorem inner_span_range {ι : Type*} (f : ι → Space D) (u : Space D) :
    (∀ v ∈ Submodule.span ℝ (Set.range f), inner ℝ v u = 0) ↔ ∀ i, inner ℝ (f i) u = 0 := by
  constructor
  · intro h i
    exact h _ (Submodule.subset_span ⟨i, rfl⟩)
  · intro h v hv
    induction hv using Submodule.span_induction with
    | mem v hv =>
      obtain ⟨i, rfl⟩ := hv
      exact h i
    | zero => exact inner_zero_left _
    | add v w _ _ hv hw => rw [inner_add_left, hv, hw, add_zero]
    | smul a v _ hv => rw [real_inner_smul_left, hv, mul_zero]

theorem uncorrelated_iff (hD : N + L ≤ D + 1) (x y : Fin N → ℝ) :
    energy ((spanOne D L x).starProjection (shift D y 0)) = 0 ↔ Uncorrelated L x y := by
  rw [proj_zero_iff]
  unfold spanOne
  rw [inner_span_range]
  constructor
  · intro h l hl
    have := h ⟨l, hl⟩
    rwa [inner_shift' D x y l 0 (Nat.zero_le _) (by omega), Nat.sub_zero] at this
  · intro h l
    rw [inner_shift' D x y l 0 (Nat.zero_le _) (by have := l.2; omega), Nat.sub_zero]
    exact h l l.2

theorem uncorrelated_all_iff (hD : N + L ≤ D + 1) (x : Fin r → Fin N → ℝ) (y : Fin N → ℝ) :
    energy ((spanAll D L x).starProjection (shift D y 0)) = 0 ↔ ∀ k, Uncorrelated L (x k) y := by
  rw [proj_zero_iff]
  unfold spanAll
  rw [inner_span_range]
  constructor
  · intro h k l hl
    have := h (⟨l, hl⟩, k)
    rwa [inner_shift' D (x k) y l 0 (Nat.zero_le _) (by omega), Nat.sub_zero] at this
  · rintro h ⟨l, k⟩
    rw [inner_shift' D (x k) y l 0 (Nat.zero_le _) (by have := l.2; omega), Nat.sub_zero]
    exact h k l l.2

/-- The samples after the end of a filtered signal. -/
theorem filtered_end (h : Fin L → ℝ) (x : Fin N → ℝ) {t : ℕ} (ht : N + L ≤ t + 1) : filtered h x t = 0 := by
  refine Finset.sum_eq_zero fun l _ => ?_
  have hl := l.2
  rw [if_pos (by omega), zpad_of_le _ (by omega), mul_zero]

theorem remix_iff (hL : 1 ≤ L) (x : Fin r → Fin N → ℝ) (y : Fin N → ℝ) :
    shift (N + L - 1) y 0 ∈ spanAll (N + L - 1) L x ↔ IsRemix L x y := by
  unfold spanAll
  rw [Submodule.mem_span_range_iff_exists_fun]
  have key : ∀ h : Fin L × Fin r → ℝ, (∑ p, h p • shift (N + L - 1) (x p.2) p.1 = shift (N + L - 1) y 0) ↔
      ∀ t, zpad y t = ∑ k, filtered (fun l => h (l, k)) (x k) t := fun h => by
    have hs : ∀ t : Fin (N + L - 1), (∑ p, h p • shift (N + L - 1) (x p.2) p.1) t = ∑ k, filtered (fun l => h (l, k)) (x k) t := fun t => by
      rw [Fintype.sum_prod_type_right]
      simp [shift_apply, filtered]
    constructor
    · intro he t
      by_cases ht : t < N + L - 1
      · have := hs ⟨t, ht⟩
        rw [he, shift_apply, if_pos (Nat.zero_le _), Nat.sub_zero] at this
        exact this
      · rw [zpad_of_le _ (by omega)]
        exact (Finset.sum_eq_zero fun k _ => filtered_end _ _ (by omega)).symm
    · intro he
      ext t
      rw [hs t, ← he, shift_apply, if_pos (Nat.zero_le _), Nat.sub_zero]
  constructor
  · rintro ⟨h, hh⟩
    exact ⟨fun k l => h (l, k), (key h).1 hh⟩
  · rintro ⟨h, hh⟩
    exact ⟨fun p => h p.2 p.1, (key fun p => h p.2 p.1).2 hh⟩

theorem spanOne_eq_all (x : Fin N → ℝ) : spanOne D L x = spanAll D L fun _ : Fin 1 => x := by
  unfold spanOne spanAll
  congr 1
  ext v
  constructor
  · rintro ⟨l, rfl⟩
    exact ⟨(l, 0), rfl⟩
  · rintro ⟨⟨l, k⟩, rfl⟩
    exact ⟨l, rfl⟩

theorem filtered_iff (hL : 1 ≤ L) (x y : Fin N → ℝ) : shift (N + L - 1) y 0 ∈ spanOne (N + L - 1) L x ↔ IsFiltered L x y := by
  rw [spanOne_eq_all, remix_iff hL]
  constructor
  · rintro ⟨h, hh⟩
    exact ⟨h 0, fun t => by rw [hh t, Fin.sum_univ_one]; rfl⟩
  · rintro ⟨h, hh⟩
    exact ⟨fun _ => h, fun t => by rw [hh t, Fin.sum_univ_one]; rfl⟩

theorem targetOnly_iff (x : Fin r → Fin N → ℝ) (k : Fin r) (y : Fin N → ℝ) :
    energy ((spanAll (N + L - 1) L x).starProjection (shift (N + L - 1) y 0)) =
      energy ((spanOne (N + L - 1) L (x k)).starProjection (shift (N + L - 1) y 0)) ↔ TargetOnly L x k y := by
  obtain ⟨f, hf⟩ := exists_bestFilter L (x k) y
  obtain ⟨g, hg⟩ := exists_bestFilters L x y
  have e1 := bestFilter_residual hf
  have e2 := bestFilters_residual hg
  have h1 := energy_sub_proj (spanOne (N + L - 1) L (x k)) (shift (N + L - 1) y 0)
  have h2 := energy_sub_proj (spanAll (N + L - 1) L x) (shift (N + L - 1) y 0)
  have h3 := energy_proj_mono (spanOne_le_spanAll (N + L - 1) L x k) (shift (N + L - 1) y 0)
  constructor
  · intro he
    refine ⟨f, fun g' => le_trans (le_of_eq ?_) (hg g')⟩
    rw [e1, e2, h1, h2, he]
  · rintro ⟨f', hf'⟩
    have h4 := (hf f').trans (hf' g)
    rw [e1, e2, h1, h2] at h4
    linarith

/-- The normalised energy of a projection of an estimate. -/
theorem coh_class (hD : N ≤ D) (K : Submodule ℝ (Space D)) (y : Fin N → ℝ) :
    (coherenceToNegSdr none (fin (gain y ^ 2 * energy (K.starProjection (shift D y 0)))) = ninf ↔ Audible y ∧ shift D y 0 ∈ K) ∧
    (coherenceToNegSdr none (fin (gain y ^ 2 * energy (K.starProjection (shift D y 0)))) = pinf ↔
      energy (K.starProjection (shift D y 0)) = 0) := by
  have hg : 0 < gain y ^ 2 := pow_pos (gain_pos y) 2
  have hnn := energy_nonneg (K.starProjection (shift D y 0))
  have hle : energy (K.starProjection (shift D y 0)) ≤ energy (shift D y 0) := by
    have := energy_sub_proj K (shift D y 0)
    have := energy_nonneg (shift D y 0 - K.starProjection (shift D y 0))
    linarith
  obtain ⟨c1, c2, -⟩ := negSdr_none_class (gain y ^ 2 * energy (K.starProjection (shift D y 0)))
  rw [c1, c2]
  constructor
  · by_cases ha : Audible y
    · obtain ⟨h1, hE⟩ := gain_sq_energy hD ha
      rw [← proj_self_iff]
      constructor
      · intro h
        refine ⟨ha, le_antisymm hle ?_⟩
        by_contra hlt
        have := mul_lt_mul_of_pos_left (not_le.1 hlt) hg
        linarith
      · rintro ⟨-, h⟩
        rw [h, h1]
    · refine ⟨fun h => ?_, fun h => absurd h.1 ha⟩
      exfalso
      have hs : sigNorm y < 1e-6 := not_le.1 ha
      have h0 : 0 ≤ sigNorm y := Real.sqrt_nonneg _
      have hgain : gain y = (1e-6)⁻¹ := by unfold gain; rw [max_eq_right hs.le]
      rw [energy_shift D hD] at hle
      have : gain y ^ 2 * energy (K.starProjection (shift D y 0)) ≤ gain y ^ 2 * sigNorm y ^ 2 := mul_le_mul_of_nonneg_left hle hg.le
      have h2 : gain y * sigNorm y < 1 := by
        rw [hgain]
        calc (1e-6 : ℝ)⁻¹ * sigNorm y < (1e-6)⁻¹ * 1e-6 := mul_lt_mul_of_pos_left hs (by norm_num)
          _ = 1 := by norm_num
      have h3 : (gain y * sigNorm y) ^ 2 < 1 := by
        have := mul_nonneg (gain_pos y).le h0
        nlinarith
      rw [mul_pow] at h3
      linarith
  · constructor
    · intro h
      refine le_antisymm ?_ hnn
      by_contra hlt
      have := mul_pos hg (not_le.1 hlt)
      linarith
    · intro h
      rw [h, mul_zero]

theorem neg_eq_iff {a : XR} : (a.neg = pinf ↔ a = ninf) ∧ (a.neg = ninf ↔ a = pinf) ∧ (a.neg = nan ↔ a = nan) := by
  cases a <;> simp [neg]

theorem dbRatio_class {a b : ℝ} : (dbRatio a b = pinf ↔ b = 0 ∧ a ≠ 0) ∧ (dbRatio a b = ninf ↔ b ≠ 0 ∧ a = 0) ∧ (dbRatio a b = nan ↔ b = 0 ∧ a = 0) := by
  unfold dbRatio
  by_cases hb : b = 0 <;> by_cases ha : a = 0 <;> simp [ha, hb]

/-- The metrics of a pair, `clamp_db=None`. -/
theorem base_infinite {B : Backend} (hB : Covered B) {o : Opts} (hdir : o.direct) (hload : o.load = 0) (hcl : o.clampDb = none)
    (hfit : FilterFits N o.filterLength) (ref : Sig s r N) (est : Sig s e N) {sdr sar} (h : sqCosPair B o ref est = .ok (sdr, sar))
    (m : BIdx s) (k : Fin r) (j : Fin e) (href : o.filterLength = 1 → Normalisable (centred o.zeroMean (ref m k))) :
    InfiniteExactly o.filterLength (fun k => centred o.zeroMean (ref m k)) k (centred o.zeroMean (est m j))
      (baseMetrics o.clampDb (sdr m k j) (sar m j)).1.neg (baseMetrics o.clampDb (sdr m k j) (sar m j)).2.1.neg
      (baseMetrics o.clampDb (sdr m k j) (sar m j)).2.2.neg := by
  have hL : 1 ≤ o.filterLength := by
    refine Nat.one_le_iff_ne_zero.2 fun h0 => ?_
    simp only [sqCosPair_def] at h; rw [if_pos h0] at h; cases h
  have hD : N + o.filterLength ≤ (N + o.filterLength - 1) + 1 := by omega
  obtain ⟨h1, h2⟩ := sqCosPair_proj hB hdir hload hfit hD ref est h m k j
  have hsir := (baseMetrics_doc hB hdir hload (fun d hd => by rw [hcl] at hd; cases hd) hfit ref est h m k j href).2.1
  rw [hsir, neg_neg', hcl]
  have hd : (baseMetrics none (sdr m k j) (sar m j)).1 = coherenceToNegSdr none (fin (sdr m k j)) := rfl
  have ha : (baseMetrics none (sdr m k j) (sar m j)).2.2 = coherenceToNegSdr none (fin (sar m j)) := rfl
  rw [hd, ha, h1 href, h2]
  have c1 := coh_class (D := N + o.filterLength - 1) (by omega) (spanOne (N + o.filterLength - 1) o.filterLength (cen o ref m k)) (cen o est m j)
  have c2 := coh_class (D := N + o.filterLength - 1) (by omega) (spanAll (N + o.filterLength - 1) o.filterLength (cen o ref m)) (cen o est m j)
  have hle := spanOne_le_spanAll (N + o.filterLength - 1) o.filterLength (cen o ref m) k
  have hsub := energy_proj_sub_proj hle (shift (N + o.filterLength - 1) (cen o est m j) 0)
  have u1 := uncorrelated_iff hD (cen o ref m k) (cen o est m j)
  have u2 := uncorrelated_all_iff hD (cen o ref m) (cen o est m j)
  have ht := targetOnly_iff (L := o.filterLength) (cen o ref m) k (cen o est m j)
  have hs : report none (docSir o.filterLength (cen o ref m) k (cen o est m j)) =
      dbRatio (energy ((spanOne (N + o.filterLength - 1) o.filterLength (cen o ref m k)).starProjection (shift (N + o.filterLength - 1) (cen o est m j) 0)))
        (energy ((spanAll (N + o.filterLength - 1) o.filterLength (cen o ref m)).starProjection (shift (N + o.filterLength - 1) (cen o est m j) 0) -
          (spanOne (N + o.filterLength - 1) o.filterLength (cen o ref m k)).starProjection (shift (N + o.filterLength - 1) (cen o est m j) 0))) := rfl
  rw [hsub] at hs
  refine ⟨?_, ?_, ?_, ?_, ?_, ?_, ?_, ?_, ?_⟩
  · rw [neg_eq_iff.1, c1.1, filtered_iff hL]; rfl
  · rw [neg_eq_iff.2.1, c1.2, u1]
  · rw [ne_eq, neg_eq_iff.2.2]; exact (negSdr_none_class _).2.2
  · rw [hs, dbRatio_class.1, sub_eq_zero, ht, ne_eq, u1, and_comm]
  · rw [hs, dbRatio_class.2.1, ne_eq, sub_eq_zero, u1]
    constructor
    · rintro ⟨ha, hu⟩
      refine ⟨hu, ?_⟩
      by_contra hk
      push Not at hk
      exact ha ((u2.2 hk).trans (u1.2 hu).symm)
    · rintro ⟨hu, k', hk'⟩
      exact ⟨fun he => hk' (u2.1 (he.trans (u1.2 hu)) k'), hu⟩
  · rw [hs, dbRatio_class.2.2, sub_eq_zero]
    constructor
    · rintro ⟨ha, hu⟩
      exact u2.1 (ha.trans hu)
    · intro hk
      exact ⟨(u2.2 hk).trans (u1.2 (hk k)).symm, u1.2 (hk k)⟩
  · rw [neg_eq_iff.1, c2.1, remix_iff hL]
  · rw [neg_eq_iff.2.1, c2.2, u2]
  · rw [ne_eq, neg_eq_iff.2.2]; exact (negSdr_none_class _).2.2

theorem infinite_cast {n : ℕ} (hn : n = r) {x : Fin r → Fin N → ℝ} {k : Fin n} {y : Fin N → ℝ} {a b c : XR}
    (h : InfiniteExactly L (fun k : Fin n => x (k.cast hn)) k y a b c) : InfiniteExactly L x (k.cast hn) y a b c := by
  subst hn
  exact h

theorem solvable_iff_mixable {cost : Fin r → Fin e → XR} {P U : Fin r → Fin e → Prop} (hP : ∀ k j, cost k j = ninf ↔ P k j)
    (hU : ∀ k j, cost k j = pinf ↔ U k j) (hn : ∀ k j, cost k j ≠ nan) : Solvable cost ↔ Mixable P U := by
  have hf : ∀ k j, (∃ v, cost k j = fin v) ↔ ¬ P k j ∧ ¬ U k j := fun k j => by
    rw [← hP, ← hU]
    have := hn k j
    cases hc : cost k j <;> simp_all
  constructor
  · intro h
    refine ⟨fun ⟨⟨k, j, h1⟩, k', j', h2⟩ => h.one_sign ⟨⟨k', j', (hU _ _).2 h2⟩, k, j, (hP _ _).2 h1⟩, ?_⟩
    rintro ⟨k, j, hkj⟩
    obtain ⟨k', j', v, hv⟩ := h.some_finite ⟨k, j, hkj.symm.imp (hU k j).2 (hP k j).2⟩
    exact ⟨k', j', (hf k' j').1 ⟨v, hv⟩⟩
  · intro h
    refine ⟨hn, fun ⟨⟨k, j, h1⟩, k', j', h2⟩ => h.one_sign ⟨⟨k', j', (hP _ _).1 h2⟩, k, j, (hU _ _).1 h1⟩, ?_⟩
    rintro ⟨k, j, hkj⟩
    obtain ⟨k', j', hv⟩ := h.some_finite ⟨k, j, hkj.symm.imp (hP k j).1 (hU k j).1⟩
    exact ⟨k', j', (hf k' j').2 hv⟩

/-- The loss of a pair, `clamp_db=None`. -/
theorem loss_infinite {B : Backend} (hB : Covered B) {o : Opts} (hdir : o.direct) (hload : o.load = 0) (hcl : o.clampDb = none)
    (hfit : FilterFits N o.filterLength) {est : Sig s e N} {ref : Sig s r N} {L} (h : sdrLossPair B o est ref = .ok L)
    (m : BIdx s) (k : Fin r) (j : Fin e) (href : o.filterLength = 1 → Normalisable (centred o.zeroMean (ref m k))) :
    (L m k j = ninf ↔ Perfect o.filterLength (centred o.zeroMean (ref m k)) (centred o.zeroMean (est m j))) ∧
    (L m k j = pinf ↔ Uncorrelated o.filterLength (centred o.zeroMean (ref m k)) (centred o.zeroMean (est m j))) ∧
    L m k j ≠ nan := by
  obtain ⟨coh, hcoh, rfl⟩ := sdrLossPair_entry h
  have hL : 1 ≤ o.filterLength := by
    refine Nat.one_le_iff_ne_zero.2 fun h0 => ?_
    simp only [sdrCohPair_def] at hcoh; rw [if_pos h0] at hcoh; cases hcoh
  have hD : N + o.filterLength ≤ (N + o.filterLength - 1) + 1 := by omega
  beta_reduce
  rw [sdrCohPair_proj hB hdir hload hfit hD ref est hcoh m k j href, hcl]
  have c1 := coh_class (D := N + o.filterLength - 1) (by omega) (spanOne (N + o.filterLength - 1) o.filterLength (cen o ref m k)) (cen o est m j)
  refine ⟨?_, ?_, (negSdr_none_class _).2.2⟩
  · rw [c1.1, filtered_iff hL]; rfl
  · rw [c1.2, uncorrelated_iff hD]

end FBE
