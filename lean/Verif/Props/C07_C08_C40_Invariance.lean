import Verif.Proofs.Same
import Verif.Proofs.Example

/-!
# C07, C08, C40 — scale, offset and trailing silence
-/

namespace FBE.Props

open Spec XR Matrix

variable {s : List ℕ} {r e c N M : ℕ} {B : Backend} {o : Opts}

/-- Every channel multiplied by its own factor. -/
def scale (a : BIdx s → Fin c → ℝ) (x : Sig s c N) : Sig s c N := fun m k t => a m k * x m k t

/-- Every channel with its own constant added. -/
def offset (a : BIdx s → Fin c → ℝ) (x : Sig s c N) : Sig s c N := fun m k t => x m k t + a m k

/-- Silence appended to every channel. -/
def padded (z : ℕ) (x : Sig s c N) : Sig s c (N + z) := fun m k t => zpad (x m k) t

/-! ### C07 -/

theorem centred_smul (zm : Bool) (a : ℝ) (x : Fin N → ℝ) :
    centred zm (fun t => a * x t) = fun t => a * centred zm x t := by
  unfold centred
  cases zm
  · rfl
  · funext t
    simp only [if_true]
    rw [← Finset.mul_sum]
    ring

theorem sigNorm_smul (a : ℝ) (x : Fin N → ℝ) : sigNorm (fun t => a * x t) = |a| * sigNorm x := by
  unfold sigNorm
  rw [sum_sq_smul, Real.sqrt_mul (sq_nonneg a), Real.sqrt_sq_eq_abs]

/-- The sign of a factor. -/
noncomputable def sgn (a : ℝ) : ℝ := a / |a|

theorem sgn_sq {a : ℝ} (ha : a ≠ 0) : sgn a * sgn a = 1 := by
  unfold sgn
  have := abs_pos.2 ha
  field_simp
  exact (sq_abs a).symm

theorem prep_scale {a : BIdx s → Fin c → ℝ} (ha : ∀ m k, a m k ≠ 0) {x : Sig s c N}
    (h : ∀ m k, Normalisable (centred o.zeroMean (x m k)))
    (h' : ∀ m k, Normalisable (centred o.zeroMean (scale a x m k))) (m : BIdx s) (k : Fin c) :
    prep o (scale a x) m k = fun t => sgn (a m k) * prep o x m k t := by
  have e1 : centred o.zeroMean (scale a x m k) = fun t => a m k * centred o.zeroMean (x m k) t := centred_smul _ _ _
  have h1 := h m k
  have h2 := h' m k
  rw [prep_eq, prep_eq, e1]
  rw [e1] at h2
  have hpos := abs_pos.2 (ha m k)
  generalize centred o.zeroMean (x m k) = y at *
  funext t
  by_cases hy : y = 0
  · subst hy; simp
  have h1 : 1e-6 ≤ sigNorm y := h1.resolve_right hy
  have h2 : 1e-6 ≤ sigNorm fun t => a m k * y t := h2.resolve_right fun h0 => hy (by
    funext t
    have := congrFun h0 t
    exact (mul_eq_zero.1 this).resolve_left (ha m k))
  unfold gain sgn
  rw [max_eq_left h1, max_eq_left h2, sigNorm_smul]
  have : sigNorm y ≠ 0 := (lt_of_lt_of_le (by norm_num) h1).ne'
  field_simp

theorem same_scale {a : BIdx s → Fin r → ℝ} {b : BIdx s → Fin e → ℝ} (ha : ∀ m k, a m k ≠ 0) (hb : ∀ m j, b m j ≠ 0)
    {ref : Sig s r N} {est : Sig s e M} (hr : ∀ m k, Normalisable (centred o.zeroMean (ref m k)))
    (hr' : ∀ m k, Normalisable (centred o.zeroMean (scale a ref m k)))
    (he : ∀ m k, Normalisable (centred o.zeroMean (est m k)))
    (he' : ∀ m k, Normalisable (centred o.zeroMean (scale b est m k))) :
    Same B o ref est (scale a ref) (scale b est) :=
  same_of_prep (fun m k => sgn_sq (ha m k)) (fun m j => sgn_sq (hb m j)) (prep_scale ha hr hr') (prep_scale hb he he')

/-- C07: factors (of either sign) applied to the channels of references and estimates change nothing,
as long as no signal is quieter than the threshold (before and after). -/
theorem C07_scale_invariance (hB : Covered B) {a : BIdx s → Fin r → ℝ} {b : BIdx s → Fin e → ℝ} (ha : ∀ m k, a m k ≠ 0)
    (hb : ∀ m j, b m j ≠ 0) {ref : Sig s r N} {est : Sig s e M}
    (hr : ∀ m k, Normalisable (centred o.zeroMean (ref m k)))
    (hr' : ∀ m k, Normalisable (centred o.zeroMean fun t => a m k * ref m k t))
    (he : ∀ m k, Normalisable (centred o.zeroMean (est m k)))
    (he' : ∀ m k, Normalisable (centred o.zeroMean fun t => b m k * est m k t)) :
    SameMetrics B o ref est (fun m k t => a m k * ref m k t) (fun m k t => b m k * est m k t) :=
  sameMetrics hB (same_scale ha hb hr hr' he he') fun _ => same_scale ha hb hr hr' he he'

/-- C07 for `pairwise=False`. -/
theorem C07_scale_invariance_aligned (hB : Covered B) {a b : BIdx s → Fin c → ℝ} (ha : ∀ m k, a m k ≠ 0)
    (hb : ∀ m j, b m j ≠ 0) {ref : Sig s c N} {est : Sig s c M}
    (hr : ∀ m k, Normalisable (centred o.zeroMean (ref m k)))
    (hr' : ∀ m k, Normalisable (centred o.zeroMean fun t => a m k * ref m k t))
    (he : ∀ m k, Normalisable (centred o.zeroMean (est m k)))
    (he' : ∀ m k, Normalisable (centred o.zeroMean fun t => b m k * est m k t)) :
    SameAligned B o ref est (fun m k t => a m k * ref m k t) (fun m k t => b m k * est m k t) :=
  sameAligned hB (same_scale ha hb hr hr' he he') fun _ => same_scale ha hb hr hr' he he'

example : ∃ a b : BIdx [] → Fin 2 → ℝ, (∀ m k, a m k < 0) ∧ (∀ m j, b m j ≠ 0) ∧
    SameMetrics torchBackend Ex.opts Ex.ref Ex.est (fun m k t => a m k * Ex.ref m k t) (fun m k t => b m k * Ex.est m k t) ∧
    SameAligned torchBackend Ex.opts Ex.ref Ex.est (fun m k t => a m k * Ex.ref m k t) (fun m k t => b m k * Ex.est m k t) := by
  have hc : ∀ x : Fin 3 → ℝ, centred Ex.opts.zeroMean x = x := fun x => by
    show centred false x = x
    simp [centred]
  have key : ∀ (a : ℝ) (x : Fin 3 → ℝ) (t : Fin 3), 1 ≤ a * x t → Normalisable (centred Ex.opts.zeroMean fun t => a * x t) := by
    intro a x t h
    rw [hc]
    exact Or.inl (Ex.audible _ t h)
  have key1 : ∀ (x : Fin 3 → ℝ) (t : Fin 3), 1 ≤ x t → Normalisable (centred Ex.opts.zeroMean x) := by
    intro x t h
    rw [hc]
    exact Or.inl (Ex.audible _ t h)
  have key2 : ∀ (x : Fin 3 → ℝ) (t : Fin 3), 1 ≤ x t → Normalisable (centred Ex.opts.zeroMean fun t => (-3) * x t) := by
    intro x t h
    rw [hc]
    refine Or.inl ?_
    show 1e-6 ≤ sigNorm _
    rw [sigNorm_smul]
    have := Ex.audible x t h
    unfold Audible at this
    rw [show |(-3 : ℝ)| = 3 by norm_num]
    linarith
  have h1 : ∀ m k, Normalisable (centred Ex.opts.zeroMean (Ex.ref m k)) := by
    intro m k; fin_cases k
    · exact key1 _ 0 (by simp [Ex.ref])
    · exact key1 _ 2 (by simp [Ex.ref])
  have h2 : ∀ m k, Normalisable (centred Ex.opts.zeroMean fun t => (-3) * Ex.ref m k t) := by
    intro m k; fin_cases k
    · exact key2 _ 0 (by simp [Ex.ref])
    · exact key2 _ 2 (by simp [Ex.ref])
  have h3 : ∀ m k, Normalisable (centred Ex.opts.zeroMean (Ex.est m k)) := by
    intro m k; fin_cases k
    · exact key1 _ 0 (by simp [Ex.est])
    · exact key1 _ 0 (by simp [Ex.est])
  have h4 : ∀ m k, Normalisable (centred Ex.opts.zeroMean fun t => 5 * Ex.est m k t) := by
    intro m k; fin_cases k
    · exact key 5 _ 0 (by simp [Ex.est]; norm_num)
    · exact key 5 _ 0 (by simp [Ex.est])
  exact ⟨fun _ _ => -3, fun _ _ => 5, fun _ _ => by norm_num, fun _ _ => by norm_num,
    C07_scale_invariance Ex.covered (fun _ _ => by norm_num) (fun _ _ => by norm_num) h1 h2 h3 h4,
    C07_scale_invariance_aligned Ex.covered (fun _ _ => by norm_num) (fun _ _ => by norm_num) h1 h2 h3 h4⟩

/-- C07: the threshold matters.  An estimate equal to the reference has the loss `-inf`; made
quieter than the threshold, it has a finite loss. -/
theorem C07_fails_below_threshold (B : Backend) :
    ∃ (ref est : Sig [] 1 1) (a : ℝ), a ≠ 0 ∧ (∀ m k, Audible (ref m k) ∧ Audible (est m k)) ∧
      sdrLossPair B { filterLength := 1 } est ref ≠
        sdrLossPair B { filterLength := 1 } (fun m k t => a * est m k t) ref := by
  have hp : ∀ (x : ℝ) (m : BIdx []) (k : Fin 1) (t : Fin 1), prep { filterLength := 1 } (fun (_ : BIdx []) (_ _ : Fin 1) => x) m k t =
      (max |x| 1e-6)⁻¹ * x := by
    intro x m k t
    rw [prep_eq]
    show gain (centred false _) * centred false _ t = _
    simp [centred, gain, sigNorm, Real.sqrt_sq_eq_abs]
  refine ⟨fun _ _ _ => 1, fun _ _ _ => 1, 1e-7, by norm_num, fun m k => ?_, fun h => ?_⟩
  · have : Audible (fun _ : Fin 1 => (1 : ℝ)) := Ex.audible _ 0 le_rfl
    exact ⟨this, this⟩
  · have h' : ∀ x : ℝ, sdrLossPair B { filterLength := 1 } (fun (_ : BIdx []) (_ _ : Fin 1) => x)
        (fun _ (_ : Fin 1) (_ : Fin 1) => 1) =
        .ok fun _ _ _ => coherenceToNegSdr none (.fin (((max |x| 1e-6)⁻¹ * x) ^ 2)) := by
      intro x
      unfold sdrLossPair
      rw [sdrCohPair_def, if_neg (by simp), if_pos rfl]
      simp only
      congr 1
      funext m k j
      unfold cohSdrOnePair dot
      simp only [hp, Finset.univ_unique, Finset.sum_singleton]
      norm_num
    have h2 : (fun (_ : BIdx []) (_ _ : Fin 1) => (1e-7 : ℝ) * 1) = fun _ _ _ => (1e-7 : ℝ) := by
      funext _ _ _; ring
    rw [h', h2, h'] at h
    have h3 := congrFun (congrFun (congrFun (Except.ok.inj h) ((() : Unit) : BIdx [])) 0) 0
    rw [coherenceToNegSdr_fin, coherenceToNegSdr_fin] at h3
    have e1 : ((max |(1 : ℝ)| 1e-6)⁻¹ * 1) ^ 2 = 1 := by norm_num
    have e2 : ((max |(1e-7 : ℝ)| 1e-6)⁻¹ * 1e-7) ^ 2 = 0.01 := by
      rw [abs_of_pos (by norm_num), max_eq_right (by norm_num)]; norm_num
    rw [e1, e2] at h3
    unfold cclamp negDb epsOf at h3
    norm_num at h3
    cases h3

/-! ### C08 -/

theorem prep_offset (hz : o.zeroMean = true) (a : BIdx s → Fin c → ℝ) (x : Sig s c N) :
    prep o (offset a x) = prep o x := by
  funext m k
  have : centred o.zeroMean (offset a x m k) = centred o.zeroMean (x m k) := by
    rw [hz]
    funext t
    unfold centred offset
    simp only [if_true]
    have hN : (N : ℝ) ≠ 0 := by
      have : N ≠ 0 := by have := t.isLt; omega
      exact_mod_cast this
    rw [Finset.sum_add_distrib, Finset.sum_const, Finset.card_univ, Fintype.card_fin, nsmul_eq_mul]
    field_simp
    ring
  rw [prep_eq, prep_eq, this]

theorem same_offset (hz : o.zeroMean = true) (a : BIdx s → Fin r → ℝ) (b : BIdx s → Fin e → ℝ) (ref : Sig s r N)
    (est : Sig s e M) : Same B o ref est (offset a ref) (offset b est) :=
  same_of_prep (α := fun _ _ => 1) (β := fun _ _ => 1) (fun _ _ => one_mul 1) (fun _ _ => one_mul 1)
    (fun m k => by simp [prep_offset hz]) (fun m k => by simp [prep_offset hz])

/-- C08: with `zero_mean=True`, constants added to the channels change nothing. -/
theorem C08_offset_invariance (hB : Covered B) (hz : o.zeroMean = true) (a : BIdx s → Fin r → ℝ) (b : BIdx s → Fin e → ℝ)
    (ref : Sig s r N) (est : Sig s e M) :
    SameMetrics B o ref est (fun m k t => ref m k t + a m k) (fun m k t => est m k t + b m k) :=
  sameMetrics hB (same_offset hz a b ref est) fun ld => same_offset (o := siOpts o.zeroMean o.clampDb ld) hz a b ref est

/-- C08 for `pairwise=False`. -/
theorem C08_offset_invariance_aligned (hB : Covered B) (hz : o.zeroMean = true) (a b : BIdx s → Fin c → ℝ)
    (ref : Sig s c N) (est : Sig s c M) :
    SameAligned B o ref est (fun m k t => ref m k t + a m k) (fun m k t => est m k t + b m k) :=
  sameAligned hB (same_offset hz a b ref est) fun ld => same_offset (o := siOpts o.zeroMean o.clampDb ld) hz a b ref est

example : SameMetrics torchBackend { Ex.opts with zeroMean := true } Ex.ref Ex.est (fun m k t => Ex.ref m k t + 7)
    (fun m k t => Ex.est m k t + k) :=
  C08_offset_invariance Ex.covered rfl (fun _ _ => 7) (fun _ k => k) _ _

example : SameAligned torchBackend { Ex.opts with zeroMean := true } Ex.ref Ex.est (fun m k t => Ex.ref m k t + 7)
    (fun m k t => Ex.est m k t + k) :=
  C08_offset_invariance_aligned Ex.covered rfl (fun _ _ => 7) (fun _ k => k) _ _

/-! ### C40 -/

theorem zpad_padded (z : ℕ) (x : Fin N → ℝ) (t : ℕ) : zpad (fun t : Fin (N + z) => zpad x t) t = zpad x t := by
  by_cases h : t < N + z
  · conv_lhs => unfold zpad
    rw [dif_pos h]
    rfl
  · rw [zpad_of_le _ (by omega), zpad_of_le _ (by omega)]

theorem sum_padded (z : ℕ) (f : ℕ → ℝ) (h : ∀ t, N ≤ t → f t = 0) : ∑ t : Fin (N + z), f t = ∑ t : Fin N, f t := by
  rw [Fin.sum_univ_add]
  simp [h]

theorem prep_padded (hz : o.zeroMean = false) (z : ℕ) (x : Sig s c N) : prep o (padded z x) = padded z (prep o x) := by
  funext m k t
  rw [prep_eq]
  unfold padded
  rw [prep_eq, zpad_smul, hz]
  simp only [centred, Bool.false_eq_true, if_false]
  congr 1
  unfold gain sigNorm
  rw [sum_padded z (fun t => zpad (x m k) t ^ 2) (fun t ht => by rw [zpad_of_le _ ht]; simp)]
  simp only [zpad_val]

theorem dot_padded (z : ℕ) (x y : Fin N → ℝ) : dot (fun t : Fin (N + z) => zpad x t) (fun t : Fin (N + z) => zpad y t) = dot x y := by
  unfold dot
  rw [sum_padded z (fun t => zpad x t * zpad y t) (fun t ht => by rw [zpad_of_le _ ht]; simp)]
  simp only [zpad_val]

theorem circ_padded {n n' z t : ℕ} (x y : Fin N → ℝ) (hN : N ≤ n) (ht : t + N ≤ n) (hn : n ≤ n') :
    circ n' (fun t : Fin (N + z) => zpad x t) (fun t : Fin (N + z) => zpad y t) t = circ n x y t := by
  rw [circ_corr n x y t hN ht, ← circ_corr n' x y t (by omega) (by omega)]
  unfold circ
  simp only [zpad_padded]

theorem nFft_mono {N z n : ℕ} (hn : nFft N = .ok n) : ∃ n', nFft (N + z) = .ok n' ∧ n ≤ n' := by
  obtain ⟨hN, rfl⟩ := nFft_ok hn
  refine ⟨2 ^ Nat.clog 2 (N + z + (N + z) - 1), ?_, ?_⟩
  · simp only [nFft_def]
    rw [if_neg (by omega)]
  · exact Nat.pow_le_pow_right (by norm_num) (Nat.clog_mono_right 2 (by omega))

theorem fits_le {n : ℕ} (hn : nFft N = .ok n) {L : ℕ} (hf : FilterFits N L) : L + N ≤ n + 1 := by
  obtain ⟨hN, rfl⟩ := nFft_ok hn
  unfold FilterFits at hf
  rwa [two_mul] at hf

theorem same_padded (hN : 0 < N) (hf : FilterFits N o.filterLength) (hz : o.zeroMean = false) (z : ℕ) (ref : Sig s r N)
    (est : Sig s e N) : Same B o ref est (padded z ref) (padded z est) := by
  obtain ⟨n, hn⟩ := nFft_pos hN
  obtain ⟨n', hn', hnn⟩ := nFft_mono (z := z) hn
  have hfit := fits_le hn hf
  have hle := nFft_le hn
  refine ⟨⟨fun _ _ => 1, fun _ _ => 1, ?_⟩, ⟨fun _ _ => 1, fun _ _ => 1, ?_⟩, ?_, ?_, ?_, ?_⟩
  · refine ⟨fun _ _ => one_mul 1, fun _ _ => one_mul 1, fun m k l => ?_, fun m k l => ?_, fun _ => rfl, fun n1 h1 => ?_,
      fun n1 n1' h1 h1' m k l t ht => ?_, fun n1 n1' h1 h1' m k l t ht => ?_⟩
    · rw [prep_padded hz, one_mul, one_mul]
      exact dot_padded z _ _
    · rw [prep_padded hz, prep_padded hz, one_mul, one_mul, corr_zero, corr_zero]
      exact dot_padded z _ _
    · rw [hn] at h1; cases h1
      exact ⟨n', hn', by omega, by omega⟩
    · rw [hn] at h1; cases h1
      rw [hn'] at h1'; cases h1'
      rw [prep_padded hz, one_mul, one_mul]
      exact circ_padded _ _ hle (by omega) hnn
    · rw [hn] at h1; cases h1
      rw [hn'] at h1'; cases h1'
      rw [prep_padded hz, prep_padded hz, one_mul, one_mul]
      exact circ_padded _ _ hle (by omega) hnn
  · refine ⟨fun _ _ => one_mul 1, fun _ _ => one_mul 1, fun m k l => ?_, fun m k l => ?_, fun _ => rfl, fun n1 h1 => ?_,
      fun n1 n1' h1 h1' m k l t ht => ?_, fun n1 n1' h1 h1' m k l t ht => ?_⟩
    · rw [prep_padded hz, one_mul, one_mul]
      exact (dot_padded z _ _).symm
    · rw [prep_padded hz, prep_padded hz, one_mul, one_mul, corr_zero, corr_zero]
      exact (dot_padded z _ _).symm
    · rw [hn'] at h1; cases h1
      exact ⟨n, hn, by omega, by omega⟩
    · rw [hn'] at h1; cases h1
      rw [hn] at h1'; cases h1'
      rw [prep_padded hz, one_mul, one_mul]
      exact (circ_padded _ _ hle (by omega) hnn).symm
    · rw [hn'] at h1; cases h1
      rw [hn] at h1'; cases h1'
      rw [prep_padded hz, prep_padded hz, one_mul, one_mul]
      exact (circ_padded _ _ hle (by omega) hnn).symm
  · unfold sdrErr
    rw [hn, hn']
    simp only [if_true]
  · unfold sqCosErr
    rw [hn, hn']
    simp only
    rw [if_pos (show o.filterLength ≤ n by omega), if_pos (show o.filterLength ≤ n' by omega)]
    simp only [if_true]
  · intro c d
    unfold vecsErr
    rw [hn, hn']
    simp only
    rw [show min o.filterLength n = min o.filterLength n' by omega]
  · intro c
    constructor
    · rintro ⟨-, -, n1, h1, hlt, -⟩
      rw [hn'] at h1; cases h1
      omega
    · rintro ⟨-, -, n1, h1, hlt, -⟩
      rw [hn] at h1; cases h1
      omega

theorem fits_one (hN : 0 < N) : FilterFits N 1 := by
  unfold FilterFits
  have : 2 * N - 1 ≤ 2 ^ Nat.clog 2 (2 * N - 1) := Nat.le_pow_clog (by norm_num) _
  omega

/-- C40: silence appended to references and estimates changes nothing (without `zero_mean`, filters
not too long for the FFT). -/
theorem C40_trailing_silence (hB : Covered B) (hN : 0 < N) (hf : FilterFits N o.filterLength) (hz : o.zeroMean = false)
    (z : ℕ) (ref : Sig s r N) (est : Sig s e N) :
    SameMetrics B o ref est (fun m k (t : Fin (N + z)) => zpad (ref m k) t)
      (fun m k (t : Fin (N + z)) => zpad (est m k) t) :=
  sameMetrics hB (same_padded hN hf hz z ref est) fun ld =>
    same_padded (o := siOpts o.zeroMean o.clampDb ld) hN (fits_one hN) hz z ref est

/-- C40 for `pairwise=False`. -/
theorem C40_trailing_silence_aligned (hB : Covered B) (hN : 0 < N) (hf : FilterFits N o.filterLength)
    (hz : o.zeroMean = false) (z : ℕ) (ref est : Sig s c N) :
    SameAligned B o ref est (fun m k (t : Fin (N + z)) => zpad (ref m k) t)
      (fun m k (t : Fin (N + z)) => zpad (est m k) t) :=
  sameAligned hB (same_padded hN hf hz z ref est) fun ld =>
    same_padded (o := siOpts o.zeroMean o.clampDb ld) hN (fits_one hN) hz z ref est

example (z : ℕ) : SameMetrics torchBackend Ex.opts Ex.ref Ex.est (fun m k (t : Fin (3 + z)) => zpad (Ex.ref m k) t)
    (fun m k (t : Fin (3 + z)) => zpad (Ex.est m k) t) :=
  C40_trailing_silence Ex.covered (by norm_num) Ex.fits rfl z _ _

example (z : ℕ) : SameAligned torchBackend Ex.opts Ex.ref Ex.est (fun m k (t : Fin (3 + z)) => zpad (Ex.ref m k) t)
    (fun m k (t : Fin (3 + z)) => zpad (Ex.est m k) t) :=
  C40_trailing_silence_aligned Ex.covered (by norm_num) Ex.fits rfl z _ _

end FBE.Props
