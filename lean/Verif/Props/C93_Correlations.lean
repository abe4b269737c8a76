import Verif.Props.C47_C50_Relations
import Verif.Spec.Correlations

/-!
# C93 — only the correlations count
-/

namespace FBE.Props

open Spec XR

variable {s : List ℕ} {r e c N N' : ℕ} {B : Backend} {o : Opts}

theorem corr_smul (a b : ℝ) (x y : Fin N → ℝ) (τ : ℕ) :
    corr (fun t => a * x t) (fun t => b * y t) τ = a * b * corr x y τ := by
  unfold corr
  rw [Finset.mul_sum]
  refine Finset.sum_congr rfl fun u _ => ?_
  rw [zpad_smul]
  ring

theorem corr_self_zero (x : Fin N → ℝ) : corr x x 0 = ∑ t, x t ^ 2 := by
  rw [corr_zero]
  unfold dot
  exact Finset.sum_congr rfl fun t _ => by ring

theorem gain_congr {x : Fin N → ℝ} {y : Fin N' → ℝ} (h : ∑ t, x t ^ 2 = ∑ t, y t ^ 2) : gain x = gain y := by
  unfold gain sigNorm
  rw [h]

section corrs

variable {L : ℕ} {ref : Sig s r N} {est : Sig s e N} {ref' : Sig s r N'} {est' : Sig s e N'}
  (hL : 0 < L) (h : SameCorrelations o.zeroMean L ref est ref' est')
include hL h

theorem prep_corr_refs (m : BIdx s) (k l : Fin r) {τ : ℕ} (hτ : τ < L) :
    corr (prep o ref' m k) (prep o ref' m l) τ = corr (prep o ref m k) (prep o ref m l) τ := by
  have g : ∀ k, gain (centred o.zeroMean (ref' m k)) = gain (centred o.zeroMean (ref m k)) := fun k =>
    gain_congr (by rw [← corr_self_zero, ← corr_self_zero]; exact h.refs m k k 0 hL)
  rw [prep_eq, prep_eq, prep_eq, prep_eq, corr_smul, corr_smul, g, g, h.refs m k l τ hτ]

theorem prep_corr_ests (m : BIdx s) (k : Fin r) (j : Fin e) {τ : ℕ} (hτ : τ < L) :
    corr (prep o ref' m k) (prep o est' m j) τ = corr (prep o ref m k) (prep o est m j) τ := by
  have g : gain (centred o.zeroMean (ref' m k)) = gain (centred o.zeroMean (ref m k)) :=
    gain_congr (by rw [← corr_self_zero, ← corr_self_zero]; exact h.refs m k k 0 hL)
  have g' : gain (centred o.zeroMean (est' m j)) = gain (centred o.zeroMean (est m j)) := gain_congr (h.energies m j)
  rw [prep_eq, prep_eq, prep_eq, prep_eq, corr_smul, corr_smul, g, g', h.ests m k j τ hτ]

end corrs

theorem _root_.FBE.Spec.SameCorrelations.symm {zm : Bool} {L : ℕ} {ref : Sig s r N} {est : Sig s e N} {ref' : Sig s r N'}
    {est' : Sig s e N'} (h : SameCorrelations zm L ref est ref' est') : SameCorrelations zm L ref' est' ref est :=
  ⟨fun m k l τ hτ => (h.refs m k l τ hτ).symm, fun m k l τ hτ => (h.ests m k l τ hτ).symm,
    fun m j => (h.energies m j).symm⟩

theorem _root_.FBE.Spec.SameCorrelations.mono {zm : Bool} {L L' : ℕ} (hL : L' ≤ L) {ref : Sig s r N} {est : Sig s e N} {ref' : Sig s r N'}
    {est' : Sig s e N'} (h : SameCorrelations zm L ref est ref' est') : SameCorrelations zm L' ref est ref' est' :=
  ⟨fun m k l τ hτ => h.refs m k l τ (by omega), fun m k l τ hτ => h.ests m k l τ (by omega), h.energies⟩

theorem related_corr (hN : 0 < N) (hN' : 0 < N') (hf : FilterFits N o.filterLength) (hf' : FilterFits N' o.filterLength)
    (hL : 0 < o.filterLength) {ref : Sig s r N} {est : Sig s e N} {ref' : Sig s r N'} {est' : Sig s e N'}
    (h : SameCorrelations o.zeroMean o.filterLength ref est ref' est') :
    Related o ref est ref' est' id (fun _ => Equiv.refl _) (fun _ => id) (fun _ _ => 1) (fun _ _ => 1) := by
  obtain ⟨n, hn⟩ := nFft_pos hN
  obtain ⟨n', hn'⟩ := nFft_pos hN'
  have hfit := fits_le hn hf
  have hfit' := fits_le hn' hf'
  have hle := nFft_le hn
  have hle' := nFft_le hn'
  refine ⟨fun _ _ => one_mul 1, fun _ _ => one_mul 1, fun m k l => ?_, fun m k l => ?_, fun _ => rfl, fun n1 h1 => ?_,
      fun n1 n1' h1 h1' m k l t ht => ?_, fun n1 n1' h1 h1' m k l t ht => ?_⟩
  · rw [one_mul, one_mul, ← corr_zero, ← corr_zero]
    exact prep_corr_refs hL h m k l hL
  · rw [one_mul, one_mul]
    exact prep_corr_ests hL h m k l hL
  · rw [hn] at h1; cases h1
    exact ⟨n', hn', by omega, by omega⟩
  · rw [hn] at h1; cases h1
    rw [hn'] at h1'; cases h1'
    rw [one_mul, one_mul, circ_corr _ _ _ _ hle' (by omega), circ_corr _ _ _ _ hle (by omega)]
    exact prep_corr_refs hL h m k l (by omega)
  · rw [hn] at h1; cases h1
    rw [hn'] at h1'; cases h1'
    rw [one_mul, one_mul, circ_corr _ _ _ _ hle' (by omega), circ_corr _ _ _ _ hle (by omega)]
    exact prep_corr_ests hL h m k l (by omega)

theorem same_corr (hN : 0 < N) (hN' : 0 < N') (hf : FilterFits N o.filterLength) (hf' : FilterFits N' o.filterLength)
    (hL : 0 < o.filterLength) {ref : Sig s r N} {est : Sig s e N} {ref' : Sig s r N'} {est' : Sig s e N'}
    (h : SameCorrelations o.zeroMean o.filterLength ref est ref' est') : Same B o ref est ref' est' := by
  obtain ⟨n, hn⟩ := nFft_pos hN
  obtain ⟨n', hn'⟩ := nFft_pos hN'
  have hfit := fits_le hn hf
  have hfit' := fits_le hn' hf'
  refine ⟨⟨_, _, related_corr hN hN' hf hf' hL h⟩, ⟨_, _, related_corr hN' hN hf' hf hL h.symm⟩, ?_, ?_, ?_, ?_⟩
  · unfold sdrErr
    rw [hn, hn']
    simp only [if_true]
  · unfold sqCosErr
    rw [hn, hn']
    simp only
    rw [if_pos (show o.filterLength ≤ n by omega), if_pos (show o.filterLength ≤ n' by omega)]
    simp only [if_true]
  · intro c d
    unfold vecsErr
    rw [hn, hn']
    simp only
    rw [show min o.filterLength n = min o.filterLength n' by omega]
  · intro c
    constructor
    · rintro ⟨-, -, n1, h1, hlt, -⟩
      rw [hn'] at h1; cases h1
      omega
    · rintro ⟨-, -, n1, h1, hlt, -⟩
      rw [hn] at h1; cases h1
      omega

/-- **C93.**  Filters that fit into the transforms: whatever the options, the solver and the lengths of the
signals, every function returns the same (or raises the same exception) for signals with the same
correlations at the lags below `filter_length`. -/
theorem C93_correlations (hB : Covered B) (hN : 0 < N) (hN' : 0 < N') (hf : FilterFits N o.filterLength)
    (hf' : FilterFits N' o.filterLength) (hL : 0 < o.filterLength) {ref : Sig s r N} {est : Sig s e N}
    {ref' : Sig s r N'} {est' : Sig s e N'} (h : SameCorrelations o.zeroMean o.filterLength ref est ref' est') :
    SameMetrics B o ref est ref' est' :=
  sameMetrics hB (same_corr hN hN' hf hf' hL h) fun ld =>
    same_corr (o := siOpts o.zeroMean o.clampDb ld) hN hN' (fits_one hN) (fits_one hN') Nat.one_pos (h.mono hL)

/-- **C93** for `pairwise=False`. -/
theorem C93_correlations_aligned (hB : Covered B) (hN : 0 < N) (hN' : 0 < N') (hf : FilterFits N o.filterLength)
    (hf' : FilterFits N' o.filterLength) (hL : 0 < o.filterLength) {ref est : Sig s c N}
    {ref' est' : Sig s c N'} (h : SameCorrelations o.zeroMean o.filterLength ref est ref' est') :
    SameAligned B o ref est ref' est' :=
  sameAligned hB (same_corr hN hN' hf hf' hL h) fun ld =>
    same_corr (o := siOpts o.zeroMean o.clampDb ld) hN hN' (fits_one hN) (fits_one hN') Nat.one_pos (h.mono hL)

/-! ### one tap: orthonormal transforms and other orders of the samples -/

theorem corr_at_zero {zm : Bool} {ref : Sig s r N} {est : Sig s e N} {ref' : Sig s r N'} {est' : Sig s e N'}
    (hr : ∀ m k l, dot (centred zm (ref' m k)) (centred zm (ref' m l)) = dot (centred zm (ref m k)) (centred zm (ref m l)))
    (he : ∀ m k j, dot (centred zm (ref' m k)) (centred zm (est' m j)) = dot (centred zm (ref m k)) (centred zm (est m j)))
    (hs : ∀ m j, dot (centred zm (est' m j)) (centred zm (est' m j)) = dot (centred zm (est m j)) (centred zm (est m j))) :
    SameCorrelations zm 1 ref est ref' est' := by
  refine ⟨fun m k l τ hτ => ?_, fun m k l τ hτ => ?_, fun m j => ?_⟩
  · obtain rfl : τ = 0 := by omega
    rw [corr_zero, corr_zero, hr]
  · obtain rfl : τ = 0 := by omega
    rw [corr_zero, corr_zero, he]
  · rw [← corr_self_zero, ← corr_self_zero, corr_zero, corr_zero, hs]

theorem dot_transformed {A : Fin N' → Fin N → ℝ} (hA : Orthonormal A) (x y : Fin N → ℝ) :
    dot (fun t => ∑ u, A t u * x u) (fun t => ∑ u, A t u * y u) = dot x y := by
  unfold dot
  have : ∀ t, (∑ u, A t u * x u) * (∑ v, A t v * y v) = ∑ u, ∑ v, A t u * A t v * (x u * y v) := fun t => by
    rw [Finset.sum_mul_sum]
    exact Finset.sum_congr rfl fun u _ => Finset.sum_congr rfl fun v _ => by ring
  simp only [this]
  rw [Finset.sum_comm]
  refine Finset.sum_congr rfl fun u _ => ?_
  rw [Finset.sum_comm]
  have hA' : ∀ u v, ∑ t, A t u * A t v = if u = v then 1 else 0 := hA
  simp only [← Finset.sum_mul, hA']
  simp

theorem centred_reordered (zm : Bool) (π : Fin N ≃ Fin N) (x : Fin N → ℝ) :
    centred zm (fun t => x (π t)) = fun t => centred zm x (π t) := by
  unfold centred
  cases zm with
  | false => rfl
  | true =>
    simp only [if_true]
    rw [Equiv.sum_comp π]

theorem dot_reordered (π : Fin N ≃ Fin N) (x y : Fin N → ℝ) : dot (fun t => x (π t)) (fun t => y (π t)) = dot x y :=
  Equiv.sum_comp π fun t => x t * y t

theorem corr_reordered (zm : Bool) (π : Fin N ≃ Fin N) (ref : Sig s r N) (est : Sig s e N) :
    SameCorrelations zm 1 ref est (reordered π ref) (reordered π est) := by
  unfold reordered
  refine corr_at_zero (fun m k l => ?_) (fun m k l => ?_) (fun m j => ?_)
  all_goals simp only [centred_reordered]; exact dot_reordered π _ _

theorem corr_transformed {A : Fin N' → Fin N → ℝ} (hA : Orthonormal A) (ref : Sig s r N) (est : Sig s e N) :
    SameCorrelations false 1 ref est (transformed A ref) (transformed A est) := by
  unfold transformed
  refine corr_at_zero (fun m k l => ?_) (fun m k l => ?_) (fun m j => ?_)
  all_goals exact dot_transformed hA _ _

/-- **C93.**  `filter_length=1` (and the scale-invariant functions): the samples of all signals may be taken
in any order, in particular backwards; with and without `zero_mean`. -/
theorem C93_order (hB : Covered B) (hN : 0 < N) (hL : o.filterLength = 1) (π : Fin N ≃ Fin N) (ref : Sig s r N)
    (est : Sig s e N) : SameMetrics B o ref est (reordered π ref) (reordered π est) :=
  C93_correlations hB hN hN (by rw [hL]; exact fits_one hN) (by rw [hL]; exact fits_one hN) (by rw [hL]; exact Nat.one_pos)
    (by rw [hL]; exact corr_reordered _ π ref est)

/-- **C93** for `pairwise=False`. -/
theorem C93_order_aligned (hB : Covered B) (hN : 0 < N) (hL : o.filterLength = 1) (π : Fin N ≃ Fin N)
    (ref est : Sig s c N) : SameAligned B o ref est (reordered π ref) (reordered π est) :=
  C93_correlations_aligned hB hN hN (by rw [hL]; exact fits_one hN) (by rw [hL]; exact fits_one hN)
    (by rw [hL]; exact Nat.one_pos) (by rw [hL]; exact corr_reordered _ π ref est)

/-- **C93.**  `filter_length=1` (and the scale-invariant functions) without `zero_mean`: an orthonormal
transform of the samples, the same for all signals, changes nothing. -/
theorem C93_transform (hB : Covered B) (hN : 0 < N) (hN' : 0 < N') (hL : o.filterLength = 1) (hz : o.zeroMean = false)
    {A : Fin N' → Fin N → ℝ} (hA : Orthonormal A) (ref : Sig s r N) (est : Sig s e N) :
    SameMetrics B o ref est (transformed A ref) (transformed A est) :=
  C93_correlations hB hN hN' (by rw [hL]; exact fits_one hN) (by rw [hL]; exact fits_one hN') (by rw [hL]; exact Nat.one_pos)
    (by rw [hL, hz]; exact corr_transformed hA ref est)

/-- **C93** for `pairwise=False`. -/
theorem C93_transform_aligned (hB : Covered B) (hN : 0 < N) (hN' : 0 < N') (hL : o.filterLength = 1)
    (hz : o.zeroMean = false) {A : Fin N' → Fin N → ℝ} (hA : Orthonormal A) (ref est : Sig s c N) :
    SameAligned B o ref est (transformed A ref) (transformed A est) :=
  C93_correlations_aligned hB hN hN' (by rw [hL]; exact fits_one hN) (by rw [hL]; exact fits_one hN')
    (by rw [hL]; exact Nat.one_pos) (by rw [hL, hz]; exact corr_transformed hA ref est)

/-! ### the same recording twice -/

theorem zpad_repeated {z : ℕ} (x : Fin N → ℝ) (t : ℕ) :
    zpad (fun t : Fin (N + z + N) => zpad x t + if N + z ≤ (t : ℕ) then zpad x (t - (N + z)) else 0) t =
      zpad x t + if N + z ≤ t then zpad x (t - (N + z)) else 0 := by
  by_cases h : t < N + z + N
  · conv_lhs => unfold zpad
    rw [dif_pos h]
    rfl
  · rw [zpad_of_le _ (by omega), zpad_of_le _ (by omega), if_pos (by omega), zpad_of_le _ (by omega), add_zero]

theorem sum_repeated {z : ℕ} (f : ℕ → ℝ) (h : ∀ t, N ≤ t → t < N + z → f t = 0) :
    ∑ t : Fin (N + z + N), f t = ∑ t : Fin N, f t + ∑ t : Fin N, f (N + z + t) := by
  rw [Fin.sum_univ_add, Fin.sum_univ_add]
  simp only [Fin.val_castAdd, Fin.val_natAdd]
  rw [Finset.sum_eq_zero (s := (Finset.univ : Finset (Fin z))) (fun t _ => h (N + t) (by omega) (by omega)), add_zero]

theorem corr_repeated {z τ : ℕ} (hτ : τ ≤ z) (x y : Fin N → ℝ) :
    corr (fun t : Fin (N + z + N) => zpad x t + if N + z ≤ (t : ℕ) then zpad x (t - (N + z)) else 0)
      (fun t : Fin (N + z + N) => zpad y t + if N + z ≤ (t : ℕ) then zpad y (t - (N + z)) else 0) τ = 2 * corr x y τ := by
  unfold corr
  simp only [zpad_repeated]
  rw [sum_repeated (fun t => (zpad x t + if N + z ≤ t then zpad x (t - (N + z)) else 0) *
    (zpad y (t + τ) + if N + z ≤ t + τ then zpad y (t + τ - (N + z)) else 0))
    (fun t h1 h2 => by rw [zpad_of_le _ h1, if_neg (by omega), add_zero, zero_mul]), two_mul]
  congr 1
  · refine Finset.sum_congr rfl fun t _ => ?_
    have := t.isLt
    rw [if_neg (by omega), add_zero, zpad_val]
    congr 1
    split
    · omega
    · rw [add_zero]
  · refine Finset.sum_congr rfl fun t _ => ?_
    have := t.isLt
    rw [zpad_of_le x (t := N + z + t) (by omega), zero_add, if_pos (by omega), zpad_of_le y (t := N + z + t + τ) (by omega),
      zero_add, if_pos (by omega),
      show N + z + (t : ℕ) - (N + z) = t by omega, show N + z + (t : ℕ) + τ - (N + z) = t + τ by omega, zpad_val]

theorem fits_repeated {z L : ℕ} (hN : 0 < N) (hz : L ≤ z + 1) : FilterFits (N + z + N) L := by
  unfold FilterFits
  have : 2 * (N + z + N) - 1 ≤ 2 ^ Nat.clog 2 (2 * (N + z + N) - 1) := Nat.le_pow_clog (by norm_num) _
  omega

theorem corr_scaled_repeated {z L : ℕ} (hL : L ≤ z + 1) (ref : Sig s r N) (est : Sig s e N) :
    SameCorrelations false L (fun m k t => √2 * ref m k t) (fun m k t => √2 * est m k t) (playedTwice z ref) (playedTwice z est) := by
  have h2 : √2 * √2 = (2 : ℝ) := Real.mul_self_sqrt (by norm_num)
  have key : ∀ (x y : Fin N → ℝ) (τ : ℕ), τ ≤ z →
      corr (fun t : Fin (N + z + N) => zpad x t + if N + z ≤ (t : ℕ) then zpad x (t - (N + z)) else 0)
        (fun t : Fin (N + z + N) => zpad y t + if N + z ≤ (t : ℕ) then zpad y (t - (N + z)) else 0) τ =
      corr (fun t => √2 * x t) (fun t => √2 * y t) τ := fun x y τ hτ => by
    rw [corr_repeated hτ, corr_smul, h2]
  refine ⟨fun m k l τ hτ => key _ _ τ (by omega), fun m k l τ hτ => key _ _ τ (by omega), fun m j => ?_⟩
  rw [← corr_self_zero, ← corr_self_zero]
  exact key _ _ 0 (by omega)

theorem normalisable_two (x : Fin N → ℝ) (h : Normalisable x) : Normalisable fun t => √2 * x t := by
  rcases h with h | h
  · refine Or.inl ?_
    rw [sigNorm_smul]
    have h1 : (1 : ℝ) ≤ |√2| := by
      rw [abs_of_nonneg (Real.sqrt_nonneg _)]
      exact Real.one_le_sqrt.2 (by norm_num)
    nlinarith [sigNorm_nonneg x]
  · refine Or.inr ?_
    rw [h]
    funext t
    exact mul_zero _

/-- **C93.**  Without `zero_mean`: every recording played twice, with a pause of at least `filter_length - 1`
samples in between, gives what the recording gives (channels at least as loud as the threshold, or silent). -/
theorem C93_repeated (hB : Covered B) (hN : 0 < N) (hf : FilterFits N o.filterLength) (hL : 0 < o.filterLength)
    (hz : o.zeroMean = false) {z : ℕ} (hp : o.filterLength ≤ z + 1) {ref : Sig s r N} {est : Sig s e N}
    (hr : ∀ m k, Normalisable (ref m k)) (he : ∀ m j, Normalisable (est m j)) :
    SameMetrics B o ref est (playedTwice z ref) (playedTwice z est) := by
  have hc : ∀ x : Fin N → ℝ, centred o.zeroMean x = x := fun x => by rw [hz]; rfl
  have h2 : √2 ≠ 0 := by positivity
  have h := C07_scale_invariance (o := o) hB (a := fun _ _ => √2) (b := fun _ _ => √2) (fun _ _ => h2) (fun _ _ => h2)
    (ref := ref) (est := est) (fun m k => by rw [hc]; exact hr m k) (fun m k => by rw [hc]; exact normalisable_two _ (hr m k))
    (fun m k => by rw [hc]; exact he m k) (fun m k => by rw [hc]; exact normalisable_two _ (he m k))
  exact sameMetrics_trans h (C93_correlations hB hN (by omega) hf (fits_repeated hN hp) hL
    (by rw [hz]; exact corr_scaled_repeated hp ref est))

/-- **C93** for `pairwise=False`. -/
theorem C93_repeated_aligned (hB : Covered B) (hN : 0 < N) (hf : FilterFits N o.filterLength) (hL : 0 < o.filterLength)
    (hz : o.zeroMean = false) {z : ℕ} (hp : o.filterLength ≤ z + 1) {ref est : Sig s c N}
    (hr : ∀ m k, Normalisable (ref m k)) (he : ∀ m j, Normalisable (est m j)) :
    SameAligned B o ref est (playedTwice z ref) (playedTwice z est) := by
  have hc : ∀ x : Fin N → ℝ, centred o.zeroMean x = x := fun x => by rw [hz]; rfl
  have h2 : √2 ≠ 0 := by positivity
  have h := C07_scale_invariance_aligned (o := o) hB (a := fun _ _ => √2) (b := fun _ _ => √2) (fun _ _ => h2) (fun _ _ => h2)
    (ref := ref) (est := est) (fun m k => by rw [hc]; exact hr m k) (fun m k => by rw [hc]; exact normalisable_two _ (hr m k))
    (fun m k => by rw [hc]; exact he m k) (fun m k => by rw [hc]; exact normalisable_two _ (he m k))
  exact sameAligned_trans h (C93_correlations_aligned hB hN (by omega) hf (fits_repeated hN hp) hL
    (by rw [hz]; exact corr_scaled_repeated hp ref est))

/-! ### concrete cases -/

/-- Filters of two taps, a pause of one sample. -/
example : SameMetrics torchBackend Ex.opts Ex.ref Ex.est (playedTwice 1 Ex.ref) (playedTwice 1 Ex.est) ∧
    SameAligned torchBackend Ex.opts Ex.ref Ex.est (playedTwice 1 Ex.ref) (playedTwice 1 Ex.est) := by
  have ha : ∀ (x : Fin 3 → ℝ) (t : Fin 3), 1 ≤ x t → Normalisable x := fun x t h => by
    have := Ex.audible x t h
    exact Or.inl (by unfold Audible at this; exact this)
  have hr : ∀ (m : BIdx []) k, Normalisable (Ex.ref m k) := fun m k => by
    fin_cases k
    · exact ha _ 0 (by simp [Ex.ref])
    · exact ha _ 2 (by simp [Ex.ref])
  have he : ∀ (m : BIdx []) k, Normalisable (Ex.est m k) := fun m k => by
    fin_cases k
    · exact ha _ 0 (by simp [Ex.est])
    · exact ha _ 0 (by simp [Ex.est])
  exact ⟨C93_repeated Ex.covered (by norm_num) Ex.fits (by norm_num [Ex.opts]) rfl (by norm_num [Ex.opts]) hr he,
    C93_repeated_aligned Ex.covered (by norm_num) Ex.fits (by norm_num [Ex.opts]) rfl (by norm_num [Ex.opts]) hr he⟩

/-- Everything backwards. -/
example : SameMetrics torchBackend { filterLength := 1, zeroMean := true } Ex.ref Ex.est (reordered Fin.revPerm Ex.ref)
      (reordered Fin.revPerm Ex.est) ∧
    SameAligned torchBackend { filterLength := 1, zeroMean := true } Ex.ref Ex.est (reordered Fin.revPerm Ex.ref)
      (reordered Fin.revPerm Ex.est) ∧ reordered Fin.revPerm Ex.ref ≠ Ex.ref :=
  ⟨C93_order Ex.covered (by norm_num) rfl _ _ _, C93_order_aligned Ex.covered (by norm_num) rfl _ _ _, fun h => by
    have := congrFun (congrFun (congrFun h ()) 0) 0
    simp [reordered, Ex.ref, Fin.revPerm] at this⟩

/-- Sums and differences of two samples. -/
theorem haar_orthonormal : Orthonormal (N' := 2) (N := 2) ![![√2 / 2, √2 / 2], ![√2 / 2, -(√2 / 2)]] := by
  have h2 : √2 * √2 = (2 : ℝ) := Real.mul_self_sqrt (by norm_num)
  intro u v
  fin_cases u <;> fin_cases v <;> simp [Fin.sum_univ_two] <;> nlinarith

example (ref : Sig [3] 2 2) (est : Sig [3] 4 2) : SameMetrics torchBackend { filterLength := 1 } ref est
    (transformed ![![√2 / 2, √2 / 2], ![√2 / 2, -(√2 / 2)]] ref) (transformed ![![√2 / 2, √2 / 2], ![√2 / 2, -(√2 / 2)]] est) :=
  C93_transform Ex.covered (by norm_num) (by norm_num) rfl rfl haar_orthonormal ref est

example (ref est : Sig [3] 2 2) : SameAligned torchBackend { filterLength := 1 } ref est
    (transformed ![![√2 / 2, √2 / 2], ![√2 / 2, -(√2 / 2)]] ref) (transformed ![![√2 / 2, √2 / 2], ![√2 / 2, -(√2 / 2)]] est) :=
  C93_transform_aligned Ex.covered (by norm_num) (by norm_num) rfl rfl haar_orthonormal ref est

end FBE.Props
