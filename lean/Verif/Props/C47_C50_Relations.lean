import Verif.Props.C01_C04_Documented
import Verif.Props.C07_C08_C40_Invariance
import Verif.Proofs.ExampleRuns

/-!
# C47–C50: leading silence, mean removal, the relation between the three metrics, symmetry
-/

set_option linter.unusedSectionVars false

namespace FBE.Props

open Spec XR

variable {B : Backend} {s : List ℕ} {r e c N M : ℕ} {o : Opts}

/-! ### C47 -/

/-- `z` zeros in front of a signal. -/
def delayed (z : ℕ) (x : Sig s c N) : Sig s c (N + z) :=
  fun m k t => if z ≤ t.val then zpad (x m k) (t.val - z) else 0

theorem zpad_delayed (z : ℕ) (x : Fin N → ℝ) (t : ℕ) :
    zpad (fun t : Fin (N + z) => if z ≤ t.val then zpad x (t.val - z) else 0) t =
      if z ≤ t then zpad x (t - z) else 0 := by
  by_cases h : t < N + z
  · exact dif_pos h
  · rw [zpad_of_le _ (by omega), if_pos (by omega), zpad_of_le _ (by omega)]

theorem sum_delayed (z : ℕ) (f : ℕ → ℝ) :
    ∑ t : Fin (N + z), (if z ≤ t.val then f (t.val - z) else 0) = ∑ t : Fin N, f t := by
  rw [Fin.sum_univ_eq_sum_range (fun t => if z ≤ t then f (t - z) else 0), add_comm N z, Finset.sum_range_add,
    Finset.sum_eq_zero (fun i hi => if_neg (by have := Finset.mem_range.1 hi; omega)), zero_add,
    ← Fin.sum_univ_eq_sum_range]
  refine Finset.sum_congr rfl fun t _ => ?_
  rw [if_pos (by omega), Nat.add_sub_cancel_left]

theorem prep_delayed (hz : o.zeroMean = false) (z : ℕ) (x : Sig s c N) :
    prep o (delayed z x) = delayed z (prep o x) := by
  funext m k t
  rw [prep_eq]
  unfold delayed
  rw [prep_eq, zpad_smul, hz]
  simp only [centred, Bool.false_eq_true, if_false]
  have hg : gain (fun t : Fin (N + z) => if z ≤ t.val then zpad (x m k) (t.val - z) else 0) = gain (x m k) := by
    unfold gain sigNorm
    have : ∀ t : Fin (N + z), (if z ≤ t.val then zpad (x m k) (t.val - z) else 0) ^ 2 =
        if z ≤ t.val then (fun u => zpad (x m k) u ^ 2) (t.val - z) else 0 := by
      intro t; split <;> simp
    simp only [this]
    rw [sum_delayed z (fun u => zpad (x m k) u ^ 2)]
    simp only [zpad_val]
  rw [hg]
  split <;> simp

theorem dot_delayed (z : ℕ) (x y : Fin N → ℝ) :
    dot (fun t : Fin (N + z) => if z ≤ t.val then zpad x (t.val - z) else 0)
      (fun t : Fin (N + z) => if z ≤ t.val then zpad y (t.val - z) else 0) = dot x y := by
  unfold dot
  have : ∀ t : Fin (N + z), (if z ≤ t.val then zpad x (t.val - z) else 0) *
      (if z ≤ t.val then zpad y (t.val - z) else 0) =
        if z ≤ t.val then (fun u => zpad x u * zpad y u) (t.val - z) else 0 := by
    intro t; split <;> simp
  simp only [this]
  rw [sum_delayed z (fun u => zpad x u * zpad y u)]
  simp only [zpad_val]

theorem sum_range_rotate {n : ℕ} (z : ℕ) (f : ℕ → ℝ) :
    ∑ u ∈ Finset.range n, f ((u + z) % n) = ∑ u ∈ Finset.range n, f u := by
  rcases Nat.eq_zero_or_pos n with rfl | hn
  · rfl
  refine Finset.sum_bij (fun u _ => (u + z) % n) (fun u _ => Finset.mem_range.2 (Nat.mod_lt _ hn)) ?_ ?_
    (fun u _ => rfl)
  · intro u hu v hv h
    rw [Finset.mem_range] at hu hv
    have h' : u ≡ v [MOD n] := Nat.ModEq.add_right_cancel' z h
    exact Nat.ModEq.eq_of_lt_of_lt h' hu hv
  · intro v hv
    rw [Finset.mem_range] at hv
    refine ⟨(v + (n - z % n)) % n, Finset.mem_range.2 (Nat.mod_lt _ hn), ?_⟩
    have hz := Nat.mod_lt z hn
    have e1 : ((v + (n - z % n)) % n + z) % n = (v + (n - z % n) + z % n) % n := by
      rw [Nat.mod_add_mod, Nat.add_mod_mod]
    rw [e1, show v + (n - z % n) + z % n = v + n by omega, Nat.add_mod_right, Nat.mod_eq_of_lt hv]

theorem circ_delayed {n z : ℕ} (x : Fin N → ℝ) (y : Fin M → ℝ) (hn : z = 0 ∨ N + z ≤ n ∧ M + z ≤ n) (t : ℕ) :
    circ n (fun t : Fin (N + z) => if z ≤ t.val then zpad x (t.val - z) else 0)
      (fun t : Fin (M + z) => if z ≤ t.val then zpad y (t.val - z) else 0) t = circ n x y t := by
  rcases Nat.eq_zero_or_pos n with rfl | hn0
  · rfl
  rcases hn with rfl | ⟨hn, hn'⟩
  · unfold circ
    simp only [zpad_delayed]
    simp only [Nat.zero_le, if_true, Nat.sub_zero]
  have key : ∀ {N} (_ : N + z ≤ n) (x : Fin N → ℝ) (u : ℕ), u < n →
      (if z ≤ (u + z) % n then zpad x ((u + z) % n - z) else 0) = zpad x u := by
    intro N hn x u hu
    by_cases hw : u + z < n
    · rw [Nat.mod_eq_of_lt hw, if_pos (by omega), Nat.add_sub_cancel]
    · rw [Nat.mod_eq_sub_mod (by omega), Nat.mod_eq_of_lt (by omega), if_neg (by omega), zpad_of_le _ (by omega)]
  unfold circ
  simp only [zpad_delayed]
  rw [← sum_range_rotate z]
  refine Finset.sum_congr rfl fun u hu => ?_
  rw [Finset.mem_range] at hu
  rw [key hn x u hu]
  congr 1
  have : ((u + z) % n + t) % n = ((u + t) % n + z) % n := by
    rw [Nat.mod_add_mod, Nat.mod_add_mod]; congr 1; omega
  rw [this, key hn' y _ (Nat.mod_lt _ hn0)]

theorem corr_delayed (z : ℕ) (x : Fin N → ℝ) (y : Fin M → ℝ) :
    corr (fun t : Fin (N + z) => if z ≤ t.val then zpad x (t.val - z) else 0)
      (fun t : Fin (M + z) => if z ≤ t.val then zpad y (t.val - z) else 0) 0 =
    corr (fun t : Fin (N + z) => zpad x t) (fun t : Fin (M + z) => zpad y t) 0 := by
  unfold corr
  simp only [zpad_delayed, zpad_padded, Nat.add_zero]
  have : ∀ t : Fin (N + z), (if z ≤ t.val then zpad x (t.val - z) else 0) *
      (if z ≤ t.val then zpad y (t.val - z) else 0) =
        if z ≤ t.val then (fun u => zpad x u * zpad y u) (t.val - z) else 0 := by
    intro t; split <;> simp
  simp only [this]
  rw [sum_delayed z (fun u => zpad x u * zpad y u),
    sum_padded z (fun u => zpad x u * zpad y u) fun u hu => by rw [zpad_of_le _ hu, zero_mul]]

theorem same_delayed (hz : o.zeroMean = false) (z : ℕ) (ref : Sig s r N) (est : Sig s e M) :
    Same B o (fun m k (t : Fin (N + z)) => zpad (ref m k) t) (fun m k (t : Fin (M + z)) => zpad (est m k) t)
      (delayed z ref) (delayed z est) := by
  have hp : ∀ {c N} (x : Sig s c N), prep o (fun m k (t : Fin (N + z)) => zpad (x m k) t) =
      fun m k (t : Fin (N + z)) => zpad (prep o x m k) t := fun x => prep_padded hz z x
  have hc : ∀ {n N M} (x : Fin N → ℝ) (y : Fin M → ℝ) (t : ℕ),
      circ n (fun t : Fin (N + z) => zpad x t) (fun t : Fin (M + z) => zpad y t) t = circ n x y t := by
    intro n N M x y t
    unfold circ
    simp only [zpad_padded]
  have hn : ∀ {n}, nFft (N + z) (M + z) = .ok n → z = 0 ∨ N + z ≤ n ∧ M + z ≤ n := by
    intro n h
    have := nFft_bounds h
    omega
  refine ⟨⟨fun _ _ => 1, fun _ _ => 1, ?_⟩, ⟨fun _ _ => 1, fun _ _ => 1, ?_⟩, rfl, rfl, fun _ _ => rfl, fun _ => Iff.rfl⟩
  · refine ⟨fun _ _ => one_mul 1, fun _ _ => one_mul 1, fun m k l => ?_, fun m k l => ?_, id, fun n1 h1 => ⟨n1, h1, rfl, id⟩,
      fun n1 n1' h1 h1' m k l t ht => ?_, fun n1 n1' h1 h1' m k l t ht => ?_⟩
    · rw [prep_delayed hz, hp, one_mul, one_mul]
      exact (dot_delayed z _ _).trans (dot_padded z _ _).symm
    · rw [prep_delayed hz, prep_delayed hz, hp, hp, one_mul, one_mul]
      exact corr_delayed z _ _
    · rw [h1] at h1'; cases h1'
      rw [prep_delayed hz, hp, one_mul, one_mul]
      exact (circ_delayed _ _ ((hn h1).imp id fun h => ⟨h.1, h.1⟩) t).trans (hc _ _ t).symm
    · rw [h1] at h1'; cases h1'
      rw [prep_delayed hz, prep_delayed hz, hp, hp, one_mul, one_mul]
      exact (circ_delayed _ _ (hn h1) t).trans (hc _ _ t).symm
  · refine ⟨fun _ _ => one_mul 1, fun _ _ => one_mul 1, fun m k l => ?_, fun m k l => ?_, id, fun n1 h1 => ⟨n1, h1, rfl, id⟩,
      fun n1 n1' h1 h1' m k l t ht => ?_, fun n1 n1' h1 h1' m k l t ht => ?_⟩
    · rw [prep_delayed hz, hp, one_mul, one_mul]
      exact ((dot_delayed z _ _).trans (dot_padded z _ _).symm).symm
    · rw [prep_delayed hz, prep_delayed hz, hp, hp, one_mul, one_mul]
      exact (corr_delayed z _ _).symm
    · rw [h1] at h1'; cases h1'
      rw [prep_delayed hz, hp, one_mul, one_mul]
      exact ((circ_delayed _ _ ((hn h1).imp id fun h => ⟨h.1, h.1⟩) t).trans (hc _ _ t).symm).symm
    · rw [h1] at h1'; cases h1'
      rw [prep_delayed hz, prep_delayed hz, hp, hp, one_mul, one_mul]
      exact ((circ_delayed _ _ (hn h1) t).trans (hc _ _ t).symm).symm

theorem sameMetrics_trans {N' N'' : ℕ} {ref : Sig s r N} {est : Sig s e N} {ref' : Sig s r N'} {est' : Sig s e N'}
    {ref'' : Sig s r N''} {est'' : Sig s e N''} (h : SameMetrics B o ref est ref' est')
    (h' : SameMetrics B o ref' est' ref'' est'') : SameMetrics B o ref est ref'' est'' :=
  ⟨h'.1.trans h.1, h'.2.trans h.2, fun _ _ => (h'.3 _ _).trans (h.3 _ _), h'.4.trans h.4,
    fun _ => (h'.5 _).trans (h.5 _), h'.6.trans h.6, h'.7.trans h.7, fun _ _ => (h'.8 _ _).trans (h.8 _ _),
    h'.9.trans h.9, fun _ => (h'.10 _).trans (h.10 _)⟩

theorem sameAligned_trans {N' N'' : ℕ} {ref est : Sig s c N} {ref' est' : Sig s c N'}
    {ref'' est'' : Sig s c N''} (h : SameAligned B o ref est ref' est')
    (h' : SameAligned B o ref' est' ref'' est'') : SameAligned B o ref est ref'' est'' :=
  ⟨h'.1.trans h.1, h'.2.trans h.2⟩

/-- **C47.**  Without `zero_mean`: `z` zeros in front of the references and the estimates give exactly
what `z` zeros behind them give, for all options and lengths. -/
theorem C47_silence_moved (hB : Covered B) (hz : o.zeroMean = false) (z : ℕ) (ref : Sig s r N) (est : Sig s e M) :
    SameMetrics B o (fun m k (t : Fin (N + z)) => zpad (ref m k) t) (fun m k (t : Fin (M + z)) => zpad (est m k) t)
      (fun m k (t : Fin (N + z)) => if z ≤ t.val then zpad (ref m k) (t.val - z) else 0)
      (fun m k (t : Fin (M + z)) => if z ≤ t.val then zpad (est m k) (t.val - z) else 0) :=
  sameMetrics hB (same_delayed hz z ref est) fun ld =>
    same_delayed (o := siOpts o.zeroMean o.clampDb ld) hz z ref est

-- an estimate that is longer than the reference
example : SameMetrics (s := []) torchBackend { filterLength := 2 }
    (fun _ (_ : Fin 1) (t : Fin (3 + 4)) => zpad ![1, 2, 3] t) (fun _ (_ : Fin 1) (t : Fin (5 + 4)) => zpad ![1, 0, 2, 0, 3] t)
    (fun _ _ (t : Fin (3 + 4)) => if 4 ≤ t.val then zpad ![1, 2, 3] (t.val - 4) else 0)
    (fun _ _ (t : Fin (5 + 4)) => if 4 ≤ t.val then zpad ![1, 0, 2, 0, 3] (t.val - 4) else 0) :=
  C47_silence_moved Ex.covered rfl 4 (fun _ _ => ![1, 2, 3]) (fun _ _ => ![1, 0, 2, 0, 3])

/-- **C47.**  Without `zero_mean`, filters not too long for the FFT: `z` zeros in front of the
references and the estimates change no metric. -/
theorem C47_leading_silence (hB : Covered B) (hN : 0 < N) (hf : FilterFits N o.filterLength)
    (hz : o.zeroMean = false) (z : ℕ) (ref : Sig s r N) (est : Sig s e N) :
    SameMetrics B o ref est
      (fun m k (t : Fin (N + z)) => if z ≤ t.val then zpad (ref m k) (t.val - z) else 0)
      (fun m k (t : Fin (N + z)) => if z ≤ t.val then zpad (est m k) (t.val - z) else 0) :=
  sameMetrics_trans (C40_trailing_silence hB hN hf hz z ref est) (C47_silence_moved hB hz z ref est)

/-- **C47** for `pairwise=False`. -/
theorem C47_leading_silence_aligned (hB : Covered B) (hN : 0 < N) (hf : FilterFits N o.filterLength)
    (hz : o.zeroMean = false) (z : ℕ) (ref est : Sig s c N) :
    SameAligned B o ref est
      (fun m k (t : Fin (N + z)) => if z ≤ t.val then zpad (ref m k) (t.val - z) else 0)
      (fun m k (t : Fin (N + z)) => if z ≤ t.val then zpad (est m k) (t.val - z) else 0) :=
  sameAligned_trans (C40_trailing_silence_aligned hB hN hf hz z ref est)
    (sameAligned hB (same_delayed hz z ref est) fun ld =>
      same_delayed (o := siOpts o.zeroMean o.clampDb ld) hz z ref est)

example (z : ℕ) : SameAligned torchBackend Ex.opts Ex.ref Ex.est
    (fun m k (t : Fin (3 + z)) => if z ≤ t.val then zpad (Ex.ref m k) (t.val - z) else 0)
    (fun m k (t : Fin (3 + z)) => if z ≤ t.val then zpad (Ex.est m k) (t.val - z) else 0) :=
  C47_leading_silence_aligned Ex.covered (by norm_num) Ex.fits rfl z _ _

example (z : ℕ) : SameMetrics torchBackend Ex.opts Ex.ref Ex.est
    (fun m k (t : Fin (3 + z)) => if z ≤ t.val then zpad (Ex.ref m k) (t.val - z) else 0)
    (fun m k (t : Fin (3 + z)) => if z ≤ t.val then zpad (Ex.est m k) (t.val - z) else 0) :=
  C47_leading_silence Ex.covered (by norm_num) Ex.fits rfl z _ _

/-! ### C48 -/

/-- All channels with their mean removed. -/
noncomputable def centre (x : Sig s c N) : Sig s c N := fun m k t => x m k t - (∑ u, x m k u) / N

theorem prep_centre (hz : o.zeroMean = true) (x : Sig s c N) :
    prep { o with zeroMean := false } (centre x) = prep o x := by
  funext m k
  unfold prep preprocess
  rw [hz]
  rfl

section

variable (hz : o.zeroMean = true)
include hz

theorem sdrAcf_centre (n : ℕ) (ref : Sig s r N) : sdrAcf { o with zeroMean := false } n (centre ref) = sdrAcf o n ref := by
  unfold sdrAcf; rw [prep_centre hz]

theorem sdrXcorr_centre (n : ℕ) (ref : Sig s r N) (est : Sig s e M) :
    sdrXcorr { o with zeroMean := false } n (centre ref) (centre est) = sdrXcorr o n ref est := by
  unfold sdrXcorr; rw [prep_centre hz, prep_centre hz]

theorem bssAcf_centre (n : ℕ) (ref : Sig s r N) : bssAcf { o with zeroMean := false } n (centre ref) = bssAcf o n ref := by
  unfold bssAcf; rw [prep_centre hz]

theorem bssAcfSdr_centre (n : ℕ) (ref : Sig s r N) : bssAcfSdr { o with zeroMean := false } n (centre ref) = bssAcfSdr o n ref := by
  unfold bssAcfSdr; rw [bssAcf_centre hz]

theorem cohSar_centre (n K : ℕ) (ref : Sig s r N) (est : Sig s e M) (x0) :
    cohSar B { o with zeroMean := false } n K (centre ref) (centre est) x0 = cohSar B o n K ref est x0 := by
  unfold cohSar xcorrFlat; rw [bssAcf_centre hz, sdrXcorr_centre hz]

theorem cohSarOne_centre (ref : Sig s r N) (est : Sig s e N) :
    cohSarOne { o with zeroMean := false } (centre ref) (centre est) = cohSarOne o ref est := by
  unfold cohSarOne; rw [prep_centre hz, prep_centre hz]

theorem cohSdrOnePair_centre (ref : Sig s r N) (est : Sig s e N) :
    cohSdrOnePair { o with zeroMean := false } (centre ref) (centre est) = cohSdrOnePair o ref est := by
  unfold cohSdrOnePair; rw [prep_centre hz, prep_centre hz]

theorem cohSdrOneDiag_centre (ref est : Sig s c N) :
    cohSdrOneDiag { o with zeroMean := false } (centre ref) (centre est) = cohSdrOneDiag o ref est := by
  unfold cohSdrOneDiag; rw [prep_centre hz, prep_centre hz]

theorem sdrCohPair_centre (ref : Sig s r N) (est : Sig s e M) :
    sdrCohPair B { o with zeroMean := false } (centre ref) (centre est) = sdrCohPair B o ref est := by
  by_cases h0 : o.filterLength = 0
  · rw [sdrCohPair_zero B (by exact h0), sdrCohPair_zero B (by exact h0)]
  by_cases h1 : o.filterLength = 1
  · by_cases hNM : M = N
    case neg => rw [sdrCohPair_ne B (by exact h1) hNM, sdrCohPair_ne B (by exact h1) hNM]
    subst hNM
    rw [sdrCohPair_def, if_neg (by exact h0), if_pos (by exact h1), sdrCohPair_def, if_neg h0, if_pos h1]
    simp only [cohSdrOnePair_centre hz]
  rw [sdrCohPair_gen B (by show 2 ≤ o.filterLength; omega), sdrCohPair_gen B (by show 2 ≤ o.filterLength; omega)]; unfold sdrCohPairGen
  simp only [sdrAcf_centre hz, sdrXcorr_centre hz]

theorem sdrCohDiag_centre (ref : Sig s c N) (est : Sig s c M) :
    sdrCohDiag B { o with zeroMean := false } (centre ref) (centre est) = sdrCohDiag B o ref est := by
  by_cases h0 : o.filterLength = 0
  · rw [sdrCohDiag_zero B (by exact h0), sdrCohDiag_zero B (by exact h0)]
  by_cases h1 : o.filterLength = 1
  · by_cases hNM : M = N
    case neg => rw [sdrCohDiag_ne B (by exact h1) hNM, sdrCohDiag_ne B (by exact h1) hNM]
    subst hNM
    rw [sdrCohDiag_def, if_neg (by exact h0), if_pos (by exact h1), sdrCohDiag_def, if_neg h0, if_pos h1]
    simp only [cohSdrOneDiag_centre hz]
  rw [sdrCohDiag_gen B (by show 2 ≤ o.filterLength; omega), sdrCohDiag_gen B (by show 2 ≤ o.filterLength; omega)]; unfold sdrCohDiagGen
  simp only [sdrAcf_centre hz, sdrXcorr_centre hz]

theorem sqCosPair_centre (ref : Sig s r N) (est : Sig s e M) :
    sqCosPair B { o with zeroMean := false } (centre ref) (centre est) = sqCosPair B o ref est := by
  by_cases h0 : o.filterLength = 0
  · rw [sqCosPair_zero B (by exact h0), sqCosPair_zero B (by exact h0)]
  by_cases h1 : o.filterLength = 1
  · by_cases hNM : M = N
    case neg => rw [sqCosPair_ne B (by exact h1) hNM, sqCosPair_ne B (by exact h1) hNM]
    subst hNM
    rw [sqCosPair_def, if_neg (by exact h0), if_pos (by exact h1), sqCosPair_def, if_neg h0, if_pos h1]
    simp only [cohSdrOnePair_centre hz, cohSarOne_centre hz]
  rw [sqCosPair_gen B (by show 2 ≤ o.filterLength; omega), sqCosPair_gen B (by show 2 ≤ o.filterLength; omega)]; unfold sqCosPairGen
  simp only [bssAcfSdr_centre hz, sdrXcorr_centre hz, cohSar_centre hz]

theorem sqCosDiag_centre (ref : Sig s c N) (est : Sig s c M) :
    sqCosDiag B { o with zeroMean := false } (centre ref) (centre est) = sqCosDiag B o ref est := by
  by_cases h0 : o.filterLength = 0
  · rw [sqCosDiag_zero B (by exact h0), sqCosDiag_zero B (by exact h0)]
  by_cases h1 : o.filterLength = 1
  · by_cases hNM : M = N
    case neg => rw [sqCosDiag_ne B (by exact h1) hNM, sqCosDiag_ne B (by exact h1) hNM]
    subst hNM
    rw [sqCosDiag_def, if_neg (by exact h0), if_pos (by exact h1), sqCosDiag_def, if_neg h0, if_pos h1]
    simp only [cohSdrOneDiag_centre hz, cohSarOne_centre hz]
  rw [sqCosDiag_gen B (by show 2 ≤ o.filterLength; omega), sqCosDiag_gen B (by show 2 ≤ o.filterLength; omega)]; unfold sqCosDiagGen
  simp only [bssAcfSdr_centre hz, sdrXcorr_centre hz, cohSar_centre hz]

theorem sdrLossPair_centre (ref : Sig s r N) (est : Sig s e M) :
    sdrLossPair B { o with zeroMean := false } (centre est) (centre ref) = sdrLossPair B o est ref := by
  unfold sdrLossPair; rw [sdrCohPair_centre hz]

theorem sdrLossDiag_centre (ref : Sig s c N) (est : Sig s c M) :
    sdrLossDiag B { o with zeroMean := false } (centre est) (centre ref) = sdrLossDiag B o est ref := by
  unfold sdrLossDiag; rw [sdrCohDiag_centre hz]

theorem sdr_centre (rp cs : Bool) (ref : Sig s r N) (est : Sig s e M) :
    sdr B { o with zeroMean := false } rp cs (centre ref) (centre est) = sdr B o rp cs ref est := by
  unfold sdr; rw [sdrLossPair_centre hz]

theorem bssEvalSources_centre (cp : Bool) (ref : Sig s r N) (est : Sig s e M) :
    bssEvalSources B { o with zeroMean := false } cp (centre ref) (centre est) = bssEvalSources B o cp ref est := by
  have hcast : ∀ {c N} (f : Fin (min r e) → Fin c) (x : Sig s c N),
      (fun m k => centre x m (f k)) = centre fun m k => x m (f k) := fun _ _ => rfl
  unfold bssEvalSources bssEvalPerm bssEvalNoPerm
  simp only [hcast, sqCosPair_centre hz, sqCosDiag_centre hz]

/-- **C48.**  `zero_mean=True` is the same as removing the mean of every channel before the call and
using `zero_mean=False`, for the functions with filters. -/
theorem C48_zero_mean (ref : Sig s r N) (est : Sig s e M) (rp cs cp : Bool) :
    sdrLossPair B o est ref = sdrLossPair B { o with zeroMean := false } (centre est) (centre ref) ∧
    pairwiseSdrLoss B o est ref = pairwiseSdrLoss B { o with zeroMean := false } (centre est) (centre ref) ∧
    sdr B o rp cs ref est = sdr B { o with zeroMean := false } rp cs (centre ref) (centre est) ∧
    sdrPitLoss B o est ref = sdrPitLoss B { o with zeroMean := false } (centre est) (centre ref) ∧
    bssEvalSources B o cp ref est = bssEvalSources B { o with zeroMean := false } cp (centre ref) (centre est) :=
  ⟨(sdrLossPair_centre hz _ _).symm, (sdrLossPair_centre hz _ _).symm, (sdr_centre hz _ _ _ _).symm,
    (sdr_centre hz _ _ _ _).symm, (bssEvalSources_centre hz _ _ _).symm⟩

/-- **C48** for `pairwise=False`. -/
theorem C48_zero_mean_aligned (ref : Sig s c N) (est : Sig s c M) :
    sdrLossDiag B o est ref = sdrLossDiag B { o with zeroMean := false } (centre est) (centre ref) :=
  (sdrLossDiag_centre hz _ _).symm

end

/-- **C48** for the scale-invariant functions. -/
theorem C48_zero_mean_si (cl ld : Option ℝ) (ref : Sig s r N) (est : Sig s e M) (rp cs cp : Bool) :
    siSdrLossPair B true cl est ref = siSdrLossPair B false cl (centre est) (centre ref) ∧
    pairwiseSiSdrLoss B true cl est ref = pairwiseSiSdrLoss B false cl (centre est) (centre ref) ∧
    siSdr B true cl rp cs ref est = siSdr B false cl rp cs (centre ref) (centre est) ∧
    siSdrPitLoss B true cl est ref = siSdrPitLoss B false cl (centre est) (centre ref) ∧
    siBssEvalSources B true cl cp ld ref est = siBssEvalSources B false cl cp ld (centre ref) (centre est) :=
  ⟨(sdrLossPair_centre (B := B) (o := siOpts true cl none) rfl _ _).symm,
    (sdrLossPair_centre (B := B) (o := siOpts true cl none) rfl _ _).symm,
    (sdr_centre (B := B) (o := siOpts true cl none) rfl _ _ _ _).symm,
    (sdr_centre (B := B) (o := siOpts true cl none) rfl _ _ _ _).symm,
    (bssEvalSources_centre (B := B) (o := siOpts true cl ld) rfl _ _ _).symm⟩

example (ref : Sig s r N) (est : Sig s e M) :
    sdr torchBackend { filterLength := 2, zeroMean := true } true false ref est =
      sdr torchBackend { filterLength := 2 } true false (centre ref) (centre est) :=
  (C48_zero_mean (o := { filterLength := 2, zeroMean := true }) rfl ref est true false true).2.2.1

/-- **C40 — the condition on `zero_mean`.**  With `zero_mean=True` silence does change the metrics:
for the reference `(1, -1)` and the estimate `(2, 0)` the SI-SDR is `+inf`, with one zero appended to
both it is finite. -/
theorem C40_fails_zero_mean :
    (∃ L, siSdrLossPair (s := []) torchBackend true none (fun _ (_ : Fin 1) => ![2, 0]) (fun _ (_ : Fin 1) => ![1, -1])
      = .ok L ∧ ∀ m, L m 0 0 = ninf) ∧
    ∃ L, siSdrLossPair (s := []) torchBackend true none (fun _ (_ : Fin 1) => ![2, 0, 0])
      (fun _ (_ : Fin 1) => ![1, -1, 0]) = .ok L ∧ ∀ m, ∃ x, L m 0 0 = fin x := by
  have hg : ∀ {N} (x : Fin N → ℝ), 1 ≤ ∑ t, x t ^ 2 → gain x ^ 2 = (∑ t, x t ^ 2)⁻¹ := by
    intro N x hx
    have h1 : (1 : ℝ) ≤ sigNorm x := Real.one_le_sqrt.2 hx
    unfold gain
    rw [max_eq_left (le_trans (by norm_num) h1), inv_pow]
    unfold sigNorm
    rw [Real.sq_sqrt (by linarith)]
  have hval : ∀ {N} (x y : Fin N → ℝ), 1 ≤ ∑ t, centred true x t ^ 2 → 1 ≤ ∑ t, centred true y t ^ 2 →
      coherenceToNegSdr none (fin (dot (preprocess true x) (preprocess true y) ^ 2)) =
      negDb (cclamp none ((∑ t, centred true x t ^ 2)⁻¹ * (∑ t, centred true y t ^ 2)⁻¹ *
        (∑ t, centred true x t * centred true y t) ^ 2)) := by
    intro N x y hx hy
    rw [coherenceToNegSdr_fin, preprocess_eq, preprocess_eq, dot_smul, mul_pow, mul_pow, hg _ hx, hg _ hy]
    rfl
  refine ⟨⟨_, rfl, fun m => ?_⟩, _, rfl, fun m => ?_⟩
  · show coherenceToNegSdr none (fin (dot (preprocess true ![1, -1]) (preprocess true ![2, 0]) ^ 2)) = ninf
    have e1 : centred true ![(1 : ℝ), -1] = ![1, -1] := by
      funext t; fin_cases t <;> norm_num [centred, Fin.sum_univ_two]
    have e2 : centred true ![(2 : ℝ), 0] = ![1, -1] := by
      funext t; fin_cases t <;> norm_num [centred, Fin.sum_univ_two]
    rw [hval _ _ (by rw [e1]; norm_num [Fin.sum_univ_two]) (by rw [e2]; norm_num [Fin.sum_univ_two]), e1, e2]
    have : ((∑ t, ![(1 : ℝ), -1] t ^ 2)⁻¹ * (∑ t, ![(1 : ℝ), -1] t ^ 2)⁻¹ *
        (∑ t, ![(1 : ℝ), -1] t * ![(1 : ℝ), -1] t) ^ 2) = 1 := by norm_num [Fin.sum_univ_two]
    rw [this, cclamp_none zero_le_one le_rfl]
    simp [negDb]
  · show ∃ x, coherenceToNegSdr none (fin (dot (preprocess true ![1, -1, 0]) (preprocess true ![2, 0, 0]) ^ 2)) = fin x
    have e1 : centred true ![(1 : ℝ), -1, 0] = ![1, -1, 0] := by
      funext t; fin_cases t <;> norm_num [centred, Fin.sum_univ_succ]
    have e2 : centred true ![(2 : ℝ), 0, 0] = ![4 / 3, -2 / 3, -2 / 3] := by
      funext t; fin_cases t <;> norm_num [centred, Fin.sum_univ_succ]
    rw [hval _ _ (by rw [e1]; norm_num [Fin.sum_univ_succ]) (by rw [e2]; norm_num [Fin.sum_univ_succ]), e1, e2]
    have : ((∑ t, ![(1 : ℝ), -1, 0] t ^ 2)⁻¹ * (∑ t, ![(4 / 3 : ℝ), -2 / 3, -2 / 3] t ^ 2)⁻¹ *
        (∑ t, ![(1 : ℝ), -1, 0] t * ![(4 / 3 : ℝ), -2 / 3, -2 / 3] t) ^ 2) = 3 / 4 := by
      norm_num [Fin.sum_univ_succ]
    rw [this, cclamp_none (by norm_num) (by norm_num)]
    exact negDb_finite (by norm_num) (by norm_num)

/-! ### C49 -/

theorem negDb_fin {v x : ℝ} (h0 : 0 ≤ v) (h1 : v ≤ 1) (h : negDb v = fin x) :
    0 < v ∧ v < 1 ∧ 1 + (10 : ℝ) ^ (x / 10) = 1 / v := by
  unfold negDb at h
  split at h
  · cases h
  rename_i hv0
  split at h
  · cases h
  rename_i hv1
  have hp : 0 < v := lt_of_le_of_ne h0 (Ne.symm hv0)
  have hl : v < 1 := lt_of_le_of_ne h1 hv1
  refine ⟨hp, hl, ?_⟩
  have hx : x / 10 = Real.logb 10 ((1 - v) / v) := by
    have := XR.fin.inj h
    linarith
  rw [hx, Real.rpow_logb (by norm_num) (by norm_num) (div_pos (by linarith) hp)]
  field_simp
  ring

theorem cclamp_none_interior {c : ℝ} (h0 : 0 < cclamp none c) (h1 : cclamp none c < 1) : cclamp none c = c := by
  unfold cclamp epsOf at *
  simp only [sub_zero] at *
  rcases min_lt_iff.1 h1 with h | h
  · rw [min_eq_left h.le]
    rw [min_eq_left h.le] at h0
    rcases lt_max_iff.1 h0 with h' | h'
    · exact max_eq_left h'.le
    · exact absurd h' (lt_irrefl _)
  · exact absurd h (lt_irrefl _)

theorem base_identity {a b x y z : ℝ} (hx : (baseMetrics none a b).1.neg = fin x)
    (hy : (baseMetrics none a b).2.1.neg = fin y) (hz : (baseMetrics none a b).2.2.neg = fin z) :
    1 + (10 : ℝ) ^ (-x / 10) = (1 + (10 : ℝ) ^ (-y / 10)) * (1 + (10 : ℝ) ^ (-z / 10)) := by
  have hneg : ∀ {u : XR} {w : ℝ}, u.neg = fin w → u = fin (-w) := by
    intro u w h
    rw [← neg_neg' u, h]
    rfl
  have key : ∀ {c w : ℝ}, (coherenceToNegSdr none (fin c)).neg = fin w →
      0 < c ∧ c < 1 ∧ 1 + (10 : ℝ) ^ (-w / 10) = 1 / c := by
    intro c w h
    have h' := hneg h
    rw [coherenceToNegSdr_fin] at h'
    obtain ⟨h1, h2, h3⟩ := negDb_fin (cclamp_nonneg _ _) (cclamp_le _ _) h'
    have hc := cclamp_none_interior h1 h2
    rw [hc] at h1 h2 h3
    exact ⟨h1, h2, h3⟩
  unfold baseMetrics at hx hy hz
  obtain ⟨ha, -, ea⟩ := key hx
  obtain ⟨hb, -, eb⟩ := key hz
  have hd : XR.div (fin a) (fin b) = fin (a / b) := if_neg hb.ne'
  rw [hd] at hy
  obtain ⟨-, -, ec⟩ := key hy
  rw [ea, eb, ec]
  field_simp

theorem bss_entry (hB : Covered B) {cp : Bool} {ref : Sig s r N} {est : Sig s e M} {out}
    (h : bssEvalSources B o cp ref est = .ok out) (m k) : ∃ a b, out.sdr m k = (baseMetrics o.clampDb a b).1.neg ∧
      out.sir m k = (baseMetrics o.clampDb a b).2.1.neg ∧ out.sar m k = (baseMetrics o.clampDb a b).2.2.neg := by
  unfold bssEvalSources at h
  cases cp with
  | true =>
    rw [if_pos rfl] at h
    obtain ⟨sd, sa, p, hL, hp, rfl⟩ := bssEvalPerm_ok h
    obtain ⟨-, P, hP⟩ := solvePermutation_spec B hB.lsa _ _ hp m
    refine ⟨sd m (P.ref k) (P.est k), sa m (P.est k), ?_⟩
    show (p.args 0 m k).neg = _ ∧ (p.loss m k).neg = _ ∧ (p.args 1 m k).neg = _
    rw [hP.loss_eq k, hP.args_eq 0 k, hP.args_eq 1 k]
    exact ⟨rfl, rfl, rfl⟩
  | false =>
    rw [if_neg (by simp)] at h
    split at h
    · cases h
    · unfold bssEvalNoPerm at h
      split at h
      · cases h
      · cases h
        exact ⟨_, _, rfl, rfl, rfl⟩

theorem bss_entry_range (hB : Covered B) (hdir : o.direct) (hload : 0 ≤ o.load)
    (hone : o.filterLength ≠ 1 ∨ o.load = 0) {cp : Bool}
    (hsv : cp = true ∨ o.filterLength = 1 ∨ B.stackedVectors = true)
    {ref : Sig s r N} {est : Sig s e M} {out} (h : bssEvalSources B o cp ref est = .ok out) (m k) :
    ∃ a b : ℝ, (0 ≤ a ∧ a ≤ b ∧ b ≤ 1) ∧ out.sdr m k = (baseMetrics o.clampDb a b).1.neg ∧
      out.sir m k = (baseMetrics o.clampDb a b).2.1.neg ∧ out.sar m k = (baseMetrics o.clampDb a b).2.2.neg := by
  unfold bssEvalSources at h
  cases cp with
  | true =>
    rw [if_pos rfl] at h
    obtain ⟨sd, sa, p, hL, hp, rfl⟩ := bssEvalPerm_ok h
    obtain ⟨-, P, hP⟩ := solvePermutation_spec B hB.lsa _ _ hp m
    obtain ⟨h1, -, -, h4, h5⟩ := sqCosPair_range hB hdir hload ref est hL m (P.ref k) (P.est k)
    refine ⟨sd m (P.ref k) (P.est k), sa m (P.est k), ⟨h1, h5 hone, h4⟩, ?_⟩
    show (p.args 0 m k).neg = _ ∧ (p.loss m k).neg = _ ∧ (p.args 1 m k).neg = _
    rw [hP.loss_eq k, hP.args_eq 0 k, hP.args_eq 1 k]
    exact ⟨rfl, rfl, rfl⟩
  | false =>
    rw [if_neg (by simp)] at h
    split at h
    · cases h
    · have hsv' : o.filterLength = 1 ∨ (o.useCgIter = none ∧ B.stackedVectors = true) := by
        rcases hsv with h | h | h
        · cases h
        · exact Or.inl h
        · rcases hdir with h' | h'
          · exact Or.inl h'
          · exact Or.inr ⟨h', h⟩
      unfold bssEvalNoPerm at h
      cases hp : sqCosPair B o (fun m (k : Fin (min r e)) => ref m (k.castLE (min_le_left r e)))
        (fun m (k : Fin (min r e)) => est m (k.castLE (min_le_right r e))) with
      | error err =>
        obtain ⟨err', he⟩ := sqCosDiag_of_pair_error B o hsv' hp
        rw [he] at h; cases h
      | ok p =>
        obtain ⟨sd, sa⟩ := p
        rw [sqCosDiag_of_pair B o hsv' hp] at h
        cases h
        obtain ⟨h1, -, -, h4, h5⟩ := sqCosPair_range hB hdir hload _ _ hp m k k
        exact ⟨_, _, ⟨h1, h5 hone, h4⟩, rfl, rfl, rfl⟩

/-- **C49.**  Without `clamp_db`, whatever the other options (also with the iterative solver, with
loading and with filters that are too long): whenever the three metrics reported for a pair are finite,
`1 + 1/SDR = (1 + 1/SIR) (1 + 1/SAR)` as ratios of energies.  Two of them determine the third. -/
theorem C49_relation (hB : Covered B) (hcl : o.clampDb = none) {cp : Bool} {ref : Sig s r N} {est : Sig s e M} {out}
    (h : bssEvalSources B o cp ref est = .ok out) {m k} {x y z : ℝ} (hx : out.sdr m k = fin x)
    (hy : out.sir m k = fin y) (hz : out.sar m k = fin z) :
    1 + (10 : ℝ) ^ (-x / 10) = (1 + (10 : ℝ) ^ (-y / 10)) * (1 + (10 : ℝ) ^ (-z / 10)) := by
  obtain ⟨a, b, h1, h2, h3⟩ := bss_entry hB h m k
  rw [hcl] at h1 h2 h3
  exact base_identity (h1.symm.trans hx) (h2.symm.trans hy) (h3.symm.trans hz)

/-! A case with three finite metrics: references `e₀`, `e₁`, estimates `(2, 1, 1)`, `(1, 2, 1)`, SI metrics
(square cosines 4/6, 4/5 and 5/6). -/

namespace Ex49

noncomputable def ref : Sig [] 2 3 := fun _ => ![![1, 0, 0], ![0, 1, 0]]
noncomputable def est : Sig [] 2 3 := fun _ => ![![2, 1, 1], ![1, 2, 1]]

theorem prep_ref (m : BIdx []) (k : Fin 2) : prep (siOpts false none none) ref m k = ref m k := by
  have h1 : sigNorm (ref m k) = 1 := by
    unfold sigNorm
    fin_cases k <;> simp [ref, Fin.sum_univ_succ]
  have h2 : centred (siOpts false none none).zeroMean (ref m k) = ref m k := rfl
  rw [prep_eq, h2, gain_eq (by rw [h1]; norm_num), h1]
  simp

theorem prep_est (m : BIdx []) (j : Fin 2) : prep (siOpts false none none) est m j = fun t => (√6)⁻¹ * est m j t := by
  have h1 : sigNorm (est m j) = √6 := by
    unfold sigNorm
    congr 1
    fin_cases j <;> norm_num [est, Fin.sum_univ_succ]
  have h2 : centred (siOpts false none none).zeroMean (est m j) = est m j := rfl
  have h3 : (1 : ℝ) ≤ √6 := Real.one_le_sqrt.2 (by norm_num)
  rw [prep_eq, h2, gain_eq (by rw [h1]; exact le_trans (by norm_num) h3), h1]

theorem dot_est (m : BIdx []) (k j : Fin 2) : dot (prep (siOpts false none none) ref m k)
    (prep (siOpts false none none) est m j) = (√6)⁻¹ * if k = j then 2 else 1 := by
  rw [prep_ref, prep_est]
  fin_cases k <;> fin_cases j <;> norm_num [dot, ref, est, Fin.sum_univ_succ]

theorem sar : cohSarOne (siOpts false none none) ref est = .ok fun _ _ => 5 / 6 := by
  have hA : (fun (m : BIdx []) => ((fun k l => dot (prep (siOpts false none none) ref m k)
      (prep (siOpts false none none) ref m l)) : Matrix (Fin 2) (Fin 2) ℝ)) = fun _ => (1 : Matrix (Fin 2) (Fin 2) ℝ) := by
    funext m
    ext k l
    rw [prep_ref, prep_ref]
    fin_cases k <;> fin_cases l <;> norm_num [dot, ref, Fin.sum_univ_succ]
  unfold cohSarOne
  have hl : (siOpts false none none).loadDiag = none := rfl
  simp only [hl]
  have hs : solveStack (fun (m : BIdx []) => ((fun k l => dot (prep (siOpts false none none) ref m k)
      (prep (siOpts false none none) ref m l)) : Matrix (Fin 2) (Fin 2) ℝ)) (fun m (j : Fin 2) k =>
      dot (prep (siOpts false none none) ref m k) (prep (siOpts false none none) est m j)) =
      .ok fun m j k => (√6)⁻¹ * if k = j then 2 else 1 := by
    rw [hA]
    unfold solveStack
    rw [if_neg (by simp)]
    simp only [inv_one, Matrix.one_mulVec, dot_est]
  rw [hs]
  simp only [dot_est]
  congr 1
  funext m j
  have h6 : (√6)⁻¹ * (√6)⁻¹ = (1 / 6 : ℝ) := by
    rw [← mul_inv, Real.mul_self_sqrt (by norm_num)]; norm_num
  fin_cases j <;> simp [Fin.sum_univ_two] <;> nlinarith [h6]

end Ex49

example : ∃ out, siBssEvalSources torchBackend false none false none Ex49.ref Ex49.est = .ok out ∧
    ∀ m k, ∃ x y z, out.sdr m k = fin x ∧ out.sir m k = fin y ∧ out.sar m k = fin z ∧
      1 + (10 : ℝ) ^ (-x / 10) = (1 + (10 : ℝ) ^ (-y / 10)) * (1 + (10 : ℝ) ^ (-z / 10)) := by
  have hs : sqCosDiag torchBackend (siOpts false none none) Ex49.ref Ex49.est =
      .ok (cohSdrOneDiag (siOpts false none none) Ex49.ref Ex49.est, fun _ _ => 5 / 6) := by
    simp only [sqCosDiag_def]
    rw [if_neg (by simp [siOpts]), if_pos (show (siOpts false none none).filterLength = 1 from rfl), Ex49.sar]
  have h6 : (√6)⁻¹ ^ 2 = (1 / 6 : ℝ) := by
    rw [inv_pow, Real.sq_sqrt (by norm_num)]; norm_num
  have hd : ∀ m k, cohSdrOneDiag (siOpts false none none) Ex49.ref Ex49.est m k = 4 / 6 := by
    intro m k
    unfold cohSdrOneDiag
    rw [Ex49.dot_est, if_pos rfl, mul_pow, h6]
    norm_num
  have hout : siBssEvalSources torchBackend false none false none Ex49.ref Ex49.est =
      bssEvalNoPerm torchBackend (siOpts false none none) Ex49.ref Ex49.est := by
    unfold siBssEvalSources bssEvalSources
    rw [if_neg (by simp), if_neg (by simp)]
    rfl
  refine ⟨_, by rw [hout]; unfold bssEvalNoPerm; rw [hs], fun m k => ?_⟩
  have hfin : ∀ {v : ℝ}, 0 < v → v < 1 → ∃ x, (coherenceToNegSdr none (fin v)).neg = fin x := by
    intro v h0 h1
    rw [coherenceToNegSdr_fin, cclamp_none h0.le h1.le]
    obtain ⟨x, hx⟩ := negDb_finite h0 h1
    exact ⟨-x, by rw [hx]; rfl⟩
  obtain ⟨x, hx⟩ := hfin (v := 4 / 6) (by norm_num) (by norm_num)
  obtain ⟨y, hy⟩ := hfin (v := 4 / 6 / (5 / 6)) (by norm_num) (by norm_num)
  obtain ⟨z, hz⟩ := hfin (v := 5 / 6) (by norm_num) (by norm_num)
  have hdiv : XR.div (fin (4 / 6)) (fin (5 / 6)) = fin (4 / 6 / (5 / 6)) := if_neg (by norm_num)
  have e1 : (baseMetrics none (4 / 6) (5 / 6)).1.neg = fin x := hx
  have e2 : (baseMetrics none (4 / 6) (5 / 6)).2.1.neg = fin y := by unfold baseMetrics; rw [hdiv]; exact hy
  have e3 : (baseMetrics none (4 / 6) (5 / 6)).2.2.neg = fin z := hz
  refine ⟨x, y, z, ?_, ?_, ?_, base_identity e1 e2 e3⟩
  · rw [← e1, ← hd m k]; rfl
  · rw [← e2, ← hd m k]; rfl
  · rw [← e3, ← hd m k]; rfl

/-- **C49, perfect SIR or SAR.**  Direct solver (no loading for `filter_length=1`), with or without
`clamp_db`: if the SAR is infinite the SDR is the SIR, if the SIR is infinite the SDR is the SAR.
(Infinite values only occur without `clamp_db`.) -/
theorem C49_perfect (hB : Covered B) (hdir : o.direct) (hload : 0 ≤ o.load)
    (hone : o.filterLength ≠ 1 ∨ o.load = 0) {cp : Bool}
    (hsv : cp = true ∨ o.filterLength = 1 ∨ B.stackedVectors = true)
    {ref : Sig s r N} {est : Sig s e M} {out} (h : bssEvalSources B o cp ref est = .ok out) (m k) :
    (out.sar m k = pinf → out.sdr m k = out.sir m k) ∧ (out.sir m k = pinf → out.sdr m k = out.sar m k) := by
  obtain ⟨a, b, ⟨ha, hab, hb⟩, h1, h2, h3⟩ := bss_entry_range hB hdir hload hone hsv h m k
  rw [h1, h2, h3]
  unfold baseMetrics
  have hone' : ∀ {c : ℝ}, 0 ≤ c → c ≤ 1 → (coherenceToNegSdr o.clampDb (fin c)).neg = pinf → c = 1 := by
    intro c h0 h1 h
    rw [coherenceToNegSdr_fin] at h
    cases hcl : o.clampDb with
    | some d =>
      rw [hcl] at h
      obtain ⟨x, hx⟩ := negDb_finite (cclamp_some_pos d c) (cclamp_some_lt d c (cclamp_some_pos d c))
      rw [hx] at h
      cases h
    | none =>
      rw [hcl, cclamp_none h0 h1] at h
      unfold negDb at h
      split at h
      · cases h
      · split at h
        · assumption
        · cases h
  constructor
  · intro hs
    have hb1 := hone' (ha.trans hab) hb hs
    subst hb1
    have : XR.div (fin a) (fin 1) = fin (a / 1) := if_neg one_ne_zero
    simp only [this, div_one]
  · intro hs
    by_cases hb0 : b = 0
    · have ha0 : a = 0 := by linarith
      subst hb0 ha0
      rfl
    · have hbp : 0 < b := lt_of_le_of_ne (ha.trans hab) (Ne.symm hb0)
      have : XR.div (fin a) (fin b) = fin (a / b) := if_neg hb0
      simp only [this] at hs
      have h1 := hone' (div_nonneg ha hbp.le) ((div_le_one hbp).2 hab) hs
      rw [div_eq_one_iff_eq hb0] at h1
      rw [h1]

-- the estimates are combinations of the references: infinite SAR, finite SDR
example : ∃ out, bssEvalSources torchBackend Ex.opts false Ex.ref Ex.est = .ok out ∧
    ∀ m k, out.sar m k = pinf ∧ out.sdr m k = out.sir m k := by
  have hs : sqCosDiag torchBackend Ex.opts Ex.ref Ex.est = _ :=
    sqCosDiag_of_pair _ _ (Or.inr ⟨rfl, rfl⟩) Ex.sqCosPair_value
  have ha : XR.neg (coherenceToNegSdr none (fin 1)) = pinf := by
    rw [coherenceToNegSdr_fin, cclamp_none (by norm_num) (by norm_num)]
    norm_num [negDb, XR.neg]
  obtain ⟨out, hout, hsar⟩ : ∃ out, bssEvalSources torchBackend Ex.opts false Ex.ref Ex.est = .ok out ∧
      ∀ m k, out.sar m k = pinf := by
    unfold bssEvalSources bssEvalNoPerm
    rw [if_neg (by simp), if_neg (by simp)]
    have hs' : sqCosDiag torchBackend Ex.opts
        (fun m (k : Fin (min 2 2)) => Ex.ref m (k.castLE (min_le_left 2 2)))
        (fun m (k : Fin (min 2 2)) => Ex.est m (k.castLE (min_le_right 2 2))) = _ := hs
    rw [hs']
    exact ⟨_, rfl, fun _ _ => ha⟩
  exact ⟨out, hout, fun m k => ⟨hsar m k,
    (C49_perfect Ex.covered Ex.direct Ex.load.ge (Or.inl (by decide)) (Or.inr (Or.inr rfl)) hout m k).1 (hsar m k)⟩⟩

/-! ### C50 -/

theorem dot_comm' (x y : Fin N → ℝ) : dot x y = dot y x :=
  Finset.sum_congr rfl fun _ _ => mul_comm _ _

theorem siSdrLossPair_def (zm : Bool) (cl : Option ℝ) (ref : Sig s r N) (est : Sig s e N) :
    siSdrLossPair B zm cl est ref = .ok fun m k j => coherenceToNegSdr cl
      (fin (dot (prep (siOpts zm cl none) ref m k) (prep (siOpts zm cl none) est m j) ^ 2)) := by
  unfold siSdrLossPair sdrLossPair
  rw [sdrCohPair_def, if_neg (by simp [siOpts]), if_pos (by rfl)]
  rfl

theorem siSdrLossDiag_def (zm : Bool) (cl : Option ℝ) (ref est : Sig s c N) :
    siSdrLossDiag B zm cl est ref = .ok fun m k => coherenceToNegSdr cl
      (fin (dot (prep (siOpts zm cl none) ref m k) (prep (siOpts zm cl none) est m k) ^ 2)) := by
  unfold siSdrLossDiag sdrLossDiag
  rw [sdrCohDiag_def, if_neg (by simp [siOpts]), if_pos (by rfl)]
  rfl

/-- **C50.**  The SI-SDR is symmetric: exchanging references and estimates transposes the matrix. -/
theorem C50_symmetric (zm : Bool) (cl : Option ℝ) (ref : Sig s r N) (est : Sig s e N) :
    ∃ L, siSdrLossPair B zm cl est ref = .ok L ∧ siSdrLossPair B zm cl ref est = .ok fun m j k => L m k j := by
  refine ⟨_, siSdrLossPair_def zm cl ref est, ?_⟩
  rw [siSdrLossPair_def]
  congr 1
  funext m j k
  rw [dot_comm']

example : ∃ L, siSdrLossPair torchBackend true none Ex.est Ex.ref = .ok L ∧
    siSdrLossPair torchBackend true none Ex.ref Ex.est = .ok fun m j k => L m k j :=
  C50_symmetric true none Ex.ref Ex.est

/-- **C50** for `pairwise=False`. -/
theorem C50_symmetric_aligned (zm : Bool) (cl : Option ℝ) (ref est : Sig s c N) :
    siSdrLossDiag B zm cl est ref = siSdrLossDiag B zm cl ref est := by
  rw [siSdrLossDiag_def, siSdrLossDiag_def]
  congr 1
  funext m k
  rw [dot_comm']

example : siSdrLossDiag torchBackend false (some 30) Ex.best Ex.bref =
    siSdrLossDiag torchBackend false (some 30) Ex.bref Ex.best :=
  C50_symmetric_aligned false (some 30) Ex.bref Ex.best

/-- The same pairs, seen from the estimates. -/
def swapPairing (P : Pairing r e) : Pairing e r where
  ref k := P.est (k.cast (min_comm e r))
  est k := P.ref (k.cast (min_comm e r))
  ref_inj := P.est_inj.comp (Fin.cast_injective _)
  est_inj := P.ref_inj.comp (Fin.cast_injective _)

theorem eTotal_swap (P : Pairing r e) (M : Fin r → Fin e → XR) :
    eTotal ((swapPairing P).values fun j k => M k j) = eTotal (P.values M) := by
  unfold eTotal
  exact Fintype.sum_equiv (finCongr (min_comm e r)) _ _ fun k => rfl

/-- **C50.**  Exchanging references and estimates does not change the total of `si_sdr` (nor of
`si_sdr_pit_loss`), and both calls return or raise together. -/
theorem C50_si_sdr_total (hB : Covered B) (zm : Bool) (cl : Option ℝ) (rp cs : Bool) {ref : Sig s r N}
    {est : Sig s e N} {out} (h : siSdr B zm cl rp cs ref est = .ok out) :
    ∃ out', siSdr B zm cl rp cs est ref = .ok out' ∧ ∀ m, eTotal (out'.sdr m) = eTotal (out.sdr m) := by
  obtain ⟨L, hL, hL'⟩ := C50_symmetric (B := B) zm cl ref est
  obtain ⟨L0, p, h1, hp, e1, e2⟩ := sdr_ok h
  have : L0 = L := by
    have : Except.ok L0 = Except.ok L := h1.symm.trans hL
    exact Except.ok.inj this
  subst this
  have hsol : ∀ m, Solvable (L0 m) := (solvePermutation_ok_iff B hB.lsa _ _).1 ⟨p, hp⟩
  have hsol' : ∀ m, Solvable (fun j k => L0 m k j) := fun m => solvable_swap.2 (hsol m)
  obtain ⟨p', hp'⟩ := (solvePermutation_ok_iff B hB.lsa (fun m j k => L0 m k j) (nArgs := 0)
    (fun i => i.elim0)).2 hsol'
  refine ⟨_, sdr_of_ok rp cs hL' hp', fun m => ?_⟩
  obtain ⟨-, P, hP⟩ := solvePermutation_spec B hB.lsa _ _ hp m
  obtain ⟨-, P', hP'⟩ := solvePermutation_spec B hB.lsa _ _ hp' m
  have htot : eTotal (P'.values fun j k => L0 m k j) = eTotal (P.values (L0 m)) := by
    refine le_antisymm ?_ ?_
    · rw [← eTotal_swap P]
      exact hP'.best.eTotal_le (hsol' m) _
    · rw [← eTotal_swap P' fun j k => L0 m k j]
      exact hP.best.eTotal_le (hsol m) _
  have l1 : p.loss m = P.values (L0 m) := funext fun k => hP.loss_eq k
  have l2 : p'.loss m = P'.values fun j k => L0 m k j := funext fun k => hP'.loss_eq k
  rw [e1]
  cases cs
  · show eTotal (fun k => (p'.loss m k).neg) = eTotal (fun k => (p.loss m k).neg)
    have n1 := (hsol m).eTotal_neg P
    have n2 := (hsol' m).eTotal_neg P'
    rw [l1, l2]
    exact n2.trans ((congrArg _ htot).trans n1.symm)
  · show eTotal (p'.loss m) = eTotal (p.loss m)
    rw [l1, l2, htot]

example : ∃ out out', siSdr torchBackend true (some 30) false true Ex.bref Ex.best = .ok out ∧
    siSdr torchBackend true (some 30) false true Ex.best Ex.bref = .ok out' ∧
      ∀ m, eTotal (out'.sdr m) = eTotal (out.sdr m) := by
  obtain ⟨out, h⟩ := Ex.siSdr_ok true 30 false true
  obtain ⟨out', h', h2⟩ := C50_si_sdr_total Ex.covered true (some 30) false true h
  exact ⟨out, out', h, h', h2⟩

end FBE.Props
