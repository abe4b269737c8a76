import Verif.Proofs.Norm
import Verif.Spec.Lengths
import Verif.Proofs.ExampleRuns

/-!
# C31, C37 — FFT statistics and Toeplitz builders
-/

namespace FBE.Props

open Spec

variable {N : ℕ} {B : Backend}

/-! ### C37 -/

/-- **C37.**  `toeplitz(acf)[i, j] = acf[|i - j|]`, for every size and both packages; the strided view
reads inside of its buffer for every `i`, `j`, and it has as many columns as rows. -/
theorem C37_toeplitz (hB : Covered B) (x : List ℝ) (i j : Fin x.length) :
    x[((i : ℤ) - j).natAbs]? = some (toeplitz B x.length x i j) ∧
    (x.length - 1 - i.val) + j.val < (B.revTail x ++ x).length ∧
    hankelCols (B.revTail x ++ x) x.length = x.length := by
  have hi := i.isLt
  have hj := j.isLt
  have hlen : (B.revTail x ++ x).length = x.length - 1 + x.length := by rw [hB.revTail]; simp
  refine ⟨?_, ?_, ?_⟩
  · rw [toeplitz_apply hB rfl, show ((i : ℤ) - j).natAbs = max i.val j - min i.val j by omega,
      List.getElem?_eq_getElem (by omega), List.getD_eq_getElem _ _ (by omega)]
  · rw [hlen]; omega
  · unfold hankelCols
    rw [hlen]
    omega

/-- **C37.**  `block_toeplitz` of lag arrays storing the lags `0, 1, …` at the start and `…, -2, -1`
at the end (length `2 n`, `n ≥ 2`): the call succeeds, entry `((i, r), (j, c))` is the entry at lag
`j - i`, and every read of the strided view is inside of its buffer. -/
theorem C37_block_toeplitz {B : Backend} {ι : Type} {c n : ℕ} (hn : 2 ≤ n) (x : ι → Fin c → Fin c → List ℝ)
    (hx : ∀ m r d, (x m r d).length = 2 * n) :
    ∃ R, blockToeplitz B n x = .ok R ∧ ∀ m (i j : Fin n) (r d : Fin c),
      (if i ≤ j then (x m r d)[j.val - i.val]? else (x m r d)[2 * n - (i.val - j.val)]?) =
        some (R m (i, r) (j, d)) ∧
      (n - 1 - i.val) + j.val < (blockVec n (x m r d)).length := by
  refine ⟨_, blockToeplitz_ok hn x fun m r d => by rw [hx]; omega, fun m i j r d => ⟨?_, ?_⟩⟩
  · have hi := i.isLt
    have hj := j.isLt
    have hl := hx m r d
    show _ = some (lagAt (x m r d) i j)
    unfold lagAt
    by_cases hij : i ≤ j
    · rw [if_pos hij, if_pos (show i.val ≤ j.val from hij), List.getElem?_eq_getElem (by omega),
        List.getD_eq_getElem _ _ (by omega)]
    · have hij' : j.val < i.val := by simpa using hij
      rw [if_neg hij, if_neg (by omega), hl, List.getElem?_eq_getElem (by omega),
        List.getD_eq_getElem _ _ (by omega)]
  · rw [length_blockVec hn (by rw [hx]; omega)]
    have hi := i.isLt
    have hj := j.isLt
    omega

/-- **C37.**  `block_toeplitz` fails at size one (`x[-1 + 1:]` is the whole array): whatever the two
stored lags are. -/
theorem C37_block_toeplitz_size_one {B : Backend} {ι : Type} [Nonempty ι] {c : ℕ} (hc : 0 < c)
    (x : ι → Fin c → Fin c → List ℝ) (hx : ∀ m r d, (x m r d).length = 2) :
    blockToeplitz B 1 x = .error B.shapeErr := by
  unfold blockToeplitz
  rw [if_pos]
  refine ⟨Classical.arbitrary ι, ⟨0, hc⟩, ⟨0, hc⟩, ?_⟩
  have h := hx (Classical.arbitrary ι) ⟨0, hc⟩ ⟨0, hc⟩
  generalize x (Classical.arbitrary ι) ⟨0, hc⟩ ⟨0, hc⟩ = l at h
  match l, h with
  | [a, b], _ =>
    have : blockVec 1 [a, b] = [a, b, a] := rfl
    rw [this]
    show ((3 : ℕ) : ℤ) - (1 : ℕ) + 1 ≠ (1 : ℕ)
    decide

example : blockToeplitz torchBackend 1 (fun (_ : Unit) (r d : Fin 2) => [1, (r.val : ℝ) + d.val]) = .error .runtimeError :=
  C37_block_toeplitz_size_one (by norm_num) _ fun _ _ _ => rfl

-- an instance with two channels and three lags on each side
example : ∃ R, blockToeplitz torchBackend 2 (fun (_ : Unit) (r d : Fin 2) => [1, r.val + d.val, 7, 5 * r.val]) = .ok R :=
  (C37_block_toeplitz le_rfl _ fun _ _ _ => rfl).imp fun _ h => h.1

example (hB : Covered B) : toeplitz B 3 [4, 2, 1] 0 2 = 1 :=
  (Option.some.inj (C37_toeplitz hB [4, 2, 1] 0 2).1).symm

/-! ### C31 -/

theorem nFft_eq {M n : ℕ} (hn : nFft N M = .ok n) : n = transformSize N M := by
  obtain ⟨h, -⟩ := nFft_bounds hn
  unfold nFft at hn
  rw [if_neg (by omega)] at hn
  exact (Except.ok.inj hn).symm

theorem filterFits₂_self {L : ℕ} : FilterFits₂ N N L ↔ FilterFits N L := by
  unfold FilterFits₂ FilterFits
  rw [max_self, two_mul]

/-- **C31.**  The statistics computed with FFTs (cross-correlations of `compute_stats`, lags
`0 … L-1`) are the true linear correlations for *all* references of `N` and estimates of `M` samples if
and only if the filter fits (`L + N - 1 ≤ n_fft`).  For longer filters there are always signals with
wrong statistics. -/
theorem C31_cross_correlation_lengths_iff {M n L : ℕ} (hn : nFft N M = .ok n) (h0 : 0 < N) (hM : 0 < M) :
    (∀ (x : Fin N → ℝ) (y : Fin M → ℝ), xcorr1 n L (List.ofFn x) (List.ofFn y) =
      List.ofFn fun l : Fin L => corr x y l) ↔ FilterFits₂ N M L := by
  have hn0 := nFft_ne hn
  have hge := (nFft_bounds hn).2
  unfold FilterFits₂
  rw [show 2 ^ Nat.clog 2 (N + max N M - 1) = n from (nFft_eq hn).symm]
  constructor
  · intro h
    by_contra hL
    push Not at hL
    have h1 := h (fun _ => 1) (fun _ => 1)
    have hlen := congrArg List.length h1
    rw [length_xcorr1, List.length_ofFn] at hlen
    have hLn : L ≤ n := by omega
    -- the lag `n - N + 1` is computed as `x[N-1] y[0]`
    have h2 : (xcorr1 n L _ _).getD (n - N + 1) 0 = (List.ofFn _).getD (n - N + 1) 0 :=
      congrArg (fun l : List ℝ => l.getD (n - N + 1) 0) h1
    rw [xcorr1_get n L hn0 _ _ _ (by omega) (by omega), getD_ofFn] at h2
    have hz : zpad (fun l : Fin L => corr (fun _ : Fin N => (1 : ℝ)) (fun _ : Fin M => 1) l) (n - N + 1) = 0 := by
      unfold zpad
      split
      · unfold corr
        refine Finset.sum_eq_zero fun u _ => ?_
        rw [zpad_of_le _ (by simp only; omega), mul_zero]
      · rfl
    rw [hz] at h2
    have h3 : (1 : ℝ) ≤ circ n (fun _ : Fin N => (1 : ℝ)) (fun _ : Fin M => 1) (n - N + 1) := by
      unfold circ
      have hnn : ∀ u ∈ Finset.range n, (0 : ℝ) ≤ zpad (fun _ : Fin N => (1 : ℝ)) u *
          zpad (fun _ : Fin M => (1 : ℝ)) ((u + (n - N + 1)) % n) := by
        intro u _
        unfold zpad
        split <;> split <;> norm_num
      refine le_trans (le_of_eq ?_) (Finset.single_le_sum hnn (Finset.mem_range.2 (show N - 1 < n by omega)))
      rw [show N - 1 + (n - N + 1) = n by omega, Nat.mod_self]
      unfold zpad
      rw [dif_pos (by omega), dif_pos (by omega)]
      norm_num
    linarith
  · intro hL x y
    apply List.ext_getElem
    · rw [length_xcorr1, List.length_ofFn]; omega
    · intro l h1 h2
      rw [length_xcorr1] at h1
      rw [← List.getD_eq_getElem _ 0, xcorr1_get n L hn0 _ _ _ (by omega) (by omega),
        circ_corr n x y l (by omega) (by omega), List.getElem_ofFn]

/-- **C31.**  The same for references and estimates of `N` samples. -/
theorem C31_cross_correlation_iff {n L : ℕ} (hn : nFft N = .ok n) :
    (∀ x y : Fin N → ℝ, xcorr1 n L (List.ofFn x) (List.ofFn y) =
      List.ofFn fun l : Fin L => corr x y l) ↔ FilterFits N L :=
  (C31_cross_correlation_lengths_iff hn (nFft_ok hn).1 (nFft_ok hn).1).trans filterFits₂_self

example : ¬ ∀ x y : Fin 3 → ℝ, xcorr1 8 7 (List.ofFn x) (List.ofFn y) = List.ofFn fun l : Fin 7 => corr x y l := by
  rw [C31_cross_correlation_iff Ex.nFft_three]
  show ¬ 7 + 3 ≤ 2 ^ Nat.clog 2 5 + 1
  decide

example (x y : Fin 3 → ℝ) : xcorr1 8 6 (List.ofFn x) (List.ofFn y) = List.ofFn fun l : Fin 6 => corr x y l :=
  (C31_cross_correlation_iff Ex.nFft_three).2 (by show 6 + 3 ≤ 2 ^ Nat.clog 2 5 + 1; decide) x y

/-- **C31.**  The autocorrelations of `compute_stats`. -/
theorem C31_autocorrelation {M n L : ℕ} (hn : nFft N M = .ok n) (h0 : 0 < N) (hL : FilterFits₂ N M L)
    (x : Fin N → ℝ) : acf1 n L (List.ofFn x) = List.ofFn fun l : Fin L => corr x x l := by
  have hn0 := nFft_ne hn
  unfold FilterFits₂ at hL
  rw [show 2 ^ Nat.clog 2 (N + max N M - 1) = n from (nFft_eq hn).symm] at hL
  have hge := (nFft_bounds hn).2
  rw [acf1_eq_xcorr1]
  apply List.ext_getElem
  · rw [length_xcorr1, List.length_ofFn]; omega
  · intro l h1 h2
    rw [length_xcorr1] at h1
    rw [← List.getD_eq_getElem _ 0, xcorr1_get n L hn0 _ _ _ (by omega) (by omega),
      circ_corr n x x l (by omega) (by omega), List.getElem_ofFn]

example (x : Fin 3 → ℝ) : acf1 8 6 (List.ofFn x) = List.ofFn fun l : Fin 6 => corr x x l :=
  C31_autocorrelation (M := 3) Ex.nFft_three (by norm_num) (by unfold FilterFits₂; decide) x

/-- **C31.**  The statistics of `compute_stats_2` (all pairs of references): lags `0 … L-1` first, and
lag `-j` for `0 < j < L` at position `2L - j`. -/
theorem C31_all_pairs {M n L : ℕ} (hn : nFft N M = .ok n) (hN0 : 0 < N) (hL : FilterFits₂ N M L) (hL2 : 2 ≤ L)
    (x y : Fin N → ℝ) : (acf2 n L (List.ofFn x) (List.ofFn y)).length = 2 * L ∧
      (∀ l < L, (acf2 n L (List.ofFn x) (List.ofFn y))[l]? = some (corr y x l)) ∧
      (∀ j < L, 0 < j → (acf2 n L (List.ofFn x) (List.ofFn y))[2 * L - j]? = some (corr x y j)) := by
  have hn0 := nFft_ne hn
  have hN := (nFft_bounds hn).2
  unfold FilterFits₂ at hL
  rw [show 2 ^ Nat.clog 2 (N + max N M - 1) = n from (nFft_eq hn).symm] at hL
  have hlen : (acf2 n L (List.ofFn x) (List.ofFn y)).length = 2 * L := by
    rw [length_acf2 _ _ (by omega)]; omega
  refine ⟨hlen, fun l hl => ?_, fun j hj h0 => ?_⟩
  · rw [List.getElem?_eq_getElem (by omega), ← List.getD_eq_getElem _ 0,
      acf2_get n L hn0 x y l hl (by omega), circ_corr n y x l (by omega) (by omega)]
  · rw [List.getElem?_eq_getElem (by omega), ← List.getD_eq_getElem _ 0,
      acf2_get_neg n L hn0 (by omega) x y j h0 hj, circ_corr n x y j (by omega) (by omega)]

example (x y : Fin 3 → ℝ) : (acf2 8 2 (List.ofFn x) (List.ofFn y))[3]? = some (corr x y 1) :=
  (C31_all_pairs (M := 3) Ex.nFft_three (by norm_num) (by unfold FilterFits₂; decide) le_rfl x y).2.2 1 (by norm_num)
    (by norm_num)

/-- **C31.**  The usual situation: the filter is not longer than the signal. -/
theorem C31_filter_fits {L : ℕ} (hN : 0 < N) (hL : L ≤ N) : FilterFits N L := by
  unfold FilterFits
  have := Nat.le_pow_clog (b := 2) (by norm_num) (2 * N - 1)
  omega

-- 100 samples, filter of 40 taps: fits; 2 samples, 4 taps: does not (aliasing)
example : FilterFits 100 40 := C31_filter_fits (by norm_num) (by norm_num)

example : nFft 2 = .ok 4 ∧ ¬ FilterFits 2 4 := by
  have : Nat.clog 2 3 = 2 := by decide
  constructor
  · simp only [nFft_def]; simp [this]
  · unfold FilterFits; rw [show 2 * 2 - 1 = 3 by norm_num, this]; norm_num

end FBE.Props
