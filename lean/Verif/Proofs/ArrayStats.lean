import Verif.Proofs.ApiLaws
import Verif.Proofs.Stats
import Verif.Proofs.Coherence

/-!
# The statements of `metrics.py` on arrays: preprocessing and correlations
-/

set_option linter.unusedSectionVars false

namespace FBE

open Classical Tensor

namespace Arrays

variable {A : Api}

/-- The samples of the array at an index of the other axes. -/
def row (x : Tensor ℝ) (n : ℕ) (i : List ℕ) : Fin n → ℝ := fun t => x.get (t.val :: i)

theorem map_range_eq_ofFn {α : Type} {n : ℕ} (g : ℕ → α) :
    (List.range n).map g = List.ofFn fun t : Fin n => g t.val := by
  refine List.ext_getElem (by simp) fun t h1 h2 => ?_
  simp

theorem getD_ofFn' {α : Type} [Zero α] {n : ℕ} (g : Fin n → α) {t : ℕ} (ht : t < n) :
    (List.ofFn g).getD t 0 = g ⟨t, ht⟩ := by
  simp [ht]

theorem removeMean_eq {x : Tensor ℝ} {n : ℕ} {b : List ℕ} (hx : x.shape = n :: b) :
    Arrays.removeMean A x (-1) = .ok (L1 b n fun i => List.ofFn (FBE.removeMean (row x n i))) := by
  simp only [Arrays.removeMean]
  rw [along_last hx (n' := 1) (fun _ _ => rfl), ok_bind, zip_row hx]
  refine congrArg _ (tab_congr fun i hi => ?_)
  obtain ⟨t, j, rfl, ht, hj⟩ := inRange_cons_inv hi
  show x.get (t :: j) - _ = (List.ofFn _).getD t 0
  rw [getD_ofFn' _ ht, map_range_eq_ofFn]
  simp [FBE.removeMean, row, List.sum_ofFn]

theorem normalize_eq {x : Tensor ℝ} {n : ℕ} {b : List ℕ} (hx : x.shape = n :: b) :
    Arrays.normalize A x (-1) = .ok (L1 b n fun i => List.ofFn (FBE.normalize (row x n i))) := by
  simp only [Arrays.normalize]
  rw [along_last hx (n' := 1) (fun _ _ => rfl), ok_bind, zip_row hx]
  refine congrArg _ (tab_congr fun i hi => ?_)
  obtain ⟨t, j, rfl, ht, hj⟩ := inRange_cons_inv hi
  show x.get (t :: j) / _ = (List.ofFn _).getD t 0
  rw [getD_ofFn' _ ht, map_range_eq_ofFn, List.map_ofFn]
  simp [FBE.normalize, row, List.sum_ofFn]

theorem row_L1 {n : ℕ} {b i : List ℕ} {g : List ℕ → Fin n → ℝ} (hi : InRange b i) :
    row (L1 b n fun i => List.ofFn (g i)) n i = g i := by
  funext t
  exact (L1_get t.isLt hi).trans (getD_ofFn' _ t.isLt)

theorem prepare_eq {x : Tensor ℝ} {n : ℕ} {b : List ℕ} (hx : x.shape = n :: b) (zm : Bool) :
    prepare A zm x = .ok (L1 b n fun i => List.ofFn (preprocess zm (row x n i))) := by
  unfold prepare
  cases zm with
  | false =>
    simp only [Bool.false_eq_true, if_false, ok_bind]
    exact normalize_eq hx
  | true =>
    simp only [if_true]
    rw [removeMean_eq hx, ok_bind, normalize_eq (L1_shape _ _ _)]
    refine congrArg _ (L1_congr fun i hi => ?_)
    rw [row_L1 hi]; rfl

/-! ### `compute_stats` -/

theorem nFft_pos' {N M n : ℕ} (h : nFft N M = .ok n) : 0 < n := by
  unfold nFft at h
  split_ifs at h
  cases h
  exact Nat.pow_pos (by norm_num)

theorem slice_L1 {b : List ℕ} {n L : ℕ} {f : List ℕ → List ℝ} (hf : ∀ i, (f i).length = n) :
    (L1 b n f).slice (-1) none (some (L : ℤ)) =
      .ok (L1 b (min L n) fun i => pySlice (f i) none (some (L : ℤ))) :=
  along_L1 (fun l hl => by rw [pySlice_take, List.length_take, hl]) hf

theorem slice_L2 {b : List ℕ} {n d L : ℕ} {f : List ℕ → ℕ → List ℝ} (hf : ∀ i j, (f i j).length = n) :
    (L2 b n d f).slice (-2) none (some (L : ℤ)) =
      .ok (L2 b (min L n) d fun i j => pySlice (f i j) none (some (L : ℤ))) :=
  along_L2 (fun l hl => by rw [pySlice_take, List.length_take, hl]) hf

theorem slice_L3 {b : List ℕ} {n c d L : ℕ} {f : List ℕ → ℕ → ℕ → List ℝ} (hf : ∀ i k j, (f i k j).length = n) :
    (L3 b n c d f).slice (-3) none (some (L : ℤ)) =
      .ok (L3 b (min L n) c d fun i k j => pySlice (f i k j) none (some (L : ℤ))) :=
  along_L3 (fun l hl => by rw [pySlice_take, List.length_take, hl]) hf

section stats

variable {bx by' b : List ℕ} {r e c N M n L : ℕ} {f g : List ℕ → List ℝ}

/-- Products of spectra, all pairs, frequencies before the last axis. -/
theorem einsum_cnd_L1 {F : ℕ} {f g : List ℕ → List ℂ} (err : PyErr) (hb : bcShape bx by' = some b)
    (hf : ∀ i, (f i).length = F) (hg : ∀ i, (g i).length = F) :
    einsum err ['c', 'n'] ['d', 'n'] ['c', 'n', 'd'] (L1 (r :: bx) F f) (L1 (e :: by') F g) =
      .ok (L2 (r :: b) F e fun i j => List.zipWith (· * ·) (f (i.getD 0 0 :: bcIdx bx (i.drop 1)))
        (g (j :: bcIdx by' (i.drop 1)))) := by
  rw [einsum_cnd err (L1_shape _ _ _) (L1_shape _ _ _) hb]
  refine congrArg _ (tab_congr fun i hi => ?_)
  obtain ⟨j, i, rfl, hj, hi⟩ := inRange_cons_inv hi
  obtain ⟨t, i, rfl, ht, hi⟩ := inRange_cons_inv hi
  obtain ⟨k, i, rfl, hk, hi⟩ := inRange_cons_inv hi
  show (L1 (r :: bx) F f).get (t :: k :: bcIdx bx i) * (L1 (e :: by') F g).get (t :: j :: bcIdx by' i) =
    (List.zipWith _ (f (k :: bcIdx bx i)) (g (j :: bcIdx by' i))).getD t 0
  rw [L1_get ht (inRange_cons.2 ⟨hk, bcIdx_range_left hb hi⟩), L1_get ht (inRange_cons.2 ⟨hj, bcIdx_range_right hb hi⟩),
    Tensor.getD_zipWith _ (by rw [hf]; exact ht) (by rw [hg]; exact ht)]

/-- Products of spectra, all pairs, frequencies first. -/
theorem einsum_ncd_L1 {F : ℕ} {f g : List ℕ → List ℂ} (err : PyErr) (hb : bcShape bx by' = some b)
    (hf : ∀ i, (f i).length = F) (hg : ∀ i, (g i).length = F) :
    einsum err ['c', 'n'] ['d', 'n'] ['n', 'c', 'd'] (L1 (r :: bx) F f) (L1 (e :: by') F g) =
      .ok (L3 b F r e fun i k j => List.zipWith (· * ·) (f (k :: bcIdx bx i)) (g (j :: bcIdx by' i))) := by
  rw [einsum_ncd err (L1_shape _ _ _) (L1_shape _ _ _) hb]
  refine congrArg _ (tab_congr fun i hi => ?_)
  obtain ⟨j, i, rfl, hj, hi⟩ := inRange_cons_inv hi
  obtain ⟨k, i, rfl, hk, hi⟩ := inRange_cons_inv hi
  obtain ⟨t, i, rfl, ht, hi⟩ := inRange_cons_inv hi
  show (L1 (r :: bx) F f).get (t :: k :: bcIdx bx i) * (L1 (e :: by') F g).get (t :: j :: bcIdx by' i) =
    (List.zipWith _ (f (k :: bcIdx bx i)) (g (j :: bcIdx by' i))).getD t 0
  rw [L1_get ht (inRange_cons.2 ⟨hk, bcIdx_range_left hb hi⟩), L1_get ht (inRange_cons.2 ⟨hj, bcIdx_range_right hb hi⟩),
    Tensor.getD_zipWith _ (by rw [hf]; exact ht) (by rw [hg]; exact ht)]

theorem computeStats_error {x y : Tensor ℝ} {bx by' : List ℕ} (hx : x.shape = N :: bx) (hy : y.shape = M :: by')
    {err : PyErr} (hn : nFft N M = .error err) (length : Option ℤ) (pw : Bool) :
    computeStats A x y length pw = .error err := by
  simp only [computeStats, size_one hx, size_one hy, ok_bind, hn, error_bind]

theorem computeStats_pair (hA : A.Lawful) (hb : bcShape bx by' = some b) (hf : ∀ i, (f i).length = N)
    (hg : ∀ i, (g i).length = M) (hn : nFft N M = .ok n) :
    computeStats A (L1 (r :: bx) N f) (L1 (e :: by') M g) (some (L : ℤ)) true =
      .ok (L1 (r :: bx) (min L n) fun i => acf1 n L (f i),
        L2 (r :: b) (min L n) e fun i j => xcorr1 n L (f (i.getD 0 0 :: bcIdx bx (i.drop 1)))
          (g (j :: bcIdx by' (i.drop 1)))) := by
  have h0 := nFft_pos' hn
  simp only [computeStats, size_one (L1_shape _ _ _), ok_bind, hn, Option.getD_some, if_true]
  rw [hA.rfft1 h0 hf, ok_bind, hA.rfft1 h0 hg, ok_bind, map_L1 _ (fun i => rfft_length n _),
    hA.irfftReal1 h0 (fun i => by simp), ok_bind, map_L1 _ (fun i => rfft_length n _),
    einsum_cnd_L1 _ hb (fun i => by simp) (fun i => rfft_length n _), ok_bind,
    hA.irfft2 h0 (fun i j => by simp), ok_bind, slice_L1 (fun i => irfft_length n _), ok_bind,
    slice_L2 (fun i j => irfft_length n _), ok_bind]
  simp only [acf1, xcorr1, List.map_map, Function.comp_def, List.zipWith_map_left]

theorem computeStats_diag (hA : A.Lawful) (hb : bcShape bx by' = some b) (hf : ∀ i, (f i).length = N)
    (hg : ∀ i, (g i).length = M) (hn : nFft N M = .ok n) :
    computeStats A (L1 bx N f) (L1 by' M g) (some (L : ℤ)) false =
      .ok (L1 bx (min L n) fun i => acf1 n L (f i),
        L1 b (min L n) fun i => xcorr1 n L (f (bcIdx bx i)) (g (bcIdx by' i))) := by
  have h0 := nFft_pos' hn
  simp only [computeStats, size_one (L1_shape _ _ _), ok_bind, hn, Option.getD_some, Bool.false_eq_true, if_false]
  rw [hA.rfft1 h0 hf, ok_bind, hA.rfft1 h0 hg, ok_bind, map_L1 _ (fun i => rfft_length n _),
    hA.irfftReal1 h0 (fun i => by simp), ok_bind, map_L1 _ (fun i => rfft_length n _),
    zip_L1 _ _ hb (fun i => by simp) (fun i => rfft_length n _), ok_bind,
    hA.irfft1 h0 (fun i => by simp), ok_bind, slice_L1 (fun i => irfft_length n _), ok_bind,
    slice_L1 (fun i => irfft_length n _), ok_bind]
  simp only [acf1, xcorr1, List.map_map, Function.comp_def, List.zipWith_map_left]

theorem computeStats2_error {x y : Tensor ℝ} {bx by' : List ℕ} (hx : x.shape = N :: bx) (hy : y.shape = M :: by')
    {err : PyErr} (hn : nFft N M = .error err) (length : Option ℤ) :
    computeStats2 A x y length = .error err := by
  simp only [computeStats2, size_one hx, size_one hy, ok_bind, hn, error_bind]

theorem computeStats2_eq (hA : A.Lawful) (hb : bcShape bx by' = some b) (hf : ∀ i, (f i).length = N)
    (hg : ∀ i, (g i).length = M) (hn : nFft N M = .ok n) (hL : 0 < L) :
    computeStats2 A (L1 (r :: bx) N f) (L1 (e :: by') M g) (some (L : ℤ)) =
      .ok (L3 bx (min L n + min L n) r r fun i k l => acf2 n L (f (k :: i)) (f (l :: i)),
        L3 b (min L n) r e fun i k j => xcorr1 n L (f (k :: bcIdx bx i)) (g (j :: bcIdx by' i))) := by
  have h0 := nFft_pos' hn
  have hs : ∀ (l : List ℝ), l.length = n → (pySlice l (some (-(L : ℤ))) none).length = min L n := by
    intro l hl
    rw [pySlice_last _ _ hL, List.length_drop, hl]; omega
  simp only [computeStats2, size_one (L1_shape _ _ _), ok_bind, hn, Option.getD_some]
  rw [hA.rfft1 h0 hf, ok_bind, hA.rfft1 h0 hg, ok_bind, map_L1 _ (fun i => rfft_length n _),
    einsum_ncd_L1 _ (bcShape_self bx) (fun i => rfft_length n _) (fun i => by simp), ok_bind,
    hA.irfft3 h0 (fun i k j => by simp), ok_bind, slice_L3 (fun i k j => irfft_length n _), ok_bind]
  have h1 := along_L3 (b := bx) (c := r) (d := r) hs (fun i k j => irfft_length n
    (List.zipWith (· * ·) (FBE.rfft n (f (k :: bcIdx bx i))) (List.map (starRingEnd ℂ) (FBE.rfft n (f (j :: bcIdx bx i))))))
  unfold Tensor.slice
  rw [h1, ok_bind, cat_L3 _ (fun i k j => by rw [pySlice_take, List.length_take, irfft_length]), ok_bind,
    einsum_ncd_L1 _ hb (fun i => by simp) (fun i => rfft_length n _), ok_bind,
    hA.irfft3 h0 (fun i k j => by simp), ok_bind]
  have h2 := slice_L3 (b := b) (c := r) (d := e) (L := L) (fun i k j => irfft_length n
    (List.zipWith (· * ·) (List.map (starRingEnd ℂ) (FBE.rfft n (f (k :: bcIdx bx i)))) (FBE.rfft n (g (j :: bcIdx by' i)))))
  unfold Tensor.slice at h2
  rw [h2, ok_bind]
  have h3 : (L3 bx (min L n + min L n) r r fun i k j =>
      pySlice (FBE.irfft n (List.zipWith (· * ·) (FBE.rfft n (f (k :: bcIdx bx i)))
        (List.map (starRingEnd ℂ) (FBE.rfft n (f (j :: bcIdx bx i)))))) none (some (L : ℤ)) ++
      pySlice (FBE.irfft n (List.zipWith (· * ·) (FBE.rfft n (f (k :: bcIdx bx i)))
        (List.map (starRingEnd ℂ) (FBE.rfft n (f (j :: bcIdx bx i)))))) (some (-(L : ℤ))) none) =
      L3 bx (min L n + min L n) r r fun i k l => acf2 n L (f (k :: i)) (f (l :: i)) := by
    refine L3_congr fun i hi k _ j _ => ?_
    simp only [bcIdx_self hi, acf2, List.zipWith_map_right]
  rw [h3]
  simp only [xcorr1, List.zipWith_map_left]

end stats

end Arrays

end FBE
