import Verif.Proofs.ArrayReject
import Verif.Props.C11_C17_Permutation

/-!
# Lengths and numbers of iterations that are zero or negative
-/

set_option linter.unusedSectionVars false

namespace FBE

open Classical Matrix Spec Tensor

theorem pySlice_neg_stop {α : Type} {l : List α} {n : ℕ} (k : ℕ) (hl : l.length = n) (hk : 0 < k) :
    pySlice l none (some (-(k : ℤ))) = pySlice l none (some ((n - k : ℕ) : ℤ)) := by
  unfold pySlice
  simp only [hl]
  rw [clipUp_neg _ _ hk, clipUp_nat, min_eq_right (Nat.sub_le n k)]

theorem pySlice_neg_neg {α : Type} {l : List α} {n : ℕ} (k : ℕ) (hl : l.length = n) (hk : k < n) :
    pySlice l (some (-(-(k : ℤ)))) none = pySlice l (some (-((n - k : ℕ) : ℤ))) none := by
  rw [neg_neg, pySlice_drop, pySlice_last _ _ (by omega), hl]
  congr 1
  omega

namespace Arrays

variable {A : Api} {b bx by' : List ℕ} {r e c N M n : ℕ} {o : AOpts} {ref est : Tensor ℝ}

theorem slice_neg_L1 {f : List ℕ → List ℝ} (hf : ∀ i, (f i).length = n) {k : ℕ} (hk : 0 < k) :
    (L1 b n f).slice (-1) none (some (-(k : ℤ))) = (L1 b n f).slice (-1) none (some ((n - k : ℕ) : ℤ)) := by
  rw [slice_L1 hf]
  refine (along_L1 (n' := min (n - k) n) (fun l hl => ?_) hf).trans (congrArg _ (L1_congr fun i _ => ?_))
  · rw [pySlice_neg_stop k hl hk, pySlice_take, List.length_take, hl]
  · exact pySlice_neg_stop k (hf i) hk

theorem slice_neg_L2 {d : ℕ} {f : List ℕ → ℕ → List ℝ} (hf : ∀ i j, (f i j).length = n) {k : ℕ} (hk : 0 < k) :
    (L2 b n d f).slice (-2) none (some (-(k : ℤ))) = (L2 b n d f).slice (-2) none (some ((n - k : ℕ) : ℤ)) := by
  rw [slice_L2 hf]
  refine (along_L2 (n' := min (n - k) n) (fun l hl => ?_) hf).trans (congrArg _ ?_)
  · rw [pySlice_neg_stop k hl hk, pySlice_take, List.length_take, hl]
  · exact congrArg _ (by funext i j; exact pySlice_neg_stop k (hf i j) hk)

theorem slice_neg_L3 {d : ℕ} {f : List ℕ → ℕ → ℕ → List ℝ} (hf : ∀ i l j, (f i l j).length = n) {k : ℕ} (hk : 0 < k) :
    (L3 b n c d f).slice (-3) none (some (-(k : ℤ))) = (L3 b n c d f).slice (-3) none (some ((n - k : ℕ) : ℤ)) := by
  rw [slice_L3 hf]
  refine (along_L3 (n' := min (n - k) n) (fun l hl => ?_) hf).trans (congrArg _ ?_)
  · rw [pySlice_neg_stop k hl hk, pySlice_take, List.length_take, hl]
  · exact congrArg _ (by funext i l j; exact pySlice_neg_stop k (hf i l j) hk)

theorem computeStats_neg_pair (hA : A.Lawful) {f g : List ℕ → List ℝ} (hb : bcShape bx by' = some b)
    (hf : ∀ i, (f i).length = N) (hg : ∀ i, (g i).length = M) (hn : nFft N M = .ok n) {k : ℕ} (hk : 0 < k) :
    computeStats A (L1 (r :: bx) N f) (L1 (e :: by') M g) (some (-(k : ℤ))) true =
      computeStats A (L1 (r :: bx) N f) (L1 (e :: by') M g) (some ((n - k : ℕ) : ℤ)) true := by
  have h0 := nFft_pos' hn
  simp only [computeStats, size_one (L1_shape _ _ _), ok_bind, hn, Option.getD_some, if_true]
  rw [hA.rfft1 h0 hf, ok_bind, hA.rfft1 h0 hg, ok_bind, map_L1 _ (fun i => rfft_length n _),
    hA.irfftReal1 h0 (fun i => by simp), ok_bind, map_L1 _ (fun i => rfft_length n _),
    einsum_cnd_L1 _ hb (fun i => by simp) (fun i => rfft_length n _), ok_bind,
    hA.irfft2 h0 (fun i j => by simp), ok_bind, slice_neg_L1 (fun i => irfft_length n _) hk,
    slice_neg_L2 (fun i j => irfft_length n _) hk, ok_bind, ok_bind, map_L1 _ (fun i => rfft_length n _),
    hA.irfftReal1 h0 (fun i => by simp), ok_bind, map_L1 _ (fun i => rfft_length n _),
    einsum_cnd_L1 _ hb (fun i => by simp) (fun i => rfft_length n _), ok_bind,
    hA.irfft2 h0 (fun i j => by simp), ok_bind]

theorem computeStats_neg_diag (hA : A.Lawful) {f g : List ℕ → List ℝ} (hb : bcShape bx by' = some b)
    (hf : ∀ i, (f i).length = N) (hg : ∀ i, (g i).length = M) (hn : nFft N M = .ok n) {k : ℕ} (hk : 0 < k) :
    computeStats A (L1 bx N f) (L1 by' M g) (some (-(k : ℤ))) false =
      computeStats A (L1 bx N f) (L1 by' M g) (some ((n - k : ℕ) : ℤ)) false := by
  have h0 := nFft_pos' hn
  simp only [computeStats, size_one (L1_shape _ _ _), ok_bind, hn, Option.getD_some, Bool.false_eq_true, if_false]
  rw [hA.rfft1 h0 hf, ok_bind, hA.rfft1 h0 hg, ok_bind, map_L1 _ (fun i => rfft_length n _),
    hA.irfftReal1 h0 (fun i => by simp), ok_bind, map_L1 _ (fun i => rfft_length n _),
    zip_L1 _ _ hb (fun i => by simp) (fun i => rfft_length n _), ok_bind,
    hA.irfft1 h0 (fun i => by simp), ok_bind, slice_neg_L1 (fun i => irfft_length n _) hk,
    slice_neg_L1 (fun i => irfft_length n _) hk, ok_bind, ok_bind, map_L1 _ (fun i => rfft_length n _),
    hA.irfftReal1 h0 (fun i => by simp), ok_bind, map_L1 _ (fun i => rfft_length n _),
    zip_L1 _ _ hb (fun i => by simp) (fun i => rfft_length n _), ok_bind,
    hA.irfft1 h0 (fun i => by simp), ok_bind]

theorem sdrLoss_neg_pair (hA : A.Lawful) (href : ref.shape = N :: r :: bx) (hest : est.shape = M :: e :: by')
    (hN : 0 < N) (hn : nFft N M = .ok n) {k : ℕ} (hk : 0 < k) (h1 : n - k ≠ 1) :
    sdrLoss A { o with filterLength := some (-(k : ℤ)) } true est ref =
      sdrLoss A { o with filterLength := some ((n - k : ℕ) : ℤ) } true est ref := by
  have e1 : (some (-(k : ℤ))) ≠ some 1 := by simp; omega
  have e2 : (some ((n - k : ℕ) : ℤ)) ≠ some 1 := by simpa using h1
  cases hb : bcShape bx by' with
  | none => rw [sdrLoss_pair_bc hA href hest hb hN fun h => absurd h e1,
      sdrLoss_pair_bc hA href hest hb hN fun h => absurd h e2]
  | some b =>
    rw [sdrLoss_gen A e1, sdrLoss_gen A e2]
    simp only [sdrLossGen]
    rw [prepare_eq hest, ok_bind, prepare_eq href, ok_bind,
      computeStats_neg_pair hA hb (fun i => by simp) (fun i => by simp) hn hk]
    rfl

theorem sdrLoss_neg_diag (hA : A.Lawful) (href : ref.shape = N :: bx) (hest : est.shape = M :: by')
    (hN : 0 < N) (hn : nFft N M = .ok n) {k : ℕ} (hk : 0 < k) (h1 : n - k ≠ 1) :
    sdrLoss A { o with filterLength := some (-(k : ℤ)) } false est ref =
      sdrLoss A { o with filterLength := some ((n - k : ℕ) : ℤ) } false est ref := by
  have e1 : (some (-(k : ℤ))) ≠ some 1 := by simp; omega
  have e2 : (some ((n - k : ℕ) : ℤ)) ≠ some 1 := by simpa using h1
  cases hb : bcShape bx by' with
  | none => rw [sdrLoss_diag_bc hA href hest hb hN fun h => absurd h e1,
      sdrLoss_diag_bc hA href hest hb hN fun h => absurd h e2]
  | some b =>
    rw [sdrLoss_gen A e1, sdrLoss_gen A e2]
    simp only [sdrLossGen]
    rw [prepare_eq hest, ok_bind, prepare_eq href, ok_bind,
      computeStats_neg_diag hA hb (fun i => by simp) (fun i => by simp) hn hk]
    rfl

/-! ### no taps -/

theorem solve_not_square (hA : Installed A) {R y : Tensor ℝ} {n' : ℕ} {s : List ℕ} (hR : R.shape = n' :: n :: s)
    (h : n' ≠ n) : ∃ err, A.solve R y = .error err := by
  have hmat : ∀ err (y : Tensor ℝ), ∃ err', solveMat err R y = .error err' := by
    intro err y
    unfold solveMat
    split
    · rename_i a m sa k m' sb hR' hy
      rw [hR] at hR'
      cases hR'
      rw [if_pos h]
      exact ⟨_, rfl⟩
    · exact ⟨_, rfl⟩
  have hvec : ∀ err (y : Tensor ℝ), ∃ err', Tensor.solveVec err R y = .error err' := by
    intro err y
    obtain ⟨err', h'⟩ := hmat err (y.unsqueeze 0)
    exact ⟨err', by unfold Tensor.solveVec; rw [h']⟩
  rcases hA with rfl | rfl | ⟨lsa, n2, -, rfl⟩
  · show ∃ err, solveTorch R y = .error err
    unfold solveTorch
    split_ifs
    · exact hvec _ _
    · exact hmat _ _
  · show ∃ err, compatSolve R y = .error err
    unfold compatSolve
    split_ifs
    · exact hvec _ _
    · exact hmat _ _
  · show ∃ err, solveNumpy n2 R y = .error err
    unfold solveNumpy
    by_cases h' : (if n2 = true then y.shape.length = 1 else y.shape.length = R.shape.length - 1)
    · rw [if_pos h']
      exact hvec _ _
    · rw [if_neg h']
      exact hmat _ _

theorem rfft_zero (hA : Installed A) {f : List ℕ → List ℝ} :
    ∃ err, A.rfft (L1 b 0 f) none (-1) = .error err := by
  have h : ∀ err, Tensor.rfftT err (L1 b 0 f) none (-1) = .error err := by
    intro err
    unfold Tensor.rfftT
    rw [size_one (L1_shape _ _ _)]
    rfl
  rcases hA with rfl | rfl | ⟨lsa, n2, -, rfl⟩
  · exact ⟨_, h _⟩
  · refine ⟨.runtimeError, ?_⟩
    change compatRfft (L1 b 0 f) none (-1) = _
    unfold compatRfft
    rw [transpose_L1, ok_bind, size_one (L1_shape _ _ _), ok_bind]
    rfl
  · exact ⟨_, h _⟩

theorem solveOne_zero (hA : Installed A) (cg : Option ℤ) {f : List ℕ → List ℝ} (hf : ∀ i, (f i).length = 0)
    (y : Tensor ℝ) : ∃ err, solveOne A cg (L1 b 0 f) y = .error err := by
  cases cg with
  | none =>
    have hr : ∀ l : List ℝ, l.length = 0 → (A.B.revTail l).length = 0 := by
      intro l hl
      rw [hA.covered.revTail, List.length_reverse, List.length_drop, hl]
    simp only [solveOne, Arrays.toeplitz, bind_assoc]
    rw [along_L1 hr hf, ok_bind, cat_L1 _ (fun i => hr _ (hf i)), ok_bind, size_one (L1_shape _ _ _), ok_bind]
    simp only [Arrays.hankelView, L1_shape]
    rw [if_neg (by omega), ok_bind]
    simp only [along, tab_shape, List.length_cons, axisPos_two]
    refine solve_not_square hA (n' := 1) (n := 0) (s := b) ?_ (by omega)
    simp [tab, fibre]
  | some it =>
    have hs : ∀ l : List ℝ, l.length = 0 → (pySlice l (some 1) none).length = 0 := by
      intro l hl; rw [pySlice_from_one, List.length_drop, hl]
    have h1 : ∀ l : List ℝ, l.length = 0 → (pySlice l none (some 1)).length = 0 := by
      intro l hl; rw [pySlice_one, List.length_take, hl]; omega
    have h2 : Arrays.symPrecondCol A (L1 b 0 f) = .ok (L1 b 0 fun i => FBE.symPrecondCol (f i)) := by
      simp only [Arrays.symPrecondCol, Tensor.slice]
      rw [size_one (L1_shape _ _ _), ok_bind, ramp_eq,
        along_L1 (fun l hl => by rw [List.length_reverse, hl]) (fun i => by simp),
        ok_bind, along_L1 hs hf, ok_bind, zip_L1_row _ _ (fun i => hs _ (hf i)) (by simp), ok_bind,
        along_L1 (fun l hl => by rw [List.length_reverse, hl]) (fun i => by simp), ok_bind,
        zip_L1_same _ _ (fun i => by simp) (fun i => by simp), ok_bind, along_L1 h1 hf,
        ok_bind, cat_L1 _ (fun i => h1 _ (hf i))]
      refine congrArg _ (L1_congr fun i hi => ?_)
      unfold FBE.symPrecondCol
      rw [hf i]
    obtain ⟨err, h3⟩ := rfft_zero (b := b) hA (f := fun i => FBE.symPrecondCol (f i))
    refine ⟨err, ?_⟩
    simp only [solveOne, Arrays.toeplitzCg, Arrays.circPrecond, h2, ok_bind, h3]
    rfl

theorem loadFirst_zero {f : List ℕ → List ℝ} (d : Option ℝ) :
    loadFirst d (L1 b 0 f) = .ok (L1 b 0 f) ∨ ∃ err, loadFirst d (L1 b 0 f) = .error err := by
  cases d with
  | none => exact .inl rfl
  | some d =>
    refine .inr ⟨.indexError, ?_⟩
    simp only [loadFirst, size_one (L1_shape _ _ _), ok_bind, if_true]

theorem sdrLoss_zero_pair (hA : Installed A) (href : ref.shape = N :: r :: bx) (hest : est.shape = M :: e :: by') :
    ∃ err, sdrLoss A { o with filterLength := some 0 } true est ref = .error err := by
  have e1 : (some (0 : ℤ)) ≠ some 1 := by simp
  rw [sdrLoss_gen A e1]
  simp only [sdrLossGen]
  rw [prepare_eq hest, ok_bind, prepare_eq href, ok_bind]
  cases hn : nFft N M with
  | error err => rw [computeStats_error rfl rfl hn]; exact ⟨_, rfl⟩
  | ok n =>
    cases hb : bcShape bx by' with
    | none =>
      have h0 := nFft_pos' hn
      simp only [computeStats, size_one (L1_shape _ _ _), ok_bind, hn, if_true]
      rw [hA.lawful.rfft1 h0 (fun i => by simp), ok_bind, hA.lawful.rfft1 h0 (fun i => by simp), ok_bind,
        map_L1 _ (fun i => rfft_length n _), hA.lawful.irfftReal1 h0 (fun i => by simp), ok_bind,
        map_L1 _ (fun i => rfft_length n _), einsum_cnd_bc _ (L1_shape _ _ _) (L1_shape _ _ _) hb]
      exact ⟨_, rfl⟩
    | some b =>
      rw [show (some (0 : ℤ)) = some ((0 : ℕ) : ℤ) from rfl,
        computeStats_pair hA.lawful hb (fun i => by simp) (fun i => by simp) hn, ok_bind]
      dsimp only
      rw [Nat.zero_min]
      rcases loadFirst_zero (b := r :: bx) (f := fun i =>
        acf1 n 0 (List.ofFn (preprocess o.zeroMean (row ref N i)))) o.loadDiag with h | ⟨err, h⟩
      · rw [h, ok_bind]
        obtain ⟨err, h⟩ := solveOne_zero (b := r :: bx) hA o.useCgIter (f := fun i =>
          acf1 n 0 (List.ofFn (preprocess o.zeroMean (row ref N i)))) (fun i => by simp [length_acf1])
          (L2 (r :: b) 0 e fun i j => xcorr1 n 0
            (List.ofFn (preprocess o.zeroMean (row ref N (i.getD 0 0 :: bcIdx bx (i.drop 1)))))
            (List.ofFn (preprocess o.zeroMean (row est M (j :: bcIdx by' (i.drop 1))))))
        rw [h]
        exact ⟨_, rfl⟩
      · rw [h]
        exact ⟨_, rfl⟩

theorem sdrLoss_zero_diag (hA : Installed A) (href : ref.shape = N :: bx) (hest : est.shape = M :: by') :
    ∃ err, sdrLoss A { o with filterLength := some 0 } false est ref = .error err := by
  have e1 : (some (0 : ℤ)) ≠ some 1 := by simp
  rw [sdrLoss_gen A e1]
  simp only [sdrLossGen]
  rw [prepare_eq hest, ok_bind, prepare_eq href, ok_bind]
  cases hn : nFft N M with
  | error err => rw [computeStats_error rfl rfl hn]; exact ⟨_, rfl⟩
  | ok n =>
    cases hb : bcShape bx by' with
    | none =>
      have h0 := nFft_pos' hn
      simp only [computeStats, size_one (L1_shape _ _ _), ok_bind, hn, Bool.false_eq_true, if_false]
      rw [hA.lawful.rfft1 h0 (fun i => by simp), ok_bind, hA.lawful.rfft1 h0 (fun i => by simp), ok_bind,
        map_L1 _ (fun i => rfft_length n _), hA.lawful.irfftReal1 h0 (fun i => by simp), ok_bind,
        map_L1 _ (fun i => rfft_length n _), zip_bc _ _ (by rw [L1_shape, L1_shape]; exact bcShape_cons_none hb)]
      exact ⟨_, rfl⟩
    | some b =>
      rw [show (some (0 : ℤ)) = some ((0 : ℕ) : ℤ) from rfl,
        computeStats_diag hA.lawful hb (fun i => by simp) (fun i => by simp) hn, ok_bind]
      dsimp only
      rw [Nat.zero_min]
      rcases loadFirst_zero (b := bx) (f := fun i =>
        acf1 n 0 (List.ofFn (preprocess o.zeroMean (row ref N i)))) o.loadDiag with h | ⟨err, h⟩
      · rw [h, ok_bind]
        obtain ⟨err, h⟩ := solveOne_zero (b := bx) hA o.useCgIter (f := fun i =>
          acf1 n 0 (List.ofFn (preprocess o.zeroMean (row ref N i)))) (fun i => by simp [length_acf1])
          (L1 b 0 fun i => xcorr1 n 0 (List.ofFn (preprocess o.zeroMean (row ref N (bcIdx bx i))))
            (List.ofFn (preprocess o.zeroMean (row est M (bcIdx by' i)))))
        rw [h]
        exact ⟨_, rfl⟩
      · rw [h]
        exact ⟨_, rfl⟩

/-! ### `bss_eval_sources` -/

/-- Sizes of the statistics for any value of `filter_length`. -/
theorem computeStats2_any (hA : A.Lawful) {f g : List ℕ → List ℝ} (hf : ∀ i, (f i).length = N)
    (hg : ∀ i, (g i).length = M) (hn : nFft N M = .ok n) (l : ℤ) {na nb : ℕ}
    (h1 : ∀ z : List ℝ, z.length = n → (pySlice z none (some l)).length = na)
    (h2 : ∀ z : List ℝ, z.length = n → (pySlice z (some (-l)) none).length = nb) :
    (∃ err, computeStats2 A (L1 (r :: bx) N f) (L1 (e :: by') M g) (some l) = .error err) ∨
    ∃ b F G, bcShape bx by' = some b ∧ (∀ i k j, (F i k j).length = na + nb) ∧ (∀ i k j, (G i k j).length = na) ∧
      computeStats2 A (L1 (r :: bx) N f) (L1 (e :: by') M g) (some l) =
        .ok (L3 bx (na + nb) r r F, L3 b na r e G) := by
  have h0 := nFft_pos' hn
  simp only [computeStats2, size_one (L1_shape _ _ _), ok_bind, hn, Option.getD_some]
  rw [hA.rfft1 h0 hf, ok_bind, hA.rfft1 h0 hg, ok_bind, map_L1 _ (fun i => rfft_length n _),
    einsum_ncd_L1 _ (bcShape_self bx) (fun i => rfft_length n _) (fun i => by simp), ok_bind,
    hA.irfft3 h0 (fun i k j => by simp), ok_bind]
  unfold Tensor.slice
  rw [along_L3 h1 (fun i k j => irfft_length n _), ok_bind, along_L3 h2 (fun i k j => irfft_length n _), ok_bind,
    cat_L3 _ (fun i k j => h1 _ (irfft_length n _)), ok_bind]
  cases hb : bcShape bx by' with
  | none =>
    rw [einsum_ncd_bc _ (L1_shape _ _ _) (L1_shape _ _ _) hb]
    exact .inl ⟨_, rfl⟩
  | some b =>
    rw [einsum_ncd_L1 _ hb (fun i => by simp) (fun i => rfft_length n _), ok_bind,
      hA.irfft3 h0 (fun i k j => by simp), ok_bind, along_L3 h1 (fun i k j => irfft_length n _), ok_bind]
    exact .inr ⟨b, _, _, rfl, fun i k j => by
      rw [List.length_append, h1 _ (irfft_length n _), h2 _ (irfft_length n _)],
      fun i k j => h1 _ (irfft_length n _), rfl⟩

theorem solveOne_size (hA : Installed A) {n' : ℕ} {ba bl : List ℕ} (hn : 0 < n)
    {f : List ℕ → List ℝ} (hf : ∀ i, (f i).length = n) {y : Tensor ℝ} (hy : y.shape = e :: n' :: bl)
    (hlen : ba.length ≤ bl.length) (h : n' ≠ n) (cg : Option ℤ) :
    ∃ err, solveOne A cg (L1 ba n f) y = .error err := by
  cases cg with
  | none => exact ⟨_, solveOne_size_pair hA.lawful hA.covered hn hf hy hlen h none⟩
  | some it => exact ⟨_, toeplitzCg_error hA.lawful hA.covered hn hf hy hlen (.inr h) (some it)⟩

/-- The values of `filter_length` for which the sizes of the two statistics do not fit. -/
theorem squareCosine_any {pw : Bool} (hA : Installed A) (href : ref.shape = N :: r :: bx) (hest : est.shape = M :: e :: by')
    (hpw : pw = true ∨ r = e) (hn : nFft N M = .ok n) {l : ℤ} (hl : l ≠ 1) {na nb m : ℕ}
    (h1 : ∀ z : List ℝ, z.length = n → (pySlice z none (some l)).length = na)
    (h2 : ∀ z : List ℝ, z.length = n → (pySlice z (some (-l)) none).length = nb)
    (h3 : ∀ z : List ℝ, z.length = na + nb → (pySlice z none (some l)).length = m)
    (hm : m = 0 ∨ pw = true ∧ na ≠ m) :
    ∃ err, squareCosine A { o with filterLength := some l } pw ref est = .error err := by
  have hl' : (some l) ≠ some 1 := by simpa using hl
  simp only [squareCosine, if_neg hl']
  rw [prepare_eq hest, ok_bind, prepare_eq href, ok_bind]
  rcases computeStats2_any (r := r) (e := e) (bx := bx) (by' := by') hA.lawful
    (f := fun i => List.ofFn (preprocess o.zeroMean (row ref N i)))
    (g := fun i => List.ofFn (preprocess o.zeroMean (row est M i))) (fun i => by simp) (fun i => by simp) hn l h1 h2 with
    ⟨err, h⟩ | ⟨b, F, G, hb, hF, hG, h⟩
  · rw [h]
    exact ⟨err, rfl⟩
  · rw [h, ok_bind]
    dsimp only
    rw [size_two (L1_shape _ _ _), ok_bind]
    have hload : (∃ err, loadDiagonal o.loadDiag (L3 bx (na + nb) r r F) = .error err) ∨
        ∃ F', (∀ i k j, (F' i k j).length = na + nb) ∧
          loadDiagonal o.loadDiag (L3 bx (na + nb) r r F) = .ok (L3 bx (na + nb) r r F') := by
      rcases Nat.eq_zero_or_pos (na + nb) with h0 | h0
      · cases hd : o.loadDiag with
        | none => exact .inr ⟨F, hF, rfl⟩
        | some d =>
          refine .inl ⟨.indexError, ?_⟩
          simp only [loadDiagonal, size_three (L3_shape _ _ _ _ _), ok_bind, if_pos h0]
      · refine .inr ⟨_, fun i k l => ?_, loadDiagonal_eq h0 hF _⟩
        split_ifs
        · rw [length_addHead, hF]
        · exact hF _ _ _
    rcases hload with ⟨err, h⟩ | ⟨F', hF', h⟩
    · rw [h]
      exact ⟨err, rfl⟩
    rw [h, ok_bind]
    have key : ∀ {α : Type} (y : Tensor ℝ) (k : Tensor ℝ → Except PyErr α), (pw = true → y.shape = e :: na :: r :: b) →
        ∃ err, (solveOne A o.useCgIter (L1 (r :: bx) m fun i =>
          pySlice (F' (i.drop 1) (i.getD 0 0) (i.getD 0 0)) none (some l)) y >>= k) = .error err := by
      intro α y k hy
      have hlm : ∀ i : List ℕ, (pySlice (F' (i.drop 1) (i.getD 0 0) (i.getD 0 0)) none (some l)).length = m :=
        fun i => h3 _ (hF' _ _ _)
      rcases Nat.eq_zero_or_pos m with h0 | h0
      · subst h0
        obtain ⟨err, h⟩ := solveOne_zero (b := r :: bx) hA o.useCgIter hlm y
        exact ⟨err, by rw [h]; rfl⟩
      · obtain ⟨hp, hne⟩ := hm.resolve_left (by omega)
        have hlen := bcShape_length hb
        obtain ⟨err, h⟩ := solveOne_size (ba := r :: bx) (bl := r :: b) hA h0 hlm (hy hp) (by simp; omega) hne o.useCgIter
        exact ⟨err, by rw [h]; rfl⟩
    have e1 := acfSdr_eq (c := r) (s := bx) hA.lawful hF' h3
    cases pw with
    | true =>
      simp only [if_true]
      obtain ⟨err, h⟩ := key (L2 (r :: b) na e fun i j => G (i.drop 1) (i.getD 0 0) j) (fun sol => do
        let cohSdr ← coherence A true (L2 (r :: b) na e fun i j => G (i.drop 1) (i.getD 0 0) j) sol
        let cohSar ← Arrays.cohSar A o.useCgIter true (L3 bx (na + nb) r r F') (L3 b na r e G) sol
        let a ← Tensor.zip A.err (fun a _ => a) cohSdr (cohSar.unsqueeze 1)
        let b ← Tensor.zip A.err (fun _ b => b) cohSdr (cohSar.unsqueeze 1)
        .ok (a, b)) (fun _ => rfl)
      refine ⟨err, ?_⟩
      rw [← h, ← ok_bind (L1 (r :: bx) m _) (fun acfSdr => solveOne A o.useCgIter acfSdr _ >>= _), ← e1]
      simp only [bind_assoc]
      rw [transpose_L3_32]
      rfl
    | false =>
      obtain rfl := hpw.resolve_left (by simp)
      simp only [Bool.false_eq_true, if_false]
      obtain ⟨err, h⟩ := key (L1 (r :: b) na fun i => G (i.drop 1) (i.getD 0 0) (i.getD 0 0)) (fun sol => do
        let cohSdr ← coherence A false (L1 (r :: b) na fun i => G (i.drop 1) (i.getD 0 0) (i.getD 0 0)) sol
        let cohSar ← Arrays.cohSar A o.useCgIter false (L3 bx (na + nb) r r F') (L3 b na r r G) sol
        .ok (cohSdr, cohSar)) (by simp)
      refine ⟨err, ?_⟩
      have h' : cosineTail A o.useCgIter (some l) false r (L3 bx (na + nb) r r F') (L3 b na r r G) = .error err := by
        simp only [cosineTail, Bool.false_eq_true, if_false]
        rw [e1, ok_bind]
        exact (bind_of_eq (xcorrDiag_eq hA.lawful) _).trans h
      simpa only [cosineTail, bind_assoc, Bool.false_eq_true, if_false] using h'

/-- No solver is run on a filter without taps. -/
theorem squareCosine_zero (hA : Installed A) (href : ref.shape = N :: r :: bx) (hest : est.shape = M :: e :: by')
    {pw : Bool} (hpw : pw = true ∨ r = e) :
    ∃ err, squareCosine A { o with filterLength := some 0 } pw ref est = .error err := by
  cases hn : nFft N M with
  | error err => exact ⟨err, squareCosine_error href hest (by simp) hn pw⟩
  | ok n =>
    have h0 : ∀ z : List ℝ, (pySlice z none (some (0 : ℤ))).length = 0 := fun z => by
      rw [show (0 : ℤ) = ((0 : ℕ) : ℤ) from rfl, pySlice_take]; rfl
    refine squareCosine_any (na := 0) (nb := n) (m := 0) hA href hest hpw hn (by omega) (fun z _ => h0 z) (fun z hz => ?_)
      (fun z _ => h0 z) (.inl rfl)
    rw [show (-(0 : ℤ)) = ((0 : ℕ) : ℤ) from rfl, pySlice_drop]
    exact hz

theorem length_neg_stop {z : List ℝ} {n k : ℕ} (hz : z.length = n) (hk : 0 < k) :
    (pySlice z none (some (-(k : ℤ)))).length = n - k := by
  rw [pySlice_neg_stop k hz hk, pySlice_take, List.length_take, hz]
  omega

theorem squareCosine_neg (hA : Installed A) (href : ref.shape = N :: r :: bx) (hest : est.shape = M :: e :: by')
    (hn : nFft N M = .ok n) {k : ℕ} (hk : 0 < k) (h2 : n ≠ 2 * k) {pw : Bool} (hpw : pw = true ∨ r = e ∧ 2 * n ≤ 3 * k) :
    ∃ err, squareCosine A { o with filterLength := some (-(k : ℤ)) } pw ref est = .error err := by
  have h0 := nFft_pos' hn
  refine squareCosine_any (na := n - k) (nb := n - k) (m := (n - k) + (n - k) - k) hA href hest (hpw.imp_right And.left) hn
    (by omega) (fun z hz => length_neg_stop hz hk) (fun z hz => ?_) (fun z hz => length_neg_stop hz hk) ?_
  · rw [neg_neg, pySlice_drop, List.length_drop, hz]
  · rcases hpw with rfl | ⟨-, h⟩
    · by_cases h : n - k + (n - k) - k = 0
      · exact .inl h
      · exact .inr ⟨rfl, by omega⟩
    · exact .inl (by omega)

theorem computeStats2_half (hA : A.Lawful) {f g : List ℕ → List ℝ} {k : ℕ} (hf : ∀ i, (f i).length = N)
    (hg : ∀ i, (g i).length = M) (hn : nFft N M = .ok (2 * k)) :
    computeStats2 A (L1 (r :: bx) N f) (L1 (e :: by') M g) (some (-(k : ℤ))) =
      computeStats2 A (L1 (r :: bx) N f) (L1 (e :: by') M g) (some (k : ℤ)) := by
  have h0 := nFft_pos' hn
  have hk : 0 < k := by omega
  have e1 : ∀ z : List ℝ, z.length = 2 * k → pySlice z none (some (-(k : ℤ))) = pySlice z none (some (k : ℤ)) := by
    intro z hz
    rw [pySlice_neg_stop k hz hk, show 2 * k - k = k by omega]
  have e2 : ∀ z : List ℝ, z.length = 2 * k → pySlice z (some (-(-(k : ℤ)))) none = pySlice z (some (-(k : ℤ))) none := by
    intro z hz
    rw [pySlice_neg_neg k hz (by omega), show 2 * k - k = k by omega]
  have n1 : ∀ z : List ℝ, z.length = 2 * k → (pySlice z none (some (k : ℤ))).length = k := by
    intro z hz
    rw [pySlice_take, List.length_take, hz]
    omega
  have n2 : ∀ z : List ℝ, z.length = 2 * k → (pySlice z (some (-(k : ℤ))) none).length = k := by
    intro z hz
    rw [pySlice_last _ _ hk, List.length_drop, hz]
    omega
  have s1 : ∀ {b : List ℕ} {c d : ℕ} {f : List ℕ → ℕ → ℕ → List ℝ}, (∀ i l j, (f i l j).length = 2 * k) →
      (L3 b (2 * k) c d f).slice (-3) none (some (-(k : ℤ))) = (L3 b (2 * k) c d f).slice (-3) none (some (k : ℤ)) := by
    intro b c d f hf
    unfold Tensor.slice
    rw [along_L3 (fun z hz => by rw [e1 z hz]; exact n1 z hz) hf, along_L3 n1 hf]
    exact congrArg _ (L3_congr fun i _ l _ j _ => e1 _ (hf i l j))
  have s2 : ∀ {b : List ℕ} {c d : ℕ} {f : List ℕ → ℕ → ℕ → List ℝ}, (∀ i l j, (f i l j).length = 2 * k) →
      (L3 b (2 * k) c d f).slice (-3) (some (-(-(k : ℤ)))) none =
        (L3 b (2 * k) c d f).slice (-3) (some (-(k : ℤ))) none := by
    intro b c d f hf
    unfold Tensor.slice
    rw [along_L3 (fun z hz => by rw [e2 z hz]; exact n2 z hz) hf, along_L3 n2 hf]
    exact congrArg _ (L3_congr fun i _ l _ j _ => e2 _ (hf i l j))
  simp only [computeStats2, size_one (L1_shape _ _ _), ok_bind, hn, Option.getD_some]
  rw [hA.rfft1 h0 hf, ok_bind, hA.rfft1 h0 hg, ok_bind, map_L1 _ (fun i => rfft_length _ _),
    einsum_ncd_L1 _ (bcShape_self bx) (fun i => rfft_length _ _) (fun i => by simp), ok_bind,
    hA.irfft3 h0 (fun i k j => by simp), ok_bind, s1 (fun i k j => irfft_length _ _), s2 (fun i k j => irfft_length _ _),
    ok_bind, ok_bind, map_L1 _ (fun i => rfft_length _ _),
    einsum_ncd_L1 _ (bcShape_self bx) (fun i => rfft_length _ _) (fun i => by simp), ok_bind,
    hA.irfft3 h0 (fun i k j => by simp), ok_bind]
  cases hb : bcShape bx by' with
  | none => rw [einsum_ncd_bc _ (L1_shape _ _ _) (L1_shape _ _ _) hb]; rfl
  | some b =>
    rw [einsum_ncd_L1 _ hb (fun i => by simp) (fun i => rfft_length _ _)]
    simp only [ok_bind]
    rw [hA.irfft3 h0 (fun i k j => by simp)]
    simp only [ok_bind]
    rw [s1 (fun i k j => irfft_length _ _)]

/-- Half the size of the transform counts the same from both ends. -/
theorem squareCosine_half (hA : Installed A) (href : ref.shape = N :: r :: bx) (hest : est.shape = M :: e :: by')
    {k : ℕ} (hn : nFft N M = .ok (2 * k)) (h1 : k ≠ 1) (pw : Bool) :
    squareCosine A { o with filterLength := some (-(k : ℤ)) } pw ref est =
      squareCosine A { o with filterLength := some (k : ℤ) } pw ref est := by
  have h0 := nFft_pos' hn
  have e1 : (some (-(k : ℤ))) ≠ some 1 := by simp; omega
  have e2 : (some (k : ℤ)) ≠ some 1 := by simpa using h1
  simp only [squareCosine, if_neg e1, if_neg e2]
  rw [prepare_eq hest, ok_bind, prepare_eq href, ok_bind,
    computeStats2_half hA.lawful (fun i => by simp) (fun i => by simp) hn, ok_bind, ok_bind]
  rcases computeStats2_any (r := r) (e := e) (bx := bx) (by' := by') (na := k) (nb := k) hA.lawful
    (f := fun i => List.ofFn (preprocess o.zeroMean (row ref N i)))
    (g := fun i => List.ofFn (preprocess o.zeroMean (row est M i))) (fun i => by simp) (fun i => by simp) hn (k : ℤ)
    (fun z hz => by rw [pySlice_take, List.length_take, hz]; omega)
    (fun z hz => by rw [pySlice_last _ _ (by omega), List.length_drop, hz]; omega) with
    ⟨err, h⟩ | ⟨b, F, G, hb, hF, hG, h⟩
  · rw [h, error_bind, error_bind]
  · rw [h, ok_bind, ok_bind]
    dsimp only
    rw [size_two (L1_shape _ _ _), ok_bind, ok_bind, loadDiagonal_eq (by omega) hF, ok_bind, ok_bind]
    have hF' : ∀ i m l, (if m = l then addHead o.loadDiag (F i m l) else F i m l).length = k + k := by
      intro i m l
      split_ifs
      · rw [length_addHead, hF]
      · exact hF _ _ _
    have hs : ∀ z : List ℝ, z.length = k + k → (pySlice z none (some (k : ℤ))).length = k := fun z hz => by
      rw [pySlice_take, List.length_take, hz]; omega
    have ht : ∀ z : List ℝ, z.length = k + k → pySlice z none (some (-(k : ℤ))) = pySlice z none (some (k : ℤ)) :=
      fun z hz => by rw [pySlice_neg_stop k hz (by omega), Nat.add_sub_cancel]
    have a1 := acfSdr_eq (c := r) (s := bx) hA.lawful hF' hs
    have a2 := acfSdr_eq (c := r) (s := bx) (n' := k) (len := some (-(k : ℤ))) hA.lawful hF'
      (fun z hz => by rw [ht z hz]; exact hs z hz)
    rw [L1_congr (g := fun i => pySlice ((fun i m l => if m = l then addHead o.loadDiag (F i m l) else F i m l)
      (i.drop 1) (i.getD 0 0) (i.getD 0 0)) none (some (k : ℤ))) fun i _ => ht _ (hF' _ _ _), ← a1] at a2
    have := congrArg (fun x => x >>= fun acfSdr => do
      let xcorrSdr ← if pw then (L3 b k r e G).transpose (-3) (-2) else do
        let d ← A.diag r (L3 b k r e G)
        d.transpose (-2) (-1)
      let sol ← solveOne A o.useCgIter acfSdr xcorrSdr
      let cohSdr ← coherence A pw xcorrSdr sol
      let cohSar ← Arrays.cohSar A o.useCgIter pw (L3 bx (k + k) r r fun i m l =>
        if m = l then addHead o.loadDiag (F i m l) else F i m l) (L3 b k r e G) sol
      if pw then do
        let a ← Tensor.zip A.err (fun a _ => a) cohSdr (cohSar.unsqueeze 1)
        let b ← Tensor.zip A.err (fun _ b => b) cohSdr (cohSar.unsqueeze 1)
        Except.ok (a, b)
      else Except.ok (cohSdr, cohSar)) a2
    simpa only [bind_assoc] using this

/-! ### no iterations -/

theorem conjugateGradient_neg {F P : Op} {y : Tensor ℝ} {x : Option (Tensor ℝ)} {it : ℤ} (h : it ≤ 0) :
    Arrays.conjugateGradient A F P y x (some it) = Arrays.conjugateGradient A F P y x (some 0) := by
  simp only [Arrays.conjugateGradient, Option.getD_some, Int.toNat_of_nonpos h, Int.toNat_zero]

theorem toeplitzCg_neg {acf y : Tensor ℝ} {it : ℤ} (h : it ≤ 0) :
    Arrays.toeplitzCg A acf y (some it) = Arrays.toeplitzCg A acf y (some 0) := by
  simp only [Arrays.toeplitzCg, conjugateGradient_neg h]

theorem blockCg_neg {acf y : Tensor ℝ} {x : Option (Tensor ℝ)} {it : ℤ} (h : it ≤ 0) :
    Arrays.blockCg A acf y x (some it) = Arrays.blockCg A acf y x (some 0) := by
  simp only [Arrays.blockCg, conjugateGradient_neg h]

theorem sdrLoss_iter {it : ℤ} (h : it ≤ 0) (pw : Bool) :
    sdrLoss A { o with useCgIter := some it } pw est ref = sdrLoss A { o with useCgIter := some 0 } pw est ref := by
  simp only [sdrLoss, solveOne, toeplitzCg_neg h]

theorem squareCosine_iter {it : ℤ} (h : it ≤ 0) (pw : Bool) :
    squareCosine A { o with useCgIter := some it } pw ref est =
      squareCosine A { o with useCgIter := some 0 } pw ref est := by
  simp only [squareCosine, solveOne, toeplitzCg_neg h, Arrays.cohSar, blockCg_neg h]

end Arrays

theorem nonempty_of_prod : ∀ {s : List ℕ}, 0 < s.prod → Nonempty (BIdx s)
  | [], _ => ⟨()⟩
  | n :: s, h => by
    rw [List.prod_cons] at h
    obtain ⟨m⟩ := nonempty_of_prod (s := s) (Nat.pos_of_mul_pos_left h)
    exact ⟨(⟨0, Nat.pos_of_mul_pos_right h⟩, m)⟩

section none

variable {s : List ℕ} {B : Backend} {o : Opts} {r e c N M : ℕ}

/-- Without iterations the filters are zero. -/
theorem sdrCohPair_iter (h1 : o.filterLength ≠ 1) (h0 : 0 < o.filterLength) (hcg : o.useCgIter = some 0) (hN : 0 < N)
    (ref : Sig s r N) (est : Sig s e M) : sdrCohPair B o ref est = .ok fun _ _ _ => 0 := by
  obtain ⟨n, hn⟩ := Arrays.nFft_exists hN M
  unfold sdrCohPair
  rw [if_neg h0.ne', if_neg h1]
  simp only [sdrCohPairGen, hn, hcg]
  refine congrArg _ (funext fun m => funext fun k => funext fun j => ?_)
  exact Finset.sum_eq_zero fun l _ => mul_zero _

theorem sdrCohDiag_iter (h1 : o.filterLength ≠ 1) (h0 : 0 < o.filterLength) (hcg : o.useCgIter = some 0) (hN : 0 < N)
    (ref : Sig s c N) (est : Sig s c M) : sdrCohDiag B o ref est = .ok fun _ _ => 0 := by
  obtain ⟨n, hn⟩ := Arrays.nFft_exists hN M
  unfold sdrCohDiag
  rw [if_neg h0.ne', if_neg h1]
  simp only [sdrCohDiagGen, hn, hcg]
  refine congrArg _ (funext fun m => funext fun k => ?_)
  exact Finset.sum_eq_zero fun l _ => mul_zero _

/-- The loss of a zero filter. -/
theorem loss_zero_none : coherenceToNegSdr none (.fin 0) = .pinf := by
  rw [coherenceToNegSdr_fin]
  simp [cclamp, epsOf, negDb]

theorem loss_zero_some {d : ℝ} (hd : 0 ≤ d) : coherenceToNegSdr (some d) (.fin 0) = .fin d := by
  rw [coherenceToNegSdr_fin]
  have h1 : cclamp (some d) 0 = dbClampEps d := by
    have := dbClampEps_pos d
    unfold cclamp epsOf
    rw [max_eq_right this.le, min_eq_left]
    have h2 : dbClampEps d ≤ 1 / 2 := by
      unfold dbClampEps
      have : (10 : ℝ) ^ (-d / 10) ≤ 1 :=
        Real.rpow_le_one_of_one_le_of_nonpos (by norm_num) (by have := hd; linarith)
      rw [div_le_div_iff₀ (by positivity) (by norm_num)]
      linarith
    linarith
  rw [h1, negDb_eps]

theorem sqCosPair_iter (h1 : o.filterLength ≠ 1) (h0 : 0 < o.filterLength) (hcg : o.useCgIter = some 0) (hN : 0 < N)
    (ref : Sig s r N) (est : Sig s e M) {v} (hv : sqCosPair B o ref est = .ok v) :
    v = (fun _ _ _ => 0, fun _ _ => 0) := by
  obtain ⟨n, hn⟩ := Arrays.nFft_exists hN M
  unfold sqCosPair at hv
  rw [if_neg h0.ne', if_neg h1] at hv
  simp only [sqCosPairGen, hn, hcg] at hv
  split_ifs at hv with hK
  split at hv
  · cases hv
  · rename_i sar hs
    cases hv
    unfold cohSar at hs
    simp only [hcg] at hs
    split at hs
    · cases hs
    · rename_i sol hsol
      cases hs
      unfold blockCg at hsol
      split_ifs at hsol
      cases hsol
      refine congrArg₂ Prod.mk (funext fun m => funext fun k => funext fun j => ?_) (funext fun m => funext fun j => ?_)
      · refine Finset.sum_eq_zero fun l _ => ?_
        exact mul_zero (vec (min o.filterLength n) (sdrXcorr o n ref est m k j) l)
      · refine Finset.sum_eq_zero fun p _ => ?_
        exact mul_zero (xcorrFlat o n (min o.filterLength n) ref est m j p)

end none

end FBE
