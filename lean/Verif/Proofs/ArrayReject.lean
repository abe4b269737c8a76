import Verif.Proofs.ArrayItem

/-!
# Arrays that are rejected
-/

set_option linter.unusedSectionVars false

namespace FBE

open Classical Matrix Spec

namespace Tensor

variable {α : Type} [CommSemiring α] (err : PyErr) {x y : Tensor α} {n m c d : ℕ} {bx by' : List ℕ}

theorem einsum_ncd_bc (hx : x.shape = n :: c :: bx) (hy : y.shape = n :: d :: by') (h : bcShape bx by' = none) :
    einsum err ['c', 'n'] ['d', 'n'] ['n', 'c', 'd'] x y = .error err := by
  simp only [einsum, hx, hy, labelBc, labelSize]
  simp [List.lookup, h]

theorem einsum_n_bc (hx : x.shape = n :: bx) (hy : y.shape = n :: by') (h : bcShape bx by' = none) :
    einsum err ['n'] ['n'] [] x y = .error err := by
  simp only [einsum, hx, hy, labelBc, labelSize]
  simp [List.lookup, h]

theorem zip_bc {β : Type} [Zero β] {x y : Tensor β} (f : β → β → β) (h : bcShape x.shape y.shape = none) :
    Tensor.zip err f x y = .error err := by
  simp only [Tensor.zip, h]

theorem bcShape_cons_none (h : bcShape bx by' = none) : bcShape (n :: bx) (m :: by') = none := by
  simp [bcShape, h]

end Tensor

open Tensor

namespace Arrays

variable {A : Api} {b bx by' : List ℕ} {r e c N M : ℕ} {o : AOpts} {ref est : Tensor ℝ}

/-! ### leading axes that cannot be broadcast -/

theorem nFft_exists (hN : 0 < N) (M : ℕ) : ∃ n, nFft N M = .ok n := by
  unfold nFft
  rw [if_neg (by omega)]
  exact ⟨_, rfl⟩

theorem lengthOneSdr_pair_bc {x y : Tensor ℝ} (hx : x.shape = N :: r :: bx) (hy : y.shape = M :: e :: by')
    (h : bcShape bx by' = none) (hN : N = M ∨ N ≠ 1 ∧ M ≠ 1) (lo : List Char) (hlo : lo = ['c', 'd']) :
    Tensor.einsum A.err ['c', 'n'] ['d', 'n'] lo x y = .error A.err := by
  subst hlo
  by_cases hNM : N = M
  · subst hNM
    exact einsum_cd_bc _ hx hy h
  · rcases hN with hN | hN
    · exact absurd hN hNM
    · exact einsum_cd_err _ hx hy hNM hN.1 hN.2

theorem lengthOneSdr_diag_bc {x y : Tensor ℝ} (hx : x.shape = N :: bx) (hy : y.shape = M :: by')
    (h : bcShape bx by' = none) (hN : N = M ∨ N ≠ 1 ∧ M ≠ 1) :
    Tensor.einsum A.err ['n'] ['n'] [] x y = .error A.err := by
  by_cases hNM : N = M
  · subst hNM
    exact einsum_n_bc _ hx hy h
  · rcases hN with hN | hN
    · exact absurd hN hNM
    · exact einsum_n_err _ hx hy hNM hN.1 hN.2

theorem sdrLoss_pair_bc (hA : A.Lawful) (href : ref.shape = N :: r :: bx) (hest : est.shape = M :: e :: by')
    (h : bcShape bx by' = none) (hN : 0 < N) (h1 : o.filterLength = some 1 → N = M ∨ N ≠ 1 ∧ M ≠ 1) :
    sdrLoss A o true est ref = .error A.err := by
  simp only [sdrLoss]
  by_cases hL : o.filterLength = some 1
  · rw [if_pos hL, prepare_eq href, ok_bind, prepare_eq hest, ok_bind]
    simp only [lengthOneSdr, if_true]
    rw [lengthOneSdr_pair_bc (L1_shape _ _ _) (L1_shape _ _ _) h (h1 hL) _ rfl]
    rfl
  · obtain ⟨n, hn⟩ := nFft_exists hN M
    have h0 := nFft_pos' hn
    rw [if_neg hL, prepare_eq hest, ok_bind, prepare_eq href, ok_bind]
    simp only [computeStats, size_one (L1_shape _ _ _), ok_bind, hn, if_true]
    rw [hA.rfft1 h0 (fun i => by simp), ok_bind, hA.rfft1 h0 (fun i => by simp), ok_bind,
      map_L1 _ (fun i => rfft_length n _), hA.irfftReal1 h0 (fun i => by simp), ok_bind,
      map_L1 _ (fun i => rfft_length n _), einsum_cnd_bc _ (L1_shape _ _ _) (L1_shape _ _ _) h]
    rfl

theorem sdrLoss_diag_bc (hA : A.Lawful) (href : ref.shape = N :: bx) (hest : est.shape = M :: by')
    (h : bcShape bx by' = none) (hN : 0 < N) (h1 : o.filterLength = some 1 → N = M ∨ N ≠ 1 ∧ M ≠ 1) :
    sdrLoss A o false est ref = .error A.err := by
  simp only [sdrLoss]
  by_cases hL : o.filterLength = some 1
  · rw [if_pos hL, prepare_eq href, ok_bind, prepare_eq hest, ok_bind]
    simp only [lengthOneSdr, Bool.false_eq_true, if_false]
    rw [lengthOneSdr_diag_bc (L1_shape _ _ _) (L1_shape _ _ _) h (h1 hL)]
    rfl
  · obtain ⟨n, hn⟩ := nFft_exists hN M
    have h0 := nFft_pos' hn
    rw [if_neg hL, prepare_eq hest, ok_bind, prepare_eq href, ok_bind]
    simp only [computeStats, size_one (L1_shape _ _ _), ok_bind, hn, Bool.false_eq_true, if_false]
    rw [hA.rfft1 h0 (fun i => by simp), ok_bind, hA.rfft1 h0 (fun i => by simp), ok_bind,
      map_L1 _ (fun i => rfft_length n _), hA.irfftReal1 h0 (fun i => by simp), ok_bind,
      map_L1 _ (fun i => rfft_length n _), zip_bc _ _ (by rw [L1_shape, L1_shape]; exact bcShape_cons_none h)]
    rfl

theorem sdr_bc {err : PyErr} (h : sdrLoss A o true est ref = .error err) (rp cs : Bool) :
    Arrays.sdr A o rp cs ref est = .error err := by
  simp only [Arrays.sdr, h]
  rfl

theorem squareCosine_bc (hA : A.Lawful) {L : ℕ} (hL0 : 0 < L) (ho : o.filterLength = some (L : ℤ))
    (href : ref.shape = N :: r :: bx) (hest : est.shape = M :: e :: by')
    (h : bcShape bx by' = none) (hN : 0 < N) (h1 : o.filterLength = some 1 → N = M ∨ N ≠ 1 ∧ M ≠ 1) (pw : Bool) :
    squareCosine A o pw ref est = .error A.err := by
  by_cases hL : o.filterLength = some 1
  · simp only [squareCosine, if_pos hL]
    rw [prepare_eq href, ok_bind, prepare_eq hest, ok_bind]
    simp only [lengthOneBoth]
    rw [lengthOneSdr_pair_bc (L1_shape _ _ _) (L1_shape _ _ _) h (h1 hL) _ rfl]
    rfl
  · simp only [squareCosine, if_neg hL]
    obtain ⟨n, hn⟩ := nFft_exists hN M
    have h0 := nFft_pos' hn
    have hs : ∀ (l : List ℝ), l.length = n → (pySlice l (some (-(L : ℤ))) none).length = min L n := by
      intro l hl
      rw [pySlice_last _ _ hL0, List.length_drop, hl]; omega
    rw [prepare_eq hest, ok_bind, prepare_eq href, ok_bind]
    simp only [computeStats2, size_one (L1_shape _ _ _), ok_bind, hn, ho, Option.getD_some]
    rw [hA.rfft1 h0 (fun i => by simp), ok_bind, hA.rfft1 h0 (fun i => by simp), ok_bind,
      map_L1 _ (fun i => rfft_length n _),
      einsum_ncd_L1 _ (bcShape_self bx) (fun i => rfft_length n _) (fun i => by simp), ok_bind,
      hA.irfft3 h0 (fun i k j => by simp), ok_bind, slice_L3 (fun i k j => irfft_length n _), ok_bind]
    unfold Tensor.slice
    rw [along_L3 hs (fun i k j => irfft_length n _), ok_bind,
      cat_L3 _ (fun i k j => by rw [pySlice_take, List.length_take, irfft_length]), ok_bind,
      einsum_ncd_bc _ (L1_shape _ _ _) (L1_shape _ _ _) h]
    rfl

theorem bssEval_of_cosine {err : PyErr} {pw : Bool} (href : ref.shape = N :: r :: bx)
    (hest : est.shape = M :: e :: by') (hpw : pw = true ∨ r = e)
    (h : squareCosine A o pw ref est = .error err) : Arrays.bssEvalSources A o pw ref est = .error err := by
  cases pw with
  | true => simp only [Arrays.bssEvalSources, if_true, ok_bind, ne_eq, not_true_eq_false, if_false, h]; rfl
  | false =>
    obtain rfl : r = e := by simpa using hpw
    simp only [Arrays.bssEvalSources, Bool.false_eq_true, if_false, size_two href, size_two hest, ok_bind, ne_eq,
      not_true_eq_false, h]
    rfl

/-! ### references with fewer leading axes -/

section fewer

variable {o : Opts} {len : Option ℤ} {n : ℕ}

theorem sdrLossGen_pair_tail (hA : A.Lawful) (href : ref.shape = N :: r :: bx) (hest : est.shape = M :: e :: by')
    (hb : bcShape bx by' = some b) (hL : 0 < o.filterLength) (hlen : IsLength o N len) (hn : nFft N M = .ok n) :
    ∃ f g, (∀ i, (f i).length = min o.filterLength n) ∧
      sdrLossGen A { o.args with filterLength := len } true ref est =
        (solveOne A (o.useCgIter.map fun it : ℕ => (it : ℤ)) (L1 (r :: bx) (min o.filterLength n) f)
          (L2 (r :: b) (min o.filterLength n) e g)) >>= fun sol =>
            coherence A true (L2 (r :: b) (min o.filterLength n) e g) sol := by
  have hn0 := nFft_pos' hn
  refine ⟨fun i => addHead o.loadDiag (acf1 n o.filterLength (List.ofFn (preprocess o.zeroMean (row ref N i)))),
    fun i j => xcorr1 n o.filterLength
      (List.ofFn (preprocess o.zeroMean (row ref N (i.getD 0 0 :: bcIdx bx (i.drop 1)))))
      (List.ofFn (preprocess o.zeroMean (row est M (j :: bcIdx by' (i.drop 1))))), ?_, ?_⟩
  rotate_left
  · simp only [sdrLossGen, Opts.args]
    rw [prepare_eq hest, ok_bind, prepare_eq href, ok_bind, hlen.stats (L1_shape _ _ _),
      computeStats_pair hA hb (fun i => by simp) (fun i => by simp) hn, ok_bind]
    dsimp only
    rw [loadFirst_eq (by omega) (fun i => length_acf1 _ _ _), ok_bind]
  · intro i
    rw [length_addHead, length_acf1]

theorem sdrLossGen_diag_tail (hA : A.Lawful) (href : ref.shape = N :: bx) (hest : est.shape = M :: by')
    (hb : bcShape bx by' = some b) (hL : 0 < o.filterLength) (hlen : IsLength o N len) (hn : nFft N M = .ok n) :
    ∃ f g, (∀ i, (f i).length = min o.filterLength n) ∧
      sdrLossGen A { o.args with filterLength := len } false ref est =
        (solveOne A (o.useCgIter.map fun it : ℕ => (it : ℤ)) (L1 bx (min o.filterLength n) f)
          (L1 b (min o.filterLength n) g)) >>= fun sol =>
            coherence A false (L1 b (min o.filterLength n) g) sol := by
  have hn0 := nFft_pos' hn
  refine ⟨fun i => addHead o.loadDiag (acf1 n o.filterLength (List.ofFn (preprocess o.zeroMean (row ref N i)))),
    fun i => xcorr1 n o.filterLength (List.ofFn (preprocess o.zeroMean (row ref N (bcIdx bx i))))
      (List.ofFn (preprocess o.zeroMean (row est M (bcIdx by' i)))), ?_, ?_⟩
  rotate_left
  · simp only [sdrLossGen, Opts.args]
    rw [prepare_eq hest, ok_bind, prepare_eq href, ok_bind, hlen.stats (L1_shape _ _ _),
      computeStats_diag hA hb (fun i => by simp) (fun i => by simp) hn, ok_bind]
    dsimp only
    rw [loadFirst_eq (by omega) (fun i => length_acf1 _ _ _), ok_bind]
  · intro i
    rw [length_addHead, length_acf1]

theorem sdrLoss_pair_fewer (hA : A.Lawful) (hB : Covered A.B) (href : ref.shape = N :: r :: bx)
    (hest : est.shape = M :: e :: by') (hb : bcShape bx by' = some b) (hN : 0 < N) (hL : 0 < o.filterLength)
    (hlen : IsLength o N len) (h1 : len ≠ some 1) (hcg : o.useCgIter ≠ none) (hbx : bx.length < b.length) :
    sdrLoss A { o.args with filterLength := len } true est ref = .error .assertionError := by
  obtain ⟨n, hn⟩ := nFft_exists hN M
  have hn0 := nFft_pos' hn
  obtain ⟨it, hit⟩ := Option.ne_none_iff_exists'.1 hcg
  obtain ⟨f, g, hf, h⟩ := sdrLossGen_pair_tail (o := o) hA href hest hb hL hlen hn
  rw [sdrLoss_gen A h1, h, hit]
  simp only [solveOne, Option.map_some]
  rw [toeplitzCg_error hA hB (by omega) hf (L2_shape _ _ _ _) (by simp; omega) (.inl (by simp; omega))]
  rfl

theorem sdrLoss_diag_fewer (hA : A.Lawful) (hB : Covered A.B) (href : ref.shape = N :: bx)
    (hest : est.shape = M :: by') (hb : bcShape bx by' = some (c :: b)) (hn : nFft N M = .ok n) (hL : 0 < o.filterLength)
    (hlen : IsLength o N len) (h1 : len ≠ some 1) (hbx : bx.length ≤ b.length) (hc : c ≠ min o.filterLength n) :
    sdrLoss A { o.args with filterLength := len } false est ref = .error (sizeErr A.B o.useCgIter) := by
  have hn0 := nFft_pos' hn
  obtain ⟨f, g, hf, h⟩ := sdrLossGen_diag_tail (o := o) hA href hest hb hL hlen hn
  rw [sdrLoss_gen A h1, h, solveOne_size_pair hA hB (by omega) hf (L1_shape _ _ _) hbx hc]
  rfl

theorem sdrLoss_diag_torch (href : ref.shape = N :: c :: bx)
    (hest : est.shape = M :: by') (hb : bcShape (c :: bx) by' = some (c :: b)) (hn : nFft N M = .ok n)
    (hL : 0 < o.filterLength) (hlen : IsLength o N len) (h1 : len ≠ some 1) (hcg : o.useCgIter = none)
    (hbx : b ≠ bx) (hc : c ≠ min o.filterLength n) :
    sdrLoss torchApi { o.args with filterLength := len } false est ref = .error .runtimeError := by
  have hn0 := nFft_pos' hn
  have hI : Installed torchApi := .inl rfl
  obtain ⟨f, g, hf, h⟩ := sdrLossGen_diag_tail (o := o) hI.lawful href hest hb hL hlen hn
  rw [sdrLoss_gen _ h1, h, hcg]
  simp only [solveOne, Option.map_none]
  rw [toeplitz_eq hI.covered (by omega) hf, ok_bind]
  show solveTorch _ _ >>= _ >>= _ = _
  unfold solveTorch
  rw [if_neg (by simp [L1_shape, Mx_shape]; exact fun _ h => absurd h hbx), solveMat_size (Mx_shape _ _ _) (L1_shape _ _ _) hc]
  rfl

theorem squareCosine_pair_fewer (hA : A.Lawful) (hB : Covered A.B) (href : ref.shape = N :: r :: bx)
    (hest : est.shape = M :: e :: by') (hb : bcShape bx by' = some b) (hN : 0 < N) (hL : 0 < o.filterLength)
    (h1 : o.filterLength ≠ 1) (hcg : o.useCgIter ≠ none) (hbx : bx.length < b.length) :
    squareCosine A o.args true ref est = .error .assertionError := by
  have h1' : (some (o.filterLength : ℤ)) ≠ some 1 := by simpa using h1
  obtain ⟨n, hn⟩ := nFft_exists hN M
  have hn0 := nFft_pos' hn
  obtain ⟨it, hit⟩ := Option.ne_none_iff_exists'.1 hcg
  rw [show squareCosine A o.args true ref est = _ from
    squareCosine_tail hA href hest hb (by omega) (len := some (o.filterLength : ℤ)) (.inl rfl) h1' hn true]
  have hlenF : ∀ i k l, (allAcf o n N ref i k l).length = min o.filterLength n + min o.filterLength n :=
    length_allAcf (by omega)
  have hslice : ∀ l : List ℝ, l.length = min o.filterLength n + min o.filterLength n →
      (pySlice l none (some (o.filterLength : ℤ))).length =
        min o.filterLength (min o.filterLength n + min o.filterLength n) := by
    intro l hl
    rw [pySlice_take, List.length_take, hl]
  simp only [cosineTail, if_true]
  rw [acfSdr_eq hA hlenF hslice, ok_bind, transpose_L3_32, ok_bind, hit]
  simp only [solveOne, Option.map_some]
  rw [toeplitzCg_error hA hB (by omega) (fun i => hslice _ (hlenF _ _ _)) (L2_shape _ _ _ _) (by simp; omega)
    (.inl (by simp; omega))]
  rfl

theorem squareCosine_diag_fewer (hA : A.Lawful) (hB : Covered A.B) (href : ref.shape = N :: c :: bx)
    (hest : est.shape = M :: c :: by') (hb : bcShape bx by' = some b) (hn : nFft N M = .ok n) (hL : 0 < o.filterLength)
    (h1 : o.filterLength ≠ 1) (hbx : bx.length < b.length)
    (hc : c ≠ min o.filterLength (min o.filterLength n + min o.filterLength n)) :
    squareCosine A o.args false ref est = .error (sizeErr A.B o.useCgIter) := by
  have h1' : (some (o.filterLength : ℤ)) ≠ some 1 := by simpa using h1
  have hn0 := nFft_pos' hn
  rw [show squareCosine A o.args false ref est = _ from
    squareCosine_tail hA href hest hb (by omega) (len := some (o.filterLength : ℤ)) (.inl rfl) h1' hn false]
  have hlenF : ∀ i k l, (allAcf o n N ref i k l).length = min o.filterLength n + min o.filterLength n :=
    length_allAcf (by omega)
  have hslice : ∀ l : List ℝ, l.length = min o.filterLength n + min o.filterLength n →
      (pySlice l none (some (o.filterLength : ℤ))).length =
        min o.filterLength (min o.filterLength n + min o.filterLength n) := by
    intro l hl
    rw [pySlice_take, List.length_take, hl]
  simp only [cosineTail, Bool.false_eq_true, if_false]
  rw [acfSdr_eq hA hlenF hslice, ok_bind]
  refine (bind_of_eq (xcorrDiag_eq hA) _).trans ?_
  rw [solveOne_size_pair hA hB (by omega) (fun i => hslice _ (hlenF _ _ _)) (L1_shape _ _ _) (by simp; omega) hc]
  rfl

/-! ### no estimates, or an empty batch -/

theorem exists_bind_error {α β : Type} (x : Except PyErr α) {f : α → Except PyErr β} (h : ∀ a, ∃ err, f a = .error err) :
    ∃ err, (x >>= f) = .error err := by
  cases x with
  | error err => exact ⟨err, rfl⟩
  | ok a => exact h a

theorem cohSar_empty {acf sol : Tensor ℝ} {g : List ℕ → ℕ → ℕ → List ℝ} (h : e * b.prod = 0) (cg : Option ℤ) (pw : Bool) :
    Arrays.cohSar A cg pw acf (L3 b n r e g) sol = .error A.err := by
  simp only [Arrays.cohSar, mergeRows, L3_shape, Tensor.reshape, inferShape_merge_empty _ h]
  rfl

theorem squareCosine_empty (hA : A.Lawful) (href : ref.shape = N :: r :: bx) (hest : est.shape = M :: e :: by')
    (hb : bcShape bx by' = some b) (hL : 0 < o.filterLength) (h1 : o.filterLength ≠ 1) (h : e * b.prod = 0)
    (pw : Bool) : ∃ err, squareCosine A o.args pw ref est = .error err := by
  have h1' : (some (o.filterLength : ℤ)) ≠ some 1 := by simpa using h1
  cases hn : nFft N M with
  | error err => exact ⟨err, squareCosine_error href hest h1' hn pw⟩
  | ok n =>
    rw [show squareCosine A o.args pw ref est = _ from
      squareCosine_tail hA href hest hb hL (len := some (o.filterLength : ℤ)) (.inl rfl) h1' hn pw]
    simp only [cosineTail]
    refine exists_bind_error _ fun _ => ?_
    split_ifs
    · refine exists_bind_error _ fun _ => exists_bind_error _ fun _ => exists_bind_error _ fun _ => ?_
      rw [cohSar_empty h]
      exact ⟨_, rfl⟩
    · refine exists_bind_error _ fun _ => exists_bind_error _ fun _ => exists_bind_error _ fun _ =>
        exists_bind_error _ fun _ => ?_
      rw [cohSar_empty h]
      exact ⟨_, rfl⟩

end fewer

end Arrays

end FBE
