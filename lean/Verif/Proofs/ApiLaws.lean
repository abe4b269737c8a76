import Verif.Proofs.TensorOps

/-!
# The three installations agree on the calls made by the metrics

`Api.Lawful` collects what the metrics need from the array functions; numpy, torch >= 1.8 and the wrappers for
torch < 1.8 have these properties.
-/

set_option linter.unusedSectionVars false

namespace FBE

open Classical Tensor

/-- What the metrics need from the array functions. -/
structure Api.Lawful (A : Api) : Prop where
  rfft1 : ∀ {b : List ℕ} {m n : ℕ} {f : List ℕ → List ℝ}, 0 < n → (∀ i, (f i).length = m) →
    A.rfft (L1 b m f) (some n) (-1) = .ok (L1 b (n / 2 + 1) fun i => FBE.rfft n (f i))
  rfft1_none : ∀ {b : List ℕ} {m : ℕ} {f : List ℕ → List ℝ}, 0 < m → (∀ i, (f i).length = m) →
    A.rfft (L1 b m f) none (-1) = .ok (L1 b (m / 2 + 1) fun i => FBE.rfft m (f i))
  rfft2 : ∀ {b : List ℕ} {m n d : ℕ} {f : List ℕ → ℕ → List ℝ}, 0 < n → (∀ i j, (f i j).length = m) →
    A.rfft (L2 b m d f) (some n) (-2) = .ok (L2 b (n / 2 + 1) d fun i j => FBE.rfft n (f i j))
  rfft3 : ∀ {b : List ℕ} {m n c d : ℕ} {f : List ℕ → ℕ → ℕ → List ℝ}, 0 < n → (∀ i k j, (f i k j).length = m) →
    A.rfft (L3 b m c d f) (some n) (-3) = .ok (L3 b (n / 2 + 1) c d fun i k j => FBE.rfft n (f i k j))
  rfft3_none : ∀ {b : List ℕ} {m c d : ℕ} {f : List ℕ → ℕ → ℕ → List ℝ}, 0 < m → (∀ i k j, (f i k j).length = m) →
    A.rfft (L3 b m c d f) none (-3) = .ok (L3 b (m / 2 + 1) c d fun i k j => FBE.rfft m (f i k j))
  irfft1 : ∀ {b : List ℕ} {n : ℕ} {f : List ℕ → List ℂ}, 0 < n → (∀ i, (f i).length = n / 2 + 1) →
    A.irfft (L1 b (n / 2 + 1) f) (some n) (-1) = .ok (L1 b n fun i => FBE.irfft n (f i))
  irfft2 : ∀ {b : List ℕ} {n d : ℕ} {f : List ℕ → ℕ → List ℂ}, 0 < n → (∀ i j, (f i j).length = n / 2 + 1) →
    A.irfft (L2 b (n / 2 + 1) d f) (some n) (-2) = .ok (L2 b n d fun i j => FBE.irfft n (f i j))
  irfft3 : ∀ {b : List ℕ} {n c d : ℕ} {f : List ℕ → ℕ → ℕ → List ℂ}, 0 < n →
    (∀ i k j, (f i k j).length = n / 2 + 1) →
    A.irfft (L3 b (n / 2 + 1) c d f) (some n) (-3) = .ok (L3 b n c d fun i k j => FBE.irfft n (f i k j))
  irfftReal1 : ∀ {b : List ℕ} {n : ℕ} {f : List ℕ → List ℝ}, 0 < n → (∀ i, (f i).length = n / 2 + 1) →
    A.irfftReal (L1 b (n / 2 + 1) f) (some n) (-1) =
      .ok (L1 b n fun i => FBE.irfft n ((f i).map Complex.ofReal))
  solve : ∀ {M b : Tensor ℝ}, 2 ≤ b.shape.length → M.shape.length ≤ b.shape.length → A.solve M b = solveMat A.err M b
  solveVec : ∀ {M b : Tensor ℝ} {n : ℕ}, A.B.stackedVectors = true → M.shape = n :: b.shape →
    A.solve M b = Tensor.solveVec A.err M b
  solveMatrix : ∀ {M b : Tensor ℝ}, A.B.stackedVectors = false → 2 ≤ b.shape.length → A.solve M b = solveMat A.err M b
  solveErr : ∀ {M b : Tensor ℝ} {n k m : ℕ} {sa sb : List ℕ}, M.shape = n :: n :: sa → b.shape = k :: m :: sb →
    k ≠ n → m ≠ n → A.solve M b = .error A.err
  inv : A.inv = invMat
  diag : ∀ {x : Tensor ℝ} {c : ℕ} {s : List ℕ}, x.shape = c :: c :: s →
    A.diag c x = .ok (tab (c :: s) fun i => x.get (i.getD 0 0 :: i))
  last : ∀ (b : List ℕ) (c d : ℕ), ∃ (b' : List ℕ) (π : List ℕ → List ℕ × ℕ × ℕ), ∀ {n : ℕ}
    (f : List ℕ → ℕ → ℕ → List ℝ),
    A.toLast (L3 b n c d f) (-3) = .ok (L1 b' n fun i => f (π i).1 (π i).2.1 (π i).2.2) ∧
    A.fromLast (L1 b' n fun i => f (π i).1 (π i).2.1 (π i).2.2) (-3) = .ok (L3 b n c d f)

theorem rfft_length (n : ℕ) (l : List ℝ) : (FBE.rfft n l).length = n / 2 + 1 := by simp [FBE.rfft]

theorem irfft_length (n : ℕ) (l : List ℂ) : (FBE.irfft n l).length = n := by simp [FBE.irfft]

/-! ### transforms of numpy and torch >= 1.8 -/

section transforms

variable (err : PyErr) {b : List ℕ} {m n c d : ℕ}

theorem rfftT_L1 {f : List ℕ → List ℝ} (n? : Option ℕ) (hn : 0 < n?.getD m) (hf : ∀ i, (f i).length = m) :
    rfftT err (L1 b m f) n? (-1) = .ok (L1 b (n?.getD m / 2 + 1) fun i => FBE.rfft (n?.getD m) (f i)) := by
  simp only [rfftT, size_one (L1_shape b m f), if_neg (Nat.pos_iff_ne_zero.1 hn)]
  exact along_L1 (fun l _ => rfft_length _ l) hf

theorem rfftT_L2 {f : List ℕ → ℕ → List ℝ} (n? : Option ℕ) (hn : 0 < n?.getD m) (hf : ∀ i j, (f i j).length = m) :
    rfftT err (L2 b m d f) n? (-2) = .ok (L2 b (n?.getD m / 2 + 1) d fun i j => FBE.rfft (n?.getD m) (f i j)) := by
  simp only [rfftT, size_two (L2_shape b m d f), if_neg (Nat.pos_iff_ne_zero.1 hn)]
  exact along_L2 (fun l _ => rfft_length _ l) hf

theorem rfftT_L3 {f : List ℕ → ℕ → ℕ → List ℝ} (n? : Option ℕ) (hn : 0 < n?.getD m)
    (hf : ∀ i k j, (f i k j).length = m) :
    rfftT err (L3 b m c d f) n? (-3) =
      .ok (L3 b (n?.getD m / 2 + 1) c d fun i k j => FBE.rfft (n?.getD m) (f i k j)) := by
  simp only [rfftT, size_three (L3_shape b m c d f), if_neg (Nat.pos_iff_ne_zero.1 hn)]
  exact along_L3 (fun l _ => rfft_length _ l) hf

theorem irfftT_L1 {f : List ℕ → List ℂ} (hn : 0 < n) (hf : ∀ i, (f i).length = m) :
    irfftT err (L1 b m f) (some n) (-1) = .ok (L1 b n fun i => FBE.irfft n (f i)) := by
  simp only [irfftT, size_one (L1_shape b m f), Option.getD_some, if_neg (Nat.pos_iff_ne_zero.1 hn)]
  exact along_L1 (fun l _ => irfft_length _ l) hf

theorem irfftT_L2 {f : List ℕ → ℕ → List ℂ} (hn : 0 < n) (hf : ∀ i j, (f i j).length = m) :
    irfftT err (L2 b m d f) (some n) (-2) = .ok (L2 b n d fun i j => FBE.irfft n (f i j)) := by
  simp only [irfftT, size_two (L2_shape b m d f), Option.getD_some, if_neg (Nat.pos_iff_ne_zero.1 hn)]
  exact along_L2 (fun l _ => irfft_length _ l) hf

theorem irfftT_L3 {f : List ℕ → ℕ → ℕ → List ℂ} (hn : 0 < n) (hf : ∀ i k j, (f i k j).length = m) :
    irfftT err (L3 b m c d f) (some n) (-3) = .ok (L3 b n c d fun i k j => FBE.irfft n (f i k j)) := by
  simp only [irfftT, size_three (L3_shape b m c d f), Option.getD_some, if_neg (Nat.pos_iff_ne_zero.1 hn)]
  exact along_L3 (fun l _ => irfft_length _ l) hf

end transforms

/-! ### the lag axis at the end -/

section last

variable {α : Type} [Zero α]

theorem transpose_L3 {b : List ℕ} {n c d : ℕ} (f : List ℕ → ℕ → ℕ → List α) :
    (L3 b n c d f).transpose (-3) (-1) =
      .ok (L1 (c :: d :: b) n fun i => f (i.drop 2) (i.getD 0 0) (i.getD 1 0)) := by
  rw [transpose_31 (L3_shape b n c d f)]
  refine congrArg _ (tab_congr fun i hi => ?_)
  obtain ⟨t, i, rfl, ht, hi⟩ := inRange_cons_inv hi
  obtain ⟨k, i, rfl, hk, hi⟩ := inRange_cons_inv hi
  obtain ⟨j, i, rfl, hj, hi⟩ := inRange_cons_inv hi
  exact L3_get hj hk ht hi

theorem transpose_L1_3 {b : List ℕ} {n c d : ℕ} (f : List ℕ → ℕ → ℕ → List α) :
    (L1 (c :: d :: b) n fun i => f (i.drop 2) (i.getD 0 0) (i.getD 1 0)).transpose (-3) (-1) = .ok (L3 b n c d f) := by
  rw [transpose_31 (L1_shape (c :: d :: b) n _)]
  refine congrArg _ (tab_congr fun i hi => ?_)
  obtain ⟨j, i, rfl, hj, hi⟩ := inRange_cons_inv hi
  obtain ⟨k, i, rfl, hk, hi⟩ := inRange_cons_inv hi
  obtain ⟨t, i, rfl, ht, hi⟩ := inRange_cons_inv hi
  exact L1_get ht (b := c :: d :: b) (i := k :: j :: i) ⟨hk, hj, hi⟩

theorem transpose_L2 {b : List ℕ} {n d : ℕ} (f : List ℕ → ℕ → List α) :
    (L2 b n d f).transpose (-2) (-1) = .ok (L1 (d :: b) n fun i => f (i.drop 1) (i.getD 0 0)) := by
  rw [transpose_21 (L2_shape b n d f)]
  refine congrArg _ (tab_congr fun i hi => ?_)
  obtain ⟨t, i, rfl, ht, hi⟩ := inRange_cons_inv hi
  obtain ⟨j, i, rfl, hj, hi⟩ := inRange_cons_inv hi
  exact L2_get hj ht hi

theorem transpose_L1_2 {b : List ℕ} {n d : ℕ} (f : List ℕ → ℕ → List α) :
    (L1 (d :: b) n fun i => f (i.drop 1) (i.getD 0 0)).transpose (-2) (-1) = .ok (L2 b n d f) := by
  rw [transpose_21 (L1_shape (d :: b) n _)]
  refine congrArg _ (tab_congr fun i hi => ?_)
  obtain ⟨j, i, rfl, hj, hi⟩ := inRange_cons_inv hi
  obtain ⟨t, i, rfl, ht, hi⟩ := inRange_cons_inv hi
  exact L1_get ht (b := d :: b) (i := j :: i) ⟨hj, hi⟩

theorem transpose_L1 {b : List ℕ} {n : ℕ} (f : List ℕ → List α) :
    (L1 b n f).transpose (-1) (-1) = .ok (L1 b n f) := by
  rw [transpose_11 (L1_shape b n f)]
  exact congrArg _ (tab_congr fun i hi => tab_get hi)

theorem moveaxis_L3 {b : List ℕ} {n c d : ℕ} (f : List ℕ → ℕ → ℕ → List α) :
    (L3 b n c d f).moveaxis (-3) (-1) =
      .ok (L1 (d :: c :: b) n fun i => f (i.drop 2) (i.getD 1 0) (i.getD 0 0)) := by
  rw [moveaxis_31 (L3_shape b n c d f)]
  refine congrArg _ (tab_congr fun i hi => ?_)
  obtain ⟨t, i, rfl, ht, hi⟩ := inRange_cons_inv hi
  obtain ⟨j, i, rfl, hj, hi⟩ := inRange_cons_inv hi
  obtain ⟨k, i, rfl, hk, hi⟩ := inRange_cons_inv hi
  exact L3_get hj hk ht hi

theorem moveaxis_L1_3 {b : List ℕ} {n c d : ℕ} (f : List ℕ → ℕ → ℕ → List α) :
    (L1 (d :: c :: b) n fun i => f (i.drop 2) (i.getD 1 0) (i.getD 0 0)).moveaxis (-1) (-3) = .ok (L3 b n c d f) := by
  rw [moveaxis_13 (L1_shape (d :: c :: b) n _)]
  refine congrArg _ (tab_congr fun i hi => ?_)
  obtain ⟨j, i, rfl, hj, hi⟩ := inRange_cons_inv hi
  obtain ⟨k, i, rfl, hk, hi⟩ := inRange_cons_inv hi
  obtain ⟨t, i, rfl, ht, hi⟩ := inRange_cons_inv hi
  exact L1_get ht (b := d :: c :: b) (i := j :: k :: i) ⟨hj, hk, hi⟩

end last

theorem diagonal_square {α : Type} [Zero α] {x : Tensor α} {c : ℕ} {s : List ℕ} (hx : x.shape = c :: c :: s) :
    x.diagonal = .ok (tab (c :: s) fun i => x.get (i.getD 0 0 :: i)) := by
  simp only [diagonal, hx, min_self]

theorem diagIndices_square {α : Type} [Zero α] {x : Tensor α} {c : ℕ} {s : List ℕ} (hx : x.shape = c :: c :: s) :
    diagIndices c x = .ok (tab (c :: s) fun i => x.get (i.getD 0 0 :: i)) := by
  simp only [diagIndices, hx, le_refl, and_self, if_true]

/-- torch >= 1.8. -/
theorem solveMat_size {err : PyErr} {M b : Tensor ℝ} {n k m : ℕ} {sa sb : List ℕ} (hM : M.shape = n :: n :: sa)
    (hb : b.shape = k :: m :: sb) (hm : m ≠ n) : solveMat err M b = .error err := by
  simp only [solveMat, hM, hb]
  rw [if_neg (by simp), if_pos hm]

theorem solveVec_size {err : PyErr} {M b : Tensor ℝ} {n k : ℕ} {sa sb : List ℕ} (hM : M.shape = n :: n :: sa)
    (hb : b.shape = k :: sb) (hk : k ≠ n) : Tensor.solveVec err M b = .error err := by
  have h1 : (b.unsqueeze 0).shape = 1 :: k :: sb := by rw [unsqueeze_0, tab_shape, hb]
  simp only [Tensor.solveVec, solveMat_size hM h1 hk]

theorem torchApi_lawful : torchApi.Lawful where
  rfft1 hn hf := rfftT_L1 _ (some _) hn hf
  rfft1_none hn hf := rfftT_L1 _ none hn hf
  rfft2 hn hf := rfftT_L2 _ (some _) hn hf
  rfft3 hn hf := rfftT_L3 _ (some _) hn hf
  rfft3_none hn hf := rfftT_L3 _ none hn hf
  irfft1 hn hf := irfftT_L1 _ hn hf
  irfft2 hn hf := irfftT_L2 _ hn hf
  irfft3 hn hf := irfftT_L3 _ hn hf
  irfftReal1 hn hf := by
    show irfftT _ _ _ _ = _
    rw [map_L1 _ hf]
    exact irfftT_L1 _ hn fun i => by simp [hf i]
  solve {M b} h2 h := by
    refine if_neg ?_
    rintro (h1 | ⟨h1, -⟩) <;> omega
  solveVec {M b n} _ h := by
    refine if_pos (Or.inr ⟨?_, ?_⟩)
    · rw [h]; rfl
    · rw [h]; rfl
  solveMatrix h := by simp [torchApi, torchBackend] at h
  solveErr {M b n k m sa sb} hM hb hk hm := by
    show solveTorch M b = .error .runtimeError
    unfold solveTorch
    split_ifs with h
    · exact solveVec_size hM hb hk
    · exact solveMat_size hM hb hm
  inv := rfl
  diag h := diagonal_square h
  last b c d := ⟨_, fun i => (i.drop 2, i.getD 0 0, i.getD 1 0), fun f => ⟨transpose_L3 f, transpose_L1_3 f⟩⟩

/-- numpy, all versions. -/
theorem numpyApi_lawful (scipyLsa : Lsa) (numpy2 : Bool) : (numpyApi scipyLsa numpy2).Lawful where
  rfft1 hn hf := rfftT_L1 _ (some _) hn hf
  rfft1_none hn hf := rfftT_L1 _ none hn hf
  rfft2 hn hf := rfftT_L2 _ (some _) hn hf
  rfft3 hn hf := rfftT_L3 _ (some _) hn hf
  rfft3_none hn hf := rfftT_L3 _ none hn hf
  irfft1 hn hf := irfftT_L1 _ hn hf
  irfft2 hn hf := irfftT_L2 _ hn hf
  irfft3 hn hf := irfftT_L3 _ hn hf
  irfftReal1 hn hf := by
    show irfftT _ _ _ _ = _
    rw [map_L1 _ hf]
    exact irfftT_L1 _ hn fun i => by simp [hf i]
  solve {M b} h2 h := by
    refine if_neg ?_
    split_ifs <;> omega
  solveVec {M b n} hs h := by
    have h2 : numpy2 = false := by cases numpy2 <;> simp_all [numpyApi, numpyBackend]
    subst h2
    refine if_pos ?_
    rw [h]; simp
  solveMatrix {M b} h h2 := by
    have h3 : numpy2 = true := by cases numpy2 <;> simp_all [numpyApi, numpyBackend]
    subst h3
    refine if_neg ?_
    simp only [if_true]
    omega
  solveErr {M b n k m sa sb} hM hb hk hm := by
    show solveNumpy numpy2 M b = .error .valueError
    unfold solveNumpy
    by_cases h : (if numpy2 = true then b.shape.length = 1 else b.shape.length = M.shape.length - 1)
    · exact (if_pos h).trans (solveVec_size hM hb hk)
    · exact (if_neg h).trans (solveMat_size hM hb hm)
  inv := rfl
  diag h := diagIndices_square h
  last b c d := ⟨_, fun i => (i.drop 2, i.getD 1 0, i.getD 0 0), fun f => ⟨moveaxis_L3 f, moveaxis_L1_3 f⟩⟩

/-! ### the wrappers for torch < 1.8 -/

/-- Zeros after the last sample do not change the transform. -/
theorem rfft_pad (n k : ℕ) (l : List ℝ) : FBE.rfft n (l ++ List.replicate k 0) = FBE.rfft n l := by
  unfold FBE.rfft
  refine List.map_congr_left fun a _ => Finset.sum_congr rfl fun t _ => ?_
  congr 2
  by_cases h : t < l.length
  · rw [getD_append_left h]
  · rw [getD_append_right (by omega)]
    have e1 : l.getD t 0 = 0 := by simp [List.getElem?_eq_none (Nat.le_of_not_lt h)]
    rw [e1]
    by_cases h2 : t - l.length < k
    · simp [h2]
    · have h3 : (List.replicate k (0 : ℝ))[t - l.length]? = none := List.getElem?_eq_none (by simp; omega)
      simp [List.getD_eq_getElem?_getD, h3]

/-- Samples after position `n` do not change the transform. -/
theorem rfft_take (n : ℕ) (l : List ℝ) : FBE.rfft n (l.take n) = FBE.rfft n l := by
  unfold FBE.rfft
  refine List.map_congr_left fun a _ => Finset.sum_congr rfl fun t ht => ?_
  rw [getD_take _ _ _ _ (Finset.mem_range.1 ht)]

/-- `torch.rfft` and the two selections give the complex transform. -/
theorem oldRfft_complex {b : List ℕ} {m : ℕ} {f : List ℕ → List ℝ} (hf : ∀ i, (f i).length = m) :
    (do let x ← oldRfft (L1 b m f)
        let re ← x.select 0 0
        let im ← x.select 0 1
        complexTensor re im) = .ok (L1 b (m / 2 + 1) fun i => FBE.rfft m (f i)) := by
  have h1 : (L1 b m f).along (fun l => FBE.rfft l.length l) (-1) =
      .ok (L1 b (m / 2 + 1) fun i => FBE.rfft (f i).length (f i)) :=
    along_L1 (fun l hl => by rw [rfft_length, hl]) hf
  simp only [oldRfft, h1, ok_bind]
  rw [select_0 (k := 0) rfl Nat.two_pos, ok_bind, select_0 (k := 1) rfl Nat.one_lt_two, ok_bind]
  simp only [complexTensor, tab_shape, if_true]
  refine congrArg _ (tab_congr fun i hi => ?_)
  rw [tab_get hi, tab_get hi, tab_get (inRange_cons.2 ⟨Nat.two_pos, hi⟩),
    tab_get (inRange_cons.2 ⟨Nat.one_lt_two, hi⟩)]
  obtain ⟨t, j, rfl, ht, hj⟩ := inRange_cons_inv hi
  have := L1_get (f := fun i => FBE.rfft (f i).length (f i)) ht hj
  simp only [List.drop_succ_cons, List.drop_zero, List.getD_cons_zero]
  rw [this, hf]
  simp

theorem oldRfft_transpose {b : List ℕ} {m : ℕ} {f : List ℕ → List ℝ} (dim : ℤ) (hf : ∀ i, (f i).length = m) :
    (do let x ← oldRfft (L1 b m f)
        let re ← x.select 0 0
        let im ← x.select 0 1
        let x ← complexTensor re im
        x.transpose dim (-1)) = (L1 b (m / 2 + 1) fun i => FBE.rfft m (f i)).transpose dim (-1) := by
  have h := oldRfft_complex (b := b) hf
  revert h
  cases oldRfft (L1 b m f) with
  | error e => intro h; cases h
  | ok y =>
    simp only [ok_bind]
    cases y.select 0 0 with
    | error e => intro h; cases h
    | ok re =>
      simp only [ok_bind]
      cases y.select 0 1 with
      | error e => intro h; cases h
      | ok im =>
        simp only [ok_bind]
        intro h
        rw [h]; rfl

theorem compatRfft_eq {b : List ℕ} {m : ℕ} {f : List ℕ → List ℝ} (x : Tensor ℝ) (n? : Option ℕ) (dim : ℤ)
    (hn : 0 < n?.getD m) (hf : ∀ i, (f i).length = m) (hx : x.transpose dim (-1) = .ok (L1 b m f)) :
    compatRfft x n? dim =
      (L1 b (n?.getD m / 2 + 1) fun i => FBE.rfft (n?.getD m) (f i)).transpose dim (-1) := by
  have h0 : n?.getD m ≠ 0 := Nat.pos_iff_ne_zero.1 hn
  simp only [compatRfft, hx, ok_bind, size_one (L1_shape b m f)]
  cases n? with
  | none =>
    simp only [if_neg h0]
    exact oldRfft_transpose dim hf
  | some n =>
    simp only [Option.getD_some] at h0 ⊢
    by_cases h1 : n > m
    · have h3 : (L1 b m f).padLast (n - m) = .ok (L1 b n fun i => f i ++ List.replicate (n - m) 0) :=
        along_L1 (fun l hl => by simp [hl]; omega) hf
      rw [if_pos h1, h3, ok_bind]
      simp only [if_neg h0]
      refine (oldRfft_transpose dim (fun i => by simp [hf i]; omega)).trans ?_
      simp only [rfft_pad]
    · rw [if_neg h1]
      by_cases h2 : n < m
      · have h3 : (L1 b m f).slice (-1) none (some n) = .ok (L1 b n fun i => (f i).take n) := by
          unfold Tensor.slice
          simp only [pySlice_take]
          exact along_L1 (fun l hl => by simp [hl]; omega) hf
        rw [if_pos h2, h3, ok_bind]
        simp only [if_neg h0]
        refine (oldRfft_transpose dim (fun i => by simp [hf i]; omega)).trans ?_
        simp only [rfft_take]
      · obtain rfl : n = m := by omega
        rw [if_neg h2]
        simp only [if_neg h0]
        exact oldRfft_transpose dim hf

/-- `torch.irfft` of the stacked parts, when the number of frequencies fits. -/
theorem compatIrfftTail_eq {b : List ℕ} {n : ℕ} {f : List ℕ → List ℂ} {x : Tensor ℝ} (dim : ℤ)
    (hf : ∀ i, (f i).length = n / 2 + 1) (hx : x.shape = 2 :: (n / 2 + 1) :: b)
    (h0 : ∀ t i, t < n / 2 + 1 → InRange b i → x.get (0 :: t :: i) = ((f i).getD t 0).re)
    (h1 : ∀ t i, t < n / 2 + 1 → InRange b i → x.get (1 :: t :: i) = ((f i).getD t 0).im) :
    compatIrfftTail x (some n) dim = (L1 b n fun i => FBE.irfft n (f i)).transpose dim (-1) := by
  have e1 : (tab ((n / 2 + 1) :: b) fun i => (⟨x.get (0 :: i), x.get (1 :: i)⟩ : ℂ)) = L1 b (n / 2 + 1) f := by
    refine tab_congr fun i hi => ?_
    obtain ⟨t, j, rfl, ht, hj⟩ := inRange_cons_inv hi
    rw [h0 t j ht hj, h1 t j ht hj]; rfl
  have e2 : oldIrfft x n = .ok (L1 b n fun i => FBE.irfft n (f i)) := by
    simp only [oldIrfft, hx, if_true]
    rw [e1]
    exact along_L1 (fun l _ => irfft_length _ l) hf
  simp only [compatIrfftTail, size_two hx, ok_bind, lt_irrefl, gt_iff_lt, if_false, e2]

theorem compatIrfft_eq {b : List ℕ} {n : ℕ} {f : List ℕ → List ℂ} (x : Tensor ℂ) (dim : ℤ)
    (hf : ∀ i, (f i).length = n / 2 + 1) (hx : x.transpose dim (-1) = .ok (L1 b (n / 2 + 1) f)) :
    compatIrfft x (some n) dim = (L1 b n fun i => FBE.irfft n (f i)).transpose dim (-1) := by
  have hs : ((L1 b (n / 2 + 1) f).map Complex.re).shape = ((L1 b (n / 2 + 1) f).map Complex.im).shape := rfl
  simp only [compatIrfft, hx, ok_bind, Tensor.stack]
  rw [if_pos hs, ok_bind]
  refine compatIrfftTail_eq dim hf rfl (fun t i ht hi => ?_) (fun t i ht hi => ?_)
  · rw [tab_get (inRange_cons.2 ⟨Nat.two_pos, by exact inRange_cons.2 ⟨ht, hi⟩⟩)]
    show ((L1 b (n / 2 + 1) f).map Complex.re).get (t :: i) = _
    unfold Tensor.map
    rw [L1_shape, tab_get (s := (n / 2 + 1) :: b) (inRange_cons.2 ⟨ht, hi⟩), L1_get ht hi]
  · rw [tab_get (inRange_cons.2 ⟨Nat.one_lt_two, by exact inRange_cons.2 ⟨ht, hi⟩⟩)]
    show ((L1 b (n / 2 + 1) f).map Complex.im).get (t :: i) = _
    unfold Tensor.map
    rw [L1_shape, tab_get (s := (n / 2 + 1) :: b) (inRange_cons.2 ⟨ht, hi⟩), L1_get ht hi]

theorem compatIrfftReal_eq {b : List ℕ} {n : ℕ} {f : List ℕ → List ℝ} (x : Tensor ℝ) (dim : ℤ)
    (hf : ∀ i, (f i).length = n / 2 + 1) (hx : x.transpose dim (-1) = .ok (L1 b (n / 2 + 1) f)) :
    compatIrfftReal x (some n) dim =
      (L1 b n fun i => FBE.irfft n ((f i).map Complex.ofReal)).transpose dim (-1) := by
  have hm : ∀ {i : List ℕ} {t : ℕ}, t < n / 2 + 1 → ((f i).map Complex.ofReal).getD t 0 = (((f i).getD t 0 : ℝ) : ℂ) := by
    intro i t ht
    have h1 : t < (f i).length := by rw [hf]; exact ht
    simp [List.getElem?_eq_getElem h1]
  have hs : (L1 b (n / 2 + 1) f).shape = ((L1 b (n / 2 + 1) f).map fun _ => (0 : ℝ)).shape := rfl
  simp only [compatIrfftReal, hx, ok_bind, Tensor.stack]
  rw [if_pos hs, ok_bind]
  refine compatIrfftTail_eq dim (fun i => by simp [hf i]) rfl (fun t i ht hi => ?_) (fun t i ht hi => ?_)
  · rw [tab_get (inRange_cons.2 ⟨Nat.two_pos, by exact inRange_cons.2 ⟨ht, hi⟩⟩), hm ht]
    exact L1_get ht hi
  · rw [tab_get (inRange_cons.2 ⟨Nat.one_lt_two, by exact inRange_cons.2 ⟨ht, hi⟩⟩), hm ht]
    show ((L1 b (n / 2 + 1) f).map fun _ => (0 : ℝ)).get (t :: i) = _
    unfold Tensor.map
    rw [L1_shape, tab_get (s := (n / 2 + 1) :: b) (inRange_cons.2 ⟨ht, hi⟩)]
    simp

/-- torch < 1.8 through the wrappers of torch/compatibility.py. -/
theorem oldTorchApi_lawful : oldTorchApi.Lawful where
  rfft1 {b m n f} hn hf := (compatRfft_eq _ (some n) (-1) hn hf (transpose_L1 f)).trans (transpose_L1 _)
  rfft1_none {b m f} hn hf := (compatRfft_eq _ none (-1) hn hf (transpose_L1 f)).trans (transpose_L1 _)
  rfft2 {b m n d f} hn hf :=
    (compatRfft_eq _ (some n) (-2) hn (fun i => hf _ _) (transpose_L2 f)).trans (transpose_L1_2 fun i j => FBE.rfft n (f i j))
  rfft3 {b m n c d f} hn hf :=
    (compatRfft_eq _ (some n) (-3) hn (fun i => hf _ _ _) (transpose_L3 f)).trans
      (transpose_L1_3 fun i k j => FBE.rfft n (f i k j))
  rfft3_none {b m c d f} hn hf :=
    (compatRfft_eq _ none (-3) hn (fun i => hf _ _ _) (transpose_L3 f)).trans
      (transpose_L1_3 fun i k j => FBE.rfft m (f i k j))
  irfft1 {b n f} hn hf := (compatIrfft_eq _ (-1) hf (transpose_L1 f)).trans (transpose_L1 _)
  irfft2 {b n d f} hn hf :=
    (compatIrfft_eq _ (-2) (fun i => hf _ _) (transpose_L2 f)).trans (transpose_L1_2 fun i j => FBE.irfft n (f i j))
  irfft3 {b n c d f} hn hf :=
    (compatIrfft_eq _ (-3) (fun i => hf _ _ _) (transpose_L3 f)).trans
      (transpose_L1_3 fun i k j => FBE.irfft n (f i k j))
  irfftReal1 {b n f} hn hf := (compatIrfftReal_eq _ (-1) hf (transpose_L1 f)).trans (transpose_L1 _)
  solve {M b} h2 h := by
    refine if_neg ?_
    omega
  solveVec {M b n} _ h := by
    refine if_pos ?_
    rw [h]; simp
  solveMatrix h := by simp [oldTorchApi, torchBackend] at h
  solveErr {M b n k m sa sb} hM hb hk hm := by
    show compatSolve M b = .error .runtimeError
    unfold compatSolve
    split_ifs with h
    · exact solveVec_size hM hb hk
    · exact solveMat_size hM hb hm
  inv := rfl
  diag h := diagonal_square h
  last b c d := ⟨_, fun i => (i.drop 2, i.getD 0 0, i.getD 1 0), fun f => ⟨transpose_L3 f, transpose_L1_3 f⟩⟩

end FBE
