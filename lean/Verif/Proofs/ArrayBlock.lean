import Verif.Proofs.ArrayCg

/-!
# The statements of `linalg.py` and `cgd.py` on arrays: all references at once
-/

set_option linter.unusedSectionVars false

namespace FBE

open Classical Tensor Matrix Spec

namespace Arrays

variable {A : Api} {n c e : ℕ} {s : List ℕ} {f : List ℕ → ℕ → ℕ → List ℝ}

/-! ### `block_toeplitz` -/

theorem select_L3 {m d r k : ℕ} (hr : r < c) (hk : k < d) :
    (do let y ← (L3 s m c d f).select 0 k; y.select 0 r) = .ok (L1 s m fun i => f i r k) := by
  rw [select_0 (L3_shape _ _ _ _ _) hk, ok_bind, select_0 (n := c) (b := m :: s) rfl hr]
  refine congrArg _ (tab_congr fun i hi => ?_)
  obtain ⟨t, i, rfl, ht, hi⟩ := inRange_cons_inv hi
  refine (tab_get (s := c :: m :: s) (i := r :: t :: i) ⟨hr, ht, hi⟩).trans ?_
  exact L3_get hk hr ht hi

theorem blockBody_eq (hn : 2 ≤ n) (hf : ∀ i k l, (f i k l).length = n + n) {r k : ℕ} (hr : r < c) (hk : k < c)
    (g : List ℕ → ℝ) :
    blockBody A n (L3 s (n + n) c c f) (tab (c :: n :: c :: n :: s) g) (r, k) =
      .ok (tab (c :: n :: c :: n :: s) fun i => if i.getD 0 0 = k ∧ i.getD 2 0 = r then
        lagAt (f (i.drop 4) r k) (i.getD 3 0) (i.getD 1 0) else g i) := by
  have hl1 : ∀ l : List ℝ, l.length = n + n → (pySlice l (some (-(n : ℤ) + 1)) none).length = n - 1 := by
    intro l hl
    rw [pySlice_neg_add_one _ _ hn, List.length_drop, hl]; omega
  have hl2 : ∀ l : List ℝ, l.length = n + n → (pySlice l none (some (n : ℤ))).length = n := by
    intro l hl
    rw [pySlice_take, List.length_take, hl]; omega
  have h0 : (blockBody A n (L3 s (n + n) c c f) (tab (c :: n :: c :: n :: s) g) (r, k)) =
      ((do let y ← (L3 s (n + n) c c f).select 0 k; y.select 0 r) >>= fun y => do
        let a ← y.slice (-1) (some (-(n : ℤ) + 1)) none
        let b ← y.slice (-1) none (some n)
        let vec ← Tensor.cat A.err a b (-1)
        let H ← Arrays.hankelView A.err vec n
        let T ← H.along List.reverse (-2)
        setBlock A.err (tab (c :: n :: c :: n :: s) g) r k T) := by
    unfold blockBody
    simp only [bind_assoc]
  rw [h0, select_L3 hr hk, ok_bind]
  simp only [Tensor.slice]
  rw [along_L1 hl1 (fun i => hf i r k), ok_bind, along_L1 hl2 (fun i => hf i r k), ok_bind,
    cat_L1 _ (fun i => hl1 _ (hf i r k)), ok_bind]
  have h1 : ¬ (n - 1 + n + 1 < n) := by omega
  have h2 : n - 1 + n + 1 - n = n := by omega
  have h3 : Arrays.hankelView A.err (L1 s (n - 1 + n) fun i =>
      pySlice (f i r k) (some (-(n : ℤ) + 1)) none ++ pySlice (f i r k) none (some (n : ℤ))) n =
      .ok (L2 s n n fun i j => (List.range n).map fun a => (blockVec n (f i r k)).getD (a + j) 0) := by
    simp only [Arrays.hankelView, L1_shape, if_neg h1, h2]
    refine congrArg _ (tab_congr fun i hi => ?_)
    obtain ⟨j, i, rfl, hj, hi⟩ := inRange_cons_inv hi
    obtain ⟨a, i, rfl, ha, hi⟩ := inRange_cons_inv hi
    show (L1 s (n - 1 + n) _).get ((a + j) :: i) = (List.map _ (List.range n)).getD a 0
    rw [L1_get (by omega) hi, map_range_eq_ofFn, getD_ofFn' _ ha]
    rfl
  rw [h3, ok_bind, along_L2 (fun l hl => by rw [List.length_reverse, hl]) (fun i j => by simp), ok_bind]
  simp only [setBlock, tab_shape, expand, L2_shape, bcShape_self, if_true, ok_bind]
  refine congrArg _ (tab_congr fun i hi => ?_)
  have hi' := hi
  obtain ⟨k', i, rfl, hk', hi⟩ := inRange_cons_inv hi
  obtain ⟨q, i, rfl, hq, hi⟩ := inRange_cons_inv hi
  obtain ⟨r', i, rfl, hr', hi⟩ := inRange_cons_inv hi
  obtain ⟨p, i, rfl, hp, hi⟩ := inRange_cons_inv hi
  show (if k' = k ∧ r' = r then (tab (n :: n :: s) _).get (q :: p :: i) else (tab (c :: n :: c :: n :: s) g).get _) =
    if k' = k ∧ r' = r then lagAt (f i r k) p q else _
  have hr0 : InRange (n :: n :: s) (q :: p :: i) := ⟨hq, hp, hi⟩
  rw [tab_get hi', tab_get hr0, bcIdx_self hr0, L2_get hq hp hi]
  split_ifs with h
  · rw [getD_reverse _ _ _ (by simp; omega), List.length_map, List.length_range, map_range_eq_ofFn,
      getD_ofFn' _ (by omega)]
    have := block_view hn (x := f i r k) (by rw [hf]; omega) ⟨p, hp⟩ ⟨q, hq⟩
    unfold FBE.hankelView at this
    show (blockVec n (f i r k)).getD (n - 1 - p + q) 0 = _
    rw [List.getD_eq_getElem?_getD, this]
    rfl
  · rfl

theorem blockLoop_eq (hn : 2 ≤ n) (hf : ∀ i k l, (f i k l).length = n + n) (l : List (ℕ × ℕ))
    (hl : ∀ rc ∈ l, rc.1 < c ∧ rc.2 < c) (g : List ℕ → ℝ) :
    l.foldlM (blockBody A n (L3 s (n + n) c c f)) (tab (c :: n :: c :: n :: s) g) =
      .ok (tab (c :: n :: c :: n :: s) fun i => if (i.getD 2 0, i.getD 0 0) ∈ l then
        lagAt (f (i.drop 4) (i.getD 2 0) (i.getD 0 0)) (i.getD 3 0) (i.getD 1 0) else g i) := by
  induction l generalizing g with
  | nil => simp; rfl
  | cons rc l ih =>
    obtain ⟨r, k⟩ := rc
    have h1 := hl (r, k) (by simp)
    rw [List.foldlM_cons, blockBody_eq hn hf h1.1 h1.2, ok_bind, ih fun rc h => hl rc (by simp [h])]
    refine congrArg _ (tab_congr fun i hi => ?_)
    by_cases h2 : (i.getD 2 0, i.getD 0 0) ∈ l
    · rw [if_pos h2, if_pos (List.mem_cons_of_mem _ h2)]
    · rw [if_neg h2]
      by_cases h3 : i.getD 0 0 = k ∧ i.getD 2 0 = r
      · rw [if_pos h3, if_pos (by rw [h3.1, h3.2]; simp), h3.1, h3.2]
      · rw [if_neg h3, if_neg]
        simp only [List.mem_cons, Prod.mk.injEq, not_or]
        exact ⟨fun h => h3 ⟨h.2, h.1⟩, h2⟩

theorem blockToeplitz_eq (hn : 2 ≤ n) (hf : ∀ i k l, (f i k l).length = n + n) :
    Arrays.blockToeplitz A (L3 s (n + n) c c f) = .ok (Mx s (n * c) fun i =>
      Matrix.submatrix (fun p q : Fin n × Fin c => lagAt (f i p.2 q.2) p.1 q.1)
        finProdFinEquiv.symm finProdFinEquiv.symm) := by
  have h1 : (n + n) / 2 = n := by omega
  have hmem : ∀ rc ∈ (List.range c).flatMap fun r => (List.range c).map fun k => (r, k), rc.1 < c ∧ rc.2 < c := by
    intro rc h
    simp only [List.mem_flatMap, List.mem_map, List.mem_range] at h
    obtain ⟨r, hr, k, hk, rfl⟩ := h
    exact ⟨hr, hk⟩
  simp only [Arrays.blockToeplitz, L3_shape, h1]
  rw [blockLoop_eq hn hf _ hmem, ok_bind, reshape_block _ rfl]
  refine congrArg _ (tab_congr fun i hi => ?_)
  obtain ⟨q, i, rfl, hq, hi⟩ := inRange_cons_inv hi
  obtain ⟨p, i, rfl, hp, hi⟩ := inRange_cons_inv hi
  have hc : 0 < c := Nat.pos_of_ne_zero fun h => by simp [h] at hq
  refine Eq.trans ?_ (dif_pos (c := p < n * c ∧ q < n * c) ⟨hp, hq⟩).symm
  have hp1 : p / c < n := Nat.div_lt_of_lt_mul (by rw [mul_comm]; exact hp)
  have hq1 : q / c < n := Nat.div_lt_of_lt_mul (by rw [mul_comm]; exact hq)
  have hp2 := Nat.mod_lt p hc
  have hq2 := Nat.mod_lt q hc
  refine (tab_get (s := c :: n :: c :: n :: s) (i := q % c :: q / c :: p % c :: p / c :: i)
    ⟨hq2, hq1, hp2, hp1, hi⟩).trans ?_
  rw [if_pos (by simp [hp2, hq2])]
  rfl

/-! ### rows of columns -/

/-- The components of channel `k` of a column. -/
noncomputable def lagColD (v : Fin n × Fin c → ℝ) (k : ℕ) : List ℝ :=
  if h : k < c then lagCol v ⟨k, h⟩ else List.replicate n 0

theorem length_lagColD (v : Fin n × Fin c → ℝ) (k : ℕ) : (lagColD v k).length = n := by
  unfold lagColD lagCol
  split <;> simp

theorem lagColD_eq (v : Fin n × Fin c → ℝ) (k : Fin c) : lagColD v k = lagCol v k := dif_pos k.isLt

theorem splitRows_eq (err : PyErr) (h : 0 < e * c * s.prod) (v : List ℕ → ℕ → Fin n × Fin c → ℝ) :
    splitRows err (V s e finProdFinEquiv v) c = .ok (L3 s n c e fun i k j => lagColD (v i j) k) := by
  simp only [splitRows, V_shape]
  rw [reshape_split err (V_shape v) h]
  refine congrArg _ (tab_congr fun i hi => ?_)
  obtain ⟨j, i, rfl, hj, hi⟩ := inRange_cons_inv hi
  obtain ⟨k, i, rfl, hk, hi⟩ := inRange_cons_inv hi
  obtain ⟨t, i, rfl, ht, hi⟩ := inRange_cons_inv hi
  have hlt : t * c + k < n * c := by
    calc t * c + k < t * c + c := by omega
      _ = (t + 1) * c := by ring
      _ ≤ n * c := Nat.mul_le_mul_right _ ht
  show (V s e finProdFinEquiv v).get (j :: (t * c + k) :: i) = (lagColD (v i j) k).getD t 0
  rw [V_get hj hlt hi]
  have h1 : (finProdFinEquiv.symm ⟨t * c + k, hlt⟩ : Fin n × Fin c) = (⟨t, ht⟩, ⟨k, hk⟩) := by
    rw [Equiv.symm_apply_eq]
    exact Fin.ext (by simp [finProdFinEquiv]; ring)
  rw [h1]
  unfold lagColD
  rw [dif_pos hk]
  unfold lagCol
  rw [getD_ofFn' _ ht]

theorem mergeRows_eq (err : PyErr) (h : 0 < e * s.prod) {g : List ℕ → ℕ → ℕ → List ℝ} :
    mergeRows err (L3 s n c e g) =
      .ok (V s e finProdFinEquiv fun i j (p : Fin n × Fin c) => vec n (g i p.2 j) p.1) := by
  simp only [mergeRows, L3_shape]
  rw [reshape_merge err (L3_shape _ _ _ _ _) h]
  refine congrArg _ (tab_eq_V fun i hi j hj t ht => ?_)
  have hc : 0 < c := Nat.pos_of_ne_zero fun h => by simp [h] at ht
  exact L3_get hj (Nat.mod_lt t hc) (Nat.div_lt_of_lt_mul (by rw [mul_comm]; exact ht)) hi

/-! ### the preconditioner -/

theorem nonsymPrecondCol_eq (hA : A.Lawful) (hB : Covered A.B) (hn : 2 ≤ n) {d : ℕ}
    (hf : ∀ i k l, (f i k l).length = n + n) :
    Arrays.nonsymPrecondCol A (L3 s (n + n) c d f) (-3) =
      .ok (L3 s n c d fun i k j => FBE.nonsymPrecondCol A.B (f i k j)) := by
  obtain ⟨b', π, hπ⟩ := hA.last s c d
  have h1 : (n + n + 1) / 2 = n := by omega
  have hl1 : ∀ l : List ℝ, l.length = n + n → (A.B.revMid n l).length = n - 1 := by
    intro l hl
    rw [hB.revMid n (by omega)]; simp [hl]
  have hl2 : ∀ l : List ℝ, l.length = n + n → (A.B.revLast n l).length = n - 1 := by
    intro l hl
    rw [hB.revLast n hn]; simp [hl]; omega
  have hl3 : ∀ l : List ℝ, l.length = n + n → (pySlice l none (some 1)).length = 1 := by
    intro l hl
    rw [pySlice_one, List.length_take, hl]; omega
  have hg : ∀ i, (f (π i).1 (π i).2.1 (π i).2.2).length = n + n := fun i => hf _ _ _
  simp only [Arrays.nonsymPrecondCol, Tensor.slice]
  rw [(hπ f).1, ok_bind, size_one (L1_shape _ _ _), ok_bind, h1, along_L1 hl1 hg, ok_bind, along_L1 hl2 hg, ok_bind,
    ramp_eq, map_L1 _ (fun i => by simp), zip_row_L1 _ _ (fun i => hl1 _ (hg i)) (by simp), ok_bind,
    zip_row_L1 _ _ (fun i => hl2 _ (hg i)) (by simp), ok_bind,
    zip_L1_same _ _ (fun i => by simp [hl1 _ (hg i)]) (fun i => by simp [hl2 _ (hg i)]), ok_bind, along_L1 hl3 hg,
    ok_bind, cat_L1 _ (fun i => hl3 _ (hg i)), ok_bind]
  have h2 : 1 + (n - 1) = n := by omega
  rw [h2, ← (hπ fun i k j => FBE.nonsymPrecondCol A.B (f i k j)).2]
  congr 2
  funext i
  simp only [FBE.nonsymPrecondCol, hg, h1]

theorem matrixAt_L3 {F : ℕ} {C : List ℕ → ℕ → ℕ → List ℂ} {q : ℕ} {i : List ℕ} (hq : q < F) (hi : InRange s i) :
    matrixAt (L3 s F c c C) c (q :: i) = fun r d : Fin c => (C i r d).getD q 0 := by
  funext r d
  exact L3_get d.isLt r.isLt hq hi

/-- Inverses at every frequency. -/
theorem invMat_L3 {F : ℕ} {C : List ℕ → ℕ → ℕ → List ℂ} (X : List ℕ → ℕ → Matrix (Fin c) (Fin c) ℂ)
    (hX : ∀ i q, X i q = fun r d : Fin c => (C i r d).getD q 0) :
    invMat (L3 s F c c C) = if ∃ i, InRange s i ∧ ∃ q < F, (X i q).det = 0 then .error .linAlgError
      else .ok (tab (c :: c :: F :: s) fun i => if h : i.getD 1 0 < c ∧ i.getD 0 0 < c then
        (X (i.drop 3) (i.getD 2 0))⁻¹ ⟨_, h.1⟩ ⟨_, h.2⟩ else 0) := by
  have h1 : (∃ i, InRange (F :: s) i ∧ (matrixAt (L3 s F c c C) c i).det = 0) ↔
      ∃ i, InRange s i ∧ ∃ q < F, (X i q).det = 0 := by
    constructor
    · rintro ⟨i, hi, h⟩
      obtain ⟨q, i, rfl, hq, hi⟩ := inRange_cons_inv hi
      rw [matrixAt_L3 hq hi, ← hX] at h
      exact ⟨i, hi, q, hq, h⟩
    · rintro ⟨i, hi, q, hq, h⟩
      refine ⟨q :: i, ⟨hq, hi⟩, ?_⟩
      rw [matrixAt_L3 hq hi, ← hX]
      exact h
  simp only [invMat, L3_shape, ne_eq, not_true_eq_false, if_false, h1]
  split_ifs
  · rfl
  · refine congrArg _ (tab_congr fun i hi => ?_)
    obtain ⟨d, i, rfl, hd, hi⟩ := inRange_cons_inv hi
    obtain ⟨r, i, rfl, hr, hi⟩ := inRange_cons_inv hi
    obtain ⟨q, i, rfl, hq, hi⟩ := inRange_cons_inv hi
    refine (dif_pos (c := r < c ∧ d < c) ⟨hr, hd⟩).trans (Eq.trans ?_ (dif_pos (c := r < c ∧ d < c) ⟨hr, hd⟩).symm)
    show (matrixAt (L3 s F c c C) c (q :: i))⁻¹ _ _ = (X i q)⁻¹ _ _
    rw [matrixAt_L3 hq hi, ← hX]

/-- Products with a matrix at every frequency. -/
theorem einsum_spec (err : PyErr) {F : ℕ} {ba bl : List ℕ} {x : Tensor ℂ} {L : List ℕ → ℕ → ℕ → List ℂ}
    (hx : x.shape = c :: c :: F :: ba) (Y : List ℕ → ℕ → Matrix (Fin c) (Fin c) ℂ)
    (hC : ∀ i, InRange ba i → ∀ q < F, ∀ r d : Fin c, x.get (d.val :: r.val :: q :: i) = Y i q r d)
    (hb : bcShape ba bl = some bl) :
    Tensor.einsum err ['r', 'c'] ['c', 'm'] ['r', 'm'] x (L3 bl F c e L) =
      .ok (L3 bl F c e fun i k j => (List.range F).map fun q =>
        if h : k < c then ∑ d : Fin c, Y (bcIdx ba i) q ⟨k, h⟩ d * (L i d j).getD q 0 else 0) := by
  rw [einsum_rm err hx (L3_shape _ _ _ _ _) (bcShape_cons_self hb)]
  refine congrArg _ (tab_congr fun i hi => ?_)
  obtain ⟨j, i, rfl, hj, hi⟩ := inRange_cons_inv hi
  obtain ⟨k, i, rfl, hk, hi⟩ := inRange_cons_inv hi
  obtain ⟨q, i, rfl, hq, hi⟩ := inRange_cons_inv hi
  show ∑ t ∈ Finset.range c, x.get (t :: k :: bcIdx (F :: ba) (q :: i)) *
    (L3 bl F c e L).get (j :: t :: bcIdx (F :: bl) (q :: i)) = (List.map _ (List.range F)).getD q 0
  rw [map_range_eq_ofFn, getD_ofFn' _ hq, Finset.sum_range]
  refine Eq.trans ?_ (dif_pos (c := k < c) hk).symm
  refine Finset.sum_congr rfl fun d _ => ?_
  rw [bcIdx_cons _ _ _ _ hq, bcIdx_cons _ _ _ _ hq, bcIdx_self hi, L3_get hj d.isLt hq hi]
  exact congrArg (· * _) (hC _ (bcIdx_range_left hb hi) q hq ⟨k, hk⟩ d)

/-- `BlockCirculantPreconditionerOperator`. -/
theorem blockPrecond_error (hA : A.Lawful) (hB : Covered A.B) (hn : 2 ≤ n) (hf : ∀ i k l, (f i k l).length = n + n)
    (h : ∃ i, InRange s i ∧ ∃ q ≤ n / 2, (blockPrecondSpec A.B (fun r d : Fin c => f i r d) q).det = 0) :
    Arrays.blockPrecond A (L3 s (n + n) c c f) = .error .linAlgError := by
  have hc : ∀ i k l, (FBE.nonsymPrecondCol A.B (f i k l)).length = n := fun i k l =>
    length_nonsymPrecondCol hB hn (hf i k l)
  simp only [Arrays.blockPrecond]
  rw [nonsymPrecondCol_eq hA hB hn hf, ok_bind, hA.rfft3_none (by omega) hc, ok_bind, hA.inv,
    invMat_L3 (fun i q => blockPrecondSpec A.B (fun r d : Fin c => f i r d) q) fun i q => by
      funext r d; simp only [blockPrecondSpec, hc]]
  simp only [Nat.lt_succ_iff, if_pos h, error_bind]

theorem blockPrecond_eq (hA : A.Lawful) (hB : Covered A.B) (hn : 2 ≤ n) (hf : ∀ i k l, (f i k l).length = n + n)
    (h : ¬ ∃ i, InRange s i ∧ ∃ q ≤ n / 2, (blockPrecondSpec A.B (fun r d : Fin c => f i r d) q).det = 0) :
    ∃ P, Arrays.blockPrecond A (L3 s (n + n) c c f) = .ok P ∧ ∀ (bl : List ℕ) (e : ℕ),
      0 < e * c * bl.prod → bcShape s bl = some bl → ∀ v : List ℕ → ℕ → Fin n × Fin c → ℝ,
        P.mul (V bl e finProdFinEquiv v) = .ok (V bl e finProdFinEquiv fun i j =>
          FBE.blockPrecond A.B n (fun r d : Fin c => f (bcIdx s i) r d) (v i j)) := by
  have hc : ∀ i k l, (FBE.nonsymPrecondCol A.B (f i k l)).length = n := fun i k l =>
    length_nonsymPrecondCol hB hn (hf i k l)
  have h' : ¬ ∃ i, InRange s i ∧ ∃ q < n / 2 + 1, (blockPrecondSpec A.B (fun r d : Fin c => f i r d) q).det = 0 := by
    simpa only [Nat.lt_succ_iff] using h
  refine ⟨?P, ?h1, ?h2⟩
  case h1 =>
    simp only [Arrays.blockPrecond]
    rw [nonsymPrecondCol_eq hA hB hn hf, ok_bind, hA.rfft3_none (by omega) hc, ok_bind, hA.inv,
      invMat_L3 (fun i q => blockPrecondSpec A.B (fun r d : Fin c => f i r d) q) fun i q => by
        funext r d; simp only [blockPrecondSpec, hc]]
    rw [if_neg h', ok_bind, size_three (L3_shape _ _ _ _ _), ok_bind, size_one (tab_shape _ _), ok_bind,
      size_two (tab_shape _ _), ok_bind]
  case h2 =>
    intro bl e hpos hb v
    have hpos' : 0 < e * bl.prod := by
      rcases Nat.eq_zero_or_pos (e * bl.prod) with h0 | h0
      · have : e * c * bl.prod = c * (e * bl.prod) := by ring
        rw [this, h0] at hpos; simp at hpos
      · exact h0
    simp only [size_two (V_shape v), ok_bind, ne_eq, not_true_eq_false, if_false]
    rw [splitRows_eq _ hpos, ok_bind, hA.rfft3 (by omega) (fun i k j => length_lagColD _ _), ok_bind,
      einsum_spec _ (tab_shape _ _) (fun i q => (blockPrecondSpec A.B (fun r d : Fin c => f i r d) q)⁻¹) ?_ hb, ok_bind,
      hA.irfft3 (by omega) (fun i k j => by simp), ok_bind, mergeRows_eq _ hpos']
    · refine congrArg _ (V_congr fun i hi j hj => ?_)
      funext p
      simp only [FBE.blockPrecond, p.2.isLt, dif_pos, lagColD_eq]
    · intro i hi q hq r d
      refine (tab_get (s := c :: c :: (n / 2 + 1) :: s) (i := d.val :: r.val :: q :: i)
        ⟨d.isLt, r.isLt, hq, hi⟩).trans ?_
      exact (dif_pos (c := r.val < c ∧ d.val < c) ⟨r.isLt, d.isLt⟩).trans rfl

/-! ### the operator -/

/-- `BlockToeplitzOperator`. -/
theorem blockToeplitzOp_eq' (hA : A.Lawful) (hB : Covered A.B) (hn : 2 ≤ n)
    (hf : ∀ i k l, (f i k l).length = n + n) :
    ∃ F, Arrays.blockToeplitzOp A (L3 s (n + n) c c f) = .ok F ∧ F.shape = (c * n) :: (c * n) :: s ∧
      ∀ (bl : List ℕ) (e : ℕ), 0 < e * c * bl.prod → bcShape s bl = some bl →
      ∀ v : List ℕ → ℕ → Fin n × Fin c → ℝ,
        F.mul (V bl e finProdFinEquiv v) = .ok (V bl e finProdFinEquiv fun i j =>
          FBE.blockToeplitzOp A.B n (fun r d : Fin c => f (bcIdx s i) r d) (v i j)) := by
  have hc : ∀ i k l, (blockCircCol A.B n (f i k l)).length = blockNfft n := fun i k l =>
    length_blockCircCol hB hn (hf i k l)
  have hge := blockNfft_ge n
  have hl1 : ∀ l : List ℝ, l.length = n + n → (A.B.revMid n l).length = n - 1 := by
    intro l hl
    rw [hB.revMid n (by omega)]; simp [hl]
  have hl2 : ∀ l : List ℝ, l.length = n + n → (A.B.revLast n l).length = n - 1 := by
    intro l hl
    rw [hB.revLast n hn]; simp [hl]; omega
  have hl3 : ∀ l : List ℝ, l.length = n + n → (pySlice l none (some 1)).length = 1 := by
    intro l hl
    rw [pySlice_one, List.length_take, hl]; omega
  have hl4 : ∀ l : List ℝ, l.length = blockNfft n → (pySlice l none (some (n : ℤ))).length = n := by
    intro l hl
    rw [pySlice_take, List.length_take, hl]; omega
  have htop : (n + n) / 2 = n := by omega
  have hn0 : ¬ n = 0 := by omega
  have hsum : 1 + (n - 1) + (blockNfft n - 2 * n + 1) + (n - 1) = blockNfft n := by omega
  refine ⟨?F, ?h1, ?h3, ?h2⟩
  case h1 =>
    simp only [Arrays.blockToeplitzOp, Tensor.slice]
    rw [size_three (L3_shape _ _ _ _ _), ok_bind, htop, if_neg hn0, along_L3 hl3 hf, ok_bind, along_L3 hl2 hf, ok_bind,
      zeros_L3, ok_bind, along_L3 hl1 hf, ok_bind, cat_L3 _ (fun i k l => hl3 _ (hf i k l)), ok_bind,
      cat_L3 _ (fun i k l => by simp [hl3 _ (hf i k l), hl2 _ (hf i k l)]), ok_bind,
      cat_L3 _ (fun i k l => by simp [hl3 _ (hf i k l), hl2 _ (hf i k l)]; omega), ok_bind, hsum]
    change (A.rfft (L3 s (blockNfft n) c c fun i k l => blockCircCol A.B n (f i k l)) none (-3) >>= _) = _
    rw [hA.rfft3_none (by omega) hc, ok_bind, size_two (L3_shape _ _ _ _ _), ok_bind, size_one (L3_shape _ _ _ _ _),
      ok_bind]
  case h3 => rfl
  case h2 =>
    intro bl e hpos hb v
    have hpos' : 0 < e * bl.prod := by
      rcases Nat.eq_zero_or_pos (e * bl.prod) with h0 | h0
      · have : e * c * bl.prod = c * (e * bl.prod) := by ring
        rw [this, h0] at hpos; simp at hpos
      · exact h0
    simp only [size_two (V_shape v), ok_bind, mul_comm c n, ne_eq, not_true_eq_false, if_false]
    rw [splitRows_eq _ hpos, ok_bind, hA.rfft3 (by omega) (fun i k j => length_lagColD _ _), ok_bind]
    rw [einsum_spec _ (L3_shape _ _ _ _ _) (fun i q r d => (FBE.rfft (blockNfft n) (blockCircCol A.B n (f i r d))).getD q 0)
      (fun i hi q hq r d => L3_get d.isLt r.isLt hq hi) hb, ok_bind,
      hA.irfft3 (by omega) (fun i k j => by simp), ok_bind, along_L3 hl4 (fun i k j => irfft_length _ _), ok_bind]
    rw [mergeRows_eq _ hpos']
    refine congrArg _ (V_congr fun i hi j hj => ?_)
    funext p
    simp only [FBE.blockToeplitzOp, p.2.isLt, dif_pos, lagColD_eq, hc]

/-- `block_toeplitz_conjugate_gradient`. -/
theorem blockCg_eq (hA : A.Lawful) (hB : Covered A.B) (hn : 2 ≤ n) (hf : ∀ i k l, (f i k l).length = n + n)
    {bl : List ℕ} (hpos : 0 < e * c * bl.prod) (hlen : bl.length = s.length) (hb : bcShape s bl = some bl)
    (y : List ℕ → ℕ → Fin n × Fin c → ℝ) (x : Option (List ℕ → ℕ → Fin n × Fin c → ℝ)) (it : ℕ) :
    Arrays.blockCg A (L3 s (n + n) c c f) (V bl e finProdFinEquiv y) (x.map (V bl e finProdFinEquiv))
        (some (it : ℤ)) =
      if ∃ i, InRange s i ∧ ∃ q ≤ n / 2, (blockPrecondSpec A.B (fun r d : Fin c => f i r d) q).det = 0 then
        .error .linAlgError
      else .ok (V bl e finProdFinEquiv fun i j => FBE.conjugateGradient
        (FBE.blockToeplitzOp A.B n (fun r d : Fin c => f (bcIdx s i) r d))
        (FBE.blockPrecond A.B n (fun r d : Fin c => f (bcIdx s i) r d)) (y i j) (x.getD (fun _ _ _ => 0) i j) it) := by
  simp only [Arrays.blockCg]
  split_ifs with h
  · rw [blockPrecond_error hA hB hn hf h, error_bind]
  · obtain ⟨P, hP, hPm⟩ := blockPrecond_eq hA hB hn hf h
    obtain ⟨F, hF, hFs, hFm⟩ := blockToeplitzOp_eq' (s := s) hA hB hn hf
    rw [hP, ok_bind, hF, ok_bind]
    exact conjugateGradient_eq (hFm _ _ hpos hb) (hPm _ _ hpos hb) (by rw [hFs]; simp [hlen])
      (by rw [hFs]; exact mul_comm _ _) _ _ it

end Arrays

end FBE
