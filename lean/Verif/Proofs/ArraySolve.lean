import Verif.Proofs.ArrayStats

/-!
# The statements of `linalg.py` on arrays, and the direct solver
-/

set_option linter.unusedSectionVars false

namespace FBE

open Classical Tensor Matrix Spec

namespace Arrays

variable {A : Api}

/-- Array of square matrices. -/
noncomputable def Mx (b : List ℕ) (n : ℕ) (F : List ℕ → Matrix (Fin n) (Fin n) ℝ) : Tensor ℝ :=
  tab (n :: n :: b) fun i => if h : i.getD 1 0 < n ∧ i.getD 0 0 < n then F (i.drop 2) ⟨_, h.1⟩ ⟨_, h.2⟩ else 0

theorem Mx_shape (b : List ℕ) (n : ℕ) (F : List ℕ → Matrix (Fin n) (Fin n) ℝ) : (Mx b n F).shape = n :: n :: b := rfl

theorem matrixAt_Mx {b i : List ℕ} {n : ℕ} {F : List ℕ → Matrix (Fin n) (Fin n) ℝ} (hi : InRange b i) :
    matrixAt (Mx b n F) n i = F i := by
  funext p q
  refine (tab_get (s := n :: n :: b) (i := q.val :: p.val :: i) ⟨q.isLt, p.isLt, hi⟩).trans ?_
  exact dif_pos (c := p.val < n ∧ q.val < n) ⟨p.isLt, q.isLt⟩

/-! ### `toeplitz` -/

theorem toeplitz_eq (hB : Covered A.B) {b : List ℕ} {n : ℕ} {f : List ℕ → List ℝ} (hn : 0 < n)
    (hf : ∀ i, (f i).length = n) :
    Arrays.toeplitz A (L1 b n f) = .ok (Mx b n fun i => FBE.toeplitz A.B n (f i)) := by
  have hr : ∀ l : List ℝ, l.length = n → (A.B.revTail l).length = n - 1 := by
    intro l hl
    rw [hB.revTail, List.length_reverse, List.length_drop, hl]
  simp only [Arrays.toeplitz]
  rw [along_L1 hr hf, ok_bind, cat_L1 _ (fun i => hr _ (hf i)), ok_bind, size_one (L1_shape _ _ _), ok_bind]
  have h1 : ¬ (n - 1 + n + 1 < n) := by omega
  have h2 : n - 1 + n + 1 - n = n := by omega
  have h3 : Arrays.hankelView A.err (L1 b (n - 1 + n) fun i => A.B.revTail (f i) ++ f i) n =
      .ok (L2 b n n fun i j => (List.range n).map fun a => (A.B.revTail (f i) ++ f i).getD (a + j) 0) := by
    simp only [Arrays.hankelView, L1_shape, if_neg h1, h2]
    refine congrArg _ (tab_congr fun i hi => ?_)
    obtain ⟨j, i, rfl, hj, hi⟩ := inRange_cons_inv hi
    obtain ⟨a, i, rfl, ha, hi⟩ := inRange_cons_inv hi
    show (L1 b (n - 1 + n) _).get ((a + j) :: i) = (List.map _ (List.range n)).getD a 0
    rw [L1_get (by omega) hi, map_range_eq_ofFn, getD_ofFn' _ ha]
    rfl
  rw [h3, ok_bind, along_L2 (fun l hl => by rw [List.length_reverse, hl]) (fun i j => by simp)]
  refine congrArg _ (tab_congr fun i hi => ?_)
  obtain ⟨q, i, rfl, hq, hi⟩ := inRange_cons_inv hi
  obtain ⟨p, i, rfl, hp, hi⟩ := inRange_cons_inv hi
  refine Eq.trans ?_ (dif_pos (c := p < n ∧ q < n) ⟨hp, hq⟩).symm
  show (List.reverse (List.map _ (List.range n))).getD p 0 = _
  rw [getD_reverse _ _ _ (by simp; omega), List.length_map, List.length_range, map_range_eq_ofFn,
    getD_ofFn' _ (by omega)]
  rfl

/-! ### `linalg.solve` -/

theorem solveMat_eq (err : PyErr) {sa sb s : List ℕ} {n e : ℕ} {F : List ℕ → Matrix (Fin n) (Fin n) ℝ}
    {g : List ℕ → ℕ → List ℝ} (hb : bcShape sa sb = some s) :
    solveMat err (Mx sa n F) (L2 sb n e g) =
      if ∃ i, InRange s i ∧ (F (bcIdx sa i)).det = 0 then .error .linAlgError
      else .ok (L2 s n e fun i j => List.ofFn ((F (bcIdx sa i))⁻¹ *ᵥ vec n (g (bcIdx sb i) j))) := by
  have h1 : (∃ i, InRange s i ∧ (matrixAt (Mx sa n F) n (bcIdx sa i)).det = 0) ↔
      ∃ i, InRange s i ∧ (F (bcIdx sa i)).det = 0 := by
    refine exists_congr fun i => and_congr_right fun hi => ?_
    rw [matrixAt_Mx (bcIdx_range_left hb hi)]
  simp only [solveMat, Mx_shape, L2_shape, ne_eq, not_true_eq_false, if_false, hb, h1]
  split_ifs with h
  · rfl
  · refine congrArg _ (tab_congr fun i hi => ?_)
    obtain ⟨j, i, rfl, hj, hi⟩ := inRange_cons_inv hi
    obtain ⟨t, i, rfl, ht, hi⟩ := inRange_cons_inv hi
    refine (dif_pos (c := t < n) ht).trans (Eq.trans ?_ (getD_ofFn' _ ht).symm)
    show ((matrixAt (Mx sa n F) n (bcIdx sa i))⁻¹ *ᵥ fun q : Fin n => (L2 sb n e g).get (j :: q.val :: bcIdx sb i)) _ = _
    rw [matrixAt_Mx (bcIdx_range_left hb hi)]
    congr 1
    funext q
    exact L2_get hj q.isLt (bcIdx_range_right hb hi)

theorem unsqueeze_L1 {b : List ℕ} {n : ℕ} {g : List ℕ → List ℝ} :
    (L1 b n g).unsqueeze 0 = L2 b n 1 fun i _ => g i := by
  rw [unsqueeze_0]
  refine tab_congr (s := 1 :: n :: b) fun i hi => ?_
  obtain ⟨j, i, rfl, hj, hi⟩ := inRange_cons_inv hi
  obtain ⟨t, i, rfl, ht, hi⟩ := inRange_cons_inv hi
  exact L1_get ht hi

theorem select_L2 {b : List ℕ} {n : ℕ} {g : List ℕ → ℕ → List ℝ} :
    (L2 b n 1 g).select 0 0 = .ok (L1 b n fun i => g i 0) := by
  rw [select_0 (L2_shape b n 1 g) Nat.one_pos]
  refine congrArg _ (tab_congr fun i hi => ?_)
  obtain ⟨t, i, rfl, ht, hi⟩ := inRange_cons_inv hi
  exact L2_get Nat.one_pos ht hi

theorem solveVec_eq (err : PyErr) {s : List ℕ} {n : ℕ} {F : List ℕ → Matrix (Fin n) (Fin n) ℝ}
    {g : List ℕ → List ℝ} :
    Tensor.solveVec err (Mx s n F) (L1 s n g) =
      if ∃ i, InRange s i ∧ (F i).det = 0 then .error .linAlgError
      else .ok (L1 s n fun i => List.ofFn ((F i)⁻¹ *ᵥ vec n (g i))) := by
  have h1 : (∃ i, InRange s i ∧ (F (bcIdx s i)).det = 0) ↔ ∃ i, InRange s i ∧ (F i).det = 0 := by
    refine exists_congr fun i => and_congr_right fun hi => ?_
    rw [bcIdx_self hi]
  unfold Tensor.solveVec
  rw [unsqueeze_L1, solveMat_eq err (bcShape_self s)]
  simp only [h1]
  split_ifs with h
  · rfl
  · show (L2 s n 1 _).select 0 0 = _
    rw [select_L2]
    refine congrArg _ (L1_congr fun i hi => ?_)
    rw [bcIdx_self hi]

/-! ### diagonal loading, coherence -/

theorem loadFirst_eq {b : List ℕ} {n : ℕ} {f : List ℕ → List ℝ} (hn : 0 < n) (hf : ∀ i, (f i).length = n)
    (d : Option ℝ) : loadFirst d (L1 b n f) = .ok (L1 b n fun i => addHead d (f i)) := by
  cases d with
  | none =>
    have : ∀ l : List ℝ, addHead none l = l := fun l => by cases l <;> rfl
    simp only [loadFirst, this]
  | some d =>
    simp only [loadFirst, size_one (L1_shape _ _ _), ok_bind, if_neg (Nat.pos_iff_ne_zero.1 hn)]
    refine congrArg _ (tab_congr fun i hi => ?_)
    obtain ⟨t, i, rfl, ht, hi⟩ := inRange_cons_inv hi
    rw [L1_get ht hi]
    show (if t = 0 then (f i).getD t 0 + d else (f i).getD t 0) = (addHead (some d) (f i)).getD t 0
    have hne : f i ≠ [] := by
      intro h0
      have := hf i
      rw [h0] at this
      exact hn.ne this
    rw [getD_addHead _ _ hne]
    split_ifs <;> simp

theorem sum_range_fin {n : ℕ} (g : ℕ → ℝ) : ∑ t ∈ Finset.range n, g t = ∑ t : Fin n, g t.val :=
  Finset.sum_range g

theorem coherence_pair {b : List ℕ} {n e : ℕ} {g : List ℕ → ℕ → List ℝ} {v : List ℕ → ℕ → Fin n → ℝ} :
    coherence A true (L2 b n e g) (L2 b n e fun i j => List.ofFn (v i j)) =
      .ok (tab (e :: b) fun i => ∑ l, vec n (g (i.drop 1) (i.getD 0 0)) l * v (i.drop 1) (i.getD 0 0) l) := by
  simp only [coherence, if_true]
  rw [einsum_lc _ (L2_shape _ _ _ _) (L2_shape _ _ _ _) (bcShape_self b)]
  refine congrArg _ (tab_congr fun i hi => ?_)
  obtain ⟨j, i, rfl, hj, hi⟩ := inRange_cons_inv hi
  rw [sum_range_fin]
  refine Finset.sum_congr rfl fun t _ => ?_
  show (L2 b n e g).get (j :: t.val :: bcIdx b i) * (L2 b n e _).get (j :: t.val :: bcIdx b i) = _
  rw [bcIdx_self hi, L2_get hj t.isLt hi, L2_get hj t.isLt hi, getD_ofFn' _ t.isLt]
  rfl

theorem coherence_diag {b : List ℕ} {n : ℕ} {g : List ℕ → List ℝ} {v : List ℕ → Fin n → ℝ} :
    coherence A false (L1 b n g) (L1 b n fun i => List.ofFn (v i)) =
      .ok (tab b fun i => ∑ l, vec n (g i) l * v i l) := by
  simp only [coherence, Bool.false_eq_true, if_false]
  rw [einsum_l _ (L1_shape _ _ _) (L1_shape _ _ _) (bcShape_self b)]
  refine congrArg _ (tab_congr fun i hi => ?_)
  rw [sum_range_fin]
  refine Finset.sum_congr rfl fun t _ => ?_
  rw [bcIdx_self hi, L1_get t.isLt hi, L1_get t.isLt hi, getD_ofFn' _ t.isLt]
  rfl

end Arrays

end FBE
