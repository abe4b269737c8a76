import Verif.Proofs.Tensor

/-!
# Lemmas about arrays with axes: products, transpositions, reshapes
-/

set_option linter.unusedSectionVars false

namespace FBE

open Classical

namespace Tensor

variable {α β γ : Type}

/-! ### `einsum` -/

section einsum

variable [CommSemiring α] (err : PyErr) {x y : Tensor α} {n c d : ℕ} {bx by' b : List ℕ}

theorem einsum_cnd (hx : x.shape = n :: c :: bx) (hy : y.shape = n :: d :: by') (hb : bcShape bx by' = some b) :
    einsum err ['c', 'n'] ['d', 'n'] ['c', 'n', 'd'] x y = .ok (tab (d :: n :: c :: b) fun i =>
      x.get (i.getD 1 0 :: i.getD 2 0 :: bcIdx bx (i.drop 3)) *
        y.get (i.getD 1 0 :: i.getD 0 0 :: bcIdx by' (i.drop 3))) := by
  simp only [einsum, hx, hy, labelBc, labelSize]
  simp [hb, List.lookup, sumLabels]
  refine tab_congr fun i hi => ?_
  obtain ⟨j, i, rfl, hj, hi⟩ := inRange_cons_inv hi
  obtain ⟨t, i, rfl, ht, hi⟩ := inRange_cons_inv hi
  obtain ⟨k, i, rfl, hk, hi⟩ := inRange_cons_inv hi
  simp [bcIdx_cons, hj, ht, hk]

theorem einsum_ncd (hx : x.shape = n :: c :: bx) (hy : y.shape = n :: d :: by') (hb : bcShape bx by' = some b) :
    einsum err ['c', 'n'] ['d', 'n'] ['n', 'c', 'd'] x y = .ok (tab (d :: c :: n :: b) fun i =>
      x.get (i.getD 2 0 :: i.getD 1 0 :: bcIdx bx (i.drop 3)) *
        y.get (i.getD 2 0 :: i.getD 0 0 :: bcIdx by' (i.drop 3))) := by
  simp only [einsum, hx, hy, labelBc, labelSize]
  simp [hb, List.lookup, sumLabels]
  refine tab_congr fun i hi => ?_
  obtain ⟨j, i, rfl, hj, hi⟩ := inRange_cons_inv hi
  obtain ⟨k, i, rfl, hk, hi⟩ := inRange_cons_inv hi
  obtain ⟨t, i, rfl, ht, hi⟩ := inRange_cons_inv hi
  simp [bcIdx_cons, hj, ht, hk]

theorem einsum_cd (hx : x.shape = n :: c :: bx) (hy : y.shape = n :: d :: by') (hb : bcShape bx by' = some b) :
    einsum err ['c', 'n'] ['d', 'n'] ['c', 'd'] x y = .ok (tab (d :: c :: b) fun i =>
      ∑ t ∈ Finset.range n, x.get (t :: i.getD 1 0 :: bcIdx bx (i.drop 2)) *
        y.get (t :: i.getD 0 0 :: bcIdx by' (i.drop 2))) := by
  simp only [einsum, hx, hy, labelBc, labelSize]
  simp [hb, List.lookup, sumLabels]
  refine tab_congr fun i hi => ?_
  obtain ⟨j, i, rfl, hj, hi⟩ := inRange_cons_inv hi
  obtain ⟨k, i, rfl, hk, hi⟩ := inRange_cons_inv hi
  refine Finset.sum_congr rfl fun t ht => ?_
  simp [bcIdx_cons, hj, Finset.mem_range.1 ht, hk]

theorem einsum_n (hx : x.shape = n :: bx) (hy : y.shape = n :: by') (hb : bcShape bx by' = some b) :
    einsum err ['n'] ['n'] [] x y = .ok (tab b fun i =>
      ∑ t ∈ Finset.range n, x.get (t :: bcIdx bx i) * y.get (t :: bcIdx by' i)) := by
  simp only [einsum, hx, hy, labelBc, labelSize]
  simp [hb, List.lookup, sumLabels]
  refine tab_congr fun i hi => ?_
  refine Finset.sum_congr rfl fun t ht => ?_
  simp [bcIdx_cons, Finset.mem_range.1 ht]

theorem einsum_l (hx : x.shape = n :: bx) (hy : y.shape = n :: by') (hb : bcShape bx by' = some b) :
    einsum err ['l'] ['l'] [] x y = .ok (tab b fun i =>
      ∑ t ∈ Finset.range n, x.get (t :: bcIdx bx i) * y.get (t :: bcIdx by' i)) := by
  simp only [einsum, hx, hy, labelBc, labelSize]
  simp [hb, List.lookup, sumLabels]
  refine tab_congr fun i hi => ?_
  refine Finset.sum_congr rfl fun t ht => ?_
  simp [bcIdx_cons, Finset.mem_range.1 ht]

theorem einsum_lc (hx : x.shape = d :: n :: bx) (hy : y.shape = d :: n :: by') (hb : bcShape bx by' = some b) :
    einsum err ['l', 'c'] ['l', 'c'] ['c'] x y = .ok (tab (d :: b) fun i =>
      ∑ t ∈ Finset.range n, x.get (i.getD 0 0 :: t :: bcIdx bx (i.drop 1)) *
        y.get (i.getD 0 0 :: t :: bcIdx by' (i.drop 1))) := by
  simp only [einsum, hx, hy, labelBc, labelSize]
  simp [hb, List.lookup, sumLabels]
  refine tab_congr fun i hi => ?_
  obtain ⟨j, i, rfl, hj, hi⟩ := inRange_cons_inv hi
  refine Finset.sum_congr rfl fun t ht => ?_
  simp [bcIdx_cons, hj, Finset.mem_range.1 ht]

theorem einsum_cdd (hx : x.shape = d :: n :: bx) (hy : y.shape = d :: n :: by') (hb : bcShape bx by' = some b) :
    einsum err ['c', 'd'] ['c', 'd'] ['d'] x y = .ok (tab (d :: b) fun i =>
      ∑ t ∈ Finset.range n, x.get (i.getD 0 0 :: t :: bcIdx bx (i.drop 1)) *
        y.get (i.getD 0 0 :: t :: bcIdx by' (i.drop 1))) := by
  simp only [einsum, hx, hy, labelBc, labelSize]
  simp [hb, List.lookup, sumLabels]
  refine tab_congr fun i hi => ?_
  obtain ⟨j, i, rfl, hj, hi⟩ := inRange_cons_inv hi
  refine Finset.sum_congr rfl fun t ht => ?_
  simp [bcIdx_cons, hj, Finset.mem_range.1 ht]

theorem einsum_rm {r : ℕ} (hx : x.shape = c :: r :: bx) (hy : y.shape = d :: c :: by') (hb : bcShape bx by' = some b) :
    einsum err ['r', 'c'] ['c', 'm'] ['r', 'm'] x y = .ok (tab (d :: r :: b) fun i =>
      ∑ t ∈ Finset.range c, x.get (t :: i.getD 1 0 :: bcIdx bx (i.drop 2)) *
        y.get (i.getD 0 0 :: t :: bcIdx by' (i.drop 2))) := by
  simp only [einsum, hx, hy, labelBc, labelSize]
  simp [hb, List.lookup, sumLabels]
  refine tab_congr fun i hi => ?_
  obtain ⟨j, i, rfl, hj, hi⟩ := inRange_cons_inv hi
  obtain ⟨k, i, rfl, hk, hi⟩ := inRange_cons_inv hi
  refine Finset.sum_congr rfl fun t ht => ?_
  simp [bcIdx_cons, hj, hk, Finset.mem_range.1 ht]

end einsum

/-! ### transpositions -/

section axes

variable [Zero α] [Zero β] [Zero γ]

theorem transpose_21 {x : Tensor α} {n m : ℕ} {b : List ℕ} (hx : x.shape = n :: m :: b) :
    x.transpose (-2) (-1) = .ok (tab (m :: n :: b) fun i => x.get (i.getD 1 0 :: i.getD 0 0 :: i.drop 2)) := by
  simp only [transpose, hx, List.length_cons, axisPos_one, axisPos_two]
  refine congrArg _ (tab_congr fun i hi => ?_)
  obtain ⟨j, i, rfl, hj, hi⟩ := inRange_cons_inv hi
  obtain ⟨k, i, rfl, hk, hi⟩ := inRange_cons_inv hi
  rfl

theorem transpose_32 {x : Tensor α} {n m k : ℕ} {b : List ℕ} (hx : x.shape = n :: m :: k :: b) :
    x.transpose (-3) (-2) =
      .ok (tab (n :: k :: m :: b) fun i => x.get (i.getD 0 0 :: i.getD 2 0 :: i.getD 1 0 :: i.drop 3)) := by
  simp only [transpose, hx, List.length_cons, axisPos_two, axisPos_three]
  refine congrArg _ (tab_congr fun i hi => ?_)
  obtain ⟨j, i, rfl, hj, hi⟩ := inRange_cons_inv hi
  obtain ⟨k, i, rfl, hk, hi⟩ := inRange_cons_inv hi
  obtain ⟨k, i, rfl, hk, hi⟩ := inRange_cons_inv hi
  rfl

theorem transpose_31 {x : Tensor α} {n m k : ℕ} {b : List ℕ} (hx : x.shape = n :: m :: k :: b) :
    x.transpose (-3) (-1) =
      .ok (tab (k :: m :: n :: b) fun i => x.get (i.getD 2 0 :: i.getD 1 0 :: i.getD 0 0 :: i.drop 3)) := by
  simp only [transpose, hx, List.length_cons, axisPos_one, axisPos_three]
  refine congrArg _ (tab_congr fun i hi => ?_)
  obtain ⟨j, i, rfl, hj, hi⟩ := inRange_cons_inv hi
  obtain ⟨k, i, rfl, hk, hi⟩ := inRange_cons_inv hi
  obtain ⟨k, i, rfl, hk, hi⟩ := inRange_cons_inv hi
  rfl

theorem transpose_11 {x : Tensor α} {n : ℕ} {b : List ℕ} (hx : x.shape = n :: b) :
    x.transpose (-1) (-1) = .ok (tab (n :: b) x.get) := by
  simp only [transpose, hx, List.length_cons, axisPos_one]
  refine congrArg _ (tab_congr fun i hi => ?_)
  obtain ⟨j, i, rfl, hj, hi⟩ := inRange_cons_inv hi
  rfl

theorem moveaxis_31 {x : Tensor α} {n m k : ℕ} {b : List ℕ} (hx : x.shape = n :: m :: k :: b) :
    x.moveaxis (-3) (-1) =
      .ok (tab (k :: n :: m :: b) fun i => x.get (i.getD 1 0 :: i.getD 2 0 :: i.getD 0 0 :: i.drop 3)) := by
  simp only [moveaxis, hx, List.length_cons, axisPos_one, axisPos_three]
  refine congrArg _ (tab_congr fun i hi => ?_)
  obtain ⟨j, i, rfl, hj, hi⟩ := inRange_cons_inv hi
  obtain ⟨k, i, rfl, hk, hi⟩ := inRange_cons_inv hi
  obtain ⟨k, i, rfl, hk, hi⟩ := inRange_cons_inv hi
  rfl

theorem moveaxis_13 {x : Tensor α} {n m k : ℕ} {b : List ℕ} (hx : x.shape = k :: n :: m :: b) :
    x.moveaxis (-1) (-3) =
      .ok (tab (n :: m :: k :: b) fun i => x.get (i.getD 2 0 :: i.getD 0 0 :: i.getD 1 0 :: i.drop 3)) := by
  simp only [moveaxis, hx, List.length_cons, axisPos_one, axisPos_three]
  refine congrArg _ (tab_congr fun i hi => ?_)
  obtain ⟨j, i, rfl, hj, hi⟩ := inRange_cons_inv hi
  obtain ⟨k, i, rfl, hk, hi⟩ := inRange_cons_inv hi
  obtain ⟨k, i, rfl, hk, hi⟩ := inRange_cons_inv hi
  rfl

/-! ### new axes and single indices -/

theorem unsqueeze_0 (x : Tensor α) : x.unsqueeze 0 = tab (1 :: x.shape) fun i => x.get (i.drop 1) := by
  refine tab_congr fun i hi => ?_
  obtain ⟨j, i, rfl, hj, hi⟩ := inRange_cons_inv (n := 1) hi
  rfl

theorem unsqueeze_1 {x : Tensor α} {n : ℕ} {b : List ℕ} (hx : x.shape = n :: b) :
    x.unsqueeze 1 = tab (n :: 1 :: b) fun i => x.get (i.getD 0 0 :: i.drop 2) := by
  unfold unsqueeze
  rw [hx]
  refine tab_congr fun i hi => ?_
  obtain ⟨j, i, rfl, hj, hi⟩ := inRange_cons_inv (n := n) hi
  obtain ⟨k, i, rfl, hk, hi⟩ := inRange_cons_inv (n := 1) hi
  rfl

theorem select_0 {x : Tensor α} {n k : ℕ} {b : List ℕ} (hx : x.shape = n :: b) (hk : k < n) :
    x.select 0 k = .ok (tab b fun i => x.get (k :: i)) := by
  simp only [select, hx]
  rw [if_pos (by exact hk)]
  rfl

/-! ### reshape -/

theorem ravel_unravel : ∀ (s i : List ℕ), InRange s i → unravel s (ravel s i) = i
  | [], i, h => by rw [inRange_nil_inv h]; rfl
  | n :: s, i, h => by
    obtain ⟨t, j, rfl, ht, hj⟩ := inRange_cons_inv h
    have hn : 0 < n := by omega
    simp [ravel, unravel, Nat.add_mul_mod_self_left, Nat.mod_eq_of_lt ht, Nat.add_mul_div_left _ _ hn,
      Nat.div_eq_of_lt ht, ravel_unravel s j hj]

theorem filterMap_some (s : List ℕ) : (s.map some).filterMap id = s := by
  simp

theorem not_none_mem (s : List ℕ) : none ∉ s.map some := by simp

/-- Splitting the rows: `reshape(s + (-1, c, e))`. -/
theorem inferShape_split (err : PyErr) {e n c : ℕ} {s : List ℕ} (h : 0 < e * c * s.prod) :
    inferShape err (e :: (n * c) :: s).prod (some e :: some c :: none :: s.map some) = .ok (e :: c :: n :: s) := by
  have h1 : none ∈ (some e :: some c :: none :: s.map some) := by simp
  have h2 : ((some e :: some c :: none :: s.map some).filterMap id).prod = e * c * s.prod := by
    simp [mul_assoc]
  have h3 : (e :: (n * c) :: s).prod = n * (e * c * s.prod) := by
    simp; ring
  simp only [inferShape, if_pos h1, h2, h3]
  rw [if_neg (by rw [Nat.mul_mod_left]; omega), Nat.mul_div_cancel _ h]
  simp [Function.comp_def]

/-- Merging the rows: `reshape(s + (-1, e))`. -/
theorem inferShape_merge (err : PyErr) {e n c : ℕ} {s : List ℕ} (h : 0 < e * s.prod) :
    inferShape err (e :: c :: n :: s).prod (some e :: none :: s.map some) = .ok (e :: (n * c) :: s) := by
  have h1 : none ∈ (some e :: none :: s.map some) := by simp
  have h2 : ((some e :: none :: s.map some).filterMap id).prod = e * s.prod := by
    simp
  have h3 : (e :: c :: n :: s).prod = (n * c) * (e * s.prod) := by
    simp; ring
  simp only [inferShape, if_pos h1, h2, h3]
  rw [if_neg (by rw [Nat.mul_mod_left]; omega), Nat.mul_div_cancel _ h]
  simp [Function.comp_def]

/-- With no elements the size `-1` is not determined. -/
theorem inferShape_merge_empty (err : PyErr) {e total : ℕ} {s : List ℕ} (h : e * s.prod = 0) :
    inferShape err total (some e :: none :: s.map some) = .error err := by
  have h1 : none ∈ (some e :: none :: s.map some) := by simp
  have h2 : ((some e :: none :: s.map some).filterMap id).prod = e * s.prod := by
    simp
  simp only [inferShape, if_pos h1, h2, h]
  simp

theorem reshape_merge (err : PyErr) {x : Tensor α} {e n c : ℕ} {s : List ℕ} (hx : x.shape = e :: c :: n :: s)
    (h : 0 < e * s.prod) :
    x.reshape err (some e :: none :: s.map some) = .ok (tab (e :: (n * c) :: s) fun i =>
      x.get (i.getD 0 0 :: i.getD 1 0 % c :: i.getD 1 0 / c :: i.drop 2)) := by
  simp only [reshape, hx, inferShape_merge err h]
  refine congrArg _ (tab_congr fun i hi => ?_)
  obtain ⟨j, i, rfl, hj, hi⟩ := inRange_cons_inv hi
  obtain ⟨p, i, rfl, hp, hi⟩ := inRange_cons_inv hi
  have he : 0 < e := by omega
  have hc : 0 < c := by
    rcases Nat.eq_zero_or_pos c with h0 | h0
    · rw [h0] at hp; omega
    · exact h0
  have hn : 0 < n := by
    rcases Nat.eq_zero_or_pos n with h0 | h0
    · rw [h0] at hp; omega
    · exact h0
  congr 1
  show unravel (e :: c :: n :: s) (j + e * (p + (n * c) * ravel s i)) = j :: p % c :: p / c :: i
  have h1 : j + e * (p + n * c * ravel s i) = ravel (e :: c :: n :: s) (j :: p % c :: p / c :: i) := by
    show _ = j + e * (p % c + c * (p / c + n * ravel s i))
    have := Nat.mod_add_div p c
    calc j + e * (p + n * c * ravel s i) = j + e * ((p % c + c * (p / c)) + n * c * ravel s i) := by rw [this]
      _ = _ := by ring
  rw [h1, ravel_unravel]
  exact ⟨hj, Nat.mod_lt _ hc, Nat.div_lt_of_lt_mul (by rw [mul_comm]; exact hp), hi⟩

theorem reshape_split (err : PyErr) {x : Tensor α} {e n c : ℕ} {s : List ℕ} (hx : x.shape = e :: (n * c) :: s)
    (h : 0 < e * c * s.prod) :
    x.reshape err (some e :: some c :: none :: s.map some) = .ok (tab (e :: c :: n :: s) fun i =>
      x.get (i.getD 0 0 :: (i.getD 2 0 * c + i.getD 1 0) :: i.drop 3)) := by
  simp only [reshape, hx, inferShape_split err h]
  refine congrArg _ (tab_congr fun i hi => ?_)
  obtain ⟨j, i, rfl, hj, hi⟩ := inRange_cons_inv hi
  obtain ⟨k, i, rfl, hk, hi⟩ := inRange_cons_inv hi
  obtain ⟨t, i, rfl, ht, hi⟩ := inRange_cons_inv hi
  congr 1
  show unravel (e :: (n * c) :: s) (j + e * (k + c * (t + n * ravel s i))) = j :: (t * c + k) :: i
  have h1 : j + e * (k + c * (t + n * ravel s i)) = ravel (e :: (n * c) :: s) (j :: (t * c + k) :: i) := by
    show _ = j + e * ((t * c + k) + (n * c) * ravel s i)
    ring
  rw [h1, ravel_unravel]
  refine ⟨hj, ?_, hi⟩
  calc t * c + k < t * c + c := by omega
    _ = (t + 1) * c := by ring
    _ ≤ n * c := Nat.mul_le_mul_right _ ht

/-- `reshape(s + (n * r, n * c))` of an array of shape `s + (n, r, n, c)`. -/
theorem reshape_block (err : PyErr) {x : Tensor α} {n r c : ℕ} {s : List ℕ}
    (hx : x.shape = c :: n :: r :: n :: s) :
    x.reshape err (some (n * c) :: some (n * r) :: s.map some) = .ok (tab ((n * c) :: (n * r) :: s) fun i =>
      x.get (i.getD 0 0 % c :: i.getD 0 0 / c :: i.getD 1 0 % r :: i.getD 1 0 / r :: i.drop 2)) := by
  have h1 : none ∉ (some (n * c) :: some (n * r) :: s.map some) := by simp
  have h2 : ((some (n * c) :: some (n * r) :: s.map some).filterMap id) = (n * c) :: (n * r) :: s := by
    simp
  have h3 : ((n * c) :: (n * r) :: s).prod = (c :: n :: r :: n :: s).prod := by
    simp; ring
  simp only [reshape, hx, inferShape, if_neg h1, h2, h3, if_true]
  refine congrArg _ (tab_congr fun i hi => ?_)
  obtain ⟨q, i, rfl, hq, hi⟩ := inRange_cons_inv hi
  obtain ⟨p, i, rfl, hp, hi⟩ := inRange_cons_inv hi
  have hc : 0 < c := by
    rcases Nat.eq_zero_or_pos c with h0 | h0
    · rw [h0] at hq; omega
    · exact h0
  have hr : 0 < r := by
    rcases Nat.eq_zero_or_pos r with h0 | h0
    · rw [h0] at hp; omega
    · exact h0
  congr 1
  show unravel (c :: n :: r :: n :: s) (q + (n * c) * (p + (n * r) * ravel s i)) =
    q % c :: q / c :: p % r :: p / r :: i
  have h4 : q + (n * c) * (p + (n * r) * ravel s i) =
      ravel (c :: n :: r :: n :: s) (q % c :: q / c :: p % r :: p / r :: i) := by
    show _ = q % c + c * (q / c + n * (p % r + r * (p / r + n * ravel s i)))
    have e1 := Nat.mod_add_div q c
    have e2 := Nat.mod_add_div p r
    calc q + (n * c) * (p + (n * r) * ravel s i)
        = (q % c + c * (q / c)) + (n * c) * ((p % r + r * (p / r)) + (n * r) * ravel s i) := by rw [e1, e2]
      _ = _ := by ring
  rw [h4, ravel_unravel]
  exact ⟨Nat.mod_lt _ hc, Nat.div_lt_of_lt_mul (by rw [mul_comm]; exact hq), Nat.mod_lt _ hr,
    Nat.div_lt_of_lt_mul (by rw [mul_comm]; exact hp), hi⟩

end axes

end Tensor

end FBE
