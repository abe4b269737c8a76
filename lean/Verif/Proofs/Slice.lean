import Verif.Model.PySlice
import Mathlib.Tactic.Linarith

/-! The slices used by the code, in closed form. -/

namespace FBE

variable {α : Type*}

theorem clipUp_nat (n k : ℕ) : clipUp n (k : ℤ) = min n k := by
  unfold clipUp
  simp only
  rw [if_neg (by omega)]
  split
  · omega
  · split <;> omega

theorem clipUp_neg (n k : ℕ) (hk : 0 < k) : clipUp n (-(k : ℤ)) = n - k := by
  unfold clipUp
  simp only
  rw [if_pos (by omega : -(k : ℤ) < 0)]
  split
  · omega
  · split <;> omega

theorem pySlice_take (l : List α) (k : ℕ) : pySlice l none (some (k : ℤ)) = l.take k := by
  unfold pySlice
  simp only [clipUp_nat, List.drop_zero]
  rcases le_total l.length k with h | h
  · rw [min_eq_left h, List.take_of_length_le le_rfl, List.take_of_length_le h]
  · rw [min_eq_right h]

theorem pySlice_last (l : List α) (k : ℕ) (hk : 0 < k) :
    pySlice l (some (-(k : ℤ))) none = l.drop (l.length - k) := by
  unfold pySlice
  simp only [clipUp_neg _ _ hk, List.take_length]

theorem pySlice_drop (l : List α) (k : ℕ) : pySlice l (some (k : ℤ)) none = l.drop k := by
  unfold pySlice
  simp only [clipUp_nat, List.take_length]
  rcases le_total l.length k with h | h
  · rw [min_eq_left h, List.drop_of_length_le le_rfl, List.drop_of_length_le h]
  · rw [min_eq_right h]

theorem pySlice_one (l : List α) : pySlice l none (some 1) = l.take 1 := pySlice_take l 1

theorem pySlice_from_one (l : List α) : pySlice l (some 1) none = l.drop 1 := pySlice_drop l 1

/-- `l[-n + 1:]` for `n ≥ 2`. -/
theorem pySlice_neg_add_one (l : List α) (n : ℕ) (hn : 2 ≤ n) :
    pySlice l (some (-(n : ℤ) + 1)) none = l.drop (l.length - (n - 1)) := by
  have : (-(n : ℤ) + 1) = -((n - 1 : ℕ) : ℤ) := by omega
  rw [this, pySlice_last _ _ (by omega)]

/-- `l[1:n]`. -/
theorem pySlice_mid (l : List α) (n : ℕ) :
    pySlice l (some 1) (some (n : ℤ)) = (l.take n).drop 1 := by
  unfold pySlice
  have h1 : clipUp l.length 1 = min l.length 1 := clipUp_nat _ 1
  simp only [clipUp_nat, h1]
  rcases Nat.eq_zero_or_pos l.length with h | h
  · have : l = [] := List.length_eq_zero_iff.1 h
    subst this
    simp
  · rw [min_eq_right (by omega : 1 ≤ l.length)]
    rcases le_total l.length n with h' | h'
    · rw [min_eq_left h', List.take_of_length_le le_rfl, List.take_of_length_le h']
    · rw [min_eq_right h']

/-- `l[:0:-1]`. -/
theorem pySliceRev_tail (l : List α) : pySliceRev l none (some 0) = (l.drop 1).reverse := by
  unfold pySliceRev clipDown
  rcases Nat.eq_zero_or_pos l.length with h | h
  · have : l = [] := List.length_eq_zero_iff.1 h
    subst this
    rfl
  · simp only [List.take_length]
    rw [if_neg (by omega), if_neg (by omega), if_neg (by omega)]
    rfl

/-- `l[n - 1:0:-1]` for `n ≥ 1`. -/
theorem pySliceRev_mid (l : List α) (n : ℕ) (hn : 1 ≤ n) :
    pySliceRev l (some ((n : ℤ) - 1)) (some 0) = ((l.take n).drop 1).reverse := by
  unfold pySliceRev clipDown
  rcases Nat.eq_zero_or_pos l.length with h | h
  · have : l = [] := List.length_eq_zero_iff.1 h
    subst this
    simp
  · simp only
    rw [if_neg (by omega : ¬ ((n : ℤ) - 1 < 0)), if_neg (by omega : ¬ ((n : ℤ) - 1 < 0)),
      if_neg (by omega : ¬ ((0 : ℤ) < 0)), if_neg (by omega : ¬ ((0 : ℤ) < 0)),
      if_neg (by omega : ¬ ((l.length : ℤ) ≤ 0))]
    have h1 : ((0 : ℤ) + 1).toNat = 1 := rfl
    rw [h1]
    split
    · rename_i h2
      rw [List.take_of_length_le le_rfl, List.take_of_length_le (by omega)]
    · have : ((n : ℤ) - 1 + 1).toNat = n := by omega
      rw [this]

/-- `l[:-n:-1]` for `n ≥ 1`. -/
theorem pySliceRev_last (l : List α) (n : ℕ) (hn : 1 ≤ n) :
    pySliceRev l none (some (-(n : ℤ))) = (l.drop (l.length + 1 - n)).reverse := by
  unfold pySliceRev clipDown
  simp only [List.take_length]
  rw [if_pos (by omega : (-(n : ℤ)) < 0)]
  split
  · rename_i h
    rw [show l.length + 1 - n = 0 by omega]
  · split
    · omega
    · rename_i h1 h2
      rw [show (-(n : ℤ) + l.length + 1).toNat = l.length + 1 - n by omega]

theorem getD_append_left {l l' : List α} {d : α} {t : ℕ} (h : t < l.length) :
    (l ++ l').getD t d = l.getD t d := by
  simp [List.getD, List.getElem?_append_left h]

theorem getD_append_right {l l' : List α} {d : α} {t : ℕ} (h : l.length ≤ t) :
    (l ++ l').getD t d = l'.getD (t - l.length) d := by
  simp [List.getD, List.getElem?_append_right h]

theorem getD_drop (l : List α) (a b : ℕ) (d : α) : (l.drop a).getD b d = l.getD (a + b) d := by
  simp [List.getD]

theorem getD_take (l : List α) (L t : ℕ) (d : α) (h : t < L) :
    (l.take L).getD t d = l.getD t d := by
  simp [List.getD, h]

theorem getD_reverse (l : List α) (t : ℕ) (d : α) (h : t < l.length) :
    l.reverse.getD t d = l.getD (l.length - 1 - t) d := by
  simp [List.getD, List.getElem?_reverse h]

end FBE
