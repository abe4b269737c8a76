import Verif.Proofs.Toeplitz
import Verif.Model.Cgd

/-!
# The FFT operators multiply by the matrices of the direct path; the preconditioner columns
-/

set_option linter.unusedSectionVars false
set_option linter.unusedSimpArgs false

namespace FBE

open Spec Matrix

variable {B : Backend} {n c : ℕ}

/-- Circular convolution by FFT. -/
theorem conv_get (n : ℕ) (hn : n ≠ 0) (x y : List ℝ) (t : ℕ) (ht : t < n) :
    (irfft n (List.zipWith (· * ·) (rfft n x) (rfft n y))).getD t 0 =
      ∑ u ∈ Finset.range n, x.getD u 0 * y.getD ((t + (n - u)) % n) 0 := by
  rw [rfft_eq, rfft_eq, zipWith_map_range, irfft_spec _ ht, conv_spec hn]
  exact (herm_dft _).mul (herm_dft _)

/-! ### symmetric Toeplitz -/

theorem length_symCircCol (hB : Covered B) {col : List ℝ} (hc : col.length = n) (hn : 0 < n) :
    (symCircCol B n col).length = 2 * n := by
  unfold symCircCol
  rw [hB.revTail]
  simp [hc]
  omega

theorem symCircCol_get (hB : Covered B) {col : List ℝ} (hc : col.length = n) {t : ℕ} (ht : t < 2 * n) :
    (symCircCol B n col).getD t 0 =
      if t < n then col.getD t 0 else if t = n then 0 else col.getD (2 * n - t) 0 := by
  unfold symCircCol
  rw [hB.revTail]
  by_cases h1 : t < n
  · rw [if_pos h1, getD_append_left (by simp; omega), getD_append_left (by omega)]
  rw [if_neg h1]
  by_cases h2 : t = n
  · rw [if_pos h2, getD_append_left (by simp; omega), getD_append_right (by omega)]
    simp [List.getD, h2, hc]
  · rw [if_neg h2, getD_append_right (by simp; omega), getD_reverse _ _ _ (by simp; omega), getD_drop]
    congr 1
    simp
    omega

/-- `SymmetricToeplitzOperator(col) @ v` is the product with `toeplitz(col)`. -/
theorem symToeplitzOp_eq (hB : Covered B) {col : List ℝ} (hc : col.length = n) (hn : 0 < n)
    (v : Fin n → ℝ) : symToeplitzOp B n col v = toeplitz B n col *ᵥ v := by
  funext i
  have hi := i.isLt
  unfold symToeplitzOp vec
  rw [length_symCircCol hB hc hn, pySlice_take, getD_take _ _ _ _ hi, conv_get _ (by omega) _ _ _ (by omega)]
  simp only [getD_ofFn]
  rw [sum_zpad_mul v (2 * n) (by omega) fun u => (symCircCol B n col).getD ((i + (2 * n - u)) % (2 * n)) 0]
  refine Finset.sum_congr rfl fun u _ => ?_
  have hu := u.isLt
  show _ = toeplitz B n col i u * v u
  rw [toeplitz_apply hB hc, mul_comm, symCircCol_get hB hc (Nat.mod_lt _ (by omega))]
  congr 1
  rcases Nat.lt_or_ge i.val u with h | h
  · rw [Nat.mod_eq_of_lt (by omega), if_neg (by omega), if_neg (by omega)]
    congr 1
    omega
  · have : (i.val + (2 * n - u)) % (2 * n) = i - u := by
      rw [show i.val + (2 * n - u) = (i - u) + 2 * n by omega, Nat.add_mod_right, Nat.mod_eq_of_lt (by omega)]
    rw [this, if_pos (by omega)]
    congr 1
    omega

/-! ### block Toeplitz -/

theorem blockNfft_ge (n : ℕ) : 2 * n ≤ blockNfft n := Nat.le_pow_clog (by norm_num) _

theorem length_blockCircCol (hB : Covered B) (hn : 2 ≤ n) {col : List ℝ} (hc : col.length = n + n) :
    (blockCircCol B n col).length = blockNfft n := by
  have := blockNfft_ge n
  unfold blockCircCol
  rw [hB.revMid n (by omega), hB.revLast n hn, pySlice_one]
  simp [hc]
  omega

theorem blockCircCol_get (hB : Covered B) (hn : 2 ≤ n) {col : List ℝ} (hc : col.length = n + n) {t : ℕ}
    (ht : t < blockNfft n) :
    (blockCircCol B n col).getD t 0 =
      if t = 0 then col.getD 0 0 else if t < n then col.getD (n + n - t) 0
      else if t ≤ blockNfft n - n then 0 else col.getD (blockNfft n - t) 0 := by
  have hge := blockNfft_ge n
  unfold blockCircCol
  rw [hB.revMid n (by omega), hB.revLast n hn, pySlice_one]
  by_cases h0 : t = 0
  · subst h0
    rw [if_pos rfl, getD_append_left (by simp), getD_append_left (by simp; omega),
      getD_append_left (by simp; omega), getD_take _ _ _ _ (by omega)]
  rw [if_neg h0]
  by_cases h1 : t < n
  · rw [if_pos h1, getD_append_left (by simp [hc]; omega), getD_append_left (by simp [hc]; omega),
      getD_append_right (by simp [hc]; omega), getD_reverse _ _ _ (by simp [hc]; omega), getD_drop]
    congr 1
    simp [hc]
    omega
  rw [if_neg h1]
  by_cases h2 : t ≤ blockNfft n - n
  · rw [if_pos h2, getD_append_left (by simp [hc]; omega), getD_append_right (by simp [hc]; omega)]
    simp [List.getD, List.getElem?_replicate]
    split <;> rfl
  · rw [if_neg h2, getD_append_right (by simp [hc]; omega), getD_reverse _ _ _ (by simp [hc]; omega),
      getD_drop, getD_take _ _ _ _ (by simp [hc]; omega)]
    congr 1
    simp [hc]
    omega

/-- The matrix built by `block_toeplitz` (see `blockToeplitz_ok`). -/
def lagMatrix (n : ℕ) (acf : Fin c → Fin c → List ℝ) : Matrix (Fin n × Fin c) (Fin n × Fin c) ℝ :=
  fun p q => lagAt (acf p.2 q.2) p.1 q.1

theorem rfft_getD (n : ℕ) (x : List ℝ) {k : ℕ} (hk : k ≤ n / 2) :
    (rfft n x).getD k 0 = dft n (fun t => x.getD t 0) k := by
  rw [rfft_eq, getD_map_range _ _ _ _ (by omega)]

/-- `BlockToeplitzOperator(acf) @ v` is the product with `block_toeplitz(acf)`. -/
theorem blockToeplitzOp_eq (hB : Covered B) (hn : 2 ≤ n) {acf : Fin c → Fin c → List ℝ}
    (hc : ∀ k l, (acf k l).length = n + n) (v : Fin n × Fin c → ℝ) :
    blockToeplitzOp B n acf v = lagMatrix n acf *ᵥ v := by
  have hge := blockNfft_ge n
  funext p
  obtain ⟨i, k⟩ := p
  have hi := i.isLt
  unfold blockToeplitzOp vec
  simp only
  rw [pySlice_take, getD_take _ _ _ _ hi]
  have hmap : ((List.range (blockNfft n / 2 + 1)).map fun q =>
      ∑ d, (rfft (blockCircCol B n (acf k d)).length (blockCircCol B n (acf k d))).getD q 0
        * (rfft (blockNfft n) (lagCol v d)).getD q 0) =
      (List.range (blockNfft n / 2 + 1)).map fun q =>
      ∑ d, dft (blockNfft n) (fun t => (lagCol v d).getD t 0) q *
        dft (blockNfft n) (fun t => (blockCircCol B n (acf k d)).getD t 0) q := by
    refine List.map_congr_left fun q hq => Finset.sum_congr rfl fun d _ => ?_
    rw [List.mem_range] at hq
    rw [length_blockCircCol hB hn (hc k d), rfft_getD _ _ (by omega), rfft_getD _ _ (by omega), mul_comm]
  rw [hmap, irfft_spec (Herm.sum fun d _ => (herm_dft _).mul (herm_dft _)) (by omega)]
  simp only [Finset.sum_mul]
  rw [Finset.sum_comm, Complex.re_sum, Finset.sum_div]
  have hterm : ∀ d : Fin c, (∑ q ∈ Finset.range (blockNfft n),
      dft (blockNfft n) (fun t => (lagCol v d).getD t 0) q *
        dft (blockNfft n) (fun t => (blockCircCol B n (acf k d)).getD t 0) q *
        tw (blockNfft n) q i).re / (blockNfft n : ℝ) = ∑ u : Fin n, lagAt (acf k d) i u * v (u, d) := by
    intro d
    rw [conv_spec (by omega)]
    unfold lagCol
    simp only [getD_ofFn]
    rw [sum_zpad_mul (fun l => v (l, d)) _ (by omega) fun u =>
      (blockCircCol B n (acf k d)).getD ((i + (blockNfft n - u)) % blockNfft n) 0]
    refine Finset.sum_congr rfl fun u _ => ?_
    have hu := u.isLt
    rw [mul_comm, blockCircCol_get hB hn (hc k d) (Nat.mod_lt _ (by omega))]
    congr 1
    unfold lagAt
    rcases Nat.lt_or_ge i.val u with h | h
    · rw [Nat.mod_eq_of_lt (by omega), if_neg (by omega), if_neg (by omega), if_neg (by omega),
        if_pos (by omega)]
      congr 1
      omega
    · have : (i.val + (blockNfft n - u)) % (blockNfft n) = i - u := by
        rw [show i.val + (blockNfft n - u) = (i - u) + blockNfft n by omega, Nat.add_mod_right,
          Nat.mod_eq_of_lt (by omega)]
      rw [this]
      rcases Nat.eq_or_lt_of_le h with h' | h'
      · rw [if_pos (by omega), if_pos (by omega)]
        congr 1
        omega
      · rw [if_neg (by omega), if_pos (by omega), if_neg (by omega), hc]
  rw [Finset.sum_congr rfl fun d _ => hterm d]
  unfold lagMatrix Matrix.mulVec dotProduct
  rw [Fintype.sum_prod_type_right]

/-! ### preconditioner columns -/

theorem length_symPrecondCol {col : List ℝ} (hc : col.length = n) (hn : 0 < n) :
    (symPrecondCol col).length = n := by
  unfold symPrecondCol
  simp only [pySlice_one, pySlice_from_one]
  simp [hc]
  omega

theorem getD_zipWith {α β γ : Type*} (f : α → β → γ) (x : List α) (y : List β) (a : α) (b : β) (d : γ)
    (t : ℕ) (hx : t < x.length) (hy : t < y.length) :
    (List.zipWith f x y).getD t d = f (x.getD t a) (y.getD t b) := by
  simp [List.getD, hx, hy]

theorem symPrecondCol_zero {col : List ℝ} (hc : col.length = n) (hn : 0 < n) :
    (symPrecondCol col).getD 0 0 = col.getD 0 0 := by
  unfold symPrecondCol
  simp only [pySlice_one]
  rw [getD_append_left (by simp; omega), getD_take _ _ _ _ (by omega)]

theorem symPrecondCol_get {col : List ℝ} (hc : col.length = n) {t : ℕ} (h0 : 0 < t) (ht : t < n) :
    (symPrecondCol col).getD t 0 = ((n - t : ℕ) * col.getD t 0 + t * col.getD (n - t) 0) / n := by
  unfold symPrecondCol
  simp only [pySlice_one, pySlice_from_one]
  rw [hc]
  set b : List ℝ := (List.range (n - 1)).map fun i : ℕ => ((i : ℝ) + 1) / n with hb
  have hbl : b.length = n - 1 := by simp [hb]
  have hbg : ∀ i < n - 1, b.reverse.getD i 0 = ((n - 1 - i : ℕ) : ℝ) / n := by
    intro i hi
    rw [getD_reverse _ _ _ (by omega), hbl, hb, getD_map_range _ _ _ _ (by omega)]
    congr 1
    have : ((n - 1 - 1 - i : ℕ) : ℝ) + 1 = ((n - 1 - 1 - i + 1 : ℕ) : ℝ) := by push_cast; ring
    rw [this]
    congr 1
    omega
  have hw : ∀ i < n - 1, (List.zipWith (· * ·) (col.drop 1) b.reverse).getD i 0 =
      col.getD (1 + i) 0 * (((n - 1 - i : ℕ) : ℝ) / n) := by
    intro i hi
    rw [getD_zipWith _ _ _ 0 0 0 _ (by simp; omega) (by simp; omega), getD_drop, hbg i hi]
  have hwl : (List.zipWith (· * ·) (col.drop 1) b.reverse).length = n - 1 := by simp [hc, hbl]
  rw [getD_append_right (by simp; omega)]
  simp only [List.length_take]
  rw [getD_zipWith _ _ _ 0 0 0 _ (by omega) (by simp only [List.length_reverse]; omega), hw _ (by omega),
    getD_reverse _ _ _ (by omega), hw _ (by omega), hwl]
  rw [show 1 + (t - min 1 col.length) = t by omega, show n - 1 - (t - min 1 col.length) = n - t by omega,
    show 1 + (n - 1 - 1 - (t - min 1 col.length)) = n - t by omega,
    show n - 1 - (n - 1 - 1 - (t - min 1 col.length)) = t by omega]
  ring

theorem length_nonsymPrecondCol (hB : Covered B) (hn : 2 ≤ n) {r : List ℝ} (hr : r.length = n + n) :
    (nonsymPrecondCol B r).length = n := by
  unfold nonsymPrecondCol
  simp only [show (r.length + 1) / 2 = n by omega]
  rw [hB.revMid n (by omega), hB.revLast n hn, pySlice_one]
  simp [hr]
  omega

theorem nonsymPrecondCol_zero (hn : 2 ≤ n) {r : List ℝ} (hr : r.length = n + n) :
    (nonsymPrecondCol B r).getD 0 0 = r.getD 0 0 := by
  unfold nonsymPrecondCol
  simp only [pySlice_one]
  rw [getD_append_left (by simp; omega), getD_take _ _ _ _ (by omega)]

theorem nonsymPrecondCol_get (hB : Covered B) (hn : 2 ≤ n) {r : List ℝ} (hr : r.length = n + n) {t : ℕ}
    (h0 : 0 < t) (ht : t < n) :
    (nonsymPrecondCol B r).getD t 0 =
      ((n - t : ℕ) * r.getD (n + n - t) 0 + t * r.getD (n - t) 0) / n := by
  unfold nonsymPrecondCol
  simp only [show (r.length + 1) / 2 = n by omega]
  rw [hB.revMid n (by omega), hB.revLast n hn, pySlice_one]
  set b : List ℝ := (List.range (n - 1)).map fun i : ℕ => ((i : ℝ) + 1) / n with hb
  have hbl : b.length = n - 1 := by simp [hb]
  have hbg : ∀ i < n - 1, b.getD i 0 = ((i : ℝ) + 1) / n := by
    intro i hi
    rw [hb, getD_map_range _ _ _ _ (by omega)]
  rw [getD_append_right (by simp; omega)]
  have e : t - (List.take 1 r).length = t - 1 := by simp; omega
  rw [e, getD_zipWith _ _ _ 0 0 0 _ (by simp [hbl, hr]; omega) (by simp [hbl, hr]; omega),
    getD_zipWith _ _ _ 0 0 0 _ (by simp [hbl, hr]; omega) (by simp [hbl, hr]; omega),
    getD_zipWith _ _ _ 0 0 0 _ (by simp [hbl, hr]; omega) (by simp [hbl, hr]; omega),
    hbg _ (by omega)]
  have e2 : (b.map fun x => 1 - x).getD (t - 1) 0 = 1 - ((((t - 1 : ℕ) : ℝ)) + 1) / n := by
    rw [hb, List.map_map, getD_map_range _ _ _ _ (by omega)]
    rfl
  rw [e2, getD_reverse _ _ _ (by simp [hr]; omega), getD_reverse _ _ _ (by simp [hr]; omega), getD_drop, getD_drop,
    getD_take _ _ _ _ (by simp [hr]; omega)]
  have e3 : 1 + ((List.drop 1 (List.take n r)).length - 1 - (t - 1)) = n - t := by simp [hr]; omega
  have e4 : r.length - (n - 1) + ((List.drop (r.length - (n - 1)) r).length - 1 - (t - 1)) = n + n - t := by
    simp [hr]; omega
  rw [e3, e4]
  have hn' : (n : ℝ) ≠ 0 := by positivity
  have e5 : ((n - t : ℕ) : ℝ) = n - t := by push_cast [ht.le]; ring
  have e6 : (((t - 1 : ℕ) : ℝ)) + 1 = t := by
    have : 1 ≤ t := h0
    push_cast [this]; ring
  rw [e5, e6]
  field_simp
  ring

end FBE
