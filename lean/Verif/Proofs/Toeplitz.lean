import Verif.Proofs.Stats
import Verif.Proofs.LsaInf
import Verif.Spec.Backend
import Verif.Model.Linalg
import Mathlib.Data.List.GetD

/-!
# Slices of the two packages, Toeplitz matrices
-/

set_option linter.unusedSectionVars false

namespace FBE

open Spec

theorem Spec.Covered.lsa {B : Backend} (hB : Covered B) : LsaCorrect @B.lsa := by
  rcases hB with rfl | ⟨lsa, n2, h, rfl⟩
  · exact torchLsa_correct
  · exact h

theorem Spec.Covered.revTail {B : Backend} (hB : Covered B) (x : List ℝ) :
    B.revTail x = (x.drop 1).reverse := by
  rcases hB with rfl | ⟨lsa, n2, h, rfl⟩
  · show (pySlice x (some 1) none).reverse = _
    rw [pySlice_from_one]
  · exact pySliceRev_tail x

theorem Spec.Covered.revMid {B : Backend} (hB : Covered B) (n : ℕ) (hn : 1 ≤ n) (x : List ℝ) :
    B.revMid n x = ((x.take n).drop 1).reverse := by
  rcases hB with rfl | ⟨lsa, n2, h, rfl⟩
  · show (pySlice x (some 1) (some (n : ℤ))).reverse = _
    rw [pySlice_mid]
  · exact pySliceRev_mid x n hn

theorem Spec.Covered.revLast {B : Backend} (hB : Covered B) (n : ℕ) (hn : 2 ≤ n) (x : List ℝ) :
    B.revLast n x = (x.drop (x.length - (n - 1))).reverse := by
  rcases hB with rfl | ⟨lsa, n2, h, rfl⟩
  · show (pySlice x (some (-(n : ℤ) + 1)) none).reverse = _
    rw [pySlice_neg_add_one x n hn]
  · show pySliceRev x none (some (-(n : ℤ))) = _
    rw [pySliceRev_last x n (by omega)]
    congr 2
    omega

theorem Spec.Covered.specInv {B : Backend} (hB : Covered B) (c : ℂ) :
    B.specInv c = (starRingEnd ℂ) c / ((max (c.re ^ 2 + c.im ^ 2) 1e-6 : ℝ) : ℂ) := by
  rcases hB with rfl | ⟨lsa, n2, h, rfl⟩
  · show (starRingEnd ℂ) (c / ((max (c.re ^ 2 + c.im ^ 2) 1e-6 : ℝ) : ℂ)) = _
    rw [map_div₀, Complex.conj_ofReal]
  · rfl

/-! ### Toeplitz -/

/-- Distance of two indices. -/
theorem toeplitz_view {B : Backend} (hB : Covered B) {n : ℕ} {x : List ℝ} (hx : x.length = n)
    (i j : Fin n) :
    hankelView (B.revTail x ++ x) (n - 1 - i) j = some (x.getD (max i.val j - min i.val j) 0) := by
  have hi := i.isLt
  have hj := j.isLt
  unfold hankelView
  rw [hB.revTail]
  have hlen : (x.drop 1).reverse.length = n - 1 := by simp [hx]
  have hlt : n - 1 - i.val + j.val < ((x.drop 1).reverse ++ x).length := by
    simp [hx]; omega
  rw [List.getElem?_eq_getElem hlt]
  congr 1
  rw [← List.getD_eq_getElem _ 0 hlt]
  rcases lt_or_ge j.val i.val with h | h
  · rw [getD_append_left (by rw [hlen]; omega), getD_reverse _ _ _ (by simp [hx]; omega), getD_drop]
    congr 1
    simp [hx]; omega
  · rw [getD_append_right (by rw [hlen]; omega), hlen]
    congr 1
    omega

theorem toeplitz_apply {B : Backend} (hB : Covered B) {n : ℕ} {x : List ℝ} (hx : x.length = n)
    (i j : Fin n) : toeplitz B n x i j = x.getD (max i.val j - min i.val j) 0 := by
  unfold toeplitz
  rw [toeplitz_view hB hx]
  rfl

/-- Entry of the block at lag `j - i` of an array that stores the lags `0, …, n-1` at the start and
`-(n-1), …, -1` at the end. -/
def lagAt (x : List ℝ) (i j : ℕ) : ℝ := if i ≤ j then x.getD (j - i) 0 else x.getD (x.length - (i - j)) 0

theorem length_blockVec {n : ℕ} (hn : 2 ≤ n) {x : List ℝ} (hx : n ≤ x.length) :
    (blockVec n x).length = 2 * n - 1 := by
  unfold blockVec
  rw [pySlice_neg_add_one _ _ hn, pySlice_take]
  simp
  omega

theorem block_view {n : ℕ} (hn : 2 ≤ n) {x : List ℝ} (hx : n ≤ x.length) (i j : Fin n) :
    hankelView (blockVec n x) (n - 1 - i) j = some (lagAt x i j) := by
  have hi := i.isLt
  have hj := j.isLt
  have hlt : n - 1 - i.val + j.val < (blockVec n x).length := by
    rw [length_blockVec hn hx]; omega
  unfold hankelView
  rw [List.getElem?_eq_getElem hlt]
  congr 1
  rw [← List.getD_eq_getElem _ 0 hlt]
  unfold blockVec lagAt
  rw [pySlice_neg_add_one _ _ hn, pySlice_take]
  have hlen : (x.drop (x.length - (n - 1))).length = n - 1 := by simp; omega
  split
  · rw [getD_append_right (by rw [hlen]; omega), hlen, getD_take _ _ _ _ (by omega)]
    congr 1
    omega
  · rw [getD_append_left (by rw [hlen]; omega), getD_drop]
    congr 1
    omega

theorem hankelCols_block {n : ℕ} (hn : 2 ≤ n) {x : List ℝ} (hx : n ≤ x.length) :
    hankelCols (blockVec n x) n = n := by
  unfold hankelCols
  rw [length_blockVec hn hx]
  omega

theorem blockToeplitz_ok {B : Backend} {ι : Type} {c n : ℕ} (hn : 2 ≤ n) (x : ι → Fin c → Fin c → List ℝ)
    (hx : ∀ m r d, n ≤ (x m r d).length) :
    blockToeplitz B n x = .ok fun m p q => lagAt (x m p.2 q.2) p.1 q.1 := by
  unfold blockToeplitz
  rw [if_neg]
  · congr 1
    funext m p q
    rw [block_view hn (hx m _ _)]
    rfl
  · rintro ⟨m, r, d, h⟩
    exact h (hankelCols_block hn (hx m r d))

end FBE
