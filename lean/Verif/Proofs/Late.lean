import Verif.Proofs.Infinite
import Verif.Spec.Late

/-!
# Filters in a row, and late estimates
-/

namespace FBE

open Spec

variable {N L K r d : ℕ}

/-- Both filters in a row. -/
def inRow (f : Fin L → ℝ) (h : Fin K → ℝ) : Fin (L + K - 1) → ℝ :=
  fun n => ∑ l : Fin L, ∑ i : Fin K, if l.val + i.val = n.val then f l * h i else 0

theorem filtered_inRow (f : Fin L → ℝ) (h : Fin K → ℝ) (x : Fin N → ℝ) (t : ℕ) :
    filtered (inRow f h) x t = ∑ l : Fin L, f l * (if l.val ≤ t then filtered h x (t - l) else 0) := by
  unfold filtered inRow
  simp only [Finset.sum_mul]
  rw [Finset.sum_comm]
  refine Finset.sum_congr rfl fun l _ => ?_
  rw [Finset.sum_comm]
  have key : ∀ i : Fin K, (∑ n : Fin (L + K - 1), (if l.val + i.val = n.val then f l * h i else 0) *
      (if n.val ≤ t then zpad x (t - n) else 0)) =
      f l * h i * (if l.val + i.val ≤ t then zpad x (t - (l + i)) else 0) := fun i => by
    rw [Finset.sum_eq_single (⟨l.val + i.val, by omega⟩ : Fin (L + K - 1))]
    · rw [if_pos rfl]
    · intro n _ hn
      rw [if_neg fun h => hn (Fin.ext h.symm), zero_mul]
    · intro h; exact absurd (Finset.mem_univ _) h
  simp only [key]
  split
  · rw [Finset.mul_sum]
    refine Finset.sum_congr rfl fun i _ => ?_
    rw [mul_assoc]
    congr 2
    by_cases h : l.val + i.val ≤ t
    · rw [if_pos h, if_pos (by omega), Nat.sub_sub]
    · rw [if_neg h, if_neg (by omega)]
  · rw [mul_zero]
    refine Finset.sum_eq_zero fun i _ => ?_
    rw [if_neg (by omega), mul_zero]

theorem filtered_sum {R : ℕ} (f : Fin R → Fin L → ℝ) (x : Fin N → ℝ) (t : ℕ) :
    filtered (fun n => ∑ q, f q n) x t = ∑ q, filtered (f q) x t := by
  unfold filtered
  rw [Finset.sum_comm]
  exact Finset.sum_congr rfl fun l _ => by rw [Finset.sum_mul]

theorem sum_range_longer {a b : ℕ} (h : a ≤ b) {f : ℕ → ℝ} (hf : ∀ t, a ≤ t → f t = 0) :
    ∑ t ∈ Finset.range b, f t = ∑ t ∈ Finset.range a, f t := by
  refine (Finset.sum_subset (Finset.range_subset_range.2 h) fun t _ ht => hf t ?_).symm
  simpa using ht

/-- A filtered reference explains no more than the reference with a longer filter. -/
theorem exists_dry (hL : 1 ≤ L) (hK : 1 ≤ K) {x w y : Fin N → ℝ} (hw : IsFiltered K x w) (f : Fin L → ℝ) :
    ∃ g : Fin (L + K - 1) → ℝ, residualOne g x y = residualOne f w y := by
  obtain ⟨h, hh⟩ := hw
  refine ⟨inRow f h, ?_⟩
  have e : ∀ t, filtered (inRow f h) x t = filtered f w t := fun t => by
    rw [filtered_inRow]
    unfold filtered
    refine Finset.sum_congr rfl fun l _ => ?_
    rw [hh]
  unfold residualOne
  simp only [e]
  refine sum_range_longer (by omega) fun t ht => ?_
  rw [zpad_of_le _ (by omega), filtered_end _ _ (by omega)]
  norm_num

theorem exists_dry_all {R : ℕ} (hL : 1 ≤ L) (hK : 1 ≤ K) {x : Fin r → Fin N → ℝ} {w : Fin R → Fin N → ℝ} {y : Fin N → ℝ}
    (hw : ∀ k, IsRemix K x (w k)) (f : Fin R → Fin L → ℝ) :
    ∃ g : Fin r → Fin (L + K - 1) → ℝ, residualAll g x y = residualAll f w y := by
  choose h hh using hw
  refine ⟨fun k n => ∑ q, inRow (f q) (h q k) n, ?_⟩
  have e : ∀ t, ∑ k, filtered (fun n => ∑ q, inRow (f q) (h q k) n) (x k) t = ∑ q, filtered (f q) (w q) t := fun t => by
    simp only [filtered_sum (fun q => inRow (f q) (h q _)), filtered_inRow]
    rw [Finset.sum_comm]
    refine Finset.sum_congr rfl fun q _ => ?_
    rw [Finset.sum_comm]
    unfold filtered
    refine Finset.sum_congr rfl fun l _ => ?_
    rw [← Finset.mul_sum, hh]
    congr 1
    split
    · rfl
    · simp
  unfold residualAll
  simp only [e]
  refine sum_range_longer (by omega) fun t ht => ?_
  rw [zpad_of_le _ (by omega), Finset.sum_eq_zero fun q _ => filtered_end _ _ (by omega)]
  norm_num

/-- The filter `d` samples later. -/
def later (d : ℕ) (f : Fin L → ℝ) : Fin (L + d) → ℝ := Fin.addCases (m := d) (n := L) (motive := fun _ => ℝ) (fun _ => 0) f ∘ Fin.cast (Nat.add_comm L d)

theorem filtered_later (f : Fin L → ℝ) (x : Fin N → ℝ) (t : ℕ) :
    filtered (later d f) x t = if d ≤ t then filtered f x (t - d) else 0 := by
  have e : filtered (later d f) x t = ∑ l : Fin (d + L), Fin.addCases (m := d) (n := L) (motive := fun _ => ℝ) (fun _ => 0) f l *
      (if l.val ≤ t then zpad x (t - l) else 0) := by
    unfold filtered later
    exact Fintype.sum_equiv (finCongr (Nat.add_comm L d)) _ _ fun l => rfl
  rw [e, Fin.sum_univ_add]
  simp only [Fin.addCases_left, Fin.addCases_right, zero_mul, Finset.sum_const_zero, zero_add, Fin.val_natAdd]
  unfold filtered
  split
  · refine Finset.sum_congr rfl fun l _ => ?_
    congr 1
    by_cases h : d + l.val ≤ t
    · rw [if_pos h, if_pos (by omega), Nat.sub_sub]
    · rw [if_neg h, if_neg (by omega)]
  · refine Finset.sum_eq_zero fun l _ => ?_
    rw [if_neg (by omega), mul_zero]

theorem sum_later {a : ℕ} (f : ℕ → ℝ) :
    ∑ t ∈ Finset.range (a + d), (if d ≤ t then f (t - d) else 0) = ∑ t ∈ Finset.range a, f t := by
  rw [Nat.add_comm, Finset.sum_range_add, Finset.sum_eq_zero fun t ht => if_neg (by simpa using ht), zero_add]
  exact Finset.sum_congr rfl fun t _ => by rw [if_pos (by omega), Nat.add_sub_cancel_left]

theorem residual_later (hL : 1 ≤ L) {x y y' : Fin N → ℝ} (hy : IsLate d y y') (f : Fin L → ℝ) :
    residualOne (later d f) x y' = residualOne f x y := by
  unfold residualOne
  rw [show N + (L + d) - 1 = N + L - 1 + d by omega]
  refine Eq.trans ?_ (sum_later (d := d) _)
  refine Finset.sum_congr rfl fun t _ => ?_
  rw [hy t, filtered_later]
  split
  · rfl
  · norm_num

theorem residual_later_all (hL : 1 ≤ L) {x : Fin r → Fin N → ℝ} {y y' : Fin N → ℝ} (hy : IsLate d y y')
    (f : Fin r → Fin L → ℝ) : residualAll (fun k => later d (f k)) x y' = residualAll f x y := by
  unfold residualAll
  rw [show N + (L + d) - 1 = N + L - 1 + d by omega]
  refine Eq.trans ?_ (sum_later (d := d) _)
  refine Finset.sum_congr rfl fun t _ => ?_
  simp only [hy t, filtered_later]
  split
  · rfl
  · norm_num

theorem power_range (y : Fin N → ℝ) {n : ℕ} (hn : N ≤ n) : power y = ∑ t ∈ Finset.range n, zpad y t ^ 2 := by
  rw [sum_range_longer hn fun t ht => by rw [zpad_of_le _ ht]; norm_num]
  unfold power
  rw [Finset.sum_range]
  exact Finset.sum_congr rfl fun t _ => by rw [zpad_val]

theorem power_late {y y' : Fin N → ℝ} (hy : IsLate d y y') : power y' = power y := by
  rw [power_range y' (Nat.le_add_right N d), power_range y le_rfl]
  refine Eq.trans ?_ (sum_later (d := d) _)
  refine Finset.sum_congr rfl fun t _ => ?_
  rw [hy t]
  split
  · rfl
  · norm_num

theorem residualOne_nonneg (f : Fin L → ℝ) (x y : Fin N → ℝ) : 0 ≤ residualOne f x y :=
  Finset.sum_nonneg fun _ _ => sq_nonneg _

theorem residualAll_nonneg (f : Fin r → Fin L → ℝ) (x : Fin r → Fin N → ℝ) (y : Fin N → ℝ) : 0 ≤ residualAll f x y :=
  Finset.sum_nonneg fun _ _ => sq_nonneg _

theorem best_le_power (hL : 1 ≤ L) {f : Fin L → ℝ} {x y : Fin N → ℝ} (hf : IsBestFilter f x y) :
    residualOne f x y ≤ power y := by
  refine (hf fun _ => 0).trans_eq ?_
  unfold residualOne filtered
  rw [power_range y (n := N + L - 1) (by omega)]
  simp

theorem bestAll_le_power (hL : 1 ≤ L) {f : Fin r → Fin L → ℝ} {x : Fin r → Fin N → ℝ} {y : Fin N → ℝ}
    (hf : AreBestFilters f x y) : residualAll f x y ≤ power y := by
  refine (hf fun _ _ => 0).trans_eq ?_
  unfold residualAll filtered
  rw [power_range y (n := N + L - 1) (by omega)]
  simp

end FBE
