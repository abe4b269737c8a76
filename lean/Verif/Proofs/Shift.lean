import Verif.Proofs.Gram
import Verif.Proofs.Stats

/-!
# Inner products of shifted signals, independence of shifts, normalisation
-/

set_option linter.unusedSectionVars false

namespace FBE

open Spec

variable {N M : ℕ}

theorem inner_space {D : ℕ} (u v : Space D) : inner ℝ u v = ∑ t, u t * v t := by
  rw [PiLp.inner_apply]
  exact Finset.sum_congr rfl fun t _ => by simp [mul_comm]

theorem shift_apply (D : ℕ) (x : Fin N → ℝ) (l : ℕ) (t : Fin D) :
    shift D x l t = if l ≤ t.val then zpad x (t.val - l) else 0 := rfl

theorem inner_shift (D : ℕ) (x : Fin N → ℝ) (y : Fin M → ℝ) (i j : ℕ) (hij : i ≤ j) (hj : M + j ≤ D) :
    inner ℝ (shift D x i) (shift D y j) = corr y x (j - i) := by
  rw [inner_space]
  simp only [shift_apply]
  rw [← Finset.sum_range (fun t => (if i ≤ t then zpad x (t - i) else 0) *
    (if j ≤ t then zpad y (t - j) else 0))]
  obtain ⟨e, rfl⟩ : ∃ e, D = j + e := ⟨D - j, by omega⟩
  rw [Finset.sum_range_add, Finset.sum_eq_zero, zero_add]
  · unfold corr
    rw [← sum_zpad_mul y e (by omega) fun u => zpad x (u + (j - i))]
    refine Finset.sum_congr rfl fun u _ => ?_
    rw [if_pos (by omega), if_pos (by omega), mul_comm]
    congr 2 <;> omega
  · intro t ht
    rw [Finset.mem_range] at ht
    rw [if_neg (by omega : ¬ j ≤ t), mul_zero]

theorem inner_shift' (D : ℕ) (x : Fin N → ℝ) (y : Fin M → ℝ) (i j : ℕ) (hij : j ≤ i) (hj : N + i ≤ D) :
    inner ℝ (shift D x i) (shift D y j) = corr x y (i - j) := by
  rw [real_inner_comm, inner_shift D y x j i hij hj]

theorem shift_smul (D : ℕ) (a : ℝ) (x : Fin N → ℝ) (l : ℕ) :
    shift D (fun t => a * x t) l = a • shift D x l := by
  ext t
  show (if l ≤ t.val then zpad (fun t => a * x t) (t.val - l) else 0) =
    a * (if l ≤ t.val then zpad x (t.val - l) else 0)
  unfold zpad
  split
  · split
    · rfl
    · simp
  · simp

theorem norm_shift_sq (D : ℕ) (x : Fin N → ℝ) (l : ℕ) (h : N + l ≤ D) :
    ‖shift D x l‖ ^ 2 = ∑ t, x t ^ 2 := by
  rw [← real_inner_self_eq_norm_sq, inner_shift D x x l l le_rfl h, Nat.sub_self]
  unfold corr
  refine Finset.sum_congr rfl fun t _ => ?_
  rw [Nat.add_zero, zpad_val]
  ring

/-! ### independence of the shifts of one signal -/

theorem exists_first_ne {x : Fin N → ℝ} (hx : x ≠ 0) :
    ∃ t : Fin N, x t ≠ 0 ∧ ∀ u : Fin N, u < t → x u = 0 := by
  have h : ∃ t : ℕ, ∃ ht : t < N, x ⟨t, ht⟩ ≠ 0 := by
    by_contra hcon
    push Not at hcon
    exact hx (funext fun t => hcon t t.isLt)
  classical
  obtain ⟨ht, hne⟩ := Nat.find_spec h
  refine ⟨⟨Nat.find h, ht⟩, hne, fun u hu => ?_⟩
  by_contra hcon
  exact Nat.find_min h hu ⟨u.isLt, hcon⟩

theorem shift_linearIndependent (D L : ℕ) (hD : N + L ≤ D + 1) {x : Fin N → ℝ} (hx : x ≠ 0) :
    LinearIndependent ℝ (fun l : Fin L => shift D x l) := by
  rw [Fintype.linearIndependent_iff]
  intro g hg
  obtain ⟨t0, ht0, hlt⟩ := exists_first_ne hx
  -- strong induction on the lag
  have key : ∀ l : ℕ, ∀ hl : l < L, g ⟨l, hl⟩ = 0 := by
    intro l
    induction l using Nat.strong_induction_on with
    | _ l ih =>
      intro hl
      have h0 := congrArg (fun v : Space D => v ⟨l + t0.val, by have := t0.isLt; omega⟩) hg
      simp only [WithLp.ofLp_sum, Finset.sum_apply] at h0
      rw [Finset.sum_eq_single (⟨l, hl⟩ : Fin L)] at h0
      · have h1 : g ⟨l, hl⟩ * (if l ≤ l + t0.val then zpad x (l + t0.val - l) else 0) = 0 := h0
        rw [if_pos (by omega), Nat.add_sub_cancel_left, zpad_val] at h1
        exact (mul_eq_zero.1 h1).resolve_right ht0
      · intro b _ hb
        show g b * (if b.val ≤ l + t0.val then zpad x (l + t0.val - b.val) else 0) = 0
        rcases lt_or_gt_of_ne (fun h : b.val = l => hb (Fin.ext h)) with h | h
        · rw [ih b.val h b.isLt, zero_mul]
        · split
          · rename_i hb'
            have hlt' : l + t0.val - b.val < t0.val := by omega
            have : zpad x (l + t0.val - b.val) = 0 := by
              unfold zpad
              split
              · exact hlt _ hlt'
              · rfl
            rw [this, mul_zero]
          · rw [mul_zero]
      · intro h; exact absurd (Finset.mem_univ _) h
  exact fun i => key i.val i.isLt

/-! ### families of vectors with the correlations as inner products -/

/-- `f x i` stands for the signal `x` delayed by `i`, `g y` for the signal `y`. -/
structure Fam (N M K n : ℕ) {D : ℕ} (f : (Fin N → ℝ) → ℕ → Space D) (g : (Fin M → ℝ) → Space D) :
    Prop where
  n_ne : n ≠ 0
  K_le : K ≤ n
  gram : ∀ x y i j, i ≤ j → j < K → inner ℝ (f x i) (f y j) = circ n y x (j - i)
  cross : ∀ x y i, i < K → inner ℝ (f x i) (g y) = circ n x y i
  f_smul : ∀ a x i, f (fun t => a * x t) i = a • f x i
  g_smul : ∀ a x, g (fun t => a * x t) = a • g x
  g_sq_le : ∀ y, ‖g y‖ ^ 2 ≤ ∑ t, y t ^ 2
  g_sq : M ≤ n → ∀ y, ‖g y‖ ^ 2 = ∑ t, y t ^ 2

theorem zpad_smul (a : ℝ) (x : Fin N → ℝ) (t : ℕ) : zpad (fun t => a * x t) t = a * zpad x t := by
  unfold zpad
  split <;> simp

/-- Shifts, when nothing wraps around. -/
theorem fam_shift {N M K n D : ℕ} (hN : 0 < N) (hn : K + N ≤ n + 1) (hK : 0 < K) (hD : K + N ≤ D + 1) (hM : M ≤ D) :
    Fam N M K n (fun x i => shift D x i) (fun y => shift D y 0) where
  n_ne := by omega
  K_le := by omega
  gram x y i j hij hj := by
    rw [inner_shift D x y i j hij (by omega), circ_corr n y x _ (by omega) (by omega)]
  cross x y i hi := by
    rw [inner_shift' D x y i 0 (Nat.zero_le _) (by omega), circ_corr n x y _ (by omega) (by omega)]
    rfl
  f_smul a x i := shift_smul D a x i
  g_smul a x := shift_smul D a x 0
  g_sq_le y := (norm_shift_sq D y 0 (by omega)).le
  g_sq _ y := norm_shift_sq D y 0 (by omega)

/-- The signal `x` delayed by `l` samples, cyclically with period `n`. -/
noncomputable def cshift (n : ℕ) (x : Fin N → ℝ) (l : ℕ) : Space n :=
  WithLp.toLp 2 fun t => zpad x ((t.val + (n - l)) % n)

theorem fam_cshift {N M K n : ℕ} (hn : n ≠ 0) (hK : K ≤ n) :
    Fam N M K n (fun x i => cshift n x i) (fun y => cshift n y 0) := by
  have key : ∀ {N M : ℕ} (x : Fin N → ℝ) (y : Fin M → ℝ) i j, i ≤ j → j ≤ n →
      inner ℝ (cshift n x i) (cshift n y j) = circ n y x (j - i) := by
    intro N M x y i j hij hj
    rw [inner_space]
    show ∑ t : Fin n, zpad x ((t.val + (n - i)) % n) * zpad y ((t.val + (n - j)) % n) = _
    rw [← Finset.sum_range fun t => zpad x ((t + (n - i)) % n) * zpad y ((t + (n - j)) % n),
      ← sum_rotate n j fun t => zpad x ((t + (n - i)) % n) * zpad y ((t + (n - j)) % n)]
    unfold circ
    refine Finset.sum_congr rfl fun u hu => ?_
    rw [Finset.mem_range] at hu
    rw [Nat.mod_add_mod, Nat.mod_add_mod, show u + j + (n - j) = u + n by omega, Nat.add_mod_right,
      Nat.mod_eq_of_lt hu, show u + j + (n - i) = u + (j - i) + n by omega, Nat.add_mod_right,
      mul_comm]
  have hsm : ∀ {N : ℕ} a (x : Fin N → ℝ) i, cshift n (fun t => a * x t) i = a • cshift n x i := by
    intro N a x i
    ext t
    show zpad (fun t => a * x t) ((t.val + (n - i)) % n) = a * zpad x ((t.val + (n - i)) % n)
    rw [zpad_smul]
  refine ⟨hn, hK, fun x y i j hij hj => key x y i j hij (by omega), fun x y i hi => ?_, hsm,
    fun a x => hsm a x 0, fun y => ?_, fun hM y => ?_⟩
  · rw [real_inner_comm, key y x 0 i (Nat.zero_le _) (by omega)]
    rfl
  · rw [← real_inner_self_eq_norm_sq, inner_space]
    show ∑ t : Fin n, zpad y ((t.val + (n - 0)) % n) * zpad y ((t.val + (n - 0)) % n) ≤ _
    have e : ∀ t : Fin n, zpad y ((t.val + (n - 0)) % n) * zpad y ((t.val + (n - 0)) % n) = zpad y t ^ 2 := by
      intro t
      rw [Nat.sub_zero, Nat.add_mod_right, Nat.mod_eq_of_lt t.isLt, sq]
    rw [Finset.sum_congr rfl fun t _ => e t, ← Finset.sum_range fun t => zpad y t ^ 2]
    have h2 : ∑ t : Fin M, y t ^ 2 = ∑ t ∈ Finset.range M, zpad y t ^ 2 := by
      rw [Finset.sum_range]
      exact Finset.sum_congr rfl fun t _ => by rw [zpad_val]
    rw [h2]
    have h3 : ∑ t ∈ Finset.range n, zpad y t ^ 2 ≤ ∑ t ∈ Finset.range (max n M), zpad y t ^ 2 :=
      Finset.sum_le_sum_of_subset_of_nonneg (Finset.range_subset_range.2 (le_max_left _ _)) fun _ _ _ => sq_nonneg _
    refine h3.trans (le_of_eq (Finset.sum_subset (Finset.range_subset_range.2 (le_max_right _ _)) ?_).symm)
    intro t _ ht
    rw [Finset.mem_range, not_lt] at ht
    rw [zpad_of_le y ht, zero_pow two_ne_zero]
  · rw [← real_inner_self_eq_norm_sq, key y y 0 0 le_rfl (Nat.zero_le _)]
    unfold circ
    rw [sum_zpad_mul y n hM fun u => zpad y ((u + (0 - 0)) % n)]
    refine Finset.sum_congr rfl fun t _ => ?_
    rw [Nat.sub_zero, Nat.add_zero, Nat.mod_eq_of_lt (by omega), zpad_val]
    ring

end FBE
