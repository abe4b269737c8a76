import Verif.Spec.Shares
import Verif.Proofs.Owners

/-!
# Lemmas on one estimate for several references
-/

namespace FBE

open Spec XR

variable {L r e N D : ℕ}

theorem share_ratio {a b : ℝ} (ha : 0 ≤ a) (hb : 0 ≤ b) (h : 0 < a + b) : share (dbRatio a b) = a / (a + b) := by
  unfold dbRatio
  split
  · rename_i hb0
    subst hb0
    rw [if_neg (by linarith)]
    show (1 : ℝ) = _
    rw [add_zero, div_self (by linarith)]
  · rename_i hb0
    split
    · rename_i ha0
      subst ha0
      show (0 : ℝ) = _
      simp
    · rename_i ha0
      have ha' := lt_of_le_of_ne ha (Ne.symm ha0)
      have hb' := lt_of_le_of_ne hb (Ne.symm hb0)
      show 1 / (1 + (10 : ℝ) ^ (-(10 * Real.logb 10 (a / b)) / 10)) = _
      rw [show -(10 * Real.logb 10 (a / b)) / 10 = Real.logb 10 (a / b)⁻¹ from by rw [Real.logb_inv]; ring,
        Real.rpow_logb (by norm_num) (by norm_num) (by positivity)]
      field_simp

/-- The energies of the projections onto several subspaces add up to at most `1 + (n - 1) c` times the energy. -/
theorem many_projections {ι : Type*} (J : Finset ι) (K : ι → Submodule ℝ (Space D)) {c : ℝ} (h0 : 0 ≤ c)
    (hc : ∀ i ∈ J, ∀ j ∈ J, i ≠ j → ∀ u ∈ K i, ∀ v ∈ K j, |inner ℝ u v| ≤ c * (‖u‖ * ‖v‖)) (hJ : J.Nonempty) (u : Space D) :
    ∑ i ∈ J, energy ((K i).starProjection u) ≤ (1 + (J.card - 1) * c) * energy u := by
  have e1 : ∀ K : Submodule ℝ (Space D), inner ℝ u (K.starProjection u) = energy (K.starProjection u) := fun K => by
    have h := K.starProjection_inner_eq_zero u _ (K.starProjection_apply_mem u)
    rw [inner_sub_left, sub_eq_zero] at h
    rw [h, real_inner_self_eq_norm_sq]
    rfl
  set a := fun i => (K i).starProjection u with ha
  set S := ∑ i ∈ J, energy (a i) with hSd
  have hS : S = inner ℝ u (∑ i ∈ J, a i) := by
    rw [inner_sum]
    exact Finset.sum_congr rfl fun i _ => (e1 (K i)).symm
  have hn1 : (1 : ℝ) ≤ J.card := by exact_mod_cast hJ.card_pos
  have hn : ‖∑ i ∈ J, a i‖ ^ 2 ≤ (1 + (J.card - 1) * c) * S := by
    classical
    rw [← real_inner_self_eq_norm_sq, sum_inner]
    have hij : ∀ i ∈ J, ∀ j ∈ J, inner ℝ (a i) (a j) ≤
        c * ((energy (a i) + energy (a j)) / 2) + if i = j then (1 - c) * energy (a i) else 0 := fun i hi j hj => by
      by_cases h : i = j
      · subst h
        rw [if_pos rfl, real_inner_self_eq_norm_sq]
        unfold energy
        linarith
      · rw [if_neg h]
        have := (abs_le.1 (hc i hi j hj h _ ((K i).starProjection_apply_mem u) _ ((K j).starProjection_apply_mem u))).2
        have h2 : ‖a i‖ * ‖a j‖ ≤ (energy (a i) + energy (a j)) / 2 := by
          unfold energy
          nlinarith [sq_nonneg (‖a i‖ - ‖a j‖)]
        have h3 := mul_le_mul_of_nonneg_left h2 h0
        linarith
    calc ∑ i ∈ J, inner ℝ (a i) (∑ j ∈ J, a j) = ∑ i ∈ J, ∑ j ∈ J, inner ℝ (a i) (a j) := by simp only [inner_sum]
      _ ≤ ∑ i ∈ J, ∑ j ∈ J, (c * ((energy (a i) + energy (a j)) / 2) + if i = j then (1 - c) * energy (a i) else 0) :=
          Finset.sum_le_sum fun i hi => Finset.sum_le_sum fun j hj => hij i hi j hj
      _ = (1 + (J.card - 1) * c) * S := by
          have h1 : ∀ i ∈ J, ∑ j ∈ J, (c * ((energy (a i) + energy (a j)) / 2) + if i = j then (1 - c) * energy (a i) else 0) =
              c / 2 * (J.card * energy (a i)) + c / 2 * S + (1 - c) * energy (a i) := fun i hi => by
            rw [Finset.sum_add_distrib, Finset.sum_ite_eq, if_pos hi, ← Finset.mul_sum, ← Finset.sum_div,
              Finset.sum_add_distrib, Finset.sum_const, nsmul_eq_mul]
            ring
          rw [Finset.sum_congr rfl h1, Finset.sum_add_distrib, Finset.sum_add_distrib, ← Finset.mul_sum, ← Finset.mul_sum,
            ← Finset.mul_sum, ← Finset.mul_sum, Finset.sum_const, nsmul_eq_mul, ← hSd]
          ring
  have hcs : S ≤ ‖u‖ * ‖∑ i ∈ J, a i‖ := hS ▸ real_inner_le_norm u _
  have hS0 : 0 ≤ S := Finset.sum_nonneg fun _ _ => sq_nonneg _
  have hk : 0 ≤ 1 + ((J.card : ℝ) - 1) * c := by nlinarith
  have h2 : S ^ 2 ≤ energy u * ((1 + (J.card - 1) * c) * S) := by
    calc S ^ 2 ≤ (‖u‖ * ‖∑ i ∈ J, a i‖) ^ 2 := pow_le_pow_left₀ hS0 hcs 2
      _ = ‖u‖ ^ 2 * ‖∑ i ∈ J, a i‖ ^ 2 := by ring
      _ ≤ _ := mul_le_mul_of_nonneg_left hn (sq_nonneg _)
  rcases eq_or_lt_of_le hS0 with h | h
  · rw [← h]
    exact mul_nonneg hk (sq_nonneg _)
  · nlinarith

theorem dbRatio_shared {n : ℕ} (hn : 2 ≤ n) {c : ℝ} (h0 : 0 ≤ c) (h1 : c < 1) :
    dbRatio (1 + (n - 1) * c) ((n - 1) * (1 - c)) = fin (sharedDb n c) := by
  have : (2 : ℝ) ≤ n := by exact_mod_cast hn
  have a : 0 < 1 + ((n : ℝ) - 1) * c := by nlinarith
  have b : 0 < ((n : ℝ) - 1) * (1 - c) := mul_pos (by linarith) (by linarith)
  unfold dbRatio sharedDb
  rw [if_neg b.ne', if_neg a.ne']

/-- The projection of a sum of references without correlation is the reference. -/
theorem mixture_projection (hL : 0 < L) {x : Fin r → Fin N → ℝ} (g : Fin r → ℝ)
    (hc : ∀ k k', k ≠ k' → AtMostCorrelated L 0 (x k) (x k')) (k : Fin r) :
    (spanOne (N + L - 1) L (x k)).starProjection (shift (N + L - 1) (fun t => ∑ k, g k * x k t) 0) =
      g k • shift (N + L - 1) (x k) 0 := by
  have hm : ∀ k, shift (N + L - 1) (x k) 0 ∈ spanOne (N + L - 1) L (x k) := fun k => Submodule.subset_span ⟨⟨0, hL⟩, rfl⟩
  refine Submodule.eq_starProjection_of_mem_orthogonal (Submodule.smul_mem _ _ (hm k)) ?_
  rw [shift_sum, ← Finset.add_sum_erase _ _ (Finset.mem_univ k), add_sub_cancel_left]
  refine Submodule.sum_mem _ fun i hi => Submodule.smul_mem _ _ ?_
  rw [Submodule.mem_orthogonal]
  intro v hv
  have := correlated_spans (hc k i (Finset.ne_of_mem_erase hi).symm) v hv _ (hm i)
  rw [zero_mul] at this
  exact abs_nonpos_iff.1 this

/-- The energy of a sum of references without correlation. -/
theorem mixture_energy (hL : 0 < L) {x : Fin r → Fin N → ℝ} (g : Fin r → ℝ)
    (hc : ∀ k k', k ≠ k' → AtMostCorrelated L 0 (x k) (x k')) (J : Finset (Fin r)) :
    energy (∑ k ∈ J, g k • shift (N + L - 1) (x k) 0) = ∑ k ∈ J, g k ^ 2 * power (x k) := by
  have hm : ∀ k, shift (N + L - 1) (x k) 0 ∈ spanOne (N + L - 1) L (x k) := fun k => Submodule.subset_span ⟨⟨0, hL⟩, rfl⟩
  unfold energy
  rw [← real_inner_self_eq_norm_sq, sum_inner]
  refine Finset.sum_congr rfl fun i hi => ?_
  rw [inner_sum, Finset.sum_eq_single i]
  · rw [power_eq (D := N + L - 1) (by omega), real_inner_smul_left, real_inner_smul_right, real_inner_self_eq_norm_sq]
    unfold energy
    ring
  · intro j _ hj
    have := correlated_spans (hc i j hj.symm) _ (hm i) _ (hm j)
    rw [zero_mul] at this
    rw [real_inner_smul_left, real_inner_smul_right, abs_nonpos_iff.1 this]
    ring
  · exact fun h => absurd hi h

end FBE
