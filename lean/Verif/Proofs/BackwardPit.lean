import Verif.Model.BackwardPit
import Verif.Proofs.PermLimit
import Verif.Proofs.LsaInf

/-!
# Gradients through the permutation
-/

set_option linter.unusedSectionVars false

namespace FBE

open Spec XR Filter Topology Backward

variable {s : List ℕ} {r e : ℕ}

/-- The gradients scattered by a described pairing, paired with a matrix. -/
theorem permGrad_sum {perm : BIdx s → Fin (min r e) → ℕ} {m : BIdx s} {P : Pairing r e} (h : Describes (perm m) P)
    (v : BIdx s → Fin (min r e) → ℝ) (x : Fin r → Fin e → ℝ) :
    ∑ k, ∑ j, permGrad perm v m k j * x k j = ∑ i, v m i * x (P.ref i) (P.est i) := by
  have hc : ∀ k j i, (if e < r then perm m i = k.val ∧ i.val = j.val else i.val = k.val ∧ perm m i = j.val) ↔
      (P.ref i = k ∧ P.est i = j) := by
    intro k j i
    split
    · rename_i hlt
      obtain ⟨h1, h2⟩ := h.ref hlt i
      rw [Fin.ext_iff, Fin.ext_iff, h1, h2]
    · rename_i hlt
      obtain ⟨h1, h2⟩ := h.est (not_lt.1 hlt) i
      rw [Fin.ext_iff, Fin.ext_iff, h1, h2]
  unfold permGrad
  simp only [hc, Finset.sum_mul, ite_mul, zero_mul]
  have e1 : ∀ k, ∑ j, ∑ i, (if P.ref i = k ∧ P.est i = j then v m i * x k j else 0) =
      ∑ i, ∑ j, (if P.ref i = k ∧ P.est i = j then v m i * x k j else 0) := fun k => Finset.sum_comm
  simp only [e1]
  rw [Finset.sum_comm]
  refine Finset.sum_congr rfl fun i _ => ?_
  rw [Finset.sum_eq_single (P.ref i) (fun k _ hk => Finset.sum_eq_zero fun j _ => if_neg fun h => hk h.1.symm)
    fun hk => absurd (Finset.mem_univ _) hk]
  rw [Finset.sum_eq_single (P.est i) (fun j _ hj => if_neg fun h => hj h.2.symm) fun hj => absurd (Finset.mem_univ _) hj]
  rw [if_pos ⟨rfl, rfl⟩]

variable {X : Type*} [TopologicalSpace X] {x₀ : X} {L : X → Except PyErr (BIdx s → Fin r → Fin e → XR)}

/-- `f` is the sum of the losses with weights `w` near `x₀`. -/
def SumNear (L : X → Except PyErr (BIdx s → Fin r → Fin e → XR)) (x₀ : X) (w : BIdx s → Fin r → Fin e → ℝ)
    (f : X → ℝ) : Prop :=
  ∀ᶠ p in 𝓝 x₀, ∃ (M : BIdx s → Fin r → Fin e → XR) (x : BIdx s → Fin r → Fin e → ℝ), L p = .ok M ∧
    (∀ m k j, M m k j = fin (x m k j)) ∧ f p = ∑ m, ∑ k, ∑ j, w m k j * x m k j

/-- All losses are continuous if all their weighted sums are. -/
theorem loss_near (hs : ∀ w, ∃ f, SumNear L x₀ w f ∧ ContinuousAt f x₀) :
    ∃ x : X → BIdx s → Fin r → Fin e → ℝ, (∀ᶠ p in 𝓝 x₀, L p = .ok fun m k j => fin (x p m k j)) ∧
      ∀ m k j, Tendsto (fun p => x p m k j) (𝓝 x₀) (𝓝 (x x₀ m k j)) := by
  choose F hF hc using fun i : BIdx s × Fin r × Fin e => hs fun m k j => if (m, k, j) = i then 1 else 0
  refine ⟨fun p m k j => F (m, k, j) p, ?_, fun m k j => hc (m, k, j)⟩
  obtain ⟨f0, h0, -⟩ := hs fun _ _ _ => 0
  have hall : ∀ᶠ p in 𝓝 x₀, ∀ i, ∃ (M : BIdx s → Fin r → Fin e → XR) (x : BIdx s → Fin r → Fin e → ℝ), L p = .ok M ∧
      (∀ m k j, M m k j = fin (x m k j)) ∧ F i p = ∑ m, ∑ k, ∑ j, (if (m, k, j) = i then 1 else 0) * x m k j := by
    rw [eventually_all]
    exact hF
  unfold SumNear at h0
  filter_upwards [hall, h0] with p hp h0p
  obtain ⟨M, x, h1, h2, -⟩ := h0p
  rw [h1]
  congr 1
  funext m k j
  obtain ⟨M', x', h1', h2', h3⟩ := hp (m, k, j)
  rw [h1] at h1'
  cases h1'
  rw [h2' m k j]
  congr 1
  rw [h3, Finset.sum_eq_single m, Finset.sum_eq_single k, Finset.sum_eq_single j]
  · rw [if_pos rfl, one_mul]
  · intro j' _ hj
    rw [if_neg, zero_mul]
    rintro h
    cases h
    exact hj rfl
  · exact fun h => absurd (Finset.mem_univ _) h
  · intro k' _ hk
    refine Finset.sum_eq_zero fun j' _ => ?_
    rw [if_neg, zero_mul]
    rintro h
    cases h
    exact hk rfl
  · exact fun h => absurd (Finset.mem_univ _) h
  · intro m' _ hm
    refine Finset.sum_eq_zero fun k' _ => Finset.sum_eq_zero fun j' _ => ?_
    rw [if_neg, zero_mul]
    rintro h
    cases h
    exact hm rfl
  · exact fun h => absurd (Finset.mem_univ _) h

/-- The sum of the selected losses near `x₀`. -/
def PermNear (L : X → Except PyErr (BIdx s → Fin r → Fin e → XR)) (p : X) (v : BIdx s → Fin (min r e) → ℝ)
    (y : ℝ) : Prop :=
  ∃ (M : BIdx s → Fin r → Fin e → XR) (out : PermOut s 0 (min r e)) (x : BIdx s → Fin (min r e) → ℝ), L p = .ok M ∧
    solvePermutation torchBackend M (nArgs := 0) (fun i => i.elim0) = .ok out ∧
    (∀ m i, out.loss m i = fin (x m i)) ∧ y = ∑ m, ∑ i, v m i * x m i

/-- The sum of the losses selected by a unique best pairing. -/
theorem perm_near (hs : ∀ w, ∃ f, SumNear L x₀ w f ∧ ContinuousAt f x₀) {M₀} (h0 : L x₀ = .ok M₀)
    (hu : ∀ m, UniqueBest (M₀ m)) {out}
    (hout : solvePermutation torchBackend M₀ (nArgs := 0) (fun i => i.elim0) = .ok out)
    {v : BIdx s → Fin (min r e) → ℝ} {f : X → ℝ} (hf : SumNear L x₀ (permGrad out.perm v) f) :
    ∀ᶠ p in 𝓝 x₀, PermNear L p v (f p) := by
  obtain ⟨x, hx, hlim⟩ := loss_near hs
  have hx0 := hx.self_of_nhds
  rw [h0] at hx0
  cases hx0
  obtain ⟨_, -, hst⟩ := perm_stable (B := torchBackend) torchLsa_correct (l := 𝓝 x₀) (fun m k j => ⟨_, rfl⟩) hu hout
    (L' := fun p m k j => fin (x p m k j)) (fun m k j => Eventually.of_forall fun p h => by cases h)
    (fun m k j => (continuous_coe_real_ereal.tendsto _).comp (hlim m k j))
  unfold SumNear at hf
  filter_upwards [hx, hst, hf] with p h1 h2 h3
  obtain ⟨M, y, h4, h5, h6⟩ := h3
  rw [h1] at h4
  cases h4
  obtain ⟨p', h7, h8, -⟩ := h2 fun i => i.elim0
  choose P hP using fun m => (solvePermutation_spec torchBackend torchLsa_correct _ _ h7 m).2
  refine ⟨_, p', fun m i => x p m ((P m).ref i) ((P m).est i), h1, h7, fun m i => (hP m).loss_eq i, ?_⟩
  rw [h6]
  refine Finset.sum_congr rfl fun m _ => ?_
  have hy : ∀ k j, y m k j = x p m k j := fun k j => (XR.fin.inj (h5 m k j)).symm
  rw [← permGrad_sum (perm := out.perm) (m := m) (P := P m) (by rw [← h8]; exact ⟨(hP m).perm_est, (hP m).perm_ref⟩)]
  simp only [hy]

/-- Without uniqueness the sum of the losses selected at `x₀` bounds the sum of the best losses, with equality at `x₀`. -/
theorem perm_above (hs : ∀ w, ∃ f, SumNear L x₀ w f ∧ ContinuousAt f x₀) {M₀} (h0 : L x₀ = .ok M₀)
    {out} (hout : solvePermutation torchBackend M₀ (nArgs := 0) (fun i => i.elim0) = .ok out)
    {v : BIdx s → ℝ} (hv : ∀ m, 0 ≤ v m) {f : X → ℝ} (hf : SumNear L x₀ (permGrad out.perm fun m _ => v m) f) :
    PermNear L x₀ (fun m _ => v m) (f x₀) ∧
    ∀ᶠ p in 𝓝 x₀, ∃ y, PermNear L p (fun m _ => v m) y ∧ y ≤ f p := by
  obtain ⟨x, hx, -⟩ := loss_near hs
  have hx0 := hx.self_of_nhds
  rw [h0] at hx0
  cases hx0
  choose P hP using fun m => (solvePermutation_spec torchBackend torchLsa_correct _ _ hout m).2
  have hfx : ∀ᶠ p in 𝓝 x₀, f p = ∑ m, ∑ i, v m * x p m ((P m).ref i) ((P m).est i) := by
    unfold SumNear at hf
    filter_upwards [hx, hf] with p h1 h3
    obtain ⟨M, y, h4, h5, h6⟩ := h3
    rw [h1] at h4
    cases h4
    rw [h6]
    refine Finset.sum_congr rfl fun m _ => ?_
    have hy : ∀ k j, y m k j = x p m k j := fun k j => (XR.fin.inj (h5 m k j)).symm
    have := permGrad_sum (perm := out.perm) (m := m) (P := P m) ⟨(hP m).perm_est, (hP m).perm_ref⟩ (fun m _ => v m) (x p m)
    rw [← this]
    simp only [hy]
  refine ⟨⟨_, out, fun m i => x x₀ m ((P m).ref i) ((P m).est i), h0, hout, fun m i => (hP m).loss_eq i,
    hfx.self_of_nhds⟩, ?_⟩
  filter_upwards [hx, hfx] with p h1 h2
  obtain ⟨p', hp'⟩ := (solvePermutation_ok_iff torchBackend torchLsa_correct (fun m k j => fin (x p m k j))
    (fun i : Fin 0 => i.elim0)).2 fun m => solvable_of_finite fun k j => ⟨_, rfl⟩
  choose P' hP' using fun m => (solvePermutation_spec torchBackend torchLsa_correct _ _ hp' m).2
  refine ⟨_, ⟨_, p', fun m i => x p m ((P' m).ref i) ((P' m).est i), h1, hp', fun m i => (hP' m).loss_eq i, rfl⟩, ?_⟩
  rw [h2]
  refine Finset.sum_le_sum fun m _ => ?_
  rw [← Finset.mul_sum, ← Finset.mul_sum]
  exact mul_le_mul_of_nonneg_left (bestPairing_fin.1 (hP' m).best (P m)) (hv m)

end FBE
