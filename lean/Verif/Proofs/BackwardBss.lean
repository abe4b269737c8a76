import Verif.Model.BackwardBss
import Verif.Proofs.BackwardFir

/-!
The backward pass through the coherences of `bss_eval_sources` gives their derivatives.
-/

set_option linter.unusedSectionVars false

namespace FBE.Backward

open Spec XR Filter Topology Matrix

variable {s : List ℕ} {r e c N M K n : ℕ}

/-! ### Quadratic forms -/

section quad

variable {X : Type*} [NormedAddCommGroup X] [NormedSpace ℝ X] {x0 : X} {J : Type} [Fintype J] [DecidableEq J]

theorem quad_grad {A : X → Matrix J J ℝ} {b : X → J → ℝ} {A' : J → J → X →L[ℝ] ℝ} {b' : J → X →L[ℝ] ℝ}
    (hA : ∀ i j, HasFDerivAt (fun x => A x i j) (A' i j) x0) (hc : ∀ i j, ContDiffAt ℝ 1 (fun x => A x i j) x0)
    (hb : ∀ i, HasFDerivAt (fun x => b x i) (b' i) x0) (hd : (A x0).det ≠ 0) :
    ∃ q' : X →L[ℝ] ℝ, HasFDerivAt (fun x => invQuad (A x) (b x)) q' x0 ∧
      ∀ h v, h * q' v = ∑ l, rhsGrad (A x0) (b x0) ((A x0)⁻¹ *ᵥ b x0) h l * b' l v -
        ∑ p, ∑ q, ((A x0)ᵀ⁻¹ *ᵥ fun i => h * b x0 i) p * ((A x0)⁻¹ *ᵥ b x0) q * A' p q v := by
  obtain ⟨q', h1, h2⟩ := hasFDerivAt_invQuad hA hc hb hd
  refine ⟨q', h1, fun h v => ?_⟩
  have h3 : (fun i => h * b x0 i) = h • b x0 := rfl
  rw [h2]
  unfold rhsGrad
  rw [h3, mulVec_smul, mul_add, Finset.mul_sum, Finset.mul_sum, ← Finset.sum_add_distrib, ← Finset.sum_sub_distrib]
  refine Finset.sum_congr rfl fun l _ => ?_
  simp only [Pi.smul_apply, smul_eq_mul]
  have h4 : ∀ a : ℝ, ∑ q, h * a * ((A x0)⁻¹ *ᵥ b x0) q * A' l q v = h * a * ∑ q, A' l q v * ((A x0)⁻¹ *ᵥ b x0) q := by
    intro a
    rw [Finset.mul_sum]
    exact Finset.sum_congr rfl fun q _ => by ring
  rw [h4]
  ring

/-- Several right-hand sides. -/
theorem lhsGrad_sum (A : Matrix J J ℝ) (b sol : Fin e → J → ℝ) (g : Fin e → ℝ) (a : J → J → ℝ) :
    ∑ p, ∑ q, lhsGrad A b sol g p q * a p q =
      -∑ j, ∑ p, ∑ q, (Aᵀ⁻¹ *ᵥ fun i => g j * b j i) p * sol j q * a p q := by
  unfold lhsGrad
  rw [Finset.sum_comm (s := (Finset.univ : Finset (Fin e))), ← Finset.sum_neg_distrib]
  refine Finset.sum_congr rfl fun p _ => ?_
  rw [Finset.sum_comm (s := (Finset.univ : Finset (Fin e))), ← Finset.sum_neg_distrib]
  refine Finset.sum_congr rfl fun q _ => ?_
  rw [neg_mul, Finset.sum_mul]

end quad

/-! ### The block Toeplitz matrix -/

/-- The lag shown at row `a` and column `b` of a block. -/
def lagOf (n a b : ℕ) : ℕ := if a ≤ b then b - a else n - (a - b)

theorem sum_acf2 (hK : K ≤ n) (g : ℕ → ℝ) (α : ℕ → ℝ) :
    ∑ t : Fin n, acf2Grad n K g t * α t = ∑ p : Fin K, (g p * α p + g (K + p) * α (n - K + p)) := by
  have h1 : ∀ t : Fin n, acf2Grad n K g t * α t =
      (fun t : ℕ => (if t < K then g t * α t else 0) + if n - K ≤ t then g (K + (t - (n - K))) * α t else 0) t := by
    intro t
    unfold acf2Grad
    dsimp only
    rw [add_mul, ite_mul, ite_mul, zero_mul]
  simp only [h1]
  rw [← Finset.sum_range (f := fun t : ℕ => (if t < K then g t * α t else 0) +
    if n - K ≤ t then g (K + (t - (n - K))) * α t else 0), Finset.sum_add_distrib, Finset.sum_add_distrib]
  congr 1
  · rw [← Finset.sum_filter]
    have : (Finset.range n).filter (fun t => t < K) = Finset.range K := by
      ext t
      simp only [Finset.mem_filter, Finset.mem_range]
      omega
    rw [this, Finset.sum_range]
  · rw [← Finset.sum_filter]
    have : (Finset.range n).filter (fun t => n - K ≤ t) = (Finset.range K).map (addLeftEmbedding (n - K)) := by
      ext t
      simp only [Finset.mem_filter, Finset.mem_range, Finset.mem_map, addLeftEmbedding_apply]
      constructor
      · intro h
        exact ⟨t - (n - K), by omega, by omega⟩
      · rintro ⟨u, hu, rfl⟩
        omega
    rw [this, Finset.sum_map, Finset.sum_range]
    refine Finset.sum_congr rfl fun p _ => ?_
    simp only [addLeftEmbedding_apply]
    rw [show n - K + p.val - (n - K) = p.val by omega]

theorem blockGrad_adjoint (hK : K ≤ n) (gR : Matrix (Fin K) (Fin K) ℝ) (α : ℕ → ℝ) :
    ∑ p : Fin K, (blockGrad gR p * α p + blockGrad gR (K + p) * α (n - K + p)) =
      ∑ a : Fin K, ∑ b : Fin K, gR a b * α (lagOf n a b) := by
  have h1 : ∀ p : Fin K, blockGrad gR p * α p + blockGrad gR (K + p) * α (n - K + p) =
      ∑ a : Fin K, ∑ b : Fin K, gR a b * ((if K - 1 - a.val + b.val = K - 1 + p then α p else 0) +
        if 1 ≤ p.val ∧ K - 1 - a.val + b.val = p - 1 then α (n - K + p) else 0) := by
    intro p
    have hp := p.isLt
    unfold blockGrad twoGrad
    rw [if_pos hp, if_neg (show ¬ K + 1 ≤ p.val by omega), if_neg (show ¬ K + p.val < K by omega), add_zero, zero_add]
    by_cases h : 1 ≤ p.val
    · rw [if_pos (by omega), show K + p.val - (K + 1) = p.val - 1 by omega]
      simp only [h, true_and, Finset.sum_mul]
      rw [← Finset.sum_add_distrib]
      refine Finset.sum_congr rfl fun a _ => ?_
      rw [← Finset.sum_add_distrib]
      refine Finset.sum_congr rfl fun b _ => ?_
      rw [mul_add, mul_ite, mul_ite, ite_mul, ite_mul, zero_mul, zero_mul, mul_zero]
    · rw [if_neg (by omega), zero_mul, add_zero]
      simp only [h, false_and, if_false, add_zero, Finset.sum_mul]
      refine Finset.sum_congr rfl fun a _ => Finset.sum_congr rfl fun b _ => ?_
      rw [mul_ite, ite_mul, zero_mul, mul_zero]
  simp only [h1]
  rw [Finset.sum_comm]
  refine Finset.sum_congr rfl fun a _ => ?_
  rw [Finset.sum_comm]
  refine Finset.sum_congr rfl fun b _ => ?_
  rw [← Finset.mul_sum, Finset.sum_add_distrib]
  congr 1
  have ha := a.isLt
  have hb := b.isLt
  unfold lagOf
  by_cases h : a.val ≤ b.val
  · rw [if_pos h, Finset.sum_eq_single (⟨b.val - a.val, by omega⟩ : Fin K), if_pos (by dsimp only; omega),
      Finset.sum_eq_zero, add_zero]
    · intro p _
      have := p.isLt
      rw [if_neg (by omega)]
    · intro p _ hp
      rw [if_neg]
      intro h2
      exact hp (Fin.ext (by dsimp only; omega))
    · exact fun h => absurd (Finset.mem_univ _) h
  · rw [if_neg h, Finset.sum_eq_zero, zero_add, Finset.sum_eq_single (⟨K - (a.val - b.val), by omega⟩ : Fin K),
      if_pos ⟨by dsimp only; omega, by dsimp only; omega⟩]
    · congr 1
      dsimp only
      omega
    · intro p _ hp
      rw [if_neg]
      rintro ⟨h2, h3⟩
      exact hp (Fin.ext (by dsimp only; omega))
    · exact fun h => absurd (Finset.mem_univ _) h
    · intro p _
      rw [if_neg (by omega)]

/-- The gradients of the lags, from both matrices. -/
theorem acfGrad_adjoint (hK : K ≤ n) (gR : Fin r → Matrix (Fin K) (Fin K) ℝ)
    (gB : Matrix (Fin K × Fin r) (Fin K × Fin r) ℝ) (k l : Fin r) (α : ℕ → ℝ) :
    ∑ t : Fin n, acf2Grad n K (acfGrad gR gB k l) t * α t =
      ∑ a : Fin K, ∑ b : Fin K, gB (a, k) (b, l) * α (lagOf n a b) +
        if k = l then ∑ i : Fin K, ∑ j : Fin K, gR k i j * α (max i.val j - min i.val j) else 0 := by
  rw [sum_acf2 hK, ← blockGrad_adjoint hK (fun a b => gB (a, k) (b, l))]
  have h1 : (if k = l then ∑ i : Fin K, ∑ j : Fin K, gR k i j * α (max i.val j - min i.val j) else 0) =
      ∑ p : Fin K, (if k = l then toeplitzGrad (gR k) p * α p else 0) := by
    by_cases h : k = l
    · simp only [if_pos h]
      rw [toeplitzGrad_adjoint]
    · simp only [if_neg h, Finset.sum_const_zero]
  rw [h1, ← Finset.sum_add_distrib]
  refine Finset.sum_congr rfl fun p _ => ?_
  have hp := p.isLt
  unfold acfGrad
  rw [dif_neg (show ¬ (K + p.val < K ∧ k = l) by omega), add_zero]
  by_cases h : k = l
  · rw [dif_pos ⟨hp, h⟩, if_pos h]
    ring
  · rw [dif_neg fun h2 => h h2.2, if_neg h]
    ring

theorem acfGrad_congr {gR gR' : Fin r → Matrix (Fin K) (Fin K) ℝ} {gB : Matrix (Fin K × Fin r) (Fin K × Fin r) ℝ} {k l : Fin r}
    (h : gR k = gR' k) : acfGrad gR gB k l = acfGrad gR' gB k l ∧ acfGrad gR gB l k = acfGrad gR' gB l k := by
  by_cases hk : k = l
  · subst hk
    unfold acfGrad
    rw [h]
    exact ⟨rfl, rfl⟩
  · have hk' : ¬ l = k := fun h => hk h.symm
    unfold acfGrad
    simp only [hk, hk', and_false, dite_false, and_self]

/-- The matrix of all references. -/
noncomputable def blkM (n K : ℕ) (d : ℝ) (x : Fin r → Fin N → ℝ) : Matrix (Fin K × Fin r) (Fin K × Fin r) ℝ :=
  fun p q => circ n (x q.2) (x p.2) (lagOf n p.1 q.1) + if p = q then d else 0

/-- The right-hand side. -/
noncomputable def blkV (n K : ℕ) (x : Fin r → Fin N → ℝ) (y : Fin M → ℝ) : Fin K × Fin r → ℝ :=
  fun p => circ n (x p.2) y p.1

/-- The coherence with all references. -/
noncomputable def blkCoh (n K : ℕ) (d : ℝ) (x : Fin r → Fin N → ℝ) (y : Fin M → ℝ) : ℝ := invQuad (blkM n K d x) (blkV n K x y)

theorem contDiff_chan (k : Fin r) (u : ℕ) : ContDiff ℝ 1 fun x : Fin r → Fin N → ℝ => zpad (x k) u :=
  (contDiff_zpad u).comp (contDiff_apply ℝ (Fin N → ℝ) k)

theorem contDiff_blkM (d : ℝ) (p q : Fin K × Fin r) : ContDiff ℝ 1 fun x : Fin r → Fin N → ℝ => blkM n K d x p q := by
  unfold blkM circ
  refine ContDiff.add (ContDiff.sum fun u _ => ?_) contDiff_const
  exact (contDiff_chan _ u).mul (contDiff_chan _ _)

theorem eventually_blkM {d : ℝ} {x : Fin r → Fin N → ℝ} (hd : (blkM n K d x).det ≠ 0) : ∀ᶠ y in 𝓝 x, (blkM n K d y).det ≠ 0 :=
  (contDiffAt_det fun i j => (contDiff_blkM d i j).contDiffAt).continuousAt.eventually_ne hd

/-- One channel. -/
noncomputable def chanCLM (N : ℕ) (k : Fin r) : (Fin r → Fin N → ℝ) →L[ℝ] (Fin N → ℝ) :=
  ContinuousLinearMap.proj (R := ℝ) (φ := fun _ : Fin r => Fin N → ℝ) k

theorem hasFDerivAt_circ_pair (n : ℕ) (x : Fin r → Fin N → ℝ) (k l : Fin r) (t : ℕ) :
    ∃ D : (Fin r → Fin N → ℝ) →L[ℝ] ℝ, HasFDerivAt (fun x : Fin r → Fin N → ℝ => circ n (x l) (x k) t) D x ∧
      ∀ v, D v = circ n (x l) (v k) t + circ n (v l) (x k) t := by
  have h : ∀ (j : Fin r) u, HasFDerivAt (fun x : Fin r → Fin N → ℝ => zpad (x j) u) (zpadCLM N u ∘L chanCLM N j) x :=
    fun j u => HasFDerivAt.comp x (f := chanCLM N j) (g := fun y => zpad y u) (hasFDerivAt_zpad _ u) (chanCLM N j).hasFDerivAt
  refine ⟨_, HasFDerivAt.fun_sum fun u _ => (h l u).mul (h k ((u + t) % n)), fun v => ?_⟩
  simp only [_root_.sum_apply, _root_.add_apply, _root_.smul_apply, smul_eq_mul, ContinuousLinearMap.comp_apply, zpadCLM_apply,
    Finset.sum_add_distrib]
  unfold circ
  congr 1
  exact Finset.sum_congr rfl fun u _ => mul_comm _ _

theorem refBackAll_adjoint (hn : n ≠ 0) (hK : K ≤ n) (hN : N ≤ n) (x : Fin r → Fin N → ℝ) (y : Fin e → Fin M → ℝ)
    (gxc : Fin r → Fin e → Fin K → ℝ) (gacf : Fin r → Fin r → ℕ → ℝ) (v : Fin r → Fin N → ℝ) :
    ∑ k, ∑ t, refBackAll n x y gxc gacf k t * v k t = ∑ k, ∑ j, ∑ l, gxc k j l * circ n (v k) (y j) l +
      ∑ k, ∑ l, ∑ t : Fin n, acf2Grad n K (gacf k l) t * (circ n (x l) (v k) t + circ n (v l) (x k) t) := by
  have h1 : ∀ k, ∑ t, refBackAll n x y gxc gacf k t * v k t = ∑ j, ∑ l, gxc k j l * circ n (v k) (y j) l +
      (∑ l, ∑ t : Fin n, acf2Grad n K (gacf k l) t * circ n (x l) (v k) t +
        ∑ l, ∑ t : Fin n, acf2Grad n K (gacf l k) t * circ n (v k) (x l) t) := by
    intro k
    have h2 : ∀ t : Fin N, refBackAll n x y gxc gacf k t * v k t =
        ∑ j, rfftGrad n (fun f => (starRingEnd ℂ) (irfftGrad n K (gxc k j) f) * spectrum n (y j) f) t * v k t +
          (∑ l, rfftGrad n (fun f => irfftGrad n n (acf2Grad n K (gacf k l)) f * spectrum n (x l) f) t * v k t +
            ∑ l, rfftGrad n (fun f => (starRingEnd ℂ) (irfftGrad n n (acf2Grad n K (gacf l k)) f) * spectrum n (x l) f) t * v k t) := by
      intro t
      unfold refBackAll
      rw [rfftGrad_add, rfftGrad_sum, rfftGrad_add, rfftGrad_sum, rfftGrad_sum, add_mul, add_mul, Finset.sum_mul, Finset.sum_mul,
        Finset.sum_mul]
      simp only [map_mul, Complex.conj_conj]
    simp only [h2]
    rw [Finset.sum_add_distrib, Finset.sum_add_distrib, Finset.sum_comm, Finset.sum_comm (γ := Fin N),
      Finset.sum_comm (γ := Fin N)]
    congr 1
    · exact Finset.sum_congr rfl fun j _ => adjoint_first hn hK hN _ _ _
    · congr 1
      · exact Finset.sum_congr rfl fun l _ => adjoint_second hn le_rfl hN _ _ _
      · exact Finset.sum_congr rfl fun l _ => adjoint_first hn le_rfl hN _ _ _
  simp only [h1, mul_add, Finset.sum_add_distrib]
  congr 2
  exact Finset.sum_comm

/-! ### Derivatives of the coherences -/

/-- The formulas of a backward pass `est`, `ref` at the normalised signals `x`, `y` are the derivatives of the coherences `CA`, `CB`. -/
structure PassAt (CA : (Fin N → ℝ) → (Fin M → ℝ) → ℝ) (CB : (Fin r → Fin N → ℝ) → (Fin M → ℝ) → ℝ) (x : Fin r → Fin N → ℝ)
    (y : Fin e → Fin M → ℝ) (est : Fin e → (Fin r → ℝ) → ℝ → Fin M → ℝ)
    (ref : (Fin r → Fin e → ℝ) → (Fin e → ℝ) → Fin r → Fin N → ℝ) : Prop where
  est_adj : ∀ j, ∃ (A' : Fin r → (Fin M → ℝ) →L[ℝ] ℝ) (B' : (Fin M → ℝ) →L[ℝ] ℝ),
    (∀ k, HasFDerivAt (CA (x k)) (A' k) (y j)) ∧ HasFDerivAt (CB x) B' (y j) ∧
      ∀ g h v, ∑ t, est j g h t * v t = ∑ k, g k * A' k v + h * B' v
  ref_adj : ∃ (A' : Fin r → Fin e → (Fin r → Fin N → ℝ) →L[ℝ] ℝ) (B' : Fin e → (Fin r → Fin N → ℝ) →L[ℝ] ℝ),
    (∀ k j, HasFDerivAt (fun x : Fin r → Fin N → ℝ => CA (x k) (y j)) (A' k j) x) ∧
      (∀ j, HasFDerivAt (fun x => CB x (y j)) (B' j) x) ∧
      ∀ g h v, ∑ k, ∑ t, ref g h k t * v k t = ∑ k, ∑ j, g k j * A' k j v + ∑ j, h j * B' j v
  ref_loc : ∀ g g' h k, g k = g' k → ref g h k = ref g' h k

/-- The formula for an estimate, `filter_length >= 2`. -/
noncomputable def estFir (n K : ℕ) (d : ℝ) (x : Fin r → Fin N → ℝ) (y : Fin M → ℝ) (g : Fin r → ℝ) (h : ℝ) : Fin M → ℝ :=
  estBack n x fun k l => xcorrGrad (acfM n K d (x k)) (xcV n K (x k) y) ((acfM n K d (x k))⁻¹ *ᵥ xcV n K (x k) y) (g k) l +
    rhsGrad (blkM n K d x) (blkV n K x y) ((blkM n K d x)⁻¹ *ᵥ blkV n K x y) h (l, k)

/-- The formula for the references, `filter_length >= 2`. -/
noncomputable def refFir (n K : ℕ) (d : ℝ) (x : Fin r → Fin N → ℝ) (y : Fin e → Fin M → ℝ) (g : Fin r → Fin e → ℝ) (h : Fin e → ℝ) :
    Fin r → Fin N → ℝ :=
  refBackAll n x y
    (fun k j l => xcorrGrad (acfM n K d (x k)) (xcV n K (x k) (y j)) ((acfM n K d (x k))⁻¹ *ᵥ xcV n K (x k) (y j)) (g k j) l +
      rhsGrad (blkM n K d x) (blkV n K x (y j)) ((blkM n K d x)⁻¹ *ᵥ blkV n K x (y j)) (h j) (l, k))
    (acfGrad (fun k => matGrad (acfM n K d (x k)) (fun j => xcV n K (x k) (y j))
      (fun j => (acfM n K d (x k))⁻¹ *ᵥ xcV n K (x k) (y j)) (g k))
      (lhsGrad (blkM n K d x) (fun j => blkV n K x (y j)) (fun j => (blkM n K d x)⁻¹ *ᵥ blkV n K x (y j)) h))

theorem passAt_fir (hn : n ≠ 0) (hK : K ≤ n) (hN : N ≤ n) (hM : M ≤ n) {d : ℝ} {x : Fin r → Fin N → ℝ} (y : Fin e → Fin M → ℝ)
    (hd : ∀ k, (acfM n K d (x k)).det ≠ 0) (hD : (blkM n K d x).det ≠ 0) :
    PassAt (firCoh n K d) (blkCoh n K d) x y (fun j => estFir n K d x (y j)) (refFir n K d x y) := by
  refine ⟨fun j => ?_, ?_, ?_⟩
  · choose A' a1 a2 using fun k => firCoh_hasFDerivAt_est (hd k) (y j)
    choose D b1 b2 using fun p : Fin K × Fin r => hasFDerivAt_circ_second n (x p.2) (y j) p.1
    obtain ⟨B', c1, c2⟩ := quad_grad (x0 := y j) (A := fun _ => blkM n K d x) (b := fun y => blkV n K x y) (A' := fun _ _ => 0)
      (fun _ _ => hasFDerivAt_const _ _) (fun _ _ => contDiffAt_const) b1 hD
    refine ⟨A', B', a1, c1, fun g h v => ?_⟩
    unfold estFir
    rw [estBack_adjoint hn hK hM, c2]
    simp only [a2, add_mul, Finset.sum_add_distrib, _root_.zero_apply, mul_zero, Finset.sum_const_zero, sub_zero, b2]
    congr 1
    rw [Finset.sum_comm, ← Finset.univ_product_univ, Finset.sum_product]
  · choose A' a1 a2 using fun k j => firCoh_hasFDerivAt_ref (hd k) (y j)
    have b : ∀ j (p : Fin K × Fin r), ∃ D : (Fin r → Fin N → ℝ) →L[ℝ] ℝ, HasFDerivAt (fun x => blkV n K x (y j) p) D x ∧
        ∀ v, D v = circ n (v p.2) (y j) p.1 := by
      intro j p
      obtain ⟨D, h1, h2⟩ := hasFDerivAt_circ_first n (x p.2) (y j) p.1
      exact ⟨D ∘L chanCLM N p.2, HasFDerivAt.comp x (f := chanCLM N p.2) (g := fun x => circ n x (y j) p.1) h1
        (chanCLM N p.2).hasFDerivAt, fun v => h2 _⟩
    choose D b1 b2 using b
    choose E e1 e2 using fun p q : Fin K × Fin r => hasFDerivAt_circ_pair n x p.2 q.2 (lagOf n p.1 q.1)
    choose B' c1 c2 using fun j => quad_grad (x0 := x) (A := fun x => blkM n K d x) (b := fun x => blkV n K x (y j)) (A' := E)
      (fun p q => (e1 p q).add_const _) (fun p q => (contDiff_blkM d p q).contDiffAt) (b1 j) hD
    refine ⟨fun k j => A' k j ∘L chanCLM N k, B', fun k j => HasFDerivAt.comp x (f := chanCLM N k) (g := fun x => firCoh n K d x (y j))
      (a1 k j) (chanCLM N k).hasFDerivAt, c1, fun g h v => ?_⟩
    unfold refFir
    rw [refBackAll_adjoint hn hK hN]
    have f1 := fun k l => acfGrad_adjoint hK (fun k => matGrad (acfM n K d (x k)) (fun j => xcV n K (x k) (y j))
      (fun j => (acfM n K d (x k))⁻¹ *ᵥ xcV n K (x k) (y j)) (g k))
      (lhsGrad (blkM n K d x) (fun j => blkV n K x (y j)) (fun j => (blkM n K d x)⁻¹ *ᵥ blkV n K x (y j)) h) k l
      fun t => circ n (x l) (v k) t + circ n (v l) (x k) t
    simp only [f1, add_mul, Finset.sum_add_distrib, Finset.sum_ite_eq, Finset.mem_univ, if_true]
    have f2 : ∀ k, ∑ j, g k j * (A' k j ∘L chanCLM N k) v = ∑ j, ∑ l, xcorrGrad (acfM n K d (x k)) (xcV n K (x k) (y j))
        ((acfM n K d (x k))⁻¹ *ᵥ xcV n K (x k) (y j)) (g k j) l * circ n (v k) (y j) l +
        ∑ a, ∑ b, matGrad (acfM n K d (x k)) (fun j => xcV n K (x k) (y j))
          (fun j => (acfM n K d (x k))⁻¹ *ᵥ xcV n K (x k) (y j)) (g k) a b *
          (circ n (x k) (v k) (max a.val b - min a.val b) + circ n (v k) (x k) (max a.val b - min a.val b)) := by
      intro k
      have f3 : ∀ j, g k j * (A' k j ∘L chanCLM N k) v = _ := fun j => a2 k j (g k j) (v k)
      rw [show ∑ a : Fin K, ∑ b : Fin K, matGrad (acfM n K d (x k)) (fun j => xcV n K (x k) (y j))
          (fun j => (acfM n K d (x k))⁻¹ *ᵥ xcV n K (x k) (y j)) (g k) a b *
          (circ n (x k) (v k) (max a.val b - min a.val b) + circ n (v k) (x k) (max a.val b - min a.val b)) = _ from
        lhsGrad_sum _ _ _ _ fun a b : Fin K => circ n (x k) (v k) (max a.val b - min a.val b) + circ n (v k) (x k) (max a.val b - min a.val b)]
      simp only [f3, Finset.sum_sub_distrib]
      rw [sub_eq_add_neg]
    have f4 : ∑ j, h j * B' j v = ∑ k, ∑ j, ∑ l, rhsGrad (blkM n K d x) (blkV n K x (y j)) ((blkM n K d x)⁻¹ *ᵥ blkV n K x (y j))
        (h j) (l, k) * circ n (v k) (y j) l + ∑ k, ∑ l, ∑ a, ∑ b, lhsGrad (blkM n K d x) (fun j => blkV n K x (y j))
          (fun j => (blkM n K d x)⁻¹ *ᵥ blkV n K x (y j)) h (a, k) (b, l) *
          (circ n (x l) (v k) (lagOf n a b) + circ n (v l) (x k) (lagOf n a b)) := by
      have f5 : ∑ k, ∑ l, ∑ a, ∑ b, lhsGrad (blkM n K d x) (fun j => blkV n K x (y j))
          (fun j => (blkM n K d x)⁻¹ *ᵥ blkV n K x (y j)) h (a, k) (b, l) *
          (circ n (x l) (v k) (lagOf n a b) + circ n (v l) (x k) (lagOf n a b)) =
          ∑ p, ∑ q, lhsGrad (blkM n K d x) (fun j => blkV n K x (y j)) (fun j => (blkM n K d x)⁻¹ *ᵥ blkV n K x (y j)) h p q * E p q v := by
        simp only [e2, ← Finset.univ_product_univ, Finset.sum_product]
        rw [Finset.sum_comm (s := (Finset.univ : Finset (Fin K)))]
        refine Finset.sum_congr rfl fun k _ => ?_
        rw [Finset.sum_comm]
        refine Finset.sum_congr rfl fun a _ => ?_
        rw [Finset.sum_comm]
      rw [f5, lhsGrad_sum _ _ _ _ fun p q => E p q v]
      simp only [c2, Finset.sum_sub_distrib]
      rw [sub_eq_add_neg]
      congr 1
      rw [Finset.sum_comm (s := (Finset.univ : Finset (Fin r)))]
      refine Finset.sum_congr rfl fun j _ => ?_
      simp only [b2, ← Finset.univ_product_univ, Finset.sum_product]
      rw [Finset.sum_comm]
    simp only [f2, Finset.sum_add_distrib]
    rw [f4]
    ring
  · intro g g' h k hg
    funext t
    unfold refFir refBackAll
    have f1 : ∀ l gB, acfGrad (fun k => matGrad (acfM n K d (x k)) (fun j => xcV n K (x k) (y j))
        (fun j => (acfM n K d (x k))⁻¹ *ᵥ xcV n K (x k) (y j)) (g k)) gB k l =
        acfGrad (fun k => matGrad (acfM n K d (x k)) (fun j => xcV n K (x k) (y j))
        (fun j => (acfM n K d (x k))⁻¹ *ᵥ xcV n K (x k) (y j)) (g' k)) gB k l := fun l gB => (acfGrad_congr (by rw [hg])).1
    have f2 : ∀ l gB, acfGrad (fun k => matGrad (acfM n K d (x k)) (fun j => xcV n K (x k) (y j))
        (fun j => (acfM n K d (x k))⁻¹ *ᵥ xcV n K (x k) (y j)) (g k)) gB l k =
        acfGrad (fun k => matGrad (acfM n K d (x k)) (fun j => xcV n K (x k) (y j))
        (fun j => (acfM n K d (x k))⁻¹ *ᵥ xcV n K (x k) (y j)) (g' k)) gB l k := fun l gB => (acfGrad_congr (by rw [hg])).2
    simp only [f1, f2, hg]

/-- The matrix of all references, `filter_length=1`. -/
noncomputable def oneM (d : ℝ) (x : Fin r → Fin N → ℝ) : Matrix (Fin r) (Fin r) ℝ := fun k l => dot (x k) (x l) + if k = l then d else 0

/-- The right-hand side, `filter_length=1`. -/
noncomputable def oneV (x : Fin r → Fin N → ℝ) (y : Fin N → ℝ) : Fin r → ℝ := fun k => dot (x k) y

/-- The coherence with one reference, `filter_length=1`. -/
noncomputable def sqCoh (x y : Fin N → ℝ) : ℝ := dot x y ^ 2

/-- The coherence with all references, `filter_length=1`. -/
noncomputable def oneCoh (d : ℝ) (x : Fin r → Fin N → ℝ) (y : Fin N → ℝ) : ℝ := invQuad (oneM d x) (oneV x y)

theorem contDiff_oneM (d : ℝ) (k l : Fin r) : ContDiff ℝ 1 fun x : Fin r → Fin N → ℝ => oneM d x k l := by
  unfold oneM dot
  refine ContDiff.add (ContDiff.sum fun u _ => ?_) contDiff_const
  exact (contDiff_apply_apply ℝ ℝ k u).mul (contDiff_apply_apply ℝ ℝ l u)

theorem eventually_oneM {d : ℝ} {x : Fin r → Fin N → ℝ} (hd : (oneM d x).det ≠ 0) : ∀ᶠ y in 𝓝 x, (oneM d y).det ≠ 0 :=
  (contDiffAt_det fun i j => (contDiff_oneM d i j).contDiffAt).continuousAt.eventually_ne hd

/-- One sample. -/
noncomputable def sampleCLM (N : ℕ) (t : Fin N) : (Fin N → ℝ) →L[ℝ] ℝ := ContinuousLinearMap.proj (R := ℝ) (φ := fun _ : Fin N => ℝ) t

theorem hasFDerivAt_dot_second (x y : Fin N → ℝ) :
    ∃ D : (Fin N → ℝ) →L[ℝ] ℝ, HasFDerivAt (fun y => dot x y) D y ∧ ∀ v, D v = dot x v := by
  refine ⟨_, HasFDerivAt.fun_sum fun t _ => ((sampleCLM N t).hasFDerivAt (x := y)).const_mul (x t), fun v => ?_⟩
  simp only [_root_.sum_apply, _root_.smul_apply, smul_eq_mul]
  rfl

theorem hasFDerivAt_dot_chan (x : Fin r → Fin N → ℝ) (y : Fin N → ℝ) (k : Fin r) :
    ∃ D : (Fin r → Fin N → ℝ) →L[ℝ] ℝ, HasFDerivAt (fun x : Fin r → Fin N → ℝ => dot (x k) y) D x ∧ ∀ v, D v = dot (v k) y := by
  refine ⟨_, HasFDerivAt.fun_sum fun t _ => ((sampleCLM N t ∘L chanCLM N k).hasFDerivAt (x := x)).mul_const (y t), fun v => ?_⟩
  simp only [_root_.sum_apply, _root_.smul_apply, smul_eq_mul]
  exact Finset.sum_congr rfl fun u _ => mul_comm _ _

theorem hasFDerivAt_dot_pair (x : Fin r → Fin N → ℝ) (k l : Fin r) :
    ∃ D : (Fin r → Fin N → ℝ) →L[ℝ] ℝ, HasFDerivAt (fun x : Fin r → Fin N → ℝ => dot (x k) (x l)) D x ∧
      ∀ v, D v = dot (x l) (v k) + dot (x k) (v l) := by
  refine ⟨_, HasFDerivAt.fun_sum fun t _ => ((sampleCLM N t ∘L chanCLM N k).hasFDerivAt (x := x)).mul
    ((sampleCLM N t ∘L chanCLM N l).hasFDerivAt (x := x)), fun v => ?_⟩
  simp only [_root_.sum_apply, _root_.add_apply, _root_.smul_apply, smul_eq_mul, Finset.sum_add_distrib]
  rw [add_comm]
  rfl

/-- The formula for an estimate, `filter_length=1`. -/
noncomputable def estOne (d : ℝ) (x : Fin r → Fin N → ℝ) (y : Fin N → ℝ) (g : Fin r → ℝ) (h : ℝ) : Fin N → ℝ :=
  estBackOne x fun k => g k * (2 * oneV x y k) + rhsGrad (oneM d x) (oneV x y) ((oneM d x)⁻¹ *ᵥ oneV x y) h k

/-- The formula for the references, `filter_length=1`. -/
noncomputable def refOne (d : ℝ) (x : Fin r → Fin N → ℝ) (y : Fin e → Fin N → ℝ) (g : Fin r → Fin e → ℝ) (h : Fin e → ℝ) :
    Fin r → Fin N → ℝ :=
  refBackOne x y (fun k j => g k j * (2 * oneV x (y j) k) +
    rhsGrad (oneM d x) (oneV x (y j)) ((oneM d x)⁻¹ *ᵥ oneV x (y j)) (h j) k)
    (lhsGrad (oneM d x) (fun j => oneV x (y j)) (fun j => (oneM d x)⁻¹ *ᵥ oneV x (y j)) h)

theorem estBackOne_adjoint (x : Fin r → Fin N → ℝ) (g : Fin r → ℝ) (v : Fin N → ℝ) :
    ∑ t, estBackOne x g t * v t = ∑ k, g k * dot (x k) v := by
  unfold estBackOne dot
  simp only [Finset.sum_mul, Finset.mul_sum]
  rw [Finset.sum_comm]
  exact Finset.sum_congr rfl fun k _ => Finset.sum_congr rfl fun t _ => by ring

theorem refBackOne_adjoint (x : Fin r → Fin N → ℝ) (y : Fin e → Fin N → ℝ) (g : Fin r → Fin e → ℝ) (G : Matrix (Fin r) (Fin r) ℝ)
    (v : Fin r → Fin N → ℝ) : ∑ k, ∑ t, refBackOne x y g G k t * v k t =
      ∑ k, ∑ j, g k j * dot (v k) (y j) + ∑ k, ∑ l, G k l * (dot (x l) (v k) + dot (x k) (v l)) := by
  have h1 : ∀ k, ∑ t, refBackOne x y g G k t * v k t = ∑ j, g k j * dot (v k) (y j) +
      (∑ l, G k l * dot (x l) (v k) + ∑ l, G l k * dot (x l) (v k)) := by
    intro k
    unfold refBackOne dot
    simp only [add_mul, Finset.sum_add_distrib, Finset.sum_mul, Finset.mul_sum]
    rw [Finset.sum_comm, Finset.sum_comm (γ := Fin N) (t := Finset.univ), Finset.sum_comm (γ := Fin N) (t := Finset.univ)]
    congr 1
    · exact Finset.sum_congr rfl fun k _ => Finset.sum_congr rfl fun t _ => by ring
    · congr 1 <;> exact Finset.sum_congr rfl fun k _ => Finset.sum_congr rfl fun t _ => by ring
  simp only [h1, mul_add, Finset.sum_add_distrib]
  congr 2
  exact Finset.sum_comm

theorem passAt_one {d : ℝ} {x : Fin r → Fin N → ℝ} (y : Fin e → Fin N → ℝ) (hD : (oneM d x).det ≠ 0) :
    PassAt sqCoh (oneCoh d) x y (fun j => estOne d x (y j)) (refOne d x y) := by
  refine ⟨fun j => ?_, ?_, ?_⟩
  · choose D b1 b2 using fun k => hasFDerivAt_dot_second (x k) (y j)
    obtain ⟨B', c1, c2⟩ := quad_grad (x0 := y j) (A := fun _ => oneM d x) (b := fun y => oneV x y) (A' := fun _ _ => 0)
      (fun _ _ => hasFDerivAt_const _ _) (fun _ _ => contDiffAt_const) b1 hD
    refine ⟨fun k => (2 * dot (x k) (y j)) • D k, B', fun k => ?_, c1, fun g h v => ?_⟩
    · have := (b1 k).pow 2
      norm_num at this
      exact this
    · unfold estOne
      rw [estBackOne_adjoint, c2]
      simp only [add_mul, Finset.sum_add_distrib, _root_.zero_apply, mul_zero, Finset.sum_const_zero, sub_zero, b2,
        _root_.smul_apply, smul_eq_mul]
      congr 1
      exact Finset.sum_congr rfl fun k _ => by unfold oneV; ring
  · choose D b1 b2 using fun j k => hasFDerivAt_dot_chan x (y j) k
    choose E e1 e2 using fun k l => hasFDerivAt_dot_pair x k l
    choose B' c1 c2 using fun j => quad_grad (x0 := x) (A := fun x => oneM d x) (b := fun x => oneV x (y j)) (A' := E)
      (fun p q => (e1 p q).add_const _) (fun p q => (contDiff_oneM d p q).contDiffAt) (b1 j) hD
    refine ⟨fun k j => (2 * dot (x k) (y j)) • D j k, B', fun k j => ?_, c1, fun g h v => ?_⟩
    · have := (b1 j k).pow 2
      norm_num at this
      exact this
    · unfold refOne
      rw [refBackOne_adjoint]
      have f1 := lhsGrad_sum (oneM d x) (fun j => oneV x (y j)) (fun j => (oneM d x)⁻¹ *ᵥ oneV x (y j)) h fun p q => E p q v
      simp only [e2] at f1
      rw [f1]
      simp only [c2, e2, add_mul, Finset.sum_add_distrib, Finset.sum_sub_distrib, _root_.smul_apply, smul_eq_mul, b2]
      have f2 : ∀ k, ∑ j, g k j * (2 * oneV x (y j) k) * dot (v k) (y j) = ∑ j, g k j * (2 * dot (x k) (y j) * dot (v k) (y j)) :=
        fun k => Finset.sum_congr rfl fun j _ => by unfold oneV; ring
      simp only [f2]
      rw [Finset.sum_comm (s := (Finset.univ : Finset (Fin e))) (t := (Finset.univ : Finset (Fin r)))
        (f := fun j k => rhsGrad (oneM d x) (oneV x (y j)) ((oneM d x)⁻¹ *ᵥ oneV x (y j)) (h j) k * dot (v k) (y j))]
      ring
  · intro g g' h k hg
    funext t
    unfold refOne refBackOne
    simp only [hg]

end FBE.Backward
