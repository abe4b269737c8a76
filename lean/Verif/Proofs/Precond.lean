import Verif.Proofs.CgOps
import Verif.Proofs.Pcg
import Verif.Spec.CgQuiet
import Mathlib.Analysis.Matrix.PosDef
import Mathlib.Analysis.InnerProductSpace.Positive
import Mathlib.LinearAlgebra.Matrix.Circulant

/-!
# The circulant preconditioners: closest circulant, positive definite
-/

set_option linter.unusedSectionVars false

namespace FBE

open Spec Matrix
open scoped ComplexOrder

local notation "conj" => starRingEnd ℂ

variable {B : Backend} {n c : ℕ}

/-! ### circulant means -/

/-- Entries of a Toeplitz matrix from the values on and below (`a`) and above (`b`) the diagonal. -/
def toe (a b : ℕ → ℝ) (i j : ℕ) : ℝ := if j ≤ i then a (i - j) else b (j - i)

/-- The sum of a circulant diagonal of a Toeplitz matrix. -/
theorem diag_sum (a b : ℕ → ℝ) {t : ℕ} (ht : t < n) :
    ∑ j ∈ Finset.range n, toe a b ((j + t) % n) j = (n - t : ℕ) * a t + t * b (n - t) := by
  have h : ∑ j ∈ Finset.range n, toe a b ((j + t) % n) j =
      ∑ j ∈ Finset.range ((n - t) + t), toe a b ((j + t) % n) j := by
    rw [Nat.sub_add_cancel ht.le]
  rw [h, Finset.sum_range_add]
  congr 1
  · rw [Finset.sum_congr rfl (g := fun _ => a t), Finset.sum_const, Finset.card_range, nsmul_eq_mul]
    intro j hj
    rw [Finset.mem_range] at hj
    unfold toe
    rw [Nat.mod_eq_of_lt (by omega), if_pos (by omega)]
    congr 1
    omega
  · rw [Finset.sum_congr rfl (g := fun _ => b (n - t)), Finset.sum_const, Finset.card_range, nsmul_eq_mul]
    intro j hj
    rw [Finset.mem_range] at hj
    unfold toe
    have : (n - t + j + t) % n = j := by
      rw [show n - t + j + t = j + n by omega, Nat.add_mod_right, Nat.mod_eq_of_lt (by omega)]
    rw [this, if_neg (by omega)]
    congr 1
    omega

theorem symPrecondCol_mean {col : List ℝ} (hc : col.length = n) {t : ℕ} (ht : t < n) :
    (n : ℝ) * (symPrecondCol col).getD t 0 =
      ∑ j ∈ Finset.range n, toe (col.getD · 0) (col.getD · 0) ((j + t) % n) j := by
  have hn : (n : ℝ) ≠ 0 := by
    have : 0 < n := by omega
    positivity
  rw [diag_sum _ _ ht]
  rcases Nat.eq_zero_or_pos t with rfl | h0
  · rw [symPrecondCol_zero hc ht]
    simp
  · rw [symPrecondCol_get hc h0 ht]
    field_simp

theorem nonsymPrecondCol_mean (hB : Covered B) (hn : 2 ≤ n) {r : List ℝ} (hr : r.length = n + n) {t : ℕ}
    (ht : t < n) : (n : ℝ) * (nonsymPrecondCol B r).getD t 0 =
      ∑ j ∈ Finset.range n, lagAt r ((j + t) % n) j := by
  have hn0 : (n : ℝ) ≠ 0 := by
    have : 0 < n := by omega
    positivity
  have e : ∀ i j, lagAt r i j =
      toe (fun t => if t = 0 then r.getD 0 0 else r.getD (n + n - t) 0) (r.getD · 0) i j := by
    intro i j
    unfold lagAt toe
    rw [hr]
    rcases lt_trichotomy i j with h | h | h
    · rw [if_pos h.le, if_neg (by omega)]
    · rw [if_pos h.le, if_pos h.ge]; subst h; simp
    · rw [if_neg (by omega), if_pos h.le]; exact (if_neg (by omega)).symm
  simp only [e]
  rw [diag_sum _ _ ht]
  rcases Nat.eq_zero_or_pos t with rfl | h0
  · rw [nonsymPrecondCol_zero hn hr]
    simp
  · rw [nonsymPrecondCol_get hB hn hr h0 ht, if_neg (by omega)]
    field_simp

/-- Distances of circulant matrices to `T`: Pythagoras for the circulant of the mean diagonals. -/
theorem frobSq_circulant [NeZero n] (T : Matrix (Fin n) (Fin n) ℝ) (v w : Fin n → ℝ)
    (hv : ∀ t, n * v t = ∑ j, T (j + t) j) :
    frobSq (T - circulant w) = frobSq (T - circulant v) + n * ∑ t, (v t - w t) ^ 2 := by
  have key : ∀ u : Fin n → ℝ, frobSq (T - circulant u) = ∑ t, ∑ j, (T (j + t) j - u t) ^ 2 := by
    intro u
    unfold frobSq
    rw [Finset.sum_comm, Finset.sum_comm (γ := Fin n) (f := fun t j => (T (j + t) j - u t) ^ 2)]
    refine Finset.sum_congr rfl fun j _ => ?_
    rw [← Equiv.sum_comp (Equiv.addLeft j)]
    refine Finset.sum_congr rfl fun t _ => ?_
    rw [Matrix.sub_apply, circulant_apply]
    simp
  rw [key, key, Finset.mul_sum, ← Finset.sum_add_distrib]
  refine Finset.sum_congr rfl fun t _ => ?_
  have e : ∀ j : Fin n, (T (j + t) j - w t) ^ 2 =
      (T (j + t) j - v t) ^ 2 + (2 * (v t - w t) * (T (j + t) j - v t) + (v t - w t) ^ 2) := by
    intro j; ring
  rw [Finset.sum_congr rfl fun j _ => e j, Finset.sum_add_distrib, Finset.sum_add_distrib, ← Finset.mul_sum,
    Finset.sum_sub_distrib, ← hv t]
  simp

/-! ### complexification -/

theorem posDef_ofReal {J : Type} [Fintype J] {A : Matrix J J ℝ} (hA : A.PosDef) :
    (A.map Complex.ofReal).PosDef := by
  rw [posDef_iff_dotProduct_mulVec] at hA ⊢
  obtain ⟨hs, hp⟩ := hA
  have hsym : ∀ i j, A j i = A i j := fun i j => by
    have := congrFun (congrFun hs i) j
    simpa using this
  refine ⟨?_, fun x hx => ?_⟩
  · ext i j
    simp [hsym i j]
  · set a : J → ℝ := fun i => (x i).re with ha
    set b : J → ℝ := fun i => (x i).im with hb
    have hab : a ⬝ᵥ (A *ᵥ b) = b ⬝ᵥ (A *ᵥ a) := by
      simp only [dotProduct, mulVec, Finset.mul_sum]
      rw [Finset.sum_comm]
      refine Finset.sum_congr rfl fun i _ => Finset.sum_congr rfl fun j _ => ?_
      rw [hsym i j]; ring
    have e : star x ⬝ᵥ (A.map Complex.ofReal *ᵥ x) =
        ((a ⬝ᵥ (A *ᵥ a) + b ⬝ᵥ (A *ᵥ b) : ℝ) : ℂ) := by
      have e1 : ∀ i, (A.map Complex.ofReal *ᵥ x) i = ((A *ᵥ a) i : ℂ) + ((A *ᵥ b) i : ℂ) * Complex.I := by
        intro i
        simp only [mulVec, dotProduct, Matrix.map_apply]
        push_cast
        rw [Finset.sum_mul, ← Finset.sum_add_distrib]
        refine Finset.sum_congr rfl fun j _ => ?_
        conv_lhs => rw [← Complex.re_add_im (x j)]
        simp only [ha, hb]
        ring
      have e2 : star x ⬝ᵥ (A.map Complex.ofReal *ᵥ x) =
          ((a ⬝ᵥ (A *ᵥ a) + b ⬝ᵥ (A *ᵥ b) : ℝ) : ℂ) +
          ((a ⬝ᵥ (A *ᵥ b) - b ⬝ᵥ (A *ᵥ a) : ℝ) : ℂ) * Complex.I := by
        simp only [dotProduct]
        push_cast
        rw [← Finset.sum_sub_distrib, ← Finset.sum_add_distrib, Finset.sum_mul, ← Finset.sum_add_distrib]
        refine Finset.sum_congr rfl fun i _ => ?_
        rw [e1]
        have : star x i = (a i : ℂ) - (b i : ℂ) * Complex.I := by
          rw [Pi.star_apply]
          apply Complex.ext <;> simp [ha, hb]
        rw [this]
        linear_combination (-(b i : ℂ) * ((A *ᵥ b) i : ℂ)) * Complex.I_sq
      rw [e2, hab, sub_self]
      simp
    rw [e]
    rw [Complex.zero_lt_real]
    have hnn : ∀ y : J → ℝ, 0 ≤ y ⬝ᵥ (A *ᵥ y) := fun y => by
      by_cases h : y = 0
      · simp [h]
      · have := hp h
        simpa using this.le
    by_cases h : a = 0
    · have hb' : b ≠ 0 := by
        intro h'
        apply hx
        funext i
        apply Complex.ext
        · exact congrFun h i
        · exact congrFun h' i
      have := hp hb'
      have h1 := hnn a
      simp only [star_trivial] at this
      linarith
    · have := hp h
      have h1 := hnn b
      simp only [star_trivial] at this
      linarith

/-! ### operators that act on the spectrum -/

theorem dft_zpad (v : Fin n → ℝ) (k : ℕ) :
    dft n (zpad v) k = ∑ t : Fin n, (v t : ℂ) * conj (tw n k t) := by
  unfold dft
  rw [Finset.sum_range]
  exact Finset.sum_congr rfl fun t _ => by rw [zpad_val]

variable {κ : Type} [Fintype κ] [DecidableEq κ]

/-- The DFT of channel `d`. -/
noncomputable def dftc (v : Fin n × κ → ℝ) (k : ℕ) : κ → ℂ := fun d => dft n (zpad fun t => v (t, d)) k

theorem dftc_add (v w : Fin n × κ → ℝ) (k : ℕ) : dftc (v + w) k = dftc v k + dftc w k := by
  funext d
  simp only [dftc, dft_zpad, Pi.add_apply]
  rw [← Finset.sum_add_distrib]
  exact Finset.sum_congr rfl fun t _ => by push_cast; ring

theorem dftc_smul (a : ℝ) (v : Fin n × κ → ℝ) (k : ℕ) : dftc (a • v) k = (a : ℂ) • dftc v k := by
  funext d
  simp only [dftc, dft_zpad, Pi.smul_apply, smul_eq_mul]
  rw [Finset.mul_sum]
  exact Finset.sum_congr rfl fun t _ => by push_cast; ring

/-- Multiplication of the spectrum by a matrix for every frequency. -/
noncomputable def specMul (n : ℕ) (G : ℕ → Matrix κ κ ℂ) (v : Fin n × κ → ℝ) : Fin n × κ → ℝ :=
  fun p => (∑ k ∈ Finset.range n, (G k *ᵥ dftc v k) p.2 * tw n k p.1).re / n

/-- As a linear map. -/
noncomputable def specMulLin (n : ℕ) (G : ℕ → Matrix κ κ ℂ) : (Fin n × κ → ℝ) →ₗ[ℝ] (Fin n × κ → ℝ) where
  toFun := specMul n G
  map_add' v w := by
    funext p
    simp only [specMul, dftc_add, mulVec_add, Pi.add_apply, add_mul, Finset.sum_add_distrib, Complex.add_re, add_div]
  map_smul' a v := by
    funext p
    simp only [specMul, dftc_smul, mulVec_smul, Pi.smul_apply, smul_eq_mul, mul_assoc, RingHom.id_apply]
    rw [← Finset.mul_sum, Complex.re_ofReal_mul, mul_div_assoc]

/-- Parseval. -/
theorem dot_specMul (G : ℕ → Matrix κ κ ℂ) (w v : Fin n × κ → ℝ) :
    w ⬝ᵥ specMul n G v = (∑ k ∈ Finset.range n, star (dftc w k) ⬝ᵥ (G k *ᵥ dftc v k)).re / n := by
  have e : ∑ k ∈ Finset.range n, star (dftc w k) ⬝ᵥ (G k *ᵥ dftc v k) =
      ∑ p : Fin n × κ, (w p : ℂ) * ∑ k ∈ Finset.range n, (G k *ᵥ dftc v k) p.2 * tw n k p.1 := by
    simp only [Finset.mul_sum]
    rw [Finset.sum_comm]
    refine Finset.sum_congr rfl fun k _ => ?_
    rw [Fintype.sum_prod_type_right]
    unfold dotProduct
    refine Finset.sum_congr rfl fun d _ => ?_
    rw [Pi.star_apply]
    simp only [dftc, dft_zpad]
    rw [star_sum, Finset.sum_mul]
    refine Finset.sum_congr rfl fun t _ => ?_
    rw [star_mul']
    simp only [Complex.star_def, Complex.conj_conj, Complex.conj_ofReal]
    ring
  rw [e, Complex.re_sum, Finset.sum_div]
  unfold dotProduct specMul
  refine Finset.sum_congr rfl fun p _ => ?_
  rw [Complex.re_ofReal_mul, mul_div_assoc]

theorem dftc_ne_zero {v : Fin n × κ → ℝ} (hv : v ≠ 0) : ∃ k < n, dftc v k ≠ 0 := by
  by_contra hc
  push Not at hc
  apply hv
  funext p
  obtain ⟨t, d⟩ := p
  have ht := t.isLt
  have h := sum_dft_tw (n := n) (by omega) (zpad fun t => v (t, d)) t
  rw [Finset.sum_eq_zero, Nat.mod_eq_of_lt ht, zpad_val] at h
  · have hn : (n : ℂ) ≠ 0 := by
      have : n ≠ 0 := by omega
      exact_mod_cast this
    have := (mul_eq_zero.1 h.symm).resolve_left hn
    exact_mod_cast this
  · intro k hk
    rw [Finset.mem_range] at hk
    have : dft n (zpad fun t => v (t, d)) k = 0 := congrFun (hc k hk) d
    rw [this, zero_mul]

/-- Positive definite at every frequency: positive definite. -/
theorem specMul_spd {G : ℕ → Matrix κ κ ℂ} (hG : ∀ k < n, (G k).PosDef) : Spd (specMulLin n G) := by
  refine ⟨fun u v => ?_, fun v hv => ?_⟩
  · show u ⬝ᵥ specMul n G v = v ⬝ᵥ specMul n G u
    rw [dot_specMul, dot_specMul, Complex.re_sum, Complex.re_sum]
    congr 1
    refine Finset.sum_congr rfl fun k hk => ?_
    rw [Finset.mem_range] at hk
    have h := (hG k hk).isHermitian
    have : star (dftc v k) ⬝ᵥ (G k *ᵥ dftc u k) = star (star (dftc u k) ⬝ᵥ (G k *ᵥ dftc v k)) := by
      rw [← star_dotProduct, star_mulVec, h, dotProduct_mulVec]
    rw [this]
    simp
  · show 0 < v ⬝ᵥ specMul n G v
    rw [dot_specMul, Complex.re_sum]
    obtain ⟨k, hk, hne⟩ := dftc_ne_zero hv
    have hn : (0 : ℝ) < n := by
      have : 0 < n := by omega
      positivity
    have hpos : ∀ k < n, ∀ x : κ → ℂ, x ≠ 0 → 0 < (star x ⬝ᵥ (G k *ᵥ x)).re := fun k hk x hx =>
      ((Complex.lt_def.1 ((posDef_iff_dotProduct_mulVec.1 (hG k hk)).2 hx)).1)
    refine div_pos (Finset.sum_pos' (fun i hi => ?_) ⟨k, Finset.mem_range.2 hk, hpos k hk _ hne⟩) hn
    rw [Finset.mem_range] at hi
    by_cases h : dftc v i = 0
    · rw [h]; simp
    · exact (hpos i hi _ h).le

/-! ### the spectrum of the circulant means -/

/-- The columns of the Fourier matrix at one frequency. -/
noncomputable def twMat (n : ℕ) (κ : Type) [DecidableEq κ] (k : ℕ) : Matrix (Fin n × κ) κ ℂ :=
  Matrix.of fun p a => if p.2 = a then tw n k p.1 else 0

/-- The spectrum of the mean diagonals of a block matrix. -/
theorem dft_mean_eq {T : Matrix (Fin n × κ) (Fin n × κ) ℝ} {τ : κ → κ → ℕ → ℕ → ℝ}
    (hτ : ∀ p q, T p q = τ p.2 q.2 p.1 q.1) {col : κ → κ → ℕ → ℝ}
    (hcol : ∀ a d, ∀ t < n, (n : ℝ) * col a d t = ∑ j ∈ Finset.range n, τ a d ((j + t) % n) j) (hn : n ≠ 0) (k : ℕ) :
    (Matrix.of fun a d => dft n (col a d) k) =
      ((1 / n : ℝ)) • ((twMat n κ k)ᴴ * (T.map Complex.ofReal) * twMat n κ k) := by
  set E : Matrix (Fin n × κ) κ ℂ := twMat n κ k with hE'
  have hE : E = Matrix.of fun p a => if p.2 = a then tw n k p.1 else 0 := rfl
  have hnC : (n : ℂ) ≠ 0 := by exact_mod_cast hn
  ext a d
  have h1 : (Eᴴ * (T.map Complex.ofReal) * E) a d =
      ∑ j : Fin n, (∑ i : Fin n, conj (tw n k i) * (τ a d i j : ℂ)) * tw n k j := by
    rw [Matrix.mul_apply, Fintype.sum_prod_type]
    refine Finset.sum_congr rfl fun j _ => ?_
    rw [Finset.sum_eq_single d]
    · rw [Matrix.mul_apply, Fintype.sum_prod_type]
      have : E (j, d) d = tw n k j := by simp [hE]
      rw [this]
      congr 1
      refine Finset.sum_congr rfl fun i _ => ?_
      rw [Finset.sum_eq_single a]
      · have : Eᴴ a (i, a) = conj (tw n k i) := by simp [hE]
        rw [this, Matrix.map_apply, hτ]
      · intro b _ hb
        have : Eᴴ a (i, b) = 0 := by simp [hE, hb]
        rw [this, zero_mul]
      · simp
    · intro b _ hb
      have : E (j, b) d = 0 := by simp [hE, hb]
      rw [this, mul_zero]
    · simp
  have h2 : (n : ℂ) * dft n (col a d) k =
      ∑ j ∈ Finset.range n, (∑ i ∈ Finset.range n, conj (tw n k i) * (τ a d i j : ℂ)) * tw n k j := by
    unfold dft
    rw [Finset.mul_sum]
    have : ∀ t ∈ Finset.range n, (n : ℂ) * ((col a d t : ℂ) * conj (tw n k t)) =
        ∑ j ∈ Finset.range n, (τ a d ((t + j) % n) j : ℂ) * conj (tw n k ((t + j) % n)) * tw n k j := by
      intro t ht
      have := congrArg Complex.ofReal (hcol a d t (Finset.mem_range.1 ht))
      push_cast at this
      rw [← mul_assoc, this, Finset.sum_mul]
      refine Finset.sum_congr rfl fun j _ => ?_
      rw [tw_mod hn, tw_add, map_mul, Nat.add_comm j t]
      linear_combination (-(τ a d ((t + j) % n) j : ℂ) * conj (tw n k t)) * tw_mul_conj n k j
    rw [Finset.sum_congr rfl this, Finset.sum_comm]
    refine Finset.sum_congr rfl fun j _ => ?_
    rw [sum_rotate n j fun i => (τ a d i j : ℂ) * conj (tw n k i) * tw n k j, Finset.sum_mul]
    exact Finset.sum_congr rfl fun i _ => by ring
  rw [Matrix.of_apply, Matrix.smul_apply, h1]
  simp only [Finset.sum_range] at h2
  rw [← h2, Complex.real_smul]
  push_cast
  field_simp

/-- The spectrum of the mean diagonals of a positive definite block matrix is positive definite. -/
theorem dft_mean_posDef {T : Matrix (Fin n × κ) (Fin n × κ) ℝ} (hT : T.PosDef) {τ : κ → κ → ℕ → ℕ → ℝ}
    (hτ : ∀ p q, T p q = τ p.2 q.2 p.1 q.1) {col : κ → κ → ℕ → ℝ}
    (hcol : ∀ a d, ∀ t < n, (n : ℝ) * col a d t = ∑ j ∈ Finset.range n, τ a d ((j + t) % n) j) (hn : n ≠ 0) (k : ℕ) :
    (Matrix.of fun a d => dft n (col a d) k).PosDef := by
  rw [dft_mean_eq hτ hcol hn k]
  refine PosDef.smul ((posDef_ofReal hT).conjTranspose_mul_mul_same ?_) (by positivity)
  intro x y hxy
  funext d
  have h := congrFun hxy (⟨0, Nat.pos_of_ne_zero hn⟩, d)
  simp only [mulVec, dotProduct, twMat, Matrix.of_apply, ite_mul, zero_mul, Finset.sum_ite_eq, Finset.mem_univ,
    if_true] at h
  exact mul_left_cancel₀ (tw_ne_zero _ _ _) h

theorem posSemidef_ofReal {J : Type} [Fintype J] [DecidableEq J] {A : Matrix J J ℝ} (hA : A.PosSemidef) :
    (A.map Complex.ofReal).PosSemidef := by
  obtain ⟨m, v, rfl⟩ := posSemidef_iff_eq_sum_vecMulVec.1 hA
  refine posSemidef_iff_eq_sum_vecMulVec.2 ⟨m, fun i j => (v i j : ℂ), ?_⟩
  ext i j
  simp [Matrix.sum_apply, vecMulVec_apply]

/-- The spectrum of the mean diagonals of a positive semidefinite block matrix is positive semidefinite. -/
theorem dft_mean_posSemidef {T : Matrix (Fin n × κ) (Fin n × κ) ℝ} (hT : T.PosSemidef) {τ : κ → κ → ℕ → ℕ → ℝ}
    (hτ : ∀ p q, T p q = τ p.2 q.2 p.1 q.1) {col : κ → κ → ℕ → ℝ}
    (hcol : ∀ a d, ∀ t < n, (n : ℝ) * col a d t = ∑ j ∈ Finset.range n, τ a d ((j + t) % n) j) (hn : n ≠ 0) (k : ℕ) :
    (Matrix.of fun a d => dft n (col a d) k).PosSemidef := by
  rw [dft_mean_eq hτ hcol hn k]
  exact PosSemidef.smul ((posSemidef_ofReal hT).conjTranspose_mul_mul_same _) (by positivity)

/-! ### the preconditioners of the code -/

theorem herm_inv {C : ℕ → Matrix κ κ ℂ} (hC : ∀ a d, Herm n fun k => C k a d) (a d : κ) :
    Herm n fun k => (C k)⁻¹ a d := by
  intro k h0 hk
  have e : C (n - k) = (C k)ᴴᵀ := by
    ext a d
    exact hC a d k h0 hk
  show (C (n - k))⁻¹ a d = conj ((C k)⁻¹ a d)
  rw [e, ← transpose_nonsing_inv, ← conjTranspose_nonsing_inv]
  rfl

/-- The matrices of `BlockCirculantPreconditionerOperator` at all frequencies. -/
noncomputable def blockSpec (B : Backend) (n : ℕ) (acf : Fin c → Fin c → List ℝ) (k : ℕ) : Matrix (Fin c) (Fin c) ℂ :=
  Matrix.of fun a d => dft n (fun t => (nonsymPrecondCol B (acf a d)).getD t 0) k

theorem blockPrecondSpec_eq (hB : Covered B) (hn : 2 ≤ n) {acf : Fin c → Fin c → List ℝ}
    (hc : ∀ k l, (acf k l).length = n + n) {k : ℕ} (hk : k ≤ n / 2) :
    blockPrecondSpec B acf k = blockSpec B n acf k := by
  ext a d
  unfold blockPrecondSpec blockSpec
  rw [length_nonsymPrecondCol hB hn (hc a d), rfft_getD _ _ hk]
  rfl

theorem blockPrecond_eq (hB : Covered B) (hn : 2 ≤ n) {acf : Fin c → Fin c → List ℝ}
    (hc : ∀ k l, (acf k l).length = n + n) :
    blockPrecond B n acf = specMulLin n fun k => (blockSpec B n acf k)⁻¹ := by
  funext v p
  obtain ⟨t, a⟩ := p
  show vec n (irfft n _) t = specMul n _ v (t, a)
  unfold vec
  have hmap : ((List.range (n / 2 + 1)).map fun k =>
      ∑ d, (blockPrecondSpec B acf k)⁻¹ a d * (rfft n (lagCol v d)).getD k 0) =
      (List.range (n / 2 + 1)).map fun k => ∑ d, (blockSpec B n acf k)⁻¹ a d * dftc v k d := by
    refine List.map_congr_left fun k hk => Finset.sum_congr rfl fun d _ => ?_
    rw [List.mem_range] at hk
    rw [blockPrecondSpec_eq hB hn hc (by omega), rfft_getD _ _ (by omega)]
    unfold lagCol dftc
    simp only [getD_ofFn]
  rw [hmap, irfft_spec _ t.isLt]
  · rfl
  · refine Herm.sum fun d _ => Herm.mul (herm_inv (fun a d => herm_dft _) a d) (herm_dft _)

theorem blockSpec_posDef (hB : Covered B) (hn : 2 ≤ n) {acf : Fin c → Fin c → List ℝ}
    (hc : ∀ k l, (acf k l).length = n + n) (hT : (lagMatrix n acf).PosDef) (k : ℕ) :
    (blockSpec B n acf k).PosDef :=
  dft_mean_posDef hT (τ := fun a d => lagAt (acf a d)) (fun _ _ => rfl)
    (fun a d _ ht => nonsymPrecondCol_mean hB hn (hc a d) ht) (by omega) k

/-- The block circulant preconditioner of a positive definite matrix is positive definite. -/
theorem blockPrecond_spd (hB : Covered B) (hn : 2 ≤ n) {acf : Fin c → Fin c → List ℝ}
    (hc : ∀ k l, (acf k l).length = n + n) (hT : (lagMatrix n acf).PosDef) :
    Spd (specMulLin n fun k => (blockSpec B n acf k)⁻¹) :=
  specMul_spd fun k _ => (blockSpec_posDef hB hn hc hT k).inv

theorem blockPrecondSpec_det (hB : Covered B) (hn : 2 ≤ n) {acf : Fin c → Fin c → List ℝ}
    (hc : ∀ k l, (acf k l).length = n + n) (hT : (lagMatrix n acf).PosDef) {k : ℕ} (hk : k ≤ n / 2) :
    (blockPrecondSpec B acf k).det ≠ 0 := by
  rw [blockPrecondSpec_eq hB hn hc hk]
  exact ((Matrix.isUnit_iff_isUnit_det _).1 (blockSpec_posDef hB hn hc hT k).isUnit).ne_zero

/-- The spectrum of the symmetric preconditioner column. -/
noncomputable def symSpec (n : ℕ) (col : List ℝ) (k : ℕ) : ℂ := dft n (fun t => (symPrecondCol col).getD t 0) k

theorem symSpec_pos (hB : Covered B) {col : List ℝ} (hc : col.length = n) (hn : 0 < n)
    (hT : (toeplitz B n col).PosDef) (k : ℕ) : 0 < symSpec n col k := by
  have hT' : (Matrix.of fun p q : Fin n × Unit => toeplitz B n col p.1 q.1).PosDef := by
    rw [posDef_iff_dotProduct_mulVec] at hT ⊢
    refine ⟨?_, fun x hx => ?_⟩
    · ext p q
      exact congrFun (congrFun hT.1 p.1) q.1
    · have := @hT.2 (fun t => x (t, ())) fun h => hx <| by
        funext p
        obtain ⟨t, ⟨⟩⟩ := p
        exact congrFun h t
      simpa [dotProduct, mulVec, Fintype.sum_prod_type] using this
  have h := dft_mean_posDef hT' (τ := fun _ _ => toe (col.getD · 0) (col.getD · 0))
    (fun p q => by
      rw [Matrix.of_apply, toeplitz_apply hB hc]
      unfold toe
      split <;> congr 1 <;> omega)
    (fun _ _ t ht => symPrecondCol_mean hc ht) (by omega) k
  exact h.diag_pos (i := ())

theorem circPrecond_eq (hB : Covered B) {col : List ℝ} (v : Fin n → ℝ) :
    circPrecond B n col v = fun t =>
      specMulLin n (fun k => Matrix.of fun _ _ : Unit => B.specInv (symSpec n col k)) (fun p => v p.1) (t, ()) := by
  funext t
  show vec n (irfft n _) t = specMul n _ _ (t, ())
  unfold vec
  rw [rfft_eq, rfft_eq, List.map_map, zipWith_map_range, irfft_spec _ t.isLt]
  · unfold specMul
    congr 2
    refine Finset.sum_congr rfl fun k _ => ?_
    congr 1
    show B.specInv (symSpec n col k) * dft n (fun t => (List.ofFn v).getD t 0) k = _
    simp only [getD_ofFn]
    simp [mulVec, dotProduct, dftc]
  · refine Herm.mul ?_ (herm_dft _)
    intro k h0 hk
    simp only [Function.comp]
    rw [herm_dft _ k h0 hk, hB.specInv, hB.specInv, map_div₀, Complex.conj_ofReal]
    simp

/-- The circulant preconditioner as a linear map. -/
noncomputable def circPrecondLin (B : Backend) (n : ℕ) (col : List ℝ) : (Fin n → ℝ) →ₗ[ℝ] (Fin n → ℝ) where
  toFun v t := specMulLin n (fun k => Matrix.of fun _ _ : Unit => B.specInv (symSpec n col k)) (fun p => v p.1) (t, ())
  map_add' v w := by
    funext t
    exact congrFun (map_add (specMulLin n _) (fun p : Fin n × Unit => v p.1) fun p => w p.1) (t, ())
  map_smul' a v := by
    funext t
    exact congrFun (map_smul (specMulLin n _) a fun p : Fin n × Unit => v p.1) (t, ())

theorem circPrecond_coe (hB : Covered B) (n : ℕ) (col : List ℝ) :
    circPrecond B n col = circPrecondLin B n col := by
  funext v
  exact circPrecond_eq hB v

theorem dot_unit (u : Fin n → ℝ) (w : Fin n × Unit → ℝ) :
    (u ⬝ᵥ fun t => w (t, ())) = (fun p : Fin n × Unit => u p.1) ⬝ᵥ w := by
  simp [dotProduct, Fintype.sum_prod_type]

/-- The circulant preconditioner of a positive definite matrix is positive definite. -/
theorem circPrecond_spd (hB : Covered B) {col : List ℝ} (hc : col.length = n) (hn : 0 < n)
    (hT : (toeplitz B n col).PosDef) : Spd (circPrecondLin B n col) := by
  have h : Spd (specMulLin n fun k => Matrix.of fun _ _ : Unit => B.specInv (symSpec n col k)) := by
    refine specMul_spd fun k _ => ?_
    have hpos := symSpec_pos hB hc hn hT k
    set z := symSpec n col k with hz
    obtain ⟨h1, h2⟩ := Complex.lt_def.1 hpos
    have hre : z = (z.re : ℂ) := Complex.ext rfl (by simpa using h2.symm)
    have hinv : B.specInv z = ((z.re / max (z.re ^ 2 + z.im ^ 2) 1e-6 : ℝ) : ℂ) := by
      rw [hB.specInv]
      push_cast
      congr 1
      rw [hre]
      simp
    have hp : 0 < z.re / max (z.re ^ 2 + z.im ^ 2) 1e-6 :=
      div_pos h1 (lt_of_lt_of_le (by norm_num) (le_max_right _ _))
    rw [hinv]
    have e : (Matrix.of fun _ _ : Unit => ((z.re / max (z.re ^ 2 + z.im ^ 2) 1e-6 : ℝ) : ℂ)) =
        (z.re / max (z.re ^ 2 + z.im ^ 2) 1e-6 : ℝ) • (1 : Matrix Unit Unit ℂ) := by
      ext a b
      simp
    rw [e]
    exact PosDef.one.smul hp
  refine ⟨fun u v => ?_, fun v hv => ?_⟩
  · exact (dot_unit u _).trans ((h.symm _ _).trans (dot_unit v _).symm)
  · refine lt_of_lt_of_eq (h.pos (fun p => v p.1) ?_) (dot_unit v _).symm
    refine fun h0 => hv ?_
    funext t
    exact congrFun h0 (t, ())

/-- A positive definite matrix. -/
theorem mulVec_spd {J : Type} [Fintype J] [DecidableEq J] {A : Matrix J J ℝ} (hA : A.PosDef) : Spd A.mulVecLin := by
  have h := posDef_iff_dotProduct_mulVec.1 hA
  refine ⟨fun u v => ?_, fun v hv => ?_⟩
  · have ht : Aᵀ = A := by
      have := h.1
      rwa [IsHermitian, conjTranspose_eq_transpose_of_trivial] at this
    show u ⬝ᵥ A *ᵥ v = v ⬝ᵥ A *ᵥ u
    rw [dotProduct_mulVec, ← mulVec_transpose, ht, dotProduct_comm]
  · simpa using h.2 hv

end FBE

namespace FBE

open Spec Matrix

local notation "conj" => starRingEnd ℂ

variable {B : Backend} {n c : ℕ}

/-! ### the operators invert the circulant matrices -/

/-- A real sequence with a given spectrum. -/
theorem dft_of_spec {F : ℕ → ℂ} (hF : Herm n F) (h0 : (F 0).im = 0) {k : ℕ} (hk : k < n) :
    dft n (fun t => (∑ q ∈ Finset.range n, F q * tw n q t).re / n) k = F k := by
  have hn : n ≠ 0 := by omega
  have hnC : (n : ℂ) ≠ 0 := by exact_mod_cast hn
  have hreal : ∀ t, conj (∑ q ∈ Finset.range n, F q * tw n q t) = ∑ q ∈ Finset.range n, F q * tw n q t := by
    intro t
    rw [map_sum]
    refine Finset.sum_nbij' (fun q => if q = 0 then 0 else n - q) (fun q => if q = 0 then 0 else n - q) ?_ ?_ ?_ ?_ ?_
    · intro q hq
      rw [Finset.mem_range] at hq ⊢
      split <;> omega
    · intro q hq
      rw [Finset.mem_range] at hq ⊢
      split <;> omega
    · intro q hq
      rw [Finset.mem_range] at hq
      by_cases h : q = 0
      · simp [h]
      · simp only [if_neg h]; rw [if_neg (by omega)]; omega
    · intro q hq
      rw [Finset.mem_range] at hq
      by_cases h : q = 0
      · simp [h]
      · simp only [if_neg h]; rw [if_neg (by omega)]; omega
    · intro q hq
      rw [Finset.mem_range] at hq
      by_cases h : q = 0
      · subst h
        rw [if_pos rfl, map_mul]
        congr 1
        · apply Complex.ext
          · simp
          · simp [h0]
        · rw [tw_eq_pow]; simp
      · rw [if_neg h, hF q (by omega) hq, tw_sub hn hq, map_mul]
  unfold dft
  have e : ∀ t ∈ Finset.range n, (((∑ q ∈ Finset.range n, F q * tw n q t).re / n : ℝ) : ℂ) * conj (tw n k t) =
      ∑ q ∈ Finset.range n, F q / n * (tw n t q * conj (tw n t k)) := by
    intro t _
    have : (((∑ q ∈ Finset.range n, F q * tw n q t).re : ℝ) : ℂ) = ∑ q ∈ Finset.range n, F q * tw n q t :=
      Complex.conj_eq_iff_re.1 (hreal t)
    push_cast
    rw [show ((∑ q ∈ Finset.range n, F q * tw n q t).re : ℂ) = ∑ q ∈ Finset.range n, F q * tw n q t from this,
      Finset.sum_div, Finset.sum_mul]
    refine Finset.sum_congr rfl fun q _ => ?_
    rw [tw_comm n q t, tw_comm n k t]
    ring
  rw [Finset.sum_congr rfl e, Finset.sum_comm]
  have e2 : ∀ q ∈ Finset.range n, ∑ t ∈ Finset.range n, F q / n * (tw n t q * conj (tw n t k)) =
      if q = k then F q else 0 := by
    intro q hq
    rw [← Finset.mul_sum, sum_tw hn (Finset.mem_range.1 hq) hk]
    split
    · field_simp
    · simp
  rw [Finset.sum_congr rfl e2, Finset.sum_ite_eq', if_pos (Finset.mem_range.2 hk)]

theorem dft_zero_im (x : ℕ → ℝ) : (dft n x 0).im = 0 := by
  unfold dft
  rw [Complex.im_sum]
  refine Finset.sum_eq_zero fun t _ => ?_
  rw [tw_eq_pow]
  simp

/-- A circulant matrix multiplies the spectrum. -/
theorem circulant_mulVec [NeZero n] (x : ℕ → ℝ) (v : Fin n → ℝ) (t : Fin n) :
    (circulant (fun i : Fin n => x i) *ᵥ v) t =
      (∑ k ∈ Finset.range n, dft n x k * dft n (zpad v) k * tw n k t).re / n := by
  have hn : n ≠ 0 := NeZero.ne n
  have e : ∀ k, dft n x k * dft n (zpad v) k * tw n k t = dft n (zpad v) k * dft n x k * tw n k t := fun k => by ring
  simp only [e]
  rw [conv_spec hn, Finset.sum_range]
  unfold mulVec dotProduct
  refine Finset.sum_congr rfl fun j _ => ?_
  show circulant (fun i : Fin n => x i) t j * v j = _
  rw [circulant_apply, zpad_val, mul_comm, Fin.val_sub, Nat.add_comm (n - j.val)]

theorem zpad_dft {F : ℕ → ℂ} {v : Fin n → ℝ}
    (hv : ∀ t : Fin n, v t = (∑ q ∈ Finset.range n, F q * tw n q t).re / n) (hF : Herm n F) (h0 : (F 0).im = 0)
    {k : ℕ} (hk : k < n) : dft n (zpad v) k = F k := by
  rw [← dft_of_spec hF h0 hk]
  unfold dft
  refine Finset.sum_congr rfl fun t ht => ?_
  rw [Finset.mem_range] at ht
  have := zpad_val v ⟨t, ht⟩
  simp only at this
  rw [this, hv]

theorem inv_spec (v : Fin n → ℝ) (t : Fin n) :
    (∑ k ∈ Finset.range n, dft n (zpad v) k * tw n k t).re / n = v t := by
  have hn : n ≠ 0 := by have := t.isLt; omega
  rw [sum_dft_tw hn, Nat.mod_eq_of_lt t.isLt, zpad_val]
  have hn' : (n : ℝ) ≠ 0 := by exact_mod_cast hn
  rw [show ((n : ℂ)) = ((n : ℝ) : ℂ) by push_cast; rfl, ← Complex.ofReal_mul, Complex.ofReal_re]
  field_simp

/-- `CirculantPreconditionerOperator` solves the circulant system if its safeguard is inactive. -/
theorem circPrecond_inverse [NeZero n] (hB : Covered B) {col : List ℝ}
    (hs : ∀ k ≤ n / 2, 1e-6 ≤ ‖symSpec n col k‖ ^ 2) (v : Fin n → ℝ) :
    circulant (fun i : Fin n => (symPrecondCol col).getD i 0) *ᵥ circPrecond B n col v = v := by
  have hherm : Herm n (symSpec n col) := herm_dft _
  have hs' : ∀ k < n, 1e-6 ≤ ‖symSpec n col k‖ ^ 2 := by
    intro k hk
    by_cases h : k ≤ n / 2
    · exact hs k h
    · have := hs (n - k) (by omega)
      rwa [hherm k (by omega) hk, RCLike.norm_conj] at this
  have hspec : ∀ k < n, symSpec n col k * B.specInv (symSpec n col k) = 1 := by
    intro k hk
    have h := hs' k hk
    set z := symSpec n col k
    have hz : z ≠ 0 := by
      intro h0
      rw [h0] at h
      norm_num at h
    have hsq : ‖z‖ ^ 2 = z.re ^ 2 + z.im ^ 2 := by
      rw [← Complex.normSq_eq_norm_sq, Complex.normSq_apply]; ring
    rw [hB.specInv, max_eq_left (by rw [← hsq]; exact h)]
    rw [← mul_div_assoc, Complex.mul_conj, Complex.normSq_apply]
    push_cast
    have h2 : (z.re : ℂ) * z.re + z.im * z.im = ((‖z‖ ^ 2 : ℝ) : ℂ) := by
      rw [hsq]; push_cast; ring
    have h3 : (z.re : ℂ) ^ 2 + z.im ^ 2 = ((‖z‖ ^ 2 : ℝ) : ℂ) := by
      rw [hsq]; push_cast; ring
    rw [h2, h3]
    refine div_self ?_
    have : ‖z‖ ≠ 0 := norm_ne_zero_iff.2 hz
    exact_mod_cast pow_ne_zero 2 this
  have hinvh : Herm n fun k => B.specInv (symSpec n col k) := by
    intro k h0 hk
    simp only
    rw [hherm k h0 hk, hB.specInv, hB.specInv, map_div₀, Complex.conj_ofReal]
    simp
  funext t
  have e : ∀ t : Fin n, circPrecond B n col v t =
      (∑ q ∈ Finset.range n, B.specInv (symSpec n col q) * dft n (zpad v) q * tw n q t).re / n := by
    intro t
    rw [circPrecond_eq hB]
    show specMul n _ _ (t, ()) = _
    unfold specMul
    congr 2
    refine Finset.sum_congr rfl fun k _ => ?_
    simp [mulVec, dotProduct, dftc]
  rw [circulant_mulVec (fun i => (symPrecondCol col).getD i 0)]
  rw [← inv_spec v t]
  congr 2
  refine Finset.sum_congr rfl fun k hk => ?_
  rw [Finset.mem_range] at hk
  congr 1
  rw [zpad_dft e (hinvh.mul (herm_dft _)) _ hk]
  · rw [← mul_assoc]
    show symSpec n col k * _ * _ = _
    rw [hspec k hk, one_mul]
  · have h1 : (symSpec n col 0).im = 0 := dft_zero_im _
    have h2 : (dft n (zpad v) 0).im = 0 := dft_zero_im _
    rw [Complex.mul_im, h2, mul_zero, zero_add, hB.specInv]
    have : (((starRingEnd ℂ) (symSpec n col 0) /
      ((max ((symSpec n col 0).re ^ 2 + (symSpec n col 0).im ^ 2) 1e-6 : ℝ) : ℂ))).im = 0 := by
      rw [Complex.div_ofReal_im]
      simp [h1]
    rw [this, zero_mul]

/-- `BlockCirculantPreconditionerOperator` solves the block circulant system. -/
theorem blockPrecond_inverse [NeZero n] (hB : Covered B) (hn : 2 ≤ n) {acf : Fin c → Fin c → List ℝ}
    (hc : ∀ k l, (acf k l).length = n + n) (hs : ∀ k ≤ n / 2, (blockPrecondSpec B acf k).det ≠ 0)
    (v : Fin n × Fin c → ℝ) (t : Fin n) (a : Fin c) :
    ∑ d, (circulant (fun i : Fin n => (nonsymPrecondCol B (acf a d)).getD i 0) *ᵥ
      fun i => blockPrecond B n acf v (i, d)) t = v (t, a) := by
  have hherm : ∀ a d, Herm n fun k => blockSpec B n acf k a d := fun a d => herm_dft _
  have hconj : ∀ k, 0 < k → k < n → blockSpec B n acf (n - k) = (blockSpec B n acf k)ᴴᵀ := by
    intro k h0 hk
    ext a d
    exact hherm a d k h0 hk
  have hdet : ∀ k < n, (blockSpec B n acf k).det ≠ 0 := by
    intro k hk
    by_cases h : k ≤ n / 2
    · rw [← blockPrecondSpec_eq hB hn hc h]; exact hs k h
    · have h1 := hs (n - k) (by omega)
      rw [blockPrecondSpec_eq hB hn hc (by omega), hconj k (by omega) hk, det_transpose, det_conjTranspose] at h1
      intro h0
      rw [h0] at h1
      simp at h1
  have e : ∀ d, ∀ t : Fin n, blockPrecond B n acf v (t, d) =
      (∑ q ∈ Finset.range n, ((blockSpec B n acf q)⁻¹ *ᵥ dftc v q) d * tw n q t).re / n := by
    intro d t
    rw [blockPrecond_eq hB hn hc]
    rfl
  have hF : ∀ d, Herm n fun q => ((blockSpec B n acf q)⁻¹ *ᵥ dftc v q) d := by
    intro d
    have h := Herm.sum (n := n) (S := Finset.univ) (F := fun i k => (blockSpec B n acf k)⁻¹ d i * dftc v k i)
      fun i _ => (herm_inv hherm d i).mul (herm_dft _)
    exact h
  have h0 : ∀ d, (((blockSpec B n acf 0)⁻¹ *ᵥ dftc v 0) d).im = 0 := by
    intro d
    have hr : (blockSpec B n acf 0)ᴴᵀ = blockSpec B n acf 0 := by
      ext a d
      show conj (blockSpec B n acf 0 a d) = _
      have : (blockSpec B n acf 0 a d).im = 0 := dft_zero_im _
      apply Complex.ext
      · simp
      · simp [this]
    have hi : ((blockSpec B n acf 0)⁻¹)ᴴᵀ = (blockSpec B n acf 0)⁻¹ := by
      rw [conjTranspose_nonsing_inv, transpose_nonsing_inv, hr]
    unfold mulVec dotProduct
    rw [Complex.im_sum]
    refine Finset.sum_eq_zero fun i _ => ?_
    have h2 : (dftc v 0 i).im = 0 := dft_zero_im _
    have h3 : ((blockSpec B n acf 0)⁻¹ d i).im = 0 := by
      have := congrFun (congrFun hi d) i
      exact Complex.conj_eq_iff_im.1 this
    show ((blockSpec B n acf 0)⁻¹ d i * dftc v 0 i).im = 0
    rw [Complex.mul_im, h2, h3]
    ring
  have step : ∀ d, (circulant (fun i : Fin n => (nonsymPrecondCol B (acf a d)).getD i 0) *ᵥ
      fun i => blockPrecond B n acf v (i, d)) t =
      (∑ k ∈ Finset.range n, blockSpec B n acf k a d * ((blockSpec B n acf k)⁻¹ *ᵥ dftc v k) d * tw n k t).re / n := by
    intro d
    rw [circulant_mulVec (fun i => (nonsymPrecondCol B (acf a d)).getD i 0)]
    congr 2
    refine Finset.sum_congr rfl fun k hk => ?_
    rw [Finset.mem_range] at hk
    rw [zpad_dft (e d) (hF d) (h0 d) hk]
    rfl
  rw [Finset.sum_congr rfl fun d _ => step d, ← Finset.sum_div, ← Complex.re_sum, Finset.sum_comm,
    ← inv_spec (fun i => v (i, a)) t]
  congr 2
  refine Finset.sum_congr rfl fun k hk => ?_
  rw [Finset.mem_range] at hk
  rw [← Finset.sum_mul]
  congr 1
  have : (blockSpec B n acf k *ᵥ ((blockSpec B n acf k)⁻¹ *ᵥ dftc v k)) a = dftc v k a := by
    rw [mulVec_mulVec, mul_nonsing_inv _ (isUnit_iff_ne_zero.2 (hdet k hk)), one_mulVec]
  exact this

end FBE
