import Verif.Proofs.BackwardRun
import Verif.Proofs.Precond

/-!
The block operators of the conjugate gradient method and the adjoints of their derivatives.
-/

set_option linter.unusedSectionVars false

namespace FBE.Backward

open Spec Complex Matrix Filter Topology

variable {n K r : ℕ}

local notation "conj" => starRingEnd ℂ

/-! ### The operators -/

/-- `irfft(einsum(C, rfft(v, n)), n)[:K]`. -/
noncomputable def mulBlk (n : ℕ) (C : BlkSpec r) (v : Fin K × Fin r → ℝ) : Fin K × Fin r → ℝ :=
  fun p => ∑ d, mulSpec n (fun f => C f p.2 d) (fun l => v (l, d)) p.1

theorem mulBlk_apply (C : BlkSpec r) (v : Fin K × Fin r → ℝ) (p : Fin K × Fin r) :
    mulBlk n C v p = (∑ f ∈ Finset.range (n / 2 + 1), half n f * ((∑ d, C f p.2 d * dft n (zpad fun l => v (l, d)) f) * tw n f p.1)).re / n := by
  unfold mulBlk mulSpec
  rw [← Finset.sum_div, ← re_sum, Finset.sum_comm]
  congr 2
  refine Finset.sum_congr rfl fun f _ => ?_
  rw [← Finset.mul_sum, ← Finset.sum_mul]

theorem lagCol_dft (v : Fin K × Fin r → ℝ) (d : Fin r) {f : ℕ} (hf : f < n / 2 + 1) :
    (rfft n (lagCol v d)).getD f 0 = dft n (zpad fun l => v (l, d)) f := by
  rw [rfft_getD _ _ (by omega)]
  unfold lagCol
  simp only [getD_ofFn]

theorem blockToeplitzOp_mulBlk (hK : 2 ≤ K) (acf : Fin r → Fin r → List ℝ) (v : Fin K × Fin r → ℝ) :
    blockToeplitzOp torchBackend K acf v = mulBlk (blockNfft K) (blkToepSpec K acf) v := by
  have hge := blockNfft_ge K
  funext p
  have hp := p.1.isLt
  rw [mulBlk_apply]
  unfold blockToeplitzOp vec
  rw [pySlice_take, getD_take _ _ _ _ hp, irfft_half (by omega) _ (by omega)]
  congr 2
  refine Finset.sum_congr rfl fun f hf => ?_
  simp only [lagCol_dft v _ (Finset.mem_range.1 hf)]
  rfl

theorem blockPrecond_mulBlk (hK : 2 ≤ K) (acf : Fin r → Fin r → List ℝ) (v : Fin K × Fin r → ℝ) :
    blockPrecond torchBackend K acf v = mulBlk K (fun f => (blockPrecondSpec torchBackend acf f)⁻¹) v := by
  funext p
  have hp := p.1.isLt
  rw [mulBlk_apply]
  unfold blockPrecond vec
  rw [irfft_half (by omega) _ (by omega)]
  congr 2
  refine Finset.sum_congr rfl fun f hf => ?_
  simp only [lagCol_dft v _ (Finset.mem_range.1 hf)]

theorem mulBlk_add (C : BlkSpec r) (y y' : Fin K × Fin r → ℝ) : mulBlk n C (y + y') = mulBlk n C y + mulBlk n C y' := by
  funext p
  unfold mulBlk
  rw [Pi.add_apply, ← Finset.sum_add_distrib]
  refine Finset.sum_congr rfl fun d _ => ?_
  have := mulSpec_add (n := n) (fun f => C f p.2 d) (fun l => y (l, d)) fun l => y' (l, d)
  exact congrFun this p.1

theorem mulBlk_smul (C : BlkSpec r) (a : ℝ) (y : Fin K × Fin r → ℝ) : mulBlk n C (a • y) = a • mulBlk n C y := by
  funext p
  unfold mulBlk
  rw [Pi.smul_apply, Finset.smul_sum]
  refine Finset.sum_congr rfl fun d _ => ?_
  have := mulSpec_smul (n := n) (fun f => C f p.2 d) a fun l => y (l, d)
  exact congrFun this p.1

theorem blk_ip (a b : Fin K × Fin r → ℝ) : innerProd a b = ∑ d, innerProd (fun l => a (l, d)) fun l => b (l, d) := by
  unfold innerProd
  rw [← Finset.univ_product_univ, Finset.sum_product, Finset.sum_comm]

theorem ip_sum {J ι : Type} [Fintype J] (T : Finset ι) (a : J → ℝ) (b : ι → J → ℝ) :
    innerProd a (fun l => ∑ i ∈ T, b i l) = ∑ i ∈ T, innerProd a (b i) := by
  unfold innerProd
  rw [Finset.sum_comm]
  exact Finset.sum_congr rfl fun l _ => Finset.mul_sum _ _ _

theorem sum_ip {J ι : Type} [Fintype J] (T : Finset ι) (a : ι → J → ℝ) (b : J → ℝ) :
    innerProd (fun l => ∑ i ∈ T, a i l) b = ∑ i ∈ T, innerProd (a i) b := by
  rw [ip_comm, ip_sum]
  exact Finset.sum_congr rfl fun i _ => ip_comm _ _

theorem ip_mulBlk (C : BlkSpec r) (g y : Fin K × Fin r → ℝ) :
    innerProd g (mulBlk n C y) = ∑ a, ∑ d, innerProd (fun l => g (l, a)) (mulSpec n (fun f => C f a d) fun l => y (l, d)) := by
  rw [blk_ip]
  refine Finset.sum_congr rfl fun a _ => ?_
  exact ip_sum _ _ _

theorem blkArg_adjoint (hK : K ≤ n) (C : BlkSpec r) (g y : Fin K × Fin r → ℝ) :
    innerProd (blkArg n C g) y = innerProd g (mulBlk n C y) := by
  rw [ip_mulBlk, blk_ip, Finset.sum_comm]
  refine Finset.sum_congr rfl fun d _ => ?_
  have h1 : (fun l => blkArg n C g (l, d)) = fun l : Fin K => ∑ a, opGrad n (fun f => C f a d) (fun l => g (l, a)) l := by
    funext l
    unfold blkArg opGrad
    exact rfftGrad_sum _ _ _ _
  rw [h1, sum_ip]
  exact Finset.sum_congr rfl fun a _ => opGrad_adjoint hK _ _ _

/-- The real inner product of the spectra of a block operator. -/
noncomputable def blkPair (n : ℕ) (G H : BlkSpec r) : ℝ := ∑ a, ∑ d, specPair n (fun f => G f a d) fun f => H f a d

theorem blkPar_adjoint (hK : K ≤ n) (C : BlkSpec r) (v g : Fin K × Fin r → ℝ) :
    blkPair n (blkPar n v g) C = innerProd g (mulBlk n C v) := by
  rw [ip_mulBlk]
  unfold blkPair
  refine Finset.sum_congr rfl fun a _ => Finset.sum_congr rfl fun d _ => ?_
  exact opSpecGrad_adjoint hK (fun f => C f a d) (fun l => g (l, a)) fun l => v (l, d)

theorem blkPair_add (G G' H : BlkSpec r) : blkPair n (G + G') H = blkPair n G H + blkPair n G' H := by
  unfold blkPair
  rw [← Finset.sum_add_distrib]
  refine Finset.sum_congr rfl fun a _ => ?_
  rw [← Finset.sum_add_distrib]
  exact Finset.sum_congr rfl fun d _ => specPair_add _ _ _ _

theorem blkPair_zero (H : BlkSpec r) : blkPair n 0 H = 0 := by
  unfold blkPair
  exact Finset.sum_eq_zero fun a _ => Finset.sum_eq_zero fun d _ => specPair_zero _ _

theorem blkPair_sum {ι : Type} (T : Finset ι) (G : ι → BlkSpec r) (H : BlkSpec r) :
    blkPair n (∑ i ∈ T, G i) H = ∑ i ∈ T, blkPair n (G i) H := by
  classical
  induction T using Finset.induction_on with
  | empty => exact blkPair_zero H
  | insert a T ha ih => rw [Finset.sum_insert ha, Finset.sum_insert ha, blkPair_add, ih]

theorem adj_toep (hK : 2 ≤ K) (acf : Fin r → Fin r → List ℝ) (C' : BlkSpec r) :
    Adj (blkToep K acf) (mulBlk (K := K) (blockNfft K) C') fun G => blkPair (blockNfft K) G C' := by
  have hge := blockNfft_ge K
  have e : (blkToep K acf).mul = mulBlk (blockNfft K) (blkToepSpec K acf) := funext fun v => blockToeplitzOp_mulBlk hK acf v
  refine ⟨fun y y' => ?_, fun a y => ?_, fun g y => ?_, fun v g => ?_, fun a b => blkPair_add _ _ _, blkPair_zero _⟩
  · rw [e, mulBlk_add]
  · rw [e, mulBlk_smul]
  · rw [e]
    exact blkArg_adjoint (by omega) _ _ _
  · exact blkPar_adjoint (by omega) _ _ _

theorem adj_prec (hK : 2 ≤ K) (acf : Fin r → Fin r → List ℝ) (C' : BlkSpec r) :
    Adj (blkPrec K acf) (mulBlk (K := K) K C') fun G => blkPair K G C' := by
  have e : (blkPrec K acf).mul = mulBlk K fun f => (blockPrecondSpec torchBackend acf f)⁻¹ := funext fun v => blockPrecond_mulBlk hK acf v
  refine ⟨fun y y' => ?_, fun a y => ?_, fun g y => ?_, fun v g => ?_, fun a b => blkPair_add _ _ _, blkPair_zero _⟩
  · rw [e, mulBlk_add]
  · rw [e, mulBlk_smul]
  · rw [e]
    exact blkArg_adjoint le_rfl _ _ _
  · exact blkPar_adjoint le_rfl _ _ _

section der

variable {X : Type*} [NormedAddCommGroup X] [NormedSpace ℝ X] {u : X}

theorem derOp_mulBlk {C C' : X → BlkSpec r} (hC : ∀ f < n / 2 + 1, ∀ a d, Der u (fun x => C x f a d) fun v => C' v f a d) :
    DerOp (J := Fin K × Fin r) u (fun x => mulBlk n (C x)) fun v => mulBlk n (C' v) := by
  intro y Y hy p
  unfold mulBlk
  refine (Der.sum fun d _ => DerV.mulSpec (n := n) (C := fun x f => C x f p.2 d) (C' := fun v f => C' v f p.2 d)
    (y := fun x l => y x (l, d)) (Y := fun v l => Y v (l, d)) (fun f hf => hC f hf p.2 d) (fun l => hy (l, d)) p.1).congr fun v => ?_
  simp only [Pi.add_apply]
  rw [Finset.sum_add_distrib]

/-! ### The inverse of a matrix -/

theorem Der.differentiableAt {E : Type*} [NormedAddCommGroup E] [NormedSpace ℝ E] {f G : X → E} (h : Der u f G) : DifferentiableAt ℝ f u := by
  obtain ⟨L, h1, -⟩ := h
  exact h1.differentiableAt

theorem differentiableAt_det {ι : Type} [Fintype ι] [DecidableEq ι] {C : X → Matrix ι ι ℂ} (h : ∀ a d, DifferentiableAt ℝ (fun x => C x a d) u) :
    DifferentiableAt ℝ (fun x => (C x).det) u := by
  simp only [Matrix.det_apply']
  refine DifferentiableAt.fun_sum fun σ _ => ?_
  refine DifferentiableAt.const_mul ?_ _
  exact (HasFDerivAt.finsetProd (g := fun i x => C x (σ i) i) fun i _ => (h _ _).hasFDerivAt).differentiableAt

theorem der_matInv {C C' : X → Matrix (Fin r) (Fin r) ℂ} (h : ∀ a d, Der u (fun x => C x a d) fun v => C' v a d) (h0 : (C u).det ≠ 0)
    (a d : Fin r) : Der u (fun x => (C x)⁻¹ a d) fun v => (-((C u)⁻¹ * C' v * (C u)⁻¹)) a d := by
  have hdet := differentiableAt_det fun a d => (h a d).differentiableAt
  have hne : ∀ᶠ x in 𝓝 u, (C x).det ≠ 0 := hdet.continuousAt.eventually_ne h0
  have hdi : ∀ a d, DifferentiableAt ℝ (fun x => (C x)⁻¹ a d) u := by
    intro a d
    simp only [Matrix.inv_def, Matrix.smul_apply, Ring.inverse_eq_inv', smul_eq_mul, Matrix.adjugate_apply]
    refine (hdet.inv h0).mul (differentiableAt_det fun i j => ?_)
    by_cases hi : i = d
    · subst hi
      simp only [Matrix.updateRow_self]
      exact differentiableAt_const _
    · simp only [Matrix.updateRow_ne hi]
      exact (h i j).differentiableAt
  let L : X → Matrix (Fin r) (Fin r) ℂ := fun v => Matrix.of fun a d => fderiv ℝ (fun x => (C x)⁻¹ a d) u v
  have hL : ∀ a d, Der u (fun x => (C x)⁻¹ a d) fun v => L v a d := fun a d => ⟨_, (hdi a d).hasFDerivAt, fun v => rfl⟩
  have key : ∀ v, C u * L v = -(C' v * (C u)⁻¹) := by
    intro v
    ext a d
    have h1 := Der.sum (S := (Finset.univ : Finset (Fin r))) fun b _ => (h a b).mul (hL b d)
    obtain ⟨D, h2, h3⟩ := h1
    have h4 : HasFDerivAt (fun x => ∑ b, C x a b * (C x)⁻¹ b d) (0 : X →L[ℝ] ℂ) u := by
      refine (hasFDerivAt_const ((1 : Matrix (Fin r) (Fin r) ℂ) a d) u).congr_of_eventuallyEq ?_
      filter_upwards [hne] with x hx
      have h5 := Matrix.mul_nonsing_inv (C x) (isUnit_iff_ne_zero.2 hx)
      have h6 := congrFun (congrFun h5 a) d
      rw [Matrix.mul_apply] at h6
      exact h6
    have h5 := h3 v
    rw [h2.unique h4] at h5
    have h6 : (0 : ℂ) = ∑ b, (C' v a b * (C u)⁻¹ b d + C u a b * L v b d) := h5
    rw [Finset.sum_add_distrib] at h6
    rw [Matrix.neg_apply, Matrix.mul_apply, Matrix.mul_apply]
    linear_combination -h6
  refine (hL a d).congr fun v => ?_
  have h1 : L v = (C u)⁻¹ * (C u * L v) := by
    rw [← Matrix.mul_assoc, Matrix.nonsing_inv_mul _ (isUnit_iff_ne_zero.2 h0), Matrix.one_mul]
  rw [h1, key, Matrix.mul_neg, Matrix.mul_assoc]

end der

theorem matPair_trace (G H : Matrix (Fin r) (Fin r) ℂ) : ∑ a, ∑ d, G a d * conj (H a d) = (G * Hᴴ).trace := by
  unfold Matrix.trace
  refine Finset.sum_congr rfl fun a _ => ?_
  rw [Matrix.diag_apply, Matrix.mul_apply]
  rfl

theorem invGrad_adjoint (C G C' : Matrix (Fin r) (Fin r) ℂ) :
    ∑ a, ∑ d, invGrad C G a d * conj (C' a d) = ∑ a, ∑ d, G a d * conj ((-(C⁻¹ * C' * C⁻¹)) a d) := by
  rw [matPair_trace, matPair_trace]
  unfold invGrad
  rw [Matrix.conjTranspose_neg, Matrix.conjTranspose_mul, Matrix.conjTranspose_mul, Matrix.neg_mul, Matrix.mul_neg, Matrix.trace_neg,
    Matrix.trace_neg, Matrix.mul_assoc, Matrix.mul_assoc, Matrix.trace_mul_comm, Matrix.mul_assoc, Matrix.mul_assoc]

theorem invGrad_pair (C C' G : BlkSpec r) :
    blkPair n (fun f => invGrad (C f) (G f)) C' = blkPair n G fun f => -((C f)⁻¹ * C' f * (C f)⁻¹) := by
  have h : ∀ G H : BlkSpec r, blkPair n G H = (∑ f ∈ Finset.range (n / 2 + 1), ∑ a, ∑ d, G f a d * conj (H f a d)).re := by
    intro G H
    have e : (∑ f ∈ Finset.range (n / 2 + 1), ∑ a, ∑ d, G f a d * conj (H f a d))
        = ∑ a, ∑ d, ∑ f ∈ Finset.range (n / 2 + 1), G f a d * conj (H f a d) := by
      rw [Finset.sum_comm]
      exact Finset.sum_congr rfl fun a _ => Finset.sum_comm
    rw [e, re_sum]
    unfold blkPair specPair
    exact Finset.sum_congr rfl fun a _ => (re_sum _ _).symm
  rw [h, h]
  congr 1
  exact Finset.sum_congr rfl fun f _ => invGrad_adjoint _ _ _

/-! ### The columns of the spectra -/

theorem pick_col {m : ℕ} (col : Fin m → ℝ) (q : ℕ) (a : ℝ) : ∑ p : Fin m, (if p.val = q then a else 0) * col p = a * zpad col q := by
  by_cases hq : q < m
  · rw [Finset.sum_eq_single (⟨q, hq⟩ : Fin m), if_pos rfl]
    · rw [show zpad col q = col ⟨q, hq⟩ from zpad_val col ⟨q, hq⟩]
    · intro b _ hb
      rw [if_neg (fun h => hb (Fin.ext h)), zero_mul]
    · simp
  · rw [zpad_of_le col (not_lt.1 hq), mul_zero]
    refine Finset.sum_eq_zero fun b _ => ?_
    rw [if_neg (by omega), zero_mul]

theorem pick_row {m : ℕ} (g : ℕ → ℝ) {q : ℕ} (hq : q < m) (a : ℝ) : ∑ t : Fin m, g t * (if t.val = q then a else 0) = g q * a := by
  rw [Finset.sum_eq_single (⟨q, hq⟩ : Fin m), if_pos rfl]
  · intro b _ hb
    rw [if_neg (fun h => hb (Fin.ext h)), mul_zero]
  · simp

/-- The columns of `Cforward` from the lags. -/
noncomputable def toepW (K t p : ℕ) : ℝ :=
  (if t = 0 ∧ p = 0 then 1 else 0) + (if 0 < t ∧ t < K ∧ p = K + K - t then 1 else 0) +
    (if blockNfft K - K < t ∧ p = blockNfft K - t then 1 else 0)

/-- The columns of the preconditioner from the lags. -/
noncomputable def precW (K t p : ℕ) : ℝ :=
  (if t = 0 ∧ p = 0 then 1 else 0) + (if 0 < t ∧ p = K + K - t then ((K - t : ℕ) : ℝ) / K else 0) + (if 0 < t ∧ p = K - t then (t : ℝ) / K else 0)

theorem pick_cond {m : ℕ} (col : Fin m → ℝ) (c : Prop) [Decidable c] (q : ℕ) (a : ℝ) :
    ∑ p : Fin m, (if c ∧ p.val = q then a else 0) * col p = if c then a * zpad col q else 0 := by
  by_cases hc : c
  · simp only [hc, true_and, if_true]
    exact pick_col col q a
  · simp [hc]

/-- A column of `m` values from the `2 K` lags. -/
noncomputable def lagLin (K m : ℕ) (W : ℕ → ℕ → ℝ) : (Fin (K + K) → ℝ) →ₗ[ℝ] (Fin m → ℝ) where
  toFun col := fun t => ∑ p : Fin (K + K), W t p * col p
  map_add' x y := by
    funext t
    simp only [Pi.add_apply, mul_add, Finset.sum_add_distrib]
  map_smul' a x := by
    funext t
    simp only [Pi.smul_apply, smul_eq_mul, RingHom.id_apply, Finset.mul_sum]
    exact Finset.sum_congr rfl fun p _ => by ring

theorem blockCircCol_lag (hK : 2 ≤ K) (col : Fin (K + K) → ℝ) {t : ℕ} (ht : t < blockNfft K) :
    (blockCircCol torchBackend K (List.ofFn col)).getD t 0 = ∑ p : Fin (K + K), toepW K t p * col p := by
  have hge := blockNfft_ge K
  rw [blockCircCol_get (Or.inl rfl) hK (by simp) ht]
  unfold toepW
  simp only [add_mul, Finset.sum_add_distrib, ← and_assoc]
  rw [pick_cond, pick_cond, pick_cond]
  simp only [getD_ofFn, one_mul]
  by_cases h0 : t = 0
  · rw [if_pos h0, if_pos h0, if_neg (by omega), if_neg (by omega), add_zero, add_zero]
  rw [if_neg h0, if_neg h0, zero_add]
  by_cases h1 : t < K
  · rw [if_pos h1, if_pos (by omega), if_neg (by omega), add_zero]
  rw [if_neg h1, if_neg (show ¬(0 < t ∧ t < K) by omega), zero_add]
  by_cases h2 : t ≤ blockNfft K - K
  · rw [if_pos h2, if_neg (by omega)]
  · rw [if_neg h2, if_pos (by omega)]

theorem precondCol_lag (hK : 2 ≤ K) (col : Fin (K + K) → ℝ) {t : ℕ} (ht : t < K) :
    (nonsymPrecondCol torchBackend (List.ofFn col)).getD t 0 = ∑ p : Fin (K + K), precW K t p * col p := by
  unfold precW
  simp only [add_mul, Finset.sum_add_distrib]
  rw [pick_cond, pick_cond, pick_cond]
  by_cases h0 : t = 0
  · subst h0
    rw [nonsymPrecondCol_zero hK (by simp), if_pos rfl, if_neg (by omega), if_neg (by omega), getD_ofFn]
    ring
  · rw [nonsymPrecondCol_get (Or.inl rfl) hK (by simp) (by omega) ht, if_neg h0, if_pos (by omega), if_pos (by omega), getD_ofFn, getD_ofFn]
    ring

theorem dft_getD_lag {m : ℕ} (l : List ℝ) (col : Fin m → ℝ) (h : ∀ t : Fin m, l.getD t 0 = col t) (f : ℕ) :
    dft m (fun t => l.getD t 0) f = dft m (zpad col) f := by
  unfold dft
  refine Finset.sum_congr rfl fun t ht => ?_
  have := h ⟨t, Finset.mem_range.1 ht⟩
  beta_reduce
  rw [show l.getD t 0 = zpad col t from this.trans (zpad_val col ⟨t, _⟩).symm]

theorem blkToepSpec_eq (hK : 2 ≤ K) (col : Fin r → Fin r → Fin (K + K) → ℝ) {f : ℕ} (hf : f < blockNfft K / 2 + 1) (k l : Fin r) :
    blkToepSpec K (fun k l => List.ofFn (col k l)) f k l = dft (blockNfft K) (zpad (lagLin K (blockNfft K) (toepW K) (col k l))) f := by
  unfold blkToepSpec
  rw [Matrix.of_apply, length_blockCircCol (Or.inl rfl) hK (by simp), rfft_getD _ _ (by omega)]
  exact dft_getD_lag _ _ (fun t => blockCircCol_lag hK _ t.isLt) f

theorem blockPrecondSpec_lag (hK : 2 ≤ K) (col : Fin r → Fin r → Fin (K + K) → ℝ) {f : ℕ} (hf : f < K / 2 + 1) (k l : Fin r) :
    blockPrecondSpec torchBackend (fun k l => List.ofFn (col k l)) f k l = dft K (zpad (lagLin K K (precW K) (col k l))) f := by
  unfold blockPrecondSpec
  rw [length_nonsymPrecondCol (Or.inl rfl) hK (by simp), rfft_getD _ _ (by omega)]
  exact dft_getD_lag _ _ (fun t => precondCol_lag hK _ t.isLt) f

theorem lagLin_adjoint {m : ℕ} (W : ℕ → ℕ → ℝ) (G : ℕ → ℂ) (col : Fin (K + K) → ℝ) :
    ∑ p : Fin (K + K), (∑ t : Fin m, rfftGrad m G t * W t p) * col p = specPair m G fun f => dft m (zpad (lagLin K m W col)) f := by
  unfold specPair
  rw [← rfftGrad_adjoint le_rfl]
  simp only [Finset.sum_mul]
  rw [Finset.sum_comm]
  refine Finset.sum_congr rfl fun t _ => ?_
  show _ = rfftGrad m G t * ∑ p : Fin (K + K), W t p * col p
  rw [Finset.mul_sum]
  exact Finset.sum_congr rfl fun p _ => by ring

theorem pick_row_cond {m : ℕ} (g : ℕ → ℝ) (c : Prop) [Decidable c] (P : ℕ → Prop) [DecidablePred P] {q : ℕ} (hq : c → q < m) (a : ℕ → ℝ)
    (hP : ∀ t < m, P t ↔ c ∧ t = q) : ∑ t : Fin m, g t * (if P t then a t else 0) = if c then g q * a q else 0 := by
  by_cases hc : c
  · rw [if_pos hc, ← pick_row (m := m) g (hq hc) (a q)]
    refine Finset.sum_congr rfl fun t _ => ?_
    have := hP t t.isLt
    by_cases ht : t.val = q
    · rw [if_pos (this.2 ⟨hc, ht⟩), if_pos ht, ht]
    · rw [if_neg (fun h => ht (this.1 h).2), if_neg ht]
  · rw [if_neg hc]
    refine Finset.sum_eq_zero fun t _ => ?_
    rw [if_neg (fun h => hc ((hP t t.isLt).1 h).1), mul_zero]

theorem blkToepCol_eq (hK : 2 ≤ K) (G : ℕ → ℂ) {p : ℕ} (hp : p < K + K) :
    blkToepCol K G p = ∑ t : Fin (blockNfft K), rfftGrad (blockNfft K) G t * toepW K t p := by
  have hge := blockNfft_ge K
  unfold toepW
  simp only [mul_add, Finset.sum_add_distrib]
  rw [pick_row_cond (rfftGrad (blockNfft K) G) (p = 0) (fun t => t = 0 ∧ p = 0) (q := 0) (fun _ => by omega) (fun _ => 1) (fun t ht => and_comm),
    pick_row_cond (rfftGrad (blockNfft K) G) (K < p) (fun t => 0 < t ∧ t < K ∧ p = K + K - t) (q := 2 * K - p) (fun _ => by omega) (fun _ => 1)
      (fun t ht => by omega),
    pick_row_cond (rfftGrad (blockNfft K) G) (0 < p ∧ p < K) (fun t => blockNfft K - K < t ∧ p = blockNfft K - t) (q := blockNfft K - p)
      (fun _ => by omega) (fun _ => 1) (fun t ht => by omega)]
  unfold blkToepCol
  dsimp only
  by_cases h0 : p = 0
  · rw [if_pos h0, if_pos h0, if_neg (by omega), if_neg (by omega)]
    ring
  rw [if_neg h0, if_neg h0]
  by_cases h1 : p < K
  · rw [if_pos h1, if_neg (by omega), if_pos (by omega)]
    ring
  rw [if_neg h1]
  by_cases h2 : p = K
  · rw [if_pos h2, if_neg (by omega), if_neg (by omega)]
    ring
  · rw [if_neg h2, if_pos (by omega), if_neg (by omega)]
    ring

theorem blkPrecCol_eq (hK : 2 ≤ K) (G : ℕ → ℂ) {p : ℕ} (hp : p < K + K) :
    blkPrecCol K G p = ∑ t : Fin K, rfftGrad K G t * precW K t p := by
  have hK0 : (K : ℝ) ≠ 0 := by
    have : K ≠ 0 := by omega
    exact_mod_cast this
  unfold precW
  simp only [mul_add, Finset.sum_add_distrib]
  rw [pick_row_cond (rfftGrad K G) (p = 0) (fun t => t = 0 ∧ p = 0) (q := 0) (fun _ => by omega) (fun _ => 1) (fun t ht => and_comm),
    pick_row_cond (rfftGrad K G) (K < p) (fun t => 0 < t ∧ p = K + K - t) (q := 2 * K - p) (fun _ => by omega)
      (fun t => ((K - t : ℕ) : ℝ) / K) (fun t ht => by omega),
    pick_row_cond (rfftGrad K G) (0 < p ∧ p < K) (fun t => 0 < t ∧ p = K - t) (q := K - p) (fun _ => by omega)
      (fun t => (t : ℝ) / K) (fun t ht => by omega)]
  unfold blkPrecCol
  dsimp only
  by_cases h0 : p = 0
  · rw [if_pos h0, if_pos h0, if_neg (by omega), if_neg (by omega)]
    ring
  rw [if_neg h0, if_neg h0]
  by_cases h1 : p < K
  · rw [if_pos h1, if_neg (by omega), if_pos (by omega)]
    ring
  rw [if_neg h1]
  by_cases h2 : p = K
  · rw [if_pos h2, if_neg (by omega), if_neg (by omega)]
    ring
  · rw [if_neg h2, if_pos (by omega), if_neg (by omega), Nat.cast_sub (show 2 * K - p ≤ K by omega)]
    field_simp
    ring

/-- The gradients of the lags, applied to a direction. -/
theorem blkAcfGrad_adjoint (hK : 2 ≤ K) (acf : Fin r → Fin r → List ℝ) (gA gP : BlkSpec r) (c' : Fin r → Fin r → Fin (K + K) → ℝ) :
    ∑ k, ∑ l, ∑ p : Fin (K + K), blkAcfGrad K acf gA gP k l p * c' k l p =
      blkPair (blockNfft K) gA (blkToepSpec K fun k l => List.ofFn (c' k l)) +
      blkPair K gP fun f => -((blockPrecondSpec torchBackend acf f)⁻¹ * blockPrecondSpec torchBackend (fun k l => List.ofFn (c' k l)) f *
        (blockPrecondSpec torchBackend acf f)⁻¹) := by
  rw [← invGrad_pair]
  unfold blkPair blkAcfGrad
  rw [← Finset.sum_add_distrib]
  refine Finset.sum_congr rfl fun k _ => ?_
  rw [← Finset.sum_add_distrib]
  refine Finset.sum_congr rfl fun l _ => ?_
  simp only [add_mul, Finset.sum_add_distrib]
  congr 1
  · rw [Finset.sum_congr rfl fun p _ => by rw [blkToepCol_eq hK _ p.isLt], lagLin_adjoint]
    unfold specPair
    congr 1
    exact Finset.sum_congr rfl fun f hf => congrArg (fun z => gA f k l * conj z) (blkToepSpec_eq hK _ (Finset.mem_range.1 hf) k l).symm
  · rw [Finset.sum_congr rfl fun p _ => by rw [blkPrecCol_eq hK _ p.isLt], lagLin_adjoint]
    unfold specPair
    congr 1
    exact Finset.sum_congr rfl fun f hf => congrArg (fun z => invGrad (blockPrecondSpec torchBackend acf f) (gP f) k l * conj z)
      (blockPrecondSpec_lag hK _ (Finset.mem_range.1 hf) k l).symm

section der2

variable {X : Type*} [NormedAddCommGroup X] [NormedSpace ℝ X] {u : X} {col col' : X → Fin r → Fin r → Fin (K + K) → ℝ}

theorem der_blkToepSpec (hK : 2 ≤ K) (h : ∀ k l, DerV u (fun x => col x k l) fun v => col' v k l) {f : ℕ} (hf : f < blockNfft K / 2 + 1)
    (k l : Fin r) :
    Der u (fun x => blkToepSpec K (fun k l => List.ofFn (col x k l)) f k l) fun v => blkToepSpec K (fun k l => List.ofFn (col' v k l)) f k l := by
  simp only [blkToepSpec_eq hK _ hf]
  exact Der.dft ((h k l).linear _) f

theorem der_blkPrecSpec (hK : 2 ≤ K) (h : ∀ k l, DerV u (fun x => col x k l) fun v => col' v k l) {f : ℕ} (hf : f < K / 2 + 1)
    (h0 : (blockPrecondSpec torchBackend (fun k l => List.ofFn (col u k l)) f).det ≠ 0) (k l : Fin r) :
    Der u (fun x => (blockPrecondSpec torchBackend (fun k l => List.ofFn (col x k l)) f)⁻¹ k l) fun v =>
      (-((blockPrecondSpec torchBackend (fun k l => List.ofFn (col u k l)) f)⁻¹ * blockPrecondSpec torchBackend (fun k l => List.ofFn (col' v k l)) f *
        (blockPrecondSpec torchBackend (fun k l => List.ofFn (col u k l)) f)⁻¹)) k l := by
  refine der_matInv (C' := fun v => blockPrecondSpec torchBackend (fun k l => List.ofFn (col' v k l)) f) (fun a d => ?_) h0 k l
  simp only [blockPrecondSpec_lag hK _ hf]
  exact Der.dft ((h a d).linear _) f

end der2

end FBE.Backward
