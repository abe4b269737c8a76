import Verif.Proofs.CgSolve

/-!
# Solvers and changes of sign and order

If the systems are related by a change of the order and of the signs of the coordinates, so are the
solutions, for both solvers.
-/

set_option linter.unusedSectionVars false

namespace FBE

open Spec Matrix

variable {J J' : Type} [Fintype J] [Fintype J'] [DecidableEq J] [DecidableEq J']

/-! ### matrices -/

section ring

variable {R : Type} [Field R] {a : J' → R} (ha : ∀ p, a p * a p = 1) (ρ : J' ≃ J) {A' : Matrix J' J' R} {A : Matrix J J R}
  (h : ∀ p q, A' p q = a p * a q * A (ρ p) (ρ q))
include ha h

theorem signed_eq : A' = diagonal a * A.submatrix ρ ρ * diagonal a := by
  ext p q
  rw [mul_diagonal, diagonal_mul, submatrix_apply, h]
  ring

omit h [DecidableEq J] in
theorem diagonal_mul_self : diagonal a * diagonal a = (1 : Matrix J' J' R) := by
  rw [diagonal_mul_diagonal]
  simp only [ha]
  exact diagonal_one

theorem signed_det : A'.det = A.det := by
  have h1 : (diagonal a).det * (diagonal a).det = 1 := by
    rw [← det_mul, diagonal_mul_self ha, det_one]
  rw [signed_eq ha ρ h, det_mul, det_mul, det_submatrix_equiv_self]
  linear_combination A.det * h1

theorem signed_mulVec (v : J → R) (p : J') : (A' *ᵥ fun q => a q * v (ρ q)) p = a p * (A *ᵥ v) (ρ p) := by
  unfold mulVec dotProduct
  rw [Finset.mul_sum, ← Equiv.sum_comp ρ]
  refine Finset.sum_congr rfl fun q _ => ?_
  show A' p q * (a q * v (ρ q)) = a p * (A (ρ p) (ρ q) * v (ρ q))
  rw [h]
  linear_combination a p * A (ρ p) (ρ q) * v (ρ q) * ha q

theorem signed_inv (p q : J') : A'⁻¹ p q = a p * a q * A⁻¹ (ρ p) (ρ q) := by
  have hd : (diagonal a)⁻¹ = diagonal a := inv_eq_left_inv (diagonal_mul_self ha)
  rw [signed_eq ha ρ h, Matrix.mul_inv_rev, Matrix.mul_inv_rev, hd, inv_submatrix_equiv, ← mul_assoc, mul_diagonal, diagonal_mul,
    submatrix_apply]
  ring

end ring

/-! ### the loop -/

/-- Change of signs and order. -/
def signed (a : J' → ℝ) (ρ : J' → J) : (J → ℝ) →ₗ[ℝ] (J' → ℝ) where
  toFun v p := a p * v (ρ p)
  map_add' v w := by funext p; simp only [Pi.add_apply]; ring
  map_smul' c v := by funext p; simp only [Pi.smul_apply, smul_eq_mul, RingHom.id_apply]; ring

theorem signed_dot {a : J' → ℝ} (ha : ∀ p, a p * a p = 1) (ρ : J' ≃ J) (v w : J → ℝ) :
    signed a ρ v ⬝ᵥ signed a ρ w = v ⬝ᵥ w := by
  unfold dotProduct
  rw [← Equiv.sum_comp ρ]
  refine Finset.sum_congr rfl fun p _ => ?_
  show a p * v (ρ p) * (a p * w (ρ p)) = _
  linear_combination v (ρ p) * w (ρ p) * ha p

theorem cgRun_map {T : (J → ℝ) →ₗ[ℝ] (J' → ℝ)} (hT : ∀ v w, T v ⬝ᵥ T w = v ⬝ᵥ w) {A M : (J → ℝ) → (J → ℝ)}
    {A' M' : (J' → ℝ) → (J' → ℝ)} (hA : ∀ v, A' (T v) = T (A v)) (hM : ∀ v, M' (T v) = T (M v)) (b x0 : J → ℝ) (n : ℕ) :
    cgRun A' M' (T b) (T x0) n = ⟨T (cgRun A M b x0 n).x, T (cgRun A M b x0 n).r, T (cgRun A M b x0 n).p,
      (cgRun A M b x0 n).rsold⟩ := by
  induction n with
  | zero =>
    have h1 : T b - A' (T x0) = T (b - A x0) := by rw [hA, map_sub]
    show CgState.mk (T x0) (T b - A' (T x0)) (M' (T b - A' (T x0))) ((T b - A' (T x0)) ⬝ᵥ M' (T b - A' (T x0))) =
      CgState.mk (T x0) (T (b - A x0)) (T (M (b - A x0))) ((b - A x0) ⬝ᵥ M (b - A x0))
    rw [h1, hM, hT]
  | succ n ih =>
    rw [cgRun_succ, cgRun_succ, ih, cgBody_eq, cgBody_eq]
    simp only [hA, hT]
    simp only [← map_smul, ← map_sub, ← map_add, hM, hT]

theorem cg_map {T : (J → ℝ) →ₗ[ℝ] (J' → ℝ)} (hT : ∀ v w, T v ⬝ᵥ T w = v ⬝ᵥ w) {A M : (J → ℝ) → (J → ℝ)}
    {A' M' : (J' → ℝ) → (J' → ℝ)} (hA : ∀ v, A' (T v) = T (A v)) (hM : ∀ v, M' (T v) = T (M v)) (b x0 : J → ℝ) (n : ℕ) :
    conjugateGradient A' M' (T b) (T x0) n = T (conjugateGradient A M b x0 n) := by
  unfold conjugateGradient
  rw [cgRun_map hT hA hM]

/-! ### one reference -/

variable {B : Backend} {ι ι' : Type} {r r' e e' K : ℕ}

/-- The solutions for single references. -/
noncomputable def solOne (B : Backend) (cg : Option ℕ) (K : ℕ) (acf : ι → Fin r → List ℝ)
    (xc : ι → Fin r → Fin e → Fin K → ℝ) : Except PyErr (ι × Fin r → Fin e → Fin K → ℝ) :=
  match cg with
  | none => solveStack (fun i : ι × Fin r => toeplitz B K (acf i.1 i.2)) (fun i j => xc i.1 i.2 j)
  | some it => .ok fun i j => toeplitzCg B K (acf i.1 i.2) (xc i.1 i.2 j) it

theorem toeplitzCg_sign (hB : Covered B) {col : List ℝ} (hc : col.length = K) (hK : 0 < K) {ε : ℝ} (hε : ε * ε = 1)
    (b : Fin K → ℝ) (it : ℕ) : toeplitzCg B K col (ε • b) it = ε • toeplitzCg B K col b it := by
  unfold toeplitzCg
  rw [symToeplitzOp_coe hB hc hK, circPrecond_coe hB]
  have := cg_map (T := ε • LinearMap.id) (A := (toeplitz B K col).mulVecLin) (M := circPrecondLin B K col)
    (A' := (toeplitz B K col).mulVecLin) (M' := circPrecondLin B K col)
    (fun v w => by
      show (ε • v) ⬝ᵥ (ε • w) = _
      rw [smul_dotProduct, dotProduct_smul, smul_smul, hε, one_smul])
    (fun v => map_smul _ ε v) (fun v => map_smul _ ε v) b (fun _ => 0) it
  have h0 : (ε • LinearMap.id : (Fin K → ℝ) →ₗ[ℝ] (Fin K → ℝ)) (fun _ => 0) = fun _ => 0 := by
    funext i; simp
  rw [h0] at this
  exact this

theorem solOne_map (hB : Covered B) (cg : Option ℕ) (hK : 0 < K) {acf : ι → Fin r → List ℝ} {acf' : ι' → Fin r' → List ℝ}
    {xc : ι → Fin r → Fin e → Fin K → ℝ} {xc' : ι' → Fin r' → Fin e' → Fin K → ℝ} (hlen : ∀ i k, (acf i k).length = K)
    {μ : ι' → ι} {π : ι' → Fin r' → Fin r} {σ : ι' → Fin e' → Fin e} {ε : ι' → Fin r' → Fin e' → ℝ}
    (hε : ∀ i k j, ε i k j * ε i k j = 1) (ha : ∀ i k, acf' i k = acf (μ i) (π i k))
    (hx : ∀ i k j, xc' i k j = ε i k j • xc (μ i) (π i k) (σ i j)) {sol} (h : solOne B cg K acf xc = .ok sol) :
    solOne B cg K acf' xc' = .ok fun i j => ε i.1 i.2 j • sol (μ i.1, π i.1 i.2) (σ i.1 j) := by
  unfold solOne at h ⊢
  cases cg with
  | none =>
    simp only [solveStack] at h ⊢
    split at h
    · cases h
    · rename_i hs
      cases h
      rw [if_neg]
      · congr 1
        funext i j
        rw [ha, hx, mulVec_smul]
      · rintro ⟨i, hi⟩
        rw [ha] at hi
        exact hs ⟨(μ i.1, π i.1 i.2), hi⟩
  | some it =>
    cases h
    simp only
    congr 1
    funext i j
    rw [ha, hx, toeplitzCg_sign hB (hlen _ _) hK (hε _ _ _)]

/-! ### all references -/

/-- The solutions for all references. -/
noncomputable def solAll (B : Backend) (cg : Option ℕ) (K : ℕ) (acf : ι → Fin r → Fin r → List ℝ)
    (xc x0 : ι → Fin e → Fin K × Fin r → ℝ) : Except PyErr (ι → Fin e → Fin K × Fin r → ℝ) :=
  match cg with
  | none => match blockToeplitz B K acf with
    | .error err => .error err
    | .ok R => solveStack R xc
  | some it => blockCg B K acf xc x0 it

/-- Lists with entries multiplied by `α k * α l`, channels reordered by `π`. -/
structure SignedLists (K : ℕ) (α : Fin r' → ℝ) (π : Fin r' → Fin r) (acf' : Fin r' → Fin r' → List ℝ)
    (acf : Fin r → Fin r → List ℝ) : Prop where
  len' : ∀ k l, (acf' k l).length = K + K
  len : ∀ k l, (acf k l).length = K + K
  get : ∀ k l t, t < K → (acf' k l).getD t 0 = α k * α l * (acf (π k) (π l)).getD t 0
  get_neg : ∀ k l t, 0 < t → t < K →
    (acf' k l).getD (K + K - t) 0 = α k * α l * (acf (π k) (π l)).getD (K + K - t) 0

section all

variable {α : Fin r' → ℝ} (hα : ∀ k, α k * α k = 1) (π : Fin r' ≃ Fin r) {acf' : Fin r' → Fin r' → List ℝ}
  {acf : Fin r → Fin r → List ℝ} (h : SignedLists K α π acf' acf)

/-- Reordering of the channels in all blocks. -/
def chan (K : ℕ) (π : Fin r' ≃ Fin r) : Fin K × Fin r' ≃ Fin K × Fin r := Equiv.prodCongr (Equiv.refl _) π

include h in
theorem lagAt_signed (k l : Fin r') {i j : ℕ} (hi : i < K) (hj : j < K) :
    lagAt (acf' k l) i j = α k * α l * lagAt (acf (π k) (π l)) i j := by
  unfold lagAt
  split
  · rw [h.get _ _ _ (by omega)]
  · rw [h.len', h.len, h.get_neg _ _ _ (by omega) (by omega)]

include h in
theorem lagMatrix_signed (p q : Fin K × Fin r') :
    lagMatrix K acf' p q = α p.2 * α q.2 * lagMatrix K acf (chan K π p) (chan K π q) :=
  lagAt_signed π h p.2 q.2 p.1.isLt q.1.isLt

include h in
theorem blockSpec_signed (hB : Covered B) (hK : 2 ≤ K) (k : ℕ) (a d : Fin r') :
    blockSpec B K acf' k a d = (α a : ℂ) * (α d : ℂ) * blockSpec B K acf k (π a) (π d) := by
  have hKR : (K : ℝ) ≠ 0 := by
    have : K ≠ 0 := by omega
    exact_mod_cast this
  have e : ∀ t < K, (nonsymPrecondCol B (acf' a d)).getD t 0 =
      α a * α d * (nonsymPrecondCol B (acf (π a) (π d))).getD t 0 := by
    intro t ht
    apply mul_left_cancel₀ hKR
    rw [nonsymPrecondCol_mean hB hK (h.len' a d) ht]
    have := nonsymPrecondCol_mean hB hK (h.len (π a) (π d)) ht
    rw [show (K : ℝ) * (α a * α d * (nonsymPrecondCol B (acf (π a) (π d))).getD t 0) =
      α a * α d * ((K : ℝ) * (nonsymPrecondCol B (acf (π a) (π d))).getD t 0) by ring, this, Finset.mul_sum]
    refine Finset.sum_congr rfl fun j hj => ?_
    rw [Finset.mem_range] at hj
    exact lagAt_signed π h a d (Nat.mod_lt _ (by omega)) hj
  show dft K _ k = _ * dft K _ k
  unfold dft
  rw [Finset.mul_sum]
  refine Finset.sum_congr rfl fun t ht => ?_
  rw [Finset.mem_range] at ht
  beta_reduce
  rw [e t ht]
  push_cast
  ring

include hα h in
theorem blockPrecond_signed (hB : Covered B) (hK : 2 ≤ K) {β : ℝ} (v : Fin K × Fin r → ℝ) :
    blockPrecond B K acf' (signed (fun p : Fin K × Fin r' => α p.2 * β) (chan K π) v) =
      signed (fun p : Fin K × Fin r' => α p.2 * β) (chan K π) (blockPrecond B K acf v) := by
  rw [blockPrecond_eq hB hK h.len', blockPrecond_eq hB hK h.len]
  have hd : ∀ k d, dftc (signed (fun p : Fin K × Fin r' => α p.2 * β) (chan K π) v) k d =
      (α d : ℂ) * ((β : ℂ) * dftc v k (π d)) := by
    intro k d
    simp only [dftc, dft_zpad]
    rw [Finset.mul_sum, Finset.mul_sum]
    refine Finset.sum_congr rfl fun t _ => ?_
    show ((α d * β * v (t, π d) : ℝ) : ℂ) * _ = _
    push_cast
    ring
  funext p
  obtain ⟨t, a⟩ := p
  show specMul K _ _ (t, a) = α a * β * specMul K _ v (t, π a)
  unfold specMul
  have hinv := fun k => signed_mulVec (R := ℂ) (a := fun k => (α k : ℂ)) (fun k => by exact_mod_cast hα k) π
    (A' := (blockSpec B K acf' k)⁻¹) (A := (blockSpec B K acf k)⁻¹)
    (signed_inv (R := ℂ) (a := fun k => (α k : ℂ)) (fun k => by exact_mod_cast hα k) π (blockSpec_signed π h hB hK k))
    (fun d => (β : ℂ) * dftc v k d) a
  have e1 : ∀ k, ((blockSpec B K acf' k)⁻¹ *ᵥ dftc (signed (fun p : Fin K × Fin r' => α p.2 * β) (chan K π) v) k) a =
      ((α a * β : ℝ) : ℂ) * ((blockSpec B K acf k)⁻¹ *ᵥ dftc v k) (π a) := by
    intro k
    have e2 : dftc (signed (fun p : Fin K × Fin r' => α p.2 * β) (chan K π) v) k =
      fun d => (α d : ℂ) * ((β : ℂ) * dftc v k (π d)) := funext (hd k)
    rw [e2, hinv k]
    have e3 : (fun d => (β : ℂ) * dftc v k d) = (β : ℂ) • dftc v k := rfl
    rw [e3, mulVec_smul, Pi.smul_apply, smul_eq_mul]
    push_cast
    ring
  simp only [e1]
  rw [show (∑ k ∈ Finset.range K, ((α a * β : ℝ) : ℂ) * ((blockSpec B K acf k)⁻¹ *ᵥ dftc v k) (π a) * tw K k t) =
    ((α a * β : ℝ) : ℂ) * ∑ k ∈ Finset.range K, ((blockSpec B K acf k)⁻¹ *ᵥ dftc v k) (π a) * tw K k t by
      rw [Finset.mul_sum]
      exact Finset.sum_congr rfl fun k _ => by ring, Complex.re_ofReal_mul, mul_div_assoc]

include hα h in
theorem blockPrecondSpec_signed (hB : Covered B) (hK : 2 ≤ K) {k : ℕ} (hk : k ≤ K / 2) :
    (blockPrecondSpec B acf' k).det = (blockPrecondSpec B acf k).det := by
  rw [blockPrecondSpec_eq hB hK h.len' hk, blockPrecondSpec_eq hB hK h.len hk]
  exact signed_det (R := ℂ) (a := fun k => (α k : ℂ)) (fun k => by exact_mod_cast hα k) π (blockSpec_signed π h hB hK k)

end all

theorem solAll_map (hB : Covered B) (cg : Option ℕ) (hK : 2 ≤ K) {acf : ι → Fin r → Fin r → List ℝ}
    {acf' : ι' → Fin r' → Fin r' → List ℝ} {xc x0 : ι → Fin e → Fin K × Fin r → ℝ}
    {xc' x0' : ι' → Fin e' → Fin K × Fin r' → ℝ}
    {μ : ι' → ι} {π : ι' → Fin r' ≃ Fin r} {σ : ι' → Fin e' → Fin e} {α : ι' → Fin r' → ℝ} {β : ι' → Fin e' → ℝ}
    (hα : ∀ i k, α i k * α i k = 1) (hβ : ∀ i j, β i j * β i j = 1)
    (ha : ∀ i, SignedLists K (α i) (π i) (acf' i) (acf (μ i))) (hlen : ∀ i k l, (acf i k l).length = K + K)
    (hx : ∀ i j, xc' i j = signed (fun p => α i p.2 * β i j) (chan K (π i)) (xc (μ i) (σ i j)))
    (h0 : cg ≠ none → ∀ i j, x0' i j = signed (fun p => α i p.2 * β i j) (chan K (π i)) (x0 (μ i) (σ i j)))
    {sol} (h : solAll B cg K acf xc x0 = .ok sol) :
    solAll B cg K acf' xc' x0' = .ok fun i j => signed (fun p => α i p.2 * β i j) (chan K (π i)) (sol (μ i) (σ i j)) := by
  have hαβ : ∀ i j (p : Fin K × Fin r'), (α i p.2 * β i j) * (α i p.2 * β i j) = 1 := fun i j p => by
    linear_combination β i j * β i j * hα i p.2 + hβ i j
  unfold solAll at h ⊢
  cases cg with
  | none =>
    simp only at h ⊢
    rw [blockToeplitz_ok hK _ (fun i k l => by rw [hlen]; omega)] at h
    rw [blockToeplitz_ok hK _ (fun i k l => by rw [(ha i).len']; omega)]
    simp only [solveStack] at h ⊢
    split at h
    · cases h
    · rename_i hs
      cases h
      have key : ∀ i p q, lagMatrix K (acf' i) p q =
          α i p.2 * α i q.2 * lagMatrix K (acf (μ i)) (chan K (π i) p) (chan K (π i) q) :=
        fun i p q => lagMatrix_signed (π i) (ha i) p q
      have hdet : ∀ i, (lagMatrix K (acf' i)).det = (lagMatrix K (acf (μ i))).det := fun i =>
        signed_det (R := ℝ) (a := fun p => α i p.2) (fun p => hα i p.2) (chan K (π i)) (key i)
      have hs' : ∀ i, (lagMatrix K (acf i)).det ≠ 0 := fun i hi => hs ⟨i, hi⟩
      rw [if_neg]
      · congr 1
        funext i j
        symm
        refine inv_unique (H := lagMatrix K (acf' i)) (by rw [hdet]; exact hs' _) ?_
        rw [hx]
        funext p
        have hkey' : ∀ p q, lagMatrix K (acf' i) p q = (α i p.2 * β i j) * (α i q.2 * β i j) *
            lagMatrix K (acf (μ i)) (chan K (π i) p) (chan K (π i) q) := fun p q => by
          rw [key]
          linear_combination (-1 : ℝ) * α i p.2 * α i q.2 * lagMatrix K (acf (μ i)) (chan K (π i) p) (chan K (π i) q) * hβ i j
        have := signed_mulVec (R := ℝ) (a := fun p => α i p.2 * β i j) (hαβ i j) (chan K (π i)) hkey'
          ((lagMatrix K (acf (μ i)))⁻¹ *ᵥ xc (μ i) (σ i j)) p
        rw [mulVec_inv (hs' _)] at this
        exact this
      · rintro ⟨i, hi⟩
        exact hs' (μ i) ((hdet i).symm.trans hi)
  | some it =>
    simp only [blockCg] at h ⊢
    split at h
    · cases h
    · rename_i hs
      cases h
      rw [if_neg]
      · congr 1
        funext i j
        rw [hx, h0 (by simp)]
        refine cg_map (signed_dot (hαβ i j) (chan K (π i))) (fun v => ?_) (fun v => ?_) _ _ _
        · rw [blockToeplitzOp_eq hB hK (ha i).len', blockToeplitzOp_eq hB hK (ha i).len]
          funext p
          refine signed_mulVec (R := ℝ) (a := fun p => α i p.2 * β i j) (hαβ i j) (chan K (π i)) (fun p q => ?_) v p
          rw [lagMatrix_signed (π i) (ha i)]
          linear_combination (-1 : ℝ) * α i p.2 * α i q.2 * lagMatrix K (acf (μ i)) (chan K (π i) p) (chan K (π i) q) * hβ i j
        · exact blockPrecond_signed (hα i) (π i) (ha i) hB hK v
      · rintro ⟨i, k, hk, h0⟩
        rw [blockPrecondSpec_signed (hα i) (π i) (ha i) hB hK hk] at h0
        exact hs ⟨μ i, k, hk, h0⟩

end FBE
