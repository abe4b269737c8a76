import Verif.Props.C105_PolarityBss
import Verif.Props.C107_OrderGradientsBssCg

/-!
# C105: gradients through `bss_eval_sources` with `use_cg_iter` of signals with the polarity inverted
-/

namespace FBE.Props

open Classical FBE.Spec FBE.Backward FBE.Polarity XR

variable {s : List ℕ} {r e c N M K it : ℕ} {o : Opts}

/-! ### the block operators with signs -/

/-- Lags of channels with signs. -/
noncomputable def sgnMap (K : ℕ) (α : Fin r → ℝ) (β : ℝ) : (Fin K × Fin r → ℝ) →ₗ[ℝ] (Fin K × Fin r → ℝ) :=
  FBE.signed (fun p => α p.2 * β) (chan K (Equiv.refl (Fin r)))

theorem sgnMap_apply (α : Fin r → ℝ) (β : ℝ) (v : Fin K × Fin r → ℝ) (p : Fin K × Fin r) : sgnMap K α β v p = α p.2 * β * v p := rfl

/-- Spectra of channels with signs. -/
noncomputable def specSgn (α : Fin r → ℝ) : BlkSpec r →+ BlkSpec r where
  toFun C f := Matrix.of fun a d => (α a : ℂ) * (α d : ℂ) * C f a d
  map_zero' := by
    funext f
    ext a d
    exact mul_zero _
  map_add' C D := by
    funext f
    ext a d
    exact mul_add _ _ _

theorem specSgn_apply (α : Fin r → ℝ) (C : BlkSpec r) (f : ℕ) (a d : Fin r) : specSgn α C f a d = (α a : ℂ) * (α d : ℂ) * C f a d := rfl

section blk

variable {α : Fin r → ℝ} (hα : ∀ k, α k * α k = 1) {β : ℝ} (hβ : β * β = 1)
include hα

theorem sqc (k : Fin r) : (α k : ℂ) * (α k : ℂ) = 1 := by exact_mod_cast congrArg (fun x : ℝ => (x : ℂ)) (hα k)

theorem blkArg_sgn (n : ℕ) {C C' : BlkSpec r} (hC : ∀ f a d, C' f a d = (α a : ℂ) * (α d : ℂ) * C f a d) (g : Fin K × Fin r → ℝ) :
    blkArg n C' (sgnMap K α β g) = sgnMap K α β (blkArg n C g) := by
  funext p
  rw [sgnMap_apply]
  unfold blkArg
  rw [← rfftGrad_signed]
  congr 1
  funext f
  rw [Finset.mul_sum]
  refine Finset.sum_congr rfl fun a _ => ?_
  have e : irfftGrad n K (fun l => sgnMap K α β g (l, a)) f = ((α a * β : ℝ) : ℂ) * irfftGrad n K (fun l => g (l, a)) f :=
    irfftGrad_signed n K (α a * β) (fun l => g (l, a)) f
  rw [e, hC]
  simp only [map_mul, Complex.conj_ofReal]
  push_cast
  linear_combination ((α p.2 : ℂ) * β * irfftGrad n K (fun l => g (l, a)) f * (starRingEnd ℂ) (C f a p.2)) * sqc hα a

omit hα in
include hβ in
theorem blkPar_sgn (n : ℕ) (v g : Fin K × Fin r → ℝ) : blkPar n (sgnMap K α β v) (sgnMap K α β g) = specSgn α (blkPar n v g) := by
  funext f
  ext a d
  rw [specSgn_apply]
  show irfftGrad n K (fun l => α a * β * g (l, a)) f * (starRingEnd ℂ) (Backward.spectrum n (fun l => α d * β * v (l, d)) f) =
    (α a : ℂ) * (α d : ℂ) * (irfftGrad n K (fun l => g (l, a)) f * (starRingEnd ℂ) (Backward.spectrum n (fun l => v (l, d)) f))
  rw [irfftGrad_signed, spectrum_signed]
  simp only [map_mul, Complex.conj_ofReal]
  push_cast
  have hb : (β : ℂ) * β = 1 := by exact_mod_cast congrArg (fun x : ℝ => (x : ℂ)) hβ
  linear_combination ((α a : ℂ) * (α d : ℂ) * (irfftGrad n K (fun l => g (l, a)) f * (starRingEnd ℂ) (Backward.spectrum n (fun l => v (l, d)) f))) * hb

variable {acf acf' : Fin r → Fin r → List ℝ} (h : SignedLists K α (Equiv.refl (Fin r)) acf' acf) (hK : 2 ≤ K)
include h hK

omit hα in
theorem blkToepSpec_sgn (f : ℕ) (a d : Fin r) : blkToepSpec K acf' f a d = (α a : ℂ) * (α d : ℂ) * blkToepSpec K acf f a d := by
  unfold blkToepSpec
  rw [Matrix.of_apply, Matrix.of_apply, length_blockCircCol (Or.inl rfl) hK (h.len' a d), length_blockCircCol (Or.inl rfl) hK (h.len a d)]
  by_cases hf : f ≤ blockNfft K / 2
  · rw [rfft_getD _ _ hf, rfft_getD _ _ hf]
    unfold dft
    rw [Finset.mul_sum]
    refine Finset.sum_congr rfl fun t ht => ?_
    rw [Finset.mem_range] at ht
    have hge := blockNfft_ge K
    have e : (blockCircCol torchBackend K (acf' a d)).getD t 0 = α a * α d * (blockCircCol torchBackend K (acf a d)).getD t 0 := by
      rw [blockCircCol_get (Or.inl rfl) hK (h.len' a d) ht, blockCircCol_get (Or.inl rfl) hK (h.len a d) ht]
      split_ifs
      · exact h.get a d 0 (by omega)
      · exact h.get_neg a d t (by omega) (by omega)
      · rw [mul_zero]
      · exact h.get a d _ (by omega)
    beta_reduce
    rw [e]
    push_cast
    ring
  · rw [List.getD_eq_default _ _ (by rw [length_rfft]; omega), List.getD_eq_default _ _ (by rw [length_rfft]; omega), mul_zero]

omit hα in
theorem precSpec_sgn (f : ℕ) (a d : Fin r) :
    blockPrecondSpec torchBackend acf' f a d = (α a : ℂ) * (α d : ℂ) * blockPrecondSpec torchBackend acf f a d := by
  by_cases hf : f ≤ K / 2
  · rw [blockPrecondSpec_eq (Or.inl rfl) hK h.len' hf, blockPrecondSpec_eq (Or.inl rfl) hK h.len hf]
    exact blockSpec_signed (Equiv.refl _) h (Or.inl rfl) hK f a d
  · unfold blockPrecondSpec
    rw [length_nonsymPrecondCol (Or.inl rfl) hK (h.len' a d), length_nonsymPrecondCol (Or.inl rfl) hK (h.len a d),
      List.getD_eq_default _ _ (by rw [length_rfft]; omega), List.getD_eq_default _ _ (by rw [length_rfft]; omega), mul_zero]

theorem precInv_sgn (f : ℕ) (a d : Fin r) :
    (blockPrecondSpec torchBackend acf' f)⁻¹ a d = (α a : ℂ) * (α d : ℂ) * (blockPrecondSpec torchBackend acf f)⁻¹ a d :=
  signed_inv (R := ℂ) (a := fun k => (α k : ℂ)) (sqc hα) (Equiv.refl _) (precSpec_sgn h hK f) a d

include hβ in
theorem blkToep_sgn : SameOp (sgnMap K α β) (specSgn α) (blkToep K acf) (blkToep K acf') where
  mul v := by
    show blockToeplitzOp torchBackend K acf' _ = sgnMap K α β (blockToeplitzOp torchBackend K acf v)
    rw [blockToeplitzOp_eq (Or.inl rfl) hK h.len', blockToeplitzOp_eq (Or.inl rfl) hK h.len]
    funext p
    refine signed_mulVec (R := ℝ) (a := fun p => α p.2 * β) (fun p => by linear_combination β * β * hα p.2 + hβ) (chan K (Equiv.refl _))
      (fun p q => ?_) v p
    rw [lagMatrix_signed (Equiv.refl _) h]
    linear_combination (-1 : ℝ) * α p.2 * α q.2 * lagMatrix K acf (chan K (Equiv.refl _) p) (chan K (Equiv.refl _) q) * hβ
  arg v := blkArg_sgn hα (blockNfft K) (blkToepSpec_sgn h hK) v
  par v g := blkPar_sgn hβ (blockNfft K) v g

include hβ in
theorem blkPrec_sgn : SameOp (sgnMap K α β) (specSgn α) (blkPrec K acf) (blkPrec K acf') where
  mul v := blockPrecond_signed hα (Equiv.refl _) h (Or.inl rfl) hK v
  arg v := blkArg_sgn hα K (precInv_sgn hα h hK) v
  par v g := blkPar_sgn hβ K v g

end blk

theorem mul_sgn {a : Fin r → ℂ} (ha : ∀ k, a k * a k = 1) {A A' B B' : Matrix (Fin r) (Fin r) ℂ} (hA : ∀ p q, A' p q = a p * a q * A p q)
    (hB : ∀ p q, B' p q = a p * a q * B p q) (p q : Fin r) : (A' * B') p q = a p * a q * (A * B) p q := by
  rw [Matrix.mul_apply, Matrix.mul_apply, Finset.mul_sum]
  refine Finset.sum_congr rfl fun k _ => ?_
  rw [hA, hB]
  linear_combination a p * a q * A p k * B k q * ha k

theorem invGrad_sgn {α : Fin r → ℝ} (hα : ∀ k, α k * α k = 1) {C C' g g' : Matrix (Fin r) (Fin r) ℂ}
    (hC : ∀ p q, C' p q = (α p : ℂ) * (α q : ℂ) * C p q) (hg : ∀ p q, g' p q = (α p : ℂ) * (α q : ℂ) * g p q) (p q : Fin r) :
    invGrad C' g' p q = (α p : ℂ) * (α q : ℂ) * invGrad C g p q := by
  have hi : ∀ p q, C'⁻¹.conjTranspose p q = (α p : ℂ) * (α q : ℂ) * C⁻¹.conjTranspose p q := by
    intro p q
    rw [Matrix.conjTranspose_apply, Matrix.conjTranspose_apply, signed_inv (R := ℂ) (a := fun k => (α k : ℂ)) (sqc hα) (Equiv.refl _) hC q p]
    show (starRingEnd ℂ) _ = _ * (starRingEnd ℂ) _
    simp only [map_mul, Complex.conj_ofReal, Equiv.refl_apply]
    ring
  have := mul_sgn (a := fun k => (α k : ℂ)) (sqc hα) (mul_sgn (a := fun k => (α k : ℂ)) (sqc hα) hi hg) hi p q
  show -(_ : ℂ) = _ * -(_ : ℂ)
  rw [this]
  ring

theorem blkToepCol_smul (u : ℝ) (g : ℕ → ℂ) (p : ℕ) : blkToepCol K (fun f => u * g f) p = u * blkToepCol K g p := by
  unfold blkToepCol
  simp only [rfftGrad_signed]
  split_ifs <;> ring

theorem blkPrecCol_smul (u : ℝ) (g : ℕ → ℂ) (p : ℕ) : blkPrecCol K (fun f => u * g f) p = u * blkPrecCol K g p := by
  unfold blkPrecCol
  simp only [rfftGrad_signed]
  split_ifs <;> ring

theorem blkAcfGrad_sgn {α : Fin r → ℝ} (hα : ∀ k, α k * α k = 1) {acf acf' : Fin r → Fin r → List ℝ}
    (h : SignedLists K α (Equiv.refl (Fin r)) acf' acf) (hK : 2 ≤ K) (gA gP : BlkSpec r) :
    blkAcfGrad K acf' (specSgn α gA) (specSgn α gP) = fun k l p => α k * α l * blkAcfGrad K acf gA gP k l p := by
  funext k l p
  unfold blkAcfGrad
  rw [mul_add, ← blkToepCol_smul, ← blkPrecCol_smul]
  refine congrArg₂ (· + ·) (congrArg (fun G => blkToepCol K G p) (funext fun f => ?_)) (congrArg (fun G => blkPrecCol K G p) (funext fun f => ?_))
  · rw [specSgn_apply]
    push_cast
    ring
  · rw [invGrad_sgn hα (precSpec_sgn h hK f) (specSgn_apply α gP f)]
    push_cast
    ring

theorem acfGradCg_sgn (gS : Fin r → Fin K → ℝ) (gB : Fin r → Fin r → ℕ → ℝ) {α : Fin r → ℝ} (hα : ∀ k, α k * α k = 1) :
    acfGradCg gS (fun k l p => α k * α l * gB k l p) = fun k l p => α k * α l * acfGradCg gS gB k l p := by
  funext k l p
  unfold acfGradCg
  rw [mul_add]
  congr 1
  split_ifs with h
  · have : α k * α l = 1 := by rw [← h.2, hα]
    rw [this, one_mul]
  · rw [mul_zero]

/-! ### the iterations for single references -/

theorem cgGrad_neg {col : List ℝ} (hc : col.length = K) (hK : 0 < K) (b : Fin K → ℝ) (it : ℕ) (g : Fin K → ℝ) :
    cgGrad K col (-b) it (-g) = ⟨-(cgGrad K col b it g).b, (cgGrad K col b it g).A, (cgGrad K col b it g).P⟩ := by
  have h2 := cgLoopGrad_neg hc hK b it ⟨g, 0, 0, 0, fun _ => 0, fun _ => 0⟩
  have e : negGrad (⟨g, 0, 0, 0, fun _ => 0, fun _ => 0⟩ : CgGrad K) = ⟨-g, 0, 0, 0, fun _ => 0, fun _ => 0⟩ := by
    simp [negGrad]
  rw [e] at h2
  have h0 : symToeplitzOp torchBackend K col (fun _ => 0) = 0 := by
    rw [symToeplitzOp_coe (Or.inl rfl) hc hK]
    exact map_zero _
  unfold cgGrad cgInitGrad
  rw [h2, h0]
  simp only [sub_zero, precond_neg, negGrad, smul_neg, ← neg_add, opGrad_neg, opSpecGrad_neg]
  rw [SolveGrad.mk.injEq]
  exact ⟨rfl, congrArg (fun v => fun f => (cgLoopGrad K col b it ⟨g, 0, 0, 0, fun _ => 0, fun _ => 0⟩).A f + v f)
    (opSpecGrad_zero _ _), rfl⟩

theorem cgGrad_sgn {col : List ℝ} (hc : col.length = K) (hK : 0 < K) {ε : ℝ} (hε : ε * ε = 1) (b : Fin K → ℝ) (it : ℕ) (g : Fin K → ℝ) :
    cgGrad K col (ε • b) it (ε • g) = ⟨ε • (cgGrad K col b it g).b, (cgGrad K col b it g).A, (cgGrad K col b it g).P⟩ := by
  rcases mul_self_eq_one_iff.1 hε with rfl | rfl
  · simp only [one_smul]
  · simp only [neg_one_smul]
    exact cgGrad_neg hc hK b it g

/-! ### the pass -/

section item

variable (warm : Bool) {acfS : Fin r → List ℝ} {acf acf' : Fin r → Fin r → List ℝ} (xc : Fin r → Fin e → Fin K → ℝ) {α : Fin r → ℝ}
  (hα : ∀ k, α k * α k = 1) {β : Fin e → ℝ} (hβ : ∀ j, β j * β j = 1) (hlen : ∀ k, (acfS k).length = K)
  (h : SignedLists K α (Equiv.refl (Fin r)) acf' acf) (hK : 2 ≤ K)
include hα hβ hlen hK

theorem passSol_sgn (it : ℕ) (k : Fin r) (j : Fin e) :
    passSol acfS (fun k j l => α k * β j * xc k j l) it k j = fun l => α k * β j * passSol acfS xc it k j l :=
  toeplitzCg_sign (B := torchBackend) (Or.inl rfl) (hlen k) (by omega) (ε := α k * β j)
    (by linear_combination β j * β j * hα k + hβ j) (xc k j) it

theorem start_sgn (it : ℕ) (j : Fin e) : startOf warm (passSol acfS (fun k j l => α k * β j * xc k j l) it) j =
    sgnMap K α (β j) (startOf warm (passSol acfS xc it) j) := by
  cases warm with
  | false => exact (map_zero _).symm
  | true =>
    funext p
    exact congrFun (passSol_sgn xc hα hβ hlen hK it p.2 j) p.1

include h

theorem passSolB_sgn (it : ℕ) (j : Fin e) : passSolB warm acfS acf' (fun k j l => α k * β j * xc k j l) it j =
    sgnMap K α (β j) (passSolB warm acfS acf xc it j) := by
  unfold passSolB
  rw [start_sgn warm xc hα hβ hlen hK]
  exact cg_map (signed_dot (fun p => by linear_combination β j * β j * hα p.2 + hβ j) (chan K (Equiv.refl _)))
    (blkToep_sgn hα (hβ j) h hK).mul (blkPrec_sgn hα (hβ j) h hK).mul (fun p => xc p.2 j p.1) _ it

theorem passGB_sgn (it : ℕ) (w : ℝ) (j : Fin e) : passGB warm acfS acf' (fun k j l => α k * β j * xc k j l) it w j =
    let G := passGB warm acfS acf xc it w j
    ⟨sgnMap K α (β j) G.b, sgnMap K α (β j) G.x0, specSgn α G.A, specSgn α G.P⟩ := by
  unfold passGB
  rw [start_sgn warm xc hα hβ hlen hK]
  have := runGrad_map (T := sgnMap K α (β j)) (signed_dot (fun p => by linear_combination β j * β j * hα p.2 + hβ j) (chan K (Equiv.refl _)))
    (blkToep_sgn hα (hβ j) h hK) (blkPrec_sgn hα (hβ j) h hK) (fun p => xc p.2 j p.1) (startOf warm (passSol acfS xc it) j) it
    (w • fun p => xc p.2 j p.1)
  rw [map_smul] at this
  exact this

theorem passGS_sgn (it : ℕ) (g w : ℝ) (k : Fin r) (j : Fin e) : passGS warm acfS acf' (fun k j l => α k * β j * xc k j l) it g w k j =
    let G := passGS warm acfS acf xc it g w k j
    ⟨fun l => α k * β j * G.b l, G.A, G.P⟩ := by
  unfold passGS
  rw [passGB_sgn warm xc hα hβ hlen h hK]
  dsimp only
  have e : solGrad warm (fun l => α k * β j * xc k j l) g (fun l => sgnMap K α (β j) (passGB warm acfS acf xc it w j).x0 (l, k)) =
      (α k * β j) • solGrad warm (xc k j) g fun l => (passGB warm acfS acf xc it w j).x0 (l, k) := by
    unfold solGrad
    cases warm with
    | false =>
      funext l
      show g * (α k * β j * xc k j l) + 0 = α k * β j * (g * xc k j l + 0)
      ring
    | true =>
      funext l
      show g * (α k * β j * xc k j l) + α k * β j * (passGB true acfS acf xc it w j).x0 (l, k) =
        α k * β j * (g * xc k j l + (passGB true acfS acf xc it w j).x0 (l, k))
      ring
  rw [e]
  exact cgGrad_sgn (hlen k) (by omega) (by linear_combination β j * β j * hα k + hβ j) (xc k j) it _

theorem cgPass_sgn (it : ℕ) : cgPass warm K it acfS acf' (fun k j l => α k * β j * xc k j l) =
    let P := cgPass warm K it acfS acf xc
    { cohSdr := P.cohSdr
      cohSar := P.cohSar
      xcorr := fun g w k j l => α k * β j * P.xcorr g w k j l
      acf := fun g w k l p => α k * α l * P.acf g w k l p } := by
  rw [cgPass_eq, cgPass_eq]
  simp only [passSol_sgn xc hα hβ hlen hK, passSolB_sgn warm xc hα hβ hlen h hK, passGB_sgn warm xc hα hβ hlen h hK,
    passGS_sgn warm xc hα hβ hlen h hK]
  have hs : ∀ k j, α k * β j * (α k * β j) = 1 := fun k j => by linear_combination β j * β j * hα k + hβ j
  rw [CgPass.mk.injEq]
  refine ⟨?_, ?_, ?_, ?_⟩
  · funext k j
    exact Finset.sum_congr rfl fun l _ => by linear_combination xc k j l * passSol acfS xc it k j l * hs k j
  · funext j
    exact Finset.sum_congr rfl fun p _ => by
      rw [sgnMap_apply]
      linear_combination xc p.2 j p.1 * passSolB warm acfS acf xc it j p * hs p.2 j
  · funext g w k j l
    rw [sgnMap_apply, sgnMap_apply]
    ring
  · funext g w
    rw [← map_sum, ← map_sum, blkAcfGrad_sgn hα h hK, acfGradCg_sgn _ _ hα]

end item

theorem passCg_sgn (fr : BIdx s → Fin r → Bool) (fe : BIdx s → Fin e → Bool) (hL : 2 ≤ o.filterLength) {warm : Bool} {ref : Sig s r N}
    {est : Sig s e M} {P} (h : passCg warm o it ref est = .ok P) :
    passCg warm o it (inverted fr ref) (inverted fe est) = .ok (passSgn P fr fe) := by
  unfold passCg at h ⊢
  cases hn : nFft N M with
  | error err => rw [hn] at h; cases h
  | ok n =>
    rw [hn] at h
    dsimp only at h ⊢
    split_ifs at h with hK hd
    have hn0 := nFft_bounds hn
    have hLn : o.filterLength ≤ n := by omega
    have hK2 : 2 ≤ min o.filterLength n := by omega
    have hR := related_inverted (o := o) fr fe ref est
    have F := fam_of_nFft (o := o) hn
    have hS : ∀ m, SignedLists (min o.filterLength n) (fun k => polSgn (fr m k)) (Equiv.refl (Fin r)) (bssAcf o n (inverted fr ref) m)
      (bssAcf o n ref m) := fun m => related_bssAcf hR hn hn rfl rfl hL hLn m
    have hd' : ¬∃ m, ∃ f ≤ min o.filterLength n / 2, (blockPrecondSpec torchBackend (bssAcf o n (inverted fr ref) m) f).det = 0 := by
      rintro ⟨m, f, hf, h0⟩
      rw [blockPrecondSpec_signed (fun k => polSgn_sq (fr m k)) (Equiv.refl _) (hS m) (Or.inl rfl) hK2 hf] at h0
      exact hd ⟨m, f, hf, h0⟩
    rw [if_neg hK, if_neg hd']
    cases h
    refine congrArg Except.ok ?_
    have e1 : ∀ m, bssAcfSdr o n (inverted fr ref) m = bssAcfSdr o n ref m := by
      intro m
      funext k
      rw [bssAcfSdr_eq_sdrAcf F rfl (by omega) hLn, bssAcfSdr_eq_sdrAcf F rfl (by omega) hLn]
      exact related_acf hR hn hn rfl rfl hL m k
    have hl : ∀ m k, (bssAcfSdr o n ref m k).length = min o.filterLength n := by
      intro m k
      rw [bssAcfSdr_eq_sdrAcf F rfl (by omega) hLn]
      exact length_sdrAcf F rfl (by omega) ref m k
    have e2 : ∀ m k j, vec (min o.filterLength n) (sdrXcorr o n (inverted fr ref) (inverted fe est) m k j) =
        fun l => polSgn (fr m k) * polSgn (fe m j) * vec (min o.filterLength n) (sdrXcorr o n ref est m k j) l :=
      fun m k j => related_xcorr hR hn hn rfl rfl hL m k j
    have e3 : ∀ m, prep o (inverted fr ref) m = fun k t => polSgn (fr m k) * prep o ref m k t :=
      fun m => funext fun k => prep_inverted fr ref m k
    have e4 : ∀ m, prep o (inverted fe est) m = fun j t => polSgn (fe m j) * prep o est m j t :=
      fun m => funext fun j => prep_inverted fe est m j
    have e5 := fun m => cgPass_sgn warm (fun k j => vec (min o.filterLength n) (sdrXcorr o n ref est m k j)) (fun k => polSgn_sq (fr m k))
      (fun j => polSgn_sq (fe m j)) (hl m) (hS m) hK2 it
    simp only [e1, e2, e3, e4, e5]
    generalize hP : (fun m => cgPass warm (min o.filterLength n) it (bssAcfSdr o n ref m) (bssAcf o n ref m)
          (fun k j => vec (min o.filterLength n) (sdrXcorr o n ref est m k j))) = P
    have hP' := fun m => congrFun hP m
    simp only [hP']
    unfold passSgn
    rw [BssPass.mk.injEq]
    refine ⟨rfl, rfl, ?_, ?_⟩
    · funext m j g h t
      exact estBack_signed n (prep o ref m) (fun k => (P m).xcorr (fun k _ => g k) (fun _ => h) k j) (fr m) (fe m j) t
    · funext m g h k t
      exact refBackAll_sgn n (prep o ref m) (prep o est m) ((P m).xcorr g h) ((P m).acf g h) (fr m) (fe m) k t

/-- **C105**, losses made of the values of `bss_eval_sources`, with `use_cg_iter`. -/
theorem C105_bss_eval_perm_iterative (fr : BIdx s → Fin r → Bool) (fe : BIdx s → Fin e → Bool) (hL : 2 ≤ o.filterLength) {ref : Sig s r N}
    {est : Sig s e M} {v : BssWeights (BIdx s × Fin (min r e))} {g} (h : bssBackwardCg o it ref est v = .ok g) :
    bssBackwardCg o it (inverted fr ref) (inverted fe est) v = .ok (invertedGrad fe g.1, invertedGrad fr g.2) := by
  unfold bssBackwardCg at h ⊢
  cases hP : passCg true o it ref est with
  | error err => rw [hP] at h; cases h
  | ok P =>
    rw [hP] at h
    rw [passCg_sgn fr fe hL hP]
    dsimp only at h ⊢
    have e1 : (passSgn P fr fe).cohSdr = P.cohSdr := rfl
    have e2 : (passSgn P fr fe).cohSar = P.cohSar := rfl
    rw [e1, e2]
    split at h
    · cases h
    · cases h
      dsimp only
      rw [(gradBss_sgn fr fe P ref est _).1, (gradBss_sgn fr fe P ref est _).2]

/-- **C105**, losses made of the values of `bss_eval_sources(compute_permutation=False)`, with `use_cg_iter`. -/
theorem C105_bss_eval_iterative (fr fe : BIdx s → Fin c → Bool) (hL : 2 ≤ o.filterLength) {ref : Sig s c N} {est : Sig s c M}
    {v : BssWeights (BIdx s × Fin c)} {g} (h : bssBackwardCgDiag o it ref est v = .ok g) :
    bssBackwardCgDiag o it (inverted fr ref) (inverted fe est) v = .ok (invertedGrad fe g.1, invertedGrad fr g.2) := by
  unfold bssBackwardCgDiag at h ⊢
  cases hP : passCg false o it ref est with
  | error err => rw [hP] at h; cases h
  | ok P =>
    rw [hP] at h
    rw [passCg_sgn fr fe hL hP]
    cases h
    dsimp only
    rw [(diag_sgn P ref est _).1, (diag_sgn P ref est _).2]

/-- Two sources, filters of two taps, four iterations, a loss made of SDR and SIR; one estimate inverted. -/
example (w w' : ℝ) : ∃ gE gR,
    bssBackwardCg (exCg4 none) 4 Ex.ref Ex.est ⟨some fun _ => w, some fun _ => w', none⟩ = .ok (gE, gR) ∧
    bssBackwardCg (exCg4 none) 4 (inverted (fun _ _ => false) Ex.ref) (inverted (fun _ j => decide (j = 0)) Ex.est)
      ⟨some fun _ => w, some fun _ => w', none⟩ = .ok (fun m j t => if j = 0 then (gE m j t).neg else gE m j t, gR) := by
  have hu : ∀ m : BIdx [], UniqueBest fun k j : Fin 2 => (baseMetrics none (if k = j then 4 / 5 else 1 / 5 : ℝ) 1).2.1 :=
    fun m => by simp only [(ex_base _ _).2.1]; exact Ex.unique_loss
  obtain ⟨gE, gR, h1, -⟩ := C88_gradient_perm (o := exCg4 none) (by norm_num) le_rfl rfl (ex4_pair none)
    ⟨some fun _ => w, some fun _ => w', none⟩ (fun _ _ k j => fifth_off none (Or.inl rfl) (k = j))
    (fun _ k j => by
      refine ⟨one_ne_zero, ?_⟩
      rw [div_one]
      exact fifth_off none (Or.inl rfl) (k = j)) (fun h => absurd rfl h)
    hu (ex4_smooth none) (ex4_block none true)
  refine ⟨gE, gR, h1, ?_⟩
  rw [C105_bss_eval_perm_iterative (o := exCg4 none) (fun _ _ => false) (fun _ j => decide (j = 0)) le_rfl h1]
  refine congrArg Except.ok (Prod.ext ?_ rfl)
  funext m j t
  simp [invertedGrad]

end FBE.Props
