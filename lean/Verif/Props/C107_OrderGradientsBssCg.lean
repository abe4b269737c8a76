import Verif.Props.C107_OrderGradientsBss
import Verif.Props.C88_BackwardBssCg
import Verif.Proofs.Signed

/-!
# C107: gradients through `bss_eval_sources` with `use_cg_iter` follow the order of the channels
-/

namespace FBE.Props

open Classical FBE.Spec FBE.Backward XR

variable {s : List ℕ} {r e c N M K it : ℕ} {o : Opts}

/-! ### the iterations in reverse under a change of coordinates -/

section run

variable {J J' S S' : Type} [Fintype J] [Fintype J'] [AddCommGroup S] [AddCommGroup S']

/-- The operator `A'` is `A` in other coordinates. -/
structure SameOp (T : (J → ℝ) →ₗ[ℝ] (J' → ℝ)) (φ : S →+ S') (A : RevOp J S) (A' : RevOp J' S') : Prop where
  mul : ∀ v, A'.mul (T v) = T (A.mul v)
  arg : ∀ v, A'.arg (T v) = T (A.arg v)
  par : ∀ v g, A'.par (T v) (T g) = φ (A.par v g)

variable {T : (J → ℝ) →ₗ[ℝ] (J' → ℝ)} {φ : S →+ S'} {A P : RevOp J S} {A' P' : RevOp J' S'}

theorem stepGrad_map (hT : ∀ v w, innerProd (T v) (T w) = innerProd v w) (hA : SameOp T φ A A') (hP : SameOp T φ P P') (st : CgState J)
    (g : RunGrad J S) : stepGrad A' P' ⟨T st.x, T st.r, T st.p, st.rsold⟩ ⟨T g.x, T g.r, T g.p, g.rsold, φ g.A, φ g.P⟩ =
      let G := stepGrad A P st g
      ⟨T G.x, T G.r, T G.p, G.rsold, φ G.A, φ G.P⟩ := by
  unfold stepGrad
  simp only [hA.mul, hT, ← map_smul, ← map_sub, ← map_add, ← map_neg, hP.mul, hP.arg, hP.par, hA.arg, hA.par]

theorem loopGrad_map (hT : ∀ v w, innerProd (T v) (T w) = innerProd v w) (hA : SameOp T φ A A') (hP : SameOp T φ P P') (b x0 : J → ℝ) (n : ℕ)
    (g : RunGrad J S) : loopGrad A' P' (T b) (T x0) n ⟨T g.x, T g.r, T g.p, g.rsold, φ g.A, φ g.P⟩ =
      let G := loopGrad A P b x0 n g
      ⟨T G.x, T G.r, T G.p, G.rsold, φ G.A, φ G.P⟩ := by
  induction n generalizing g with
  | zero => rfl
  | succ n ih =>
    show loopGrad A' P' (T b) (T x0) n (stepGrad A' P' (cgRun A'.mul P'.mul (T b) (T x0) n) _) = _
    rw [cgRun_map hT hA.mul hP.mul, stepGrad_map hT hA hP]
    exact ih _

theorem runGrad_map (hT : ∀ v w, innerProd (T v) (T w) = innerProd v w) (hA : SameOp T φ A A') (hP : SameOp T φ P P') (b x0 : J → ℝ) (n : ℕ)
    (g : J → ℝ) : runGrad A' P' (T b) (T x0) n (T g) =
      let G := runGrad A P b x0 n g
      ⟨T G.b, T G.x0, φ G.A, φ G.P⟩ := by
  unfold runGrad
  have := loopGrad_map hT hA hP b x0 n ⟨g, 0, 0, 0, 0, 0⟩
  simp only [map_zero] at this
  rw [this]
  unfold startGrad
  simp only [hA.mul, ← map_smul, ← map_sub, ← map_add, ← map_neg, hP.mul, hP.arg, hP.par, hA.arg, hA.par]

end run

/-! ### the block operators for reordered channels -/

/-- Lags of reordered channels. -/
def lagMap (K : ℕ) (π : Equiv.Perm (Fin r)) : (Fin K × Fin r → ℝ) →ₗ[ℝ] (Fin K × Fin r → ℝ) := LinearMap.funLeft ℝ ℝ (lagPerm K π)

/-- Spectra of reordered channels. -/
def specMap (π : Equiv.Perm (Fin r)) : BlkSpec r →+ BlkSpec r where
  toFun C f := (C f).submatrix π π
  map_zero' := rfl
  map_add' _ _ := rfl

theorem lagMap_inner (π : Equiv.Perm (Fin r)) (v w : Fin K × Fin r → ℝ) : innerProd (lagMap K π v) (lagMap K π w) = innerProd v w :=
  Equiv.sum_comp (lagPerm K π) fun p => v p * w p

theorem blkArg_perm (n : ℕ) (C : BlkSpec r) (π : Equiv.Perm (Fin r)) (g : Fin K × Fin r → ℝ) :
    blkArg n (fun f => (C f).submatrix π π) (lagMap K π g) = lagMap K π (blkArg n C g) := by
  funext p
  show rfftGrad n _ p.1 = rfftGrad n _ p.1
  congr 1
  funext f
  exact Equiv.sum_comp π fun a => irfftGrad n K (fun l => g (l, a)) f * (starRingEnd ℂ) (C f a (π p.2))

theorem blkToep_perm (acf : Fin r → Fin r → List ℝ) (π : Equiv.Perm (Fin r)) :
    SameOp (lagMap K π) (specMap π) (blkToep K acf) (blkToep K fun k l => acf (π k) (π l)) where
  mul v := by
    funext p
    show vec K (pySlice (irfft (blockNfft K) _) _ _) p.1 = vec K (pySlice (irfft (blockNfft K) _) _ _) p.1
    congr 4
    funext k
    exact Equiv.sum_comp π fun d => (rfft (blockCircCol torchBackend K (acf (π p.2) d)).length
      (blockCircCol torchBackend K (acf (π p.2) d))).getD k 0 * (rfft (blockNfft K) (lagCol v d)).getD k 0
  arg v := blkArg_perm (blockNfft K) (blkToepSpec K acf) π v
  par v g := rfl

theorem precSpec_perm (acf : Fin r → Fin r → List ℝ) (π : Equiv.Perm (Fin r)) (f : ℕ) :
    blockPrecondSpec torchBackend (fun k l => acf (π k) (π l)) f = (blockPrecondSpec torchBackend acf f).submatrix π π := rfl

theorem blkPrec_perm (acf : Fin r → Fin r → List ℝ) (π : Equiv.Perm (Fin r)) :
    SameOp (lagMap K π) (specMap π) (blkPrec K acf) (blkPrec K fun k l => acf (π k) (π l)) where
  mul v := by
    funext p
    show vec K (irfft K _) p.1 = vec K (irfft K _) p.1
    congr 3
    funext k
    rw [precSpec_perm, Matrix.inv_submatrix_equiv]
    exact Equiv.sum_comp π fun d => (blockPrecondSpec torchBackend acf k)⁻¹ (π p.2) d * (rfft K (lagCol v d)).getD k 0
  arg v := by
    show blkArg K (fun f => (blockPrecondSpec torchBackend (fun k l => acf (π k) (π l)) f)⁻¹) _ = _
    simp only [precSpec_perm, Matrix.inv_submatrix_equiv]
    exact blkArg_perm K (fun f => (blockPrecondSpec torchBackend acf f)⁻¹) π v
  par v g := rfl

theorem invGrad_perm (C g : Matrix (Fin r) (Fin r) ℂ) (π : Equiv.Perm (Fin r)) :
    invGrad (C.submatrix π π) (g.submatrix π π) = (invGrad C g).submatrix π π := by
  unfold invGrad
  rw [Matrix.inv_submatrix_equiv, Matrix.conjTranspose_submatrix, Matrix.submatrix_mul_equiv, Matrix.submatrix_mul_equiv]
  rfl

theorem blkAcfGrad_perm (acf : Fin r → Fin r → List ℝ) (gA gP : BlkSpec r) (π : Equiv.Perm (Fin r)) :
    blkAcfGrad K (fun k l => acf (π k) (π l)) (specMap π gA) (specMap π gP) = fun k l => blkAcfGrad K acf gA gP (π k) (π l) := by
  funext k l p
  unfold blkAcfGrad
  simp only [precSpec_perm]
  refine congrArg₂ (· + ·) rfl (congrArg (fun G => blkPrecCol K G p) (funext fun f => ?_))
  exact congrFun (congrFun (invGrad_perm (blockPrecondSpec torchBackend acf f) (gP f) π) k) l

theorem acfGradCg_perm (gS : Fin r → Fin K → ℝ) (gB : Fin r → Fin r → ℕ → ℝ) (π : Equiv.Perm (Fin r)) :
    acfGradCg (fun k => gS (π k)) (fun k l => gB (π k) (π l)) = fun k l => acfGradCg gS gB (π k) (π l) := by
  funext k l p
  unfold acfGradCg
  congr 1
  by_cases h : p < K ∧ k = l
  · rw [dif_pos h, dif_pos ⟨h.1, congrArg _ h.2⟩]
  · rw [dif_neg h, dif_neg fun h' => h ⟨h'.1, π.injective h'.2⟩]

/-! ### the pass -/

theorem startOf_perm (warm : Bool) (sol : Fin r → Fin e → Fin K → ℝ) (π : Equiv.Perm (Fin r)) (σ : Equiv.Perm (Fin e)) (j : Fin e) :
    startOf warm (fun k j => sol (π k) (σ j)) j = lagMap K π (startOf warm sol (σ j)) := by
  cases warm <;> rfl

section item

variable (warm : Bool) (acfS : Fin r → List ℝ) (acf : Fin r → Fin r → List ℝ) (xc : Fin r → Fin e → Fin K → ℝ)

/-- The solutions for the SDR in `cgPass`. -/
noncomputable def passSol (it : ℕ) (k : Fin r) (j : Fin e) : Fin K → ℝ := toeplitzCg torchBackend K (acfS k) (xc k j) it

/-- The solutions for the SAR in `cgPass`. -/
noncomputable def passSolB (it : ℕ) (j : Fin e) : Fin K × Fin r → ℝ :=
  conjugateGradient (blkToep K acf).mul (blkPrec K acf).mul (fun p => xc p.2 j p.1) (startOf warm (passSol acfS xc it) j) it

/-- The iterations for the SAR in reverse. -/
noncomputable def passGB (it : ℕ) (h : ℝ) (j : Fin e) : StartGrad (Fin K × Fin r) (BlkSpec r) :=
  runGrad (blkToep K acf) (blkPrec K acf) (fun p => xc p.2 j p.1) (startOf warm (passSol acfS xc it) j) it (h • fun p => xc p.2 j p.1)

/-- The iterations for the SDR in reverse. -/
noncomputable def passGS (it : ℕ) (g h : ℝ) (k : Fin r) (j : Fin e) : SolveGrad K :=
  cgGrad K (acfS k) (xc k j) it (solGrad warm (xc k j) g fun l => (passGB warm acfS acf xc it h j).x0 (l, k))

theorem cgPass_eq (it : ℕ) : cgPass warm K it acfS acf xc =
    { cohSdr := fun k j => ∑ l, xc k j l * passSol acfS xc it k j l
      cohSar := fun j => ∑ p : Fin K × Fin r, xc p.2 j p.1 * passSolB warm acfS acf xc it j p
      xcorr := fun g h k j l => g k j * passSol acfS xc it k j l + (passGS warm acfS acf xc it (g k j) (h j) k j).b l +
        (h j * passSolB warm acfS acf xc it j (l, k) + (passGB warm acfS acf xc it (h j) j).b (l, k))
      acf := fun g h => acfGradCg
        (fun k => acfCgGrad K (acfS k) (fun f => ∑ j, (passGS warm acfS acf xc it (g k j) (h j) k j).A f)
          (fun f => ∑ j, (passGS warm acfS acf xc it (g k j) (h j) k j).P f))
        (blkAcfGrad K acf (∑ j, (passGB warm acfS acf xc it (h j) j).A) (∑ j, (passGB warm acfS acf xc it (h j) j).P)) } := rfl

variable (π : Equiv.Perm (Fin r)) (σ : Equiv.Perm (Fin e))

theorem passSolB_perm (it : ℕ) (j : Fin e) :
    passSolB warm (fun k => acfS (π k)) (fun k l => acf (π k) (π l)) (fun k j => xc (π k) (σ j)) it j =
      lagMap K π (passSolB warm acfS acf xc it (σ j)) := by
  unfold passSolB
  have h0 : startOf warm (passSol (fun k => acfS (π k)) (fun k j => xc (π k) (σ j)) it) j =
    lagMap K π (startOf warm (passSol acfS xc it) (σ j)) := startOf_perm warm (passSol acfS xc it) π σ j
  rw [h0]
  exact cg_map (lagMap_inner π) (blkToep_perm acf π).mul (blkPrec_perm acf π).mul (fun p => xc p.2 (σ j) p.1) _ it

theorem passGB_perm (it : ℕ) (h : ℝ) (j : Fin e) :
    passGB warm (fun k => acfS (π k)) (fun k l => acf (π k) (π l)) (fun k j => xc (π k) (σ j)) it h j =
      let G := passGB warm acfS acf xc it h (σ j)
      ⟨lagMap K π G.b, lagMap K π G.x0, specMap π G.A, specMap π G.P⟩ := by
  unfold passGB
  have h0 : startOf warm (passSol (fun k => acfS (π k)) (fun k j => xc (π k) (σ j)) it) j =
    lagMap K π (startOf warm (passSol acfS xc it) (σ j)) := startOf_perm warm (passSol acfS xc it) π σ j
  rw [h0]
  exact runGrad_map (lagMap_inner π) (blkToep_perm acf π) (blkPrec_perm acf π) (fun p => xc p.2 (σ j) p.1) _ it
    (h • fun p => xc p.2 (σ j) p.1)

theorem passGS_perm (it : ℕ) (g h : ℝ) (k : Fin r) (j : Fin e) :
    passGS warm (fun k => acfS (π k)) (fun k l => acf (π k) (π l)) (fun k j => xc (π k) (σ j)) it g h k j =
      passGS warm acfS acf xc it g h (π k) (σ j) := by
  unfold passGS
  rw [passGB_perm]
  rfl

theorem cgPass_perm (it : ℕ) : cgPass warm K it (fun k => acfS (π k)) (fun k l => acf (π k) (π l)) (fun k j => xc (π k) (σ j)) =
    let P := cgPass warm K it acfS acf xc
    { cohSdr := fun k j => P.cohSdr (π k) (σ j)
      cohSar := fun j => P.cohSar (σ j)
      xcorr := fun g h k j => P.xcorr (fun k j => g (π.symm k) (σ.symm j)) (fun j => h (σ.symm j)) (π k) (σ j)
      acf := fun g h k l => P.acf (fun k j => g (π.symm k) (σ.symm j)) (fun j => h (σ.symm j)) (π k) (π l) } := by
  rw [cgPass_eq, cgPass_eq]
  simp only [passSolB_perm, passGB_perm, passGS_perm, Equiv.symm_apply_apply]
  rw [CgPass.mk.injEq]
  refine ⟨rfl, ?_, rfl, ?_⟩
  · funext j
    exact Equiv.sum_comp (lagPerm K π) fun p => xc p.2 (σ j) p.1 * passSolB warm acfS acf xc it (σ j) p
  · funext g h
    have e1 : ∀ F : Fin e → BlkSpec r, (∑ j, specMap π (F (σ j))) = specMap π (∑ j, F j) := by
      intro F
      rw [map_sum]
      exact Equiv.sum_comp σ fun j => specMap π (F j)
    have e2 := e1 fun j => (passGB warm acfS acf xc it (h (σ.symm j)) j).A
    have e3 := e1 fun j => (passGB warm acfS acf xc it (h (σ.symm j)) j).P
    simp only [Equiv.symm_apply_apply] at e2 e3
    rw [e2, e3, blkAcfGrad_perm, ← acfGradCg_perm]
    congr 1
    funext k
    congr 1
    · funext f
      have := Equiv.sum_comp σ fun j => (passGS warm acfS acf xc it (g (π.symm (π k)) (σ.symm j)) (h (σ.symm j)) (π k) j).A f
      simp only [Equiv.symm_apply_apply] at this ⊢
      exact this
    · funext f
      have := Equiv.sum_comp σ fun j => (passGS warm acfS acf xc it (g (π.symm (π k)) (σ.symm j)) (h (σ.symm j)) (π k) j).P f
      simp only [Equiv.symm_apply_apply] at this ⊢
      exact this

end item

theorem bssAcf_perm {n : ℕ} (ref : Sig s r N) (π : BIdx s → Equiv.Perm (Fin r)) :
    bssAcf o n (fun m k => ref m (π m k)) = fun m k l => bssAcf o n ref m (π m k) (π m l) := by
  funext m k l
  unfold bssAcf
  dsimp only
  by_cases hk : k = l
  · rw [if_pos hk, if_pos (congrArg _ hk)]
    rfl
  · rw [if_neg hk, if_neg fun h' => hk ((π m).injective h')]
    rfl

theorem passCg_perm {warm : Bool} {ref : Sig s r N} {est : Sig s e M} {P} (π : BIdx s → Equiv.Perm (Fin r)) (σ : BIdx s → Equiv.Perm (Fin e))
    (h : passCg warm o it ref est = .ok P) :
    passCg warm o it (fun m k => ref m (π m k)) (fun m j => est m (σ m j)) = .ok (passPerm P π σ) := by
  unfold passCg at h ⊢
  cases hn : nFft N M with
  | error err => rw [hn] at h; cases h
  | ok n =>
    rw [hn] at h
    dsimp only at h ⊢
    split_ifs at h with hK hd
    have e1 : bssAcfSdr o n (fun m k => ref m (π m k)) = fun m k => bssAcfSdr o n ref m (π m k) := by
      unfold bssAcfSdr
      rw [bssAcf_perm]
    have hd' : ¬∃ m, ∃ f ≤ min o.filterLength n / 2,
        (blockPrecondSpec torchBackend (bssAcf o n (fun m k => ref m (π m k)) m) f).det = 0 := by
      rintro ⟨m, f, hf, h0⟩
      rw [bssAcf_perm] at h0
      rw [precSpec_perm, Matrix.det_submatrix_equiv_self] at h0
      exact hd ⟨m, f, hf, h0⟩
    rw [if_neg hK, if_neg hd']
    cases h
    refine congrArg Except.ok ?_
    have e2 : ∀ m, cgPass warm (min o.filterLength n) it (bssAcfSdr o n (fun m k => ref m (π m k)) m) (bssAcf o n (fun m k => ref m (π m k)) m)
        (fun k j => vec (min o.filterLength n) (sdrXcorr o n (fun m k => ref m (π m k)) (fun m j => est m (σ m j)) m k j)) =
        let P := cgPass warm (min o.filterLength n) it (bssAcfSdr o n ref m) (bssAcf o n ref m)
          (fun k j => vec (min o.filterLength n) (sdrXcorr o n ref est m k j))
        { cohSdr := fun k j => P.cohSdr (π m k) (σ m j)
          cohSar := fun j => P.cohSar (σ m j)
          xcorr := fun g h k j => P.xcorr (fun k j => g ((π m).symm k) ((σ m).symm j)) (fun j => h ((σ m).symm j)) (π m k) (σ m j)
          acf := fun g h k l => P.acf (fun k j => g ((π m).symm k) ((σ m).symm j)) (fun j => h ((σ m).symm j)) (π m k) (π m l) } := by
      intro m
      rw [e1, bssAcf_perm]
      exact cgPass_perm warm (bssAcfSdr o n ref m) (bssAcf o n ref m) (fun k j => vec (min o.filterLength n) (sdrXcorr o n ref est m k j))
        (π m) (σ m) it
    have e3 : ∀ m, prep o (fun m k => ref m (π m k)) m = fun k => prep o ref m (π m k) := fun _ => rfl
    have e4 : ∀ m, prep o (fun m j => est m (σ m j)) m = fun j => prep o est m (σ m j) := fun _ => rfl
    simp only [e2, e3, e4]
    generalize hP : (fun m => cgPass warm (min o.filterLength n) it (bssAcfSdr o n ref m) (bssAcf o n ref m)
          (fun k j => vec (min o.filterLength n) (sdrXcorr o n ref est m k j))) = P
    have hP' := fun m => congrFun hP m
    simp only [hP']
    unfold passPerm
    rw [BssPass.mk.injEq]
    refine ⟨rfl, rfl, ?_, ?_⟩
    · funext m j g h
      exact estBack_perm n (prep o ref m) (fun k => (P m).xcorr (fun k _ => g ((π m).symm k)) (fun _ => h) k (σ m j)) (π m)
    · funext m g h k
      exact congrFun (refBackAll_perm n (prep o ref m) (prep o est m)
        ((P m).xcorr (fun k j => g ((π m).symm k) ((σ m).symm j)) fun j => h ((σ m).symm j))
        ((P m).acf (fun k j => g ((π m).symm k) ((σ m).symm j)) fun j => h ((σ m).symm j)) (π m) (σ m)) k

/-- **C107**, losses made of the values of `bss_eval_sources`, with `use_cg_iter`: every item with a weight for the total
of its SDR, SIR and SAR. -/
theorem C107_bss_eval_perm_iterative (hL : 2 ≤ o.filterLength) (hcg : o.useCgIter = some it) {ref : Sig s r N} {est : Sig s e M} {S A}
    (hc : sqCosPair torchBackend o ref est = .ok (S, A))
    (hu : ∀ m, UniqueBest fun k j => (baseMetrics o.clampDb (S m k j) (A m j)).2.1) {a b c : Option (BIdx s → ℝ)} {g}
    (h : bssBackwardCg o it ref est ⟨a.map fun w i => w i.1, b.map fun w i => w i.1, c.map fun w i => w i.1⟩ = .ok g)
    (π : BIdx s → Equiv.Perm (Fin r)) (σ : BIdx s → Equiv.Perm (Fin e)) :
    bssBackwardCg o it (fun m k => ref m (π m k)) (fun m j => est m (σ m j))
        ⟨a.map fun w i => w i.1, b.map fun w i => w i.1, c.map fun w i => w i.1⟩ =
      .ok (fun m j => g.1 m (σ m j), fun m k => g.2 m (π m k)) := by
  obtain ⟨n, hn, hLn⟩ := size_of_pair hL hc
  rw [sqCosPair_cg hn hL hLn hcg] at hc
  by_cases hd : DetOk o n ref
  swap
  · rw [if_neg hd] at hc
    cases hc
  rw [if_pos hd] at hc
  obtain ⟨rfl, rfl⟩ := Prod.mk.inj (Except.ok.inj hc)
  have hP : passCg true o it ref est = .ok (cgBss true o n it ref est) := by rw [passCg_eq hn hL hLn, if_pos hd]
  unfold bssBackwardCg at h ⊢
  rw [hP] at h
  rw [passCg_perm π σ hP]
  dsimp only at h ⊢
  split at h
  · cases h
  · rename_i p hp
    obtain ⟨p', hp', h1, h2⟩ := permPass_perm π σ (cgBss true o n it ref est) hu ref est a b c hp
    rw [hp']
    cases h
    dsimp only at h1 h2 ⊢
    rw [h1, h2]

/-- **C107**, losses made of the values of `bss_eval_sources(compute_permutation=False)`, with `use_cg_iter`: references, estimates and
weights in another order. -/
theorem C107_bss_eval_iterative {ref : Sig s c N} {est : Sig s c M} {v : BssWeights (BIdx s × Fin c)} {g}
    (h : bssBackwardCgDiag o it ref est v = .ok g) (π : BIdx s → Equiv.Perm (Fin c)) :
    bssBackwardCgDiag o it (fun m k => ref m (π m k)) (fun m j => est m (π m j))
        ⟨v.sdr.map fun w i => w (i.1, π i.1 i.2), v.sir.map fun w i => w (i.1, π i.1 i.2), v.sar.map fun w i => w (i.1, π i.1 i.2)⟩ =
      .ok (fun m j => g.1 m (π m j), fun m k => g.2 m (π m k)) := by
  unfold bssBackwardCgDiag at h ⊢
  cases hP : passCg false o it ref est with
  | error err => rw [hP] at h; cases h
  | ok P =>
    rw [hP] at h
    rw [passCg_perm π π hP]
    cases h
    dsimp only
    rw [negWeights_perm, (diag_perm π P ref est _).1, (diag_perm π P ref est _).2]

/-- Two sources, filters of two taps, four iterations, a loss made of SDR and SIR; the estimates exchanged. -/
example (w w' : ℝ) : ∃ gE gR,
    bssBackwardCg (exCg4 none) 4 Ex.ref Ex.est ⟨some fun _ => w, some fun _ => w', none⟩ = .ok (gE, gR) ∧
    bssBackwardCg (exCg4 none) 4 Ex.ref (fun m j => Ex.est m (1 - j)) ⟨some fun _ => w, some fun _ => w', none⟩ =
      .ok (fun m j => gE m (1 - j), gR) := by
  have hu : ∀ m : BIdx [], UniqueBest fun k j : Fin 2 => (baseMetrics none (if k = j then 4 / 5 else 1 / 5 : ℝ) 1).2.1 :=
    fun m => by simp only [(ex_base _ _).2.1]; exact Ex.unique_loss
  obtain ⟨gE, gR, h1, -⟩ := C88_gradient_perm (o := exCg4 none) (by norm_num) le_rfl rfl (ex4_pair none)
    ⟨some fun _ => w, some fun _ => w', none⟩ (fun _ _ k j => fifth_off none (Or.inl rfl) (k = j))
    (fun _ k j => by
      refine ⟨one_ne_zero, ?_⟩
      rw [div_one]
      exact fifth_off none (Or.inl rfl) (k = j)) (fun h => absurd rfl h)
    hu (ex4_smooth none) (ex4_block none true)
  have h2 := C107_bss_eval_perm_iterative (o := exCg4 none) le_rfl rfl (ex4_pair none) hu (a := some fun _ => w) (b := some fun _ => w')
    (c := none) h1 (fun _ => Equiv.refl _) (fun _ => Equiv.subLeft 1)
  exact ⟨gE, gR, h1, h2⟩

end FBE.Props
