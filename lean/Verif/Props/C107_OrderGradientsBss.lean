import Verif.Props.C107_OrderGradients
import Verif.Props.C85_BackwardBss

/-!
# C107: gradients through `bss_eval_sources` follow the order of the channels
-/

namespace FBE.Props

open Classical FBE.Spec FBE.Backward XR

variable {s : List ℕ} {r e c N M : ℕ} {o : Opts}

/-! ### the formulas for reordered channels -/

section formulas

variable {J : Type} [Fintype J] [DecidableEq J]

theorem inv_reindex (A : Matrix J J ℝ) (q : Equiv.Perm J) (v : J → ℝ) :
    ((A.submatrix q q)⁻¹).mulVec (fun i => v (q i)) = fun i => (A⁻¹.mulVec v) (q i) := by
  rw [Matrix.inv_submatrix_equiv, Matrix.submatrix_mulVec_equiv]
  funext i
  simp [Function.comp_def]

theorem solveStack_reindex {ι ι' κ κ' : Type} {A : ι → Matrix J J ℝ} {b : ι → κ → J → ℝ} {x} (h : solveStack A b = .ok x) (f : ι' → ι)
    (g : ι' → κ' → κ) (q : ι' → Equiv.Perm J) :
    solveStack (fun i => (A (f i)).submatrix (q i) (q i)) (fun i j p => b (f i) (g i j) (q i p)) = .ok fun i j p => x (f i) (g i j) (q i p) := by
  unfold solveStack at h ⊢
  split_ifs at h with h1
  rw [if_neg fun ⟨i, hi⟩ => h1 ⟨f i, by rwa [Matrix.det_submatrix_equiv_self] at hi⟩]
  cases h
  refine congrArg Except.ok (funext fun i => funext fun j => ?_)
  exact inv_reindex (A (f i)) (q i) (b (f i) (g i j))

theorem rhsGrad_reindex (A : Matrix J J ℝ) (b sol : J → ℝ) (g : ℝ) (q : Equiv.Perm J) :
    rhsGrad (A.submatrix q q) (fun i => b (q i)) (fun i => sol (q i)) g = fun i => rhsGrad A b sol g (q i) := by
  funext l
  unfold rhsGrad
  rw [Matrix.transpose_submatrix]
  have := congrFun (inv_reindex A.transpose q fun i => g * b i) l
  rw [this]

theorem lhsGrad_reindex (A : Matrix J J ℝ) (b sol : Fin e → J → ℝ) (g : Fin e → ℝ) (q : Equiv.Perm J) (σ : Equiv.Perm (Fin e)) :
    lhsGrad (A.submatrix q q) (fun j i => b (σ j) (q i)) (fun j i => sol (σ j) (q i)) (fun j => g (σ j)) = (lhsGrad A b sol g).submatrix q q := by
  funext p p'
  unfold lhsGrad
  rw [Matrix.transpose_submatrix]
  show _ = -∑ j, (A.transpose⁻¹.mulVec fun i => g j * b j i) (q p) * sol j (q p')
  rw [← Equiv.sum_comp σ fun j => (A.transpose⁻¹.mulVec fun i => g j * b j i) (q p) * sol j (q p')]
  congr 1
  refine Finset.sum_congr rfl fun j _ => ?_
  rw [congrFun (inv_reindex A.transpose q fun i => g (σ j) * b (σ j) i) p]

end formulas

theorem estBackOne_perm (x : Fin r → Fin N → ℝ) (gxc : Fin r → ℝ) (π : Equiv.Perm (Fin r)) :
    estBackOne (fun k => x (π k)) (fun k => gxc (π k)) = estBackOne x gxc := by
  funext t
  exact Equiv.sum_comp π fun k => gxc k * x k t

theorem refBackOne_perm (x : Fin r → Fin N → ℝ) (y : Fin e → Fin N → ℝ) (gxc : Fin r → Fin e → ℝ) (gacm : Matrix (Fin r) (Fin r) ℝ)
    (π : Equiv.Perm (Fin r)) (σ : Equiv.Perm (Fin e)) :
    refBackOne (fun k => x (π k)) (fun j => y (σ j)) (fun k j => gxc (π k) (σ j)) (gacm.submatrix π π) =
      fun k => refBackOne x y gxc gacm (π k) := by
  funext k t
  unfold refBackOne
  congr 1
  · exact Equiv.sum_comp σ fun j => gxc (π k) j * y j t
  · congr 1
    · exact Equiv.sum_comp π fun l => gacm (π k) l * x l t
    · exact Equiv.sum_comp π fun l => gacm l (π k) * x l t

theorem refBackAll_perm {K : ℕ} (n : ℕ) (x : Fin r → Fin N → ℝ) (y : Fin e → Fin M → ℝ) (gxc : Fin r → Fin e → Fin K → ℝ)
    (gacf : Fin r → Fin r → ℕ → ℝ) (π : Equiv.Perm (Fin r)) (σ : Equiv.Perm (Fin e)) :
    refBackAll n (fun k => x (π k)) (fun j => y (σ j)) (fun k j => gxc (π k) (σ j)) (fun k l => gacf (π k) (π l)) =
      fun k => refBackAll n x y gxc gacf (π k) := by
  funext k t
  unfold refBackAll
  congr 1
  funext f
  congr 1
  · exact Equiv.sum_comp σ fun j => (starRingEnd ℂ) (irfftGrad n K (gxc (π k) j) f * (starRingEnd ℂ) (Backward.spectrum n (y j) f))
  · congr 1
    · exact Equiv.sum_comp π fun l => irfftGrad n n (acf2Grad n K (gacf (π k) l)) f * Backward.spectrum n (x l) f
    · exact Equiv.sum_comp π fun l => (starRingEnd ℂ) (irfftGrad n n (acf2Grad n K (gacf l (π k))) f) * Backward.spectrum n (x l) f

/-- Lags and reordered channels. -/
def lagPerm (K : ℕ) (π : Equiv.Perm (Fin r)) : Equiv.Perm (Fin K × Fin r) := Equiv.prodCongr (Equiv.refl _) π

theorem acfGrad_perm {K : ℕ} (gR : Fin r → Matrix (Fin K) (Fin K) ℝ) (gB : Matrix (Fin K × Fin r) (Fin K × Fin r) ℝ)
    (π : Equiv.Perm (Fin r)) :
    acfGrad (fun k => gR (π k)) (gB.submatrix (lagPerm K π) (lagPerm K π)) = fun k l => acfGrad gR gB (π k) (π l) := by
  funext k l p
  unfold acfGrad
  congr 1
  by_cases h : p < K ∧ k = l
  · rw [dif_pos h, dif_pos ⟨h.1, congrArg _ h.2⟩]
  · rw [dif_neg h, dif_neg fun h' => h ⟨h'.1, π.injective h'.2⟩]

/-! ### the pass for reordered channels -/

/-- The coherences and formulas of reordered channels. -/
def passPerm (P : BssPass s r e N M) (π : BIdx s → Equiv.Perm (Fin r)) (σ : BIdx s → Equiv.Perm (Fin e)) : BssPass s r e N M where
  cohSdr m k j := P.cohSdr m (π m k) (σ m j)
  cohSar m j := P.cohSar m (σ m j)
  est m j g h := P.est m (σ m j) (fun k => g ((π m).symm k)) h
  ref m g h k := P.ref m (fun k j => g ((π m).symm k) ((σ m).symm j)) (fun j => h ((σ m).symm j)) (π m k)

/-- The weights of reordered channels. -/
def weightsPerm (W : BssWeights (BIdx s × Fin r × Fin e)) (π : BIdx s → Equiv.Perm (Fin r)) (σ : BIdx s → Equiv.Perm (Fin e)) :
    BssWeights (BIdx s × Fin r × Fin e) :=
  ⟨W.sdr.map fun w i => w (i.1, π i.1 i.2.1, σ i.1 i.2.2), W.sir.map fun w i => w (i.1, π i.1 i.2.1, σ i.1 i.2.2),
    W.sar.map fun w i => w (i.1, π i.1 i.2.1, σ i.1 i.2.2)⟩

section pass

variable (π : BIdx s → Equiv.Perm (Fin r)) (σ : BIdx s → Equiv.Perm (Fin e))

/-- The matrix of `passOne`. -/
noncomputable def loadedGram (o : Opts) (x : Sig s r N) : BIdx s → Matrix (Fin r) (Fin r) ℝ :=
  match o.loadDiag with
  | some d => fun m => Matrix.of (fun k l => dot (x m k) (x m l)) + d • (1 : Matrix (Fin r) (Fin r) ℝ)
  | none => fun m => Matrix.of fun k l => dot (x m k) (x m l)

/-- `passOne` with its matrix and normalised signals as arguments. -/
noncomputable def passOneOf (acm : BIdx s → Matrix (Fin r) (Fin r) ℝ) (x : Sig s r N) (y : Sig s e N) : Except PyErr (BssPass s r e N N) :=
  match solveStack acm (fun m j k => dot (x m k) (y m j)) with
  | .error err => .error err
  | .ok sol => .ok
    { cohSdr := fun m k j => dot (x m k) (y m j) ^ 2
      cohSar := fun m j => ∑ k, dot (x m k) (y m j) * sol m j k
      est := fun m j g h => estBackOne (x m) fun k => g k * (2 * dot (x m k) (y m j)) +
        rhsGrad (acm m) (fun k => dot (x m k) (y m j)) (sol m j) h k
      ref := fun m g h => refBackOne (x m) (y m)
        (fun k j => g k j * (2 * dot (x m k) (y m j)) + rhsGrad (acm m) (fun k => dot (x m k) (y m j)) (sol m j) (h j) k)
        (lhsGrad (acm m) (fun j k => dot (x m k) (y m j)) (sol m) h) }

theorem passOne_eq (ref : Sig s r N) (est : Sig s e N) :
    passOne o ref est = passOneOf (loadedGram o (prep o ref)) (prep o ref) (prep o est) := by
  unfold passOne loadedGram
  cases o.loadDiag <;> rfl

theorem loadedGram_perm (x : Sig s r N) :
    loadedGram o (fun m k => x m (π m k)) = fun m => (loadedGram o x m).submatrix (π m) (π m) := by
  funext m k l
  unfold loadedGram
  cases o.loadDiag with
  | none => rfl
  | some d => simp [Matrix.one_apply]

theorem passOneOf_perm {acm : BIdx s → Matrix (Fin r) (Fin r) ℝ} {x : Sig s r N} {y : Sig s e N} {P} (h : passOneOf acm x y = .ok P) :
    passOneOf (fun m => (acm m).submatrix (π m) (π m)) (fun m k => x m (π m k)) (fun m j => y m (σ m j)) = .ok (passPerm P π σ) := by
  unfold passOneOf at h ⊢
  split at h
  · cases h
  · rename_i sol hs
    have h1 := solveStack_reindex hs (fun m : BIdx s => m) (fun m j => σ m j) π
    rw [h1]
    cases h
    dsimp only
    refine congrArg Except.ok ?_
    unfold passPerm
    rw [BssPass.mk.injEq]
    refine ⟨rfl, ?_, ?_, ?_⟩
    · funext m j
      exact Equiv.sum_comp (π m) fun k => dot (x m k) (y m (σ m j)) * sol m (σ m j) k
    · funext m j g h
      dsimp only
      rw [← estBackOne_perm (x m) _ (π m)]
      congr 1
      funext k
      rw [rhsGrad_reindex (acm m) (fun k => dot (x m k) (y m (σ m j))) (sol m (σ m j)) h (π m), Equiv.symm_apply_apply]
    · funext m g h k
      have := congrFun (refBackOne_perm (x m) (y m) (fun k j => g ((π m).symm k) ((σ m).symm j) * (2 * dot (x m k) (y m j)) +
        rhsGrad (acm m) (fun k => dot (x m k) (y m j)) (sol m j) (h ((σ m).symm j)) k)
        (lhsGrad (acm m) (fun j k => dot (x m k) (y m j)) (sol m) fun j => h ((σ m).symm j)) (π m) (σ m)) k
      refine Eq.trans ?_ this
      rw [← lhsGrad_reindex (acm m) (fun j k => dot (x m k) (y m j)) (sol m) (fun j => h ((σ m).symm j)) (π m) (σ m)]
      simp only [Equiv.symm_apply_apply]
      refine congrArg (fun G => refBackOne _ _ G _ k) ?_
      funext k' j
      rw [rhsGrad_reindex (acm m) (fun k => dot (x m k) (y m (σ m j))) (sol m (σ m j)) (h j) (π m)]

theorem passOne_perm {ref : Sig s r N} {est : Sig s e N} {P} (h : passOne o ref est = .ok P) :
    passOne o (fun m k => ref m (π m k)) (fun m j => est m (σ m j)) = .ok (passPerm P π σ) := by
  rw [passOne_eq] at h ⊢
  have := passOneOf_perm π σ h
  rw [← loadedGram_perm] at this
  exact this

theorem blockToeplitz_perm {K n : ℕ} {ref : Sig s r N} {T} (h : blockToeplitz torchBackend K (bssAcf o n ref) = .ok T) :
    blockToeplitz torchBackend K (bssAcf o n fun m k => ref m (π m k)) =
      .ok fun m => (T m).submatrix (lagPerm K (π m)) (lagPerm K (π m)) := by
  have e1 : bssAcf o n (fun m k => ref m (π m k)) = fun m k l => bssAcf o n ref m (π m k) (π m l) := by
    funext m k l
    unfold bssAcf
    dsimp only
    by_cases hk : k = l
    · rw [if_pos hk, if_pos (congrArg _ hk)]
      rfl
    · rw [if_neg hk, if_neg fun h' => hk ((π m).injective h')]
      rfl
  rw [e1]
  unfold blockToeplitz at h ⊢
  split_ifs at h with h1
  rw [if_neg fun ⟨m, k, l, hi⟩ => h1 ⟨m, π m k, π m l, hi⟩]
  cases h
  rfl

theorem passFir_perm {ref : Sig s r N} {est : Sig s e M} {P} (h : passFir o ref est = .ok P) :
    passFir o (fun m k => ref m (π m k)) (fun m j => est m (σ m j)) = .ok (passPerm P π σ) := by
  unfold passFir at h ⊢
  cases hn : nFft N M with
  | error err => rw [hn] at h; cases h
  | ok n =>
    rw [hn] at h
    dsimp only at h ⊢
    split_ifs at h ⊢ with hK
    split at h
    · cases h
    · rename_i sol hs
      split at h
      · cases h
      · rename_i RB hb
        split at h
        · cases h
        · rename_i solB hsB
          have h1 : solveStack (fun i : BIdx s × Fin r => toeplitz torchBackend (min o.filterLength n) (bssAcfSdr o n ref i.1 (π i.1 i.2)))
              (fun i j => vec (min o.filterLength n) (sdrXcorr o n ref est i.1 (π i.1 i.2) (σ i.1 j))) =
              .ok fun i j => sol (i.1, π i.1 i.2) (σ i.1 j) :=
            solveStack_reindex hs (fun i : BIdx s × Fin r => (i.1, π i.1 i.2)) (fun i j => σ i.1 j) fun _ => Equiv.refl _
          have h2 := blockToeplitz_perm π hb
          have h3 := solveStack_reindex hsB (fun m : BIdx s => m) (fun m j => σ m j) fun m => lagPerm (min o.filterLength n) (π m)
          have e1 : ∀ m k, bssAcfSdr o n (fun m k => ref m (π m k)) m k = bssAcfSdr o n ref m (π m k) := by
            intro m k
            unfold bssAcfSdr bssAcf
            dsimp only
            rw [if_pos rfl, if_pos rfl]
            rfl
          have e2 : ∀ m k j, sdrXcorr o n (fun m k => ref m (π m k)) (fun m j => est m (σ m j)) m k j =
            sdrXcorr o n ref est m (π m k) (σ m j) := fun _ _ _ => rfl
          have e4 : xcorrFlat o n (min o.filterLength n) (fun m k => ref m (π m k)) (fun m j => est m (σ m j)) =
            fun m j p => xcorrFlat o n (min o.filterLength n) ref est m (σ m j) (lagPerm (min o.filterLength n) (π m) p) := rfl
          have e5 : ∀ m, prep o (fun m k => ref m (π m k)) m = fun k => prep o ref m (π m k) := fun _ => rfl
          have e6 : ∀ m, prep o (fun m j => est m (σ m j)) m = fun j => prep o est m (σ m j) := fun _ => rfl
          simp only [e1, e2, e4, e5, e6]
          rw [h1]
          dsimp only
          rw [h2]
          dsimp only
          rw [h3]
          cases h
          dsimp only
          refine congrArg Except.ok ?_
          generalize xcorrFlat o n (min o.filterLength n) ref est = xb
          generalize bssAcfSdr o n ref = ac
          generalize sdrXcorr o n ref est = xc
          generalize min o.filterLength n = K at *
          unfold passPerm
          dsimp only
          rw [BssPass.mk.injEq]
          refine ⟨rfl, ?_, ?_, ?_⟩
          · funext m j
            exact Equiv.sum_comp (lagPerm K (π m)) fun p => xb m (σ m j) p * solB m (σ m j) p
          · funext m j g h
            rw [← estBack_perm n (prep o ref m) _ (π m)]
            congr 1
            funext k l
            rw [rhsGrad_reindex (RB m) (xb m (σ m j)) (solB m (σ m j)) h (lagPerm K (π m)), Equiv.symm_apply_apply]
            rfl
          · funext m g h k
            have := congrFun (refBackAll_perm n (prep o ref m) (prep o est m) (fun k j l =>
              xcorrGrad (toeplitz torchBackend K (ac m k)) (vec K (xc m k j)) (sol (m, k) j) (g ((π m).symm k) ((σ m).symm j)) l +
                rhsGrad (RB m) (xb m j) (solB m j) (h ((σ m).symm j)) (l, k))
              (acfGrad (fun k => matGrad (toeplitz torchBackend K (ac m k)) (fun j => vec K (xc m k j)) (sol (m, k))
                fun j => g ((π m).symm k) ((σ m).symm j)) (lhsGrad (RB m) (xb m) (solB m) fun j => h ((σ m).symm j))) (π m) (σ m)) k
            refine Eq.trans ?_ this
            rw [← acfGrad_perm, ← lhsGrad_reindex (RB m) (xb m) (solB m) (fun j => h ((σ m).symm j)) (lagPerm K (π m)) (σ m)]
            simp only [Equiv.symm_apply_apply]
            congr 3
            · funext k' j l
              rw [rhsGrad_reindex (RB m) (xb m (σ m j)) (solB m (σ m j)) (h j) (lagPerm K (π m))]
              rfl
            · funext k'
              have := matGrad_perm (toeplitz torchBackend K (ac m (π m k'))) (fun j => vec K (xc m (π m k') j)) (sol (m, π m k'))
                (fun j => g k' ((σ m).symm j)) (σ m)
              simp only [Equiv.symm_apply_apply] at this
              exact this

theorem bssPass_perm {ref : Sig s r N} {est : Sig s e M} {P} (h : bssPass o ref est = .ok P) :
    bssPass o (fun m k => ref m (π m k)) (fun m j => est m (σ m j)) = .ok (passPerm P π σ) := by
  unfold bssPass at h ⊢
  split_ifs at h ⊢ with h0 h1 h2
  · subst h2
    exact passOne_perm π σ h
  · exact passFir_perm π σ h

/-! ### the gradients of the matrices -/

theorem lift_equiv {κ κ' : Type} (g : κ → XR) (q : κ' ≃ κ) (f : (κ → ℝ) → Fin N → ℝ) (f' : (κ' → ℝ) → Fin N → ℝ)
    (h : ∀ g, f' (fun k => g (q k)) = f g) : lift (fun k => g (q k)) f' = lift g f := by
  unfold lift
  have e : (∀ k, (g (q k)).toReal?.isSome) ↔ ∀ k, (g k).toReal?.isSome :=
    ⟨fun h k => by have := h (q.symm k); rwa [Equiv.apply_symm_apply] at this, fun h k => h _⟩
  by_cases h1 : ∀ k, (g k).toReal?.isSome
  · rw [if_pos (e.2 h1), if_pos h1]
    funext t
    rw [h fun k => (g k).toReal?.getD 0]
  · rw [if_neg (mt e.1 h1), if_neg h1]

theorem pairSdr_perm (P : BssPass s r e N M) (W : BssWeights (BIdx s × Fin r × Fin e)) (m k j) :
    pairSdr o (passPerm P π σ) (weightsPerm W π σ) m k j = pairSdr o P W m (π m k) (σ m j) := by
  obtain ⟨a, b, c⟩ := W
  cases a <;> cases b <;> rfl

theorem pairSar_perm (P : BssPass s r e N M) (W : BssWeights (BIdx s × Fin r × Fin e)) (m j) :
    pairSar o (passPerm P π σ) (weightsPerm W π σ) m j = pairSar o P W m (σ m j) := by
  unfold pairSar
  rw [← xsum_perm (fun k => baseGradSar o.clampDb (P.cohSdr m k (σ m j)) (P.cohSar m (σ m j)) (W.sir.map (· (m, k, σ m j)))
    (W.sar.map (· (m, k, σ m j)))) (π m)]
  obtain ⟨a, b, c⟩ := W
  cases b <;> cases c <;> rfl

theorem gradBss_perm (P : BssPass s r e N M) (ref : Sig s r N) (est : Sig s e M) (W : BssWeights (BIdx s × Fin r × Fin e)) :
    gradEstBss o (passPerm P π σ) (fun m j => est m (σ m j)) (weightsPerm W π σ) = (fun m j => gradEstBss o P est W m (σ m j)) ∧
      gradRefBss o (passPerm P π σ) (fun m k => ref m (π m k)) (weightsPerm W π σ) = fun m k => gradRefBss o P ref W m (π m k) := by
  constructor
  · funext m j
    unfold gradEstBss
    refine congrArg (preprocessGrad o.zeroMean (est m (σ m j))) ?_
    have := lift_equiv (fun i : Option (Fin r) => match i with
      | some k => pairSdr o P W m k (σ m j)
      | none => pairSar o P W m (σ m j)) (Equiv.optionCongr (π m)) (fun g => P.est m (σ m j) (fun k => g (some k)) (g none))
      (fun g => (passPerm P π σ).est m j (fun k => g (some k)) (g none)) fun g => by
        show P.est m (σ m j) (fun k => g (some (π m ((π m).symm k)))) (g none) = _
        simp only [Equiv.apply_symm_apply]
    refine Eq.trans ?_ this
    congr 1
    funext i
    cases i with
    | none => exact pairSar_perm π σ P W m j
    | some k => exact pairSdr_perm π σ P W m k j
  · funext m k
    unfold gradRefBss
    refine congrArg (preprocessGrad o.zeroMean (ref m (π m k))) ?_
    have := lift_equiv (fun i : Fin e ⊕ Fin e => match i with
      | .inl j => pairSdr o P W m (π m k) j
      | .inr j => pairSar o P W m j) (Equiv.sumCongr (σ m) (σ m))
      (fun g => P.ref m (fun k' j => if k' = π m k then g (.inl j) else 0) (fun j => g (.inr j)) (π m k))
      (fun g => (passPerm P π σ).ref m (fun k' j => if k' = k then g (.inl j) else 0) (fun j => g (.inr j)) k) fun g => by
        show P.ref m (fun k' j => if (π m).symm k' = k then g (.inl (σ m ((σ m).symm j))) else 0)
          (fun j => g (.inr (σ m ((σ m).symm j)))) (π m k) = _
        simp only [Equiv.apply_symm_apply, Equiv.symm_apply_eq]
    refine Eq.trans ?_ this
    congr 1
    funext i
    cases i with
    | inl j => exact pairSdr_perm π σ P W m k j
    | inr j => exact pairSar_perm π σ P W m j

/-- The weights of the pairs for reordered channels, if there is only one best pairing. -/
theorem permGrad_perm {L : BIdx s → Fin r → Fin e → XR} (hu : ∀ m, UniqueBest (L m)) {na na' : ℕ} {args args'} {p p'}
    (hp : solvePermutation torchBackend L (nArgs := na) args = .ok p)
    (hp' : solvePermutation torchBackend (fun m k j => L m (π m k) (σ m j)) (nArgs := na') args' = .ok p') (v : BIdx s → ℝ) (m k j) :
    permGrad p'.perm (fun m _ => v m) m k j = permGrad p.perm (fun m _ => v m) m (π m k) (σ m j) := by
  obtain ⟨-, P, hP⟩ := solvePermutation_spec torchBackend Ex.covered.lsa _ _ hp m
  obtain ⟨-, P', hP'⟩ := solvePermutation_spec torchBackend Ex.covered.lsa _ _ hp' m
  rw [Steepness.permGrad_at hP.describes, Steepness.permGrad_at hP'.describes]
  have hs := hu m P _ hP.best (bestPairing_map hP'.best) (π m k) (σ m j)
  have key : ∀ (Q : Pairing r e) (k : Fin r) (j : Fin e) (x : ℝ), (∑ i, if Q.ref i = k ∧ Q.est i = j then x else 0) =
      if ∃ i, Q.ref i = k ∧ Q.est i = j then x else 0 := by
    intro Q k j x
    split_ifs with hx
    · obtain ⟨i, hi⟩ := hx
      rw [Finset.sum_eq_single i (fun i' _ hi' => if_neg fun h2 => hi' (Q.ref_inj (h2.1.trans hi.1.symm)))
        fun h => absurd (Finset.mem_univ _) h, if_pos hi]
    · exact Finset.sum_eq_zero fun i _ => if_neg fun hi => hx ⟨i, hi⟩
  rw [key, key]
  refine if_congr ?_ rfl rfl
  rw [hs]
  constructor
  · rintro ⟨i, h1, h2⟩
    exact ⟨i, congrArg _ h1, congrArg _ h2⟩
  · rintro ⟨i, h1, h2⟩
    exact ⟨i, (π m).injective h1, (σ m).injective h2⟩

/-- The gradients through the permutation for reordered channels. -/
theorem permPass_perm (P : BssPass s r e N M) (hu : ∀ m, UniqueBest fun k j => (baseMetrics o.clampDb (P.cohSdr m k j) (P.cohSar m j)).2.1)
    (ref : Sig s r N) (est : Sig s e M) (a b c : Option (BIdx s → ℝ)) {p}
    (hp : solvePermutation torchBackend (fun m k j => (baseMetrics o.clampDb (P.cohSdr m k j) (P.cohSar m j)).2.1) (nArgs := 2)
      ![fun m k j => (baseMetrics o.clampDb (P.cohSdr m k j) (P.cohSar m j)).1,
        fun m k j => (baseMetrics o.clampDb (P.cohSdr m k j) (P.cohSar m j)).2.2] = .ok p) :
    ∃ p', solvePermutation torchBackend (fun m k j => (baseMetrics o.clampDb ((passPerm P π σ).cohSdr m k j)
        ((passPerm P π σ).cohSar m j)).2.1) (nArgs := 2)
      ![fun m k j => (baseMetrics o.clampDb ((passPerm P π σ).cohSdr m k j) ((passPerm P π σ).cohSar m j)).1,
        fun m k j => (baseMetrics o.clampDb ((passPerm P π σ).cohSdr m k j) ((passPerm P π σ).cohSar m j)).2.2] = .ok p' ∧
      let W := permWeights p.perm ⟨a.map fun w i => w i.1, b.map fun w i => w i.1, c.map fun w i => w i.1⟩
      let W' := permWeights p'.perm ⟨a.map fun w i => w i.1, b.map fun w i => w i.1, c.map fun w i => w i.1⟩
      gradEstBss o (passPerm P π σ) (fun m j => est m (σ m j)) W' = (fun m j => gradEstBss o P est W m (σ m j)) ∧
      gradRefBss o (passPerm P π σ) (fun m k => ref m (π m k)) W' = fun m k => gradRefBss o P ref W m (π m k) := by
  let L : BIdx s → Fin r → Fin e → XR := fun m k j => (baseMetrics o.clampDb (P.cohSdr m k j) (P.cohSar m j)).2.1
  have hsol : ∀ m, Solvable (L m) := (solvePermutation_ok_iff _ Ex.covered.lsa _ _).1 ⟨p, hp⟩
  obtain ⟨p', hp'⟩ := (solvePermutation_ok_iff torchBackend Ex.covered.lsa (fun m k j => L m (π m k) (σ m j)) (nArgs := 2)
    ![fun m k j => (baseMetrics o.clampDb ((passPerm P π σ).cohSdr m k j) ((passPerm P π σ).cohSar m j)).1,
      fun m k j => (baseMetrics o.clampDb ((passPerm P π σ).cohSdr m k j) ((passPerm P π σ).cohSar m j)).2.2]).2
    fun m => solvable_reorder (π m) (σ m) (hsol m)
  have hw : permWeights p'.perm ⟨a.map fun w i => w i.1, b.map fun w i => w i.1, c.map fun w i => w i.1⟩ =
      weightsPerm (permWeights p.perm ⟨a.map fun w i => w i.1, b.map fun w i => w i.1, c.map fun w i => w i.1⟩) π σ := by
    have key : ∀ w : BIdx s → ℝ, (fun i : BIdx s × Fin r × Fin e => permGrad p'.perm (fun m _ => -w m) i.1 i.2.1 i.2.2) =
        fun i => permGrad p.perm (fun m _ => -w m) i.1 (π i.1 i.2.1) (σ i.1 i.2.2) :=
      fun w => funext fun i => permGrad_perm π σ (L := L) hu hp hp' (fun m => -w m) i.1 i.2.1 i.2.2
    unfold permWeights weightsPerm
    dsimp only
    cases a <;> cases b <;> cases c <;> simp only [Option.map_none, Option.map_some, key]
  refine ⟨p', hp', ?_⟩
  dsimp only
  rw [hw]
  exact gradBss_perm π σ P ref est _

/-- **C107**, losses made of the values of `bss_eval_sources`, direct solver and any filter length: every item with a weight for the total
of its SDR, SIR and SAR. -/
theorem C107_bss_eval_perm (hN : 0 < N) (hdir : o.direct) {ref : Sig s r N} {est : Sig s e M} {S A} (hc : sqCosPair torchBackend o ref est = .ok (S, A))
    (hu : ∀ m, UniqueBest fun k j => (baseMetrics o.clampDb (S m k j) (A m j)).2.1) {a b c : Option (BIdx s → ℝ)} {g}
    (h : bssBackward o ref est ⟨a.map fun w i => w i.1, b.map fun w i => w i.1, c.map fun w i => w i.1⟩ = .ok g) :
    bssBackward o (fun m k => ref m (π m k)) (fun m j => est m (σ m j))
        ⟨a.map fun w i => w i.1, b.map fun w i => w i.1, c.map fun w i => w i.1⟩ =
      .ok (fun m j => g.1 m (σ m j), fun m k => g.2 m (π m k)) := by
  obtain ⟨P, CA, CB, hP, hC⟩ := covers hN hdir hc
  obtain ⟨rfl, rfl⟩ := hC.eq hc
  unfold bssBackward at h ⊢
  rw [hP] at h
  rw [bssPass_perm π σ hP]
  dsimp only at h ⊢
  split at h
  · cases h
  · rename_i p hp
    obtain ⟨p', hp', h1, h2⟩ := permPass_perm π σ P hu ref est a b c hp
    rw [hp']
    cases h
    dsimp only at h1 h2 ⊢
    rw [h1, h2]

end pass

/-! ### without the permutation -/

section aligned

variable (π : BIdx s → Equiv.Perm (Fin c))

theorem diag_perm (P : BssPass s c c N M) (ref : Sig s c N) (est : Sig s c M) (W : BssWeights (BIdx s × Fin c)) :
    gradEstBssDiag o (passPerm P π π) (fun m j => est m (π m j))
        ⟨W.sdr.map fun w i => w (i.1, π i.1 i.2), W.sir.map fun w i => w (i.1, π i.1 i.2), W.sar.map fun w i => w (i.1, π i.1 i.2)⟩ =
        (fun m j => gradEstBssDiag o P est W m (π m j)) ∧
      gradRefBssDiag o (passPerm P π π) (fun m k => ref m (π m k))
        ⟨W.sdr.map fun w i => w (i.1, π i.1 i.2), W.sir.map fun w i => w (i.1, π i.1 i.2), W.sar.map fun w i => w (i.1, π i.1 i.2)⟩ =
        fun m k => gradRefBssDiag o P ref W m (π m k) := by
  have h1 : ∀ m k, diagSdr o (passPerm P π π) ⟨W.sdr.map fun w i => w (i.1, π i.1 i.2), W.sir.map fun w i => w (i.1, π i.1 i.2),
      W.sar.map fun w i => w (i.1, π i.1 i.2)⟩ m k = diagSdr o P W m (π m k) := by
    intro m k
    obtain ⟨a, b, c⟩ := W
    cases a <;> cases b <;> rfl
  have h2 : ∀ m k, diagSar o (passPerm P π π) ⟨W.sdr.map fun w i => w (i.1, π i.1 i.2), W.sir.map fun w i => w (i.1, π i.1 i.2),
      W.sar.map fun w i => w (i.1, π i.1 i.2)⟩ m k = diagSar o P W m (π m k) := by
    intro m k
    obtain ⟨a, b, c⟩ := W
    cases b <;> cases c <;> rfl
  constructor
  · funext m j
    unfold gradEstBssDiag
    refine congrArg (preprocessGrad o.zeroMean (est m (π m j))) ?_
    rw [h1, h2]
    congr 1
    funext g
    show P.est m (π m j) (fun k => if (π m).symm k = j then g true else 0) (g false) = _
    simp only [Equiv.symm_apply_eq]
  · funext m k
    unfold gradRefBssDiag
    refine congrArg (preprocessGrad o.zeroMean (ref m (π m k))) ?_
    have := lift_equiv (fun i : Unit ⊕ Fin c => match i with
      | .inl _ => diagSdr o P W m (π m k)
      | .inr j => diagSar o P W m j) (Equiv.sumCongr (Equiv.refl Unit) (π m))
      (fun g => P.ref m (fun k' j => if k' = π m k ∧ j = π m k then g (.inl ()) else 0) (fun j => g (.inr j)) (π m k))
      (fun g => (passPerm P π π).ref m (fun k' j => if k' = k ∧ j = k then g (.inl ()) else 0) (fun j => g (.inr j)) k) fun g => by
        show P.ref m (fun k' j => if (π m).symm k' = k ∧ (π m).symm j = k then g (.inl ()) else 0)
          (fun j => g (.inr (π m ((π m).symm j)))) (π m k) = _
        simp only [Equiv.apply_symm_apply, Equiv.symm_apply_eq]
    refine Eq.trans ?_ this
    congr 1
    funext i
    cases i with
    | inl _ => exact h1 m k
    | inr j => exact h2 m j

theorem negWeights_perm (v : BssWeights (BIdx s × Fin c)) :
    negWeights ⟨v.sdr.map fun w i => w (i.1, π i.1 i.2), v.sir.map fun w i => w (i.1, π i.1 i.2), v.sar.map fun w i => w (i.1, π i.1 i.2)⟩ =
      ⟨(negWeights v).sdr.map fun w i => w (i.1, π i.1 i.2), (negWeights v).sir.map fun w i => w (i.1, π i.1 i.2),
        (negWeights v).sar.map fun w i => w (i.1, π i.1 i.2)⟩ := by
  obtain ⟨a, b, c⟩ := v
  cases a <;> cases b <;> cases c <;> rfl

/-- **C107**, losses made of the values of `bss_eval_sources(compute_permutation=False)`, direct solver and any filter length: references,
estimates and weights in another order. -/
theorem C107_bss_eval {ref : Sig s c N} {est : Sig s c M} {v : BssWeights (BIdx s × Fin c)} {g} (h : bssBackwardDiag o ref est v = .ok g) :
    bssBackwardDiag o (fun m k => ref m (π m k)) (fun m j => est m (π m j))
        ⟨v.sdr.map fun w i => w (i.1, π i.1 i.2), v.sir.map fun w i => w (i.1, π i.1 i.2), v.sar.map fun w i => w (i.1, π i.1 i.2)⟩ =
      .ok (fun m j => g.1 m (π m j), fun m k => g.2 m (π m k)) := by
  unfold bssBackwardDiag at h ⊢
  cases hP : bssPass o ref est with
  | error err => rw [hP] at h; cases h
  | ok P =>
    rw [hP] at h
    rw [bssPass_perm π π hP]
    cases h
    dsimp only
    rw [negWeights_perm, (diag_perm π P ref est _).1, (diag_perm π P ref est _).2]

end aligned

/-! ### examples -/

/-- Two sources, filters of two taps, a loss made of SDR and SIR; the estimates exchanged. -/
example (w w' : ℝ) : ∃ gE gR,
    bssBackward (Ex.clamped none) Ex.ref Ex.est ⟨some fun _ => w, some fun _ => w', none⟩ = .ok (gE, gR) ∧
    bssBackward (Ex.clamped none) Ex.ref (fun m j => Ex.est m (1 - j)) ⟨some fun _ => w, some fun _ => w', none⟩ =
      .ok (fun m j => gE m (1 - j), gR) := by
  obtain ⟨gE, gR, h1, -⟩ := C85_gradient_perm (o := Ex.clamped none) (by norm_num) (Or.inr rfl) le_rfl Ex.sqCosPair_value
    ⟨some fun _ => w, some fun _ => w', none⟩ (fun _ _ k j => fifth_off none (Or.inl rfl) (k = j))
    (fun _ k j => by rw [(ex_base none _).2.1]; exact ex_fin none (Or.inl rfl) (k = j)) (fun h => absurd rfl h)
    (fun m => by simp only [(ex_base _ _).2.1]; exact Ex.unique_loss)
  refine ⟨gE, gR, h1, ?_⟩
  exact C107_bss_eval_perm (o := Ex.clamped none) (fun _ => Equiv.refl _) (fun _ => Equiv.subLeft 1) (by norm_num) (Or.inr rfl)
    Ex.sqCosPair_value (fun m => by simp only [(ex_base _ _).2.1]; exact Ex.unique_loss) (a := some fun _ => w) (b := some fun _ => w')
    (c := none) h1

/-- Both sources and estimates exchanged, without the permutation. -/
example (d : ℝ) (w w' : BIdx [] × Fin 2 → ℝ) :
    ∃ gE gR, bssBackwardDiag (Ex.clamped (some d)) Ex.ref Ex.est ⟨some w, none, some w'⟩ = .ok (gE, gR) ∧
    bssBackwardDiag (Ex.clamped (some d)) (fun m k => Ex.ref m (1 - k)) (fun m j => Ex.est m (1 - j))
      ⟨some fun i => w (i.1, 1 - i.2), none, some fun i => w' (i.1, 1 - i.2)⟩ = .ok (fun m j => gE m (1 - j), fun m k => gR m (1 - k)) := by
  obtain ⟨out, h⟩ := Ex.bssNoPerm_cl (some d)
  obtain ⟨gE, gR, h1, -⟩ := C85_clamped_finite_diag (o := Ex.clamped (some d)) (by norm_num) (Or.inr rfl) le_rfl rfl h
    ⟨some w, none, some w'⟩ fun hv => absurd rfl hv
  have h2 := C107_bss_eval (o := Ex.clamped (some d)) (c := 2) (ref := Ex.ref) (est := Ex.est) (v := ⟨some w, none, some w'⟩)
    (g := (gE, gR)) (fun _ => Equiv.subLeft 1) h1
  simp only [Option.map_some, Option.map_none, Equiv.subLeft_apply] at h2
  exact ⟨gE, gR, h1, h2⟩

end FBE.Props
