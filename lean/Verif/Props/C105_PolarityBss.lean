import Verif.Props.C105_Polarity
import Verif.Props.C107_OrderGradientsBss

/-!
# C105: gradients through `bss_eval_sources` of signals with the polarity inverted
-/

namespace FBE.Props

open Classical FBE.Spec FBE.Backward FBE.Polarity XR

variable {s : List ℕ} {r e c N M : ℕ} {o : Opts}

/-! ### the formulas with signs -/

section formulas

variable {J : Type} [Fintype J] [DecidableEq J] {a : J → ℝ} (ha : ∀ p, a p * a p = 1) {A A' : Matrix J J ℝ}
  (h : ∀ p q, A' p q = a p * a q * A p q)
include ha h

theorem inv_sgn (v : J → ℝ) (p : J) : (A'⁻¹.mulVec fun i => a i * v i) p = a p * (A⁻¹.mulVec v) p :=
  signed_mulVec ha (Equiv.refl J) (signed_inv ha (Equiv.refl J) h) v p

theorem invT_sgn (v : J → ℝ) (p : J) : (A'.transpose⁻¹.mulVec fun i => a i * v i) p = a p * (A.transpose⁻¹.mulVec v) p :=
  inv_sgn ha (A := A.transpose) (A' := A'.transpose) (fun p q => by
    show A' q p = _ * A q p
    rw [h]
    ring) v p

theorem rhsGrad_sgn (b sol : J → ℝ) (β g : ℝ) (l : J) :
    rhsGrad A' (fun i => a i * β * b i) (fun i => a i * β * sol i) g l = a l * β * rhsGrad A b sol g l := by
  unfold rhsGrad
  have e : (fun i => g * (a i * β * b i)) = fun i => a i * (β • fun i => g * b i) i := by
    funext i
    show _ = a i * (β * (g * b i))
    ring
  rw [e, invT_sgn ha h, Matrix.mulVec_smul]
  show _ + a l * (β * _) = _
  ring

theorem lhsGrad_sgn (b sol : Fin e → J → ℝ) (β g : Fin e → ℝ) (hβ : ∀ j, β j * β j = 1) (p q : J) :
    lhsGrad A' (fun j i => a i * β j * b j i) (fun j i => a i * β j * sol j i) g p q = a p * a q * lhsGrad A b sol g p q := by
  unfold lhsGrad
  rw [mul_neg, Finset.mul_sum]
  congr 1
  refine Finset.sum_congr rfl fun j _ => ?_
  have e : (fun i => g j * (a i * β j * b j i)) = fun i => a i * (β j • fun i => g j * b j i) i := by
    funext i
    show _ = a i * (β j * (g j * b j i))
    ring
  rw [e, invT_sgn ha h, Matrix.mulVec_smul]
  show a p * (β j * _) * _ = _
  linear_combination (a p * a q * (A.transpose⁻¹.mulVec fun i => g j * b j i) p * sol j q) * hβ j

end formulas

theorem solveStack_sgn {ι κ J : Type} [Fintype J] [DecidableEq J] {a : ι → J → ℝ} (ha : ∀ i p, a i p * a i p = 1) {A A' : ι → Matrix J J ℝ}
    (hA : ∀ i p q, A' i p q = a i p * a i q * A i p q) (β : ι → κ → ℝ) {b : ι → κ → J → ℝ} {x} (h : solveStack A b = .ok x) :
    solveStack A' (fun i j p => a i p * β i j * b i j p) = .ok fun i j p => a i p * β i j * x i j p := by
  unfold solveStack at h ⊢
  split_ifs at h with h1
  rw [if_neg fun ⟨i, hi⟩ => h1 ⟨i, by rwa [signed_det (ha i) (Equiv.refl J) (hA i)] at hi⟩]
  cases h
  refine congrArg Except.ok (funext fun i => funext fun j => funext fun p => ?_)
  have e : (fun p => a i p * β i j * b i j p) = fun p => a i p * (β i j • b i j) p := by
    funext q
    show _ = a i q * (β i j * b i j q)
    ring
  show ((A' i)⁻¹.mulVec fun p => a i p * β i j * b i j p) p = _
  rw [e, inv_sgn (ha i) (hA i), Matrix.mulVec_smul]
  show a i p * (β i j * _) = _
  ring

theorem twoGrad_smul {K : ℕ} (u : ℝ) (gR : Matrix (Fin K) (Fin K) ℝ) (i : ℕ) : twoGrad (fun a b => u * gR a b) i = u * twoGrad gR i := by
  unfold twoGrad
  rw [Finset.mul_sum]
  refine Finset.sum_congr rfl fun a _ => ?_
  rw [Finset.mul_sum]
  refine Finset.sum_congr rfl fun b _ => ?_
  split_ifs <;> simp

theorem blockGrad_smul {K : ℕ} (u : ℝ) (gR : Matrix (Fin K) (Fin K) ℝ) (p : ℕ) :
    blockGrad (fun a b => u * gR a b) p = u * blockGrad gR p := by
  unfold blockGrad
  simp only [twoGrad_smul]
  split_ifs <;> ring

theorem acf2Grad_smul (n K : ℕ) (u : ℝ) (g : ℕ → ℝ) : acf2Grad n K (fun p => u * g p) = fun t => u * acf2Grad n K g t := by
  funext t
  unfold acf2Grad
  split_ifs <;> ring

theorem acfGrad_sgn {K : ℕ} (gR : Fin r → Matrix (Fin K) (Fin K) ℝ) (gB : Matrix (Fin K × Fin r) (Fin K × Fin r) ℝ) {α : Fin r → ℝ}
    (hα : ∀ k, α k * α k = 1) :
    acfGrad gR (fun p q => α p.2 * α q.2 * gB p q) = fun k l p => α k * α l * acfGrad gR gB k l p := by
  funext k l p
  unfold acfGrad
  rw [mul_add]
  refine congrArg₂ (· + ·) (blockGrad_smul (α k * α l) (fun a b => gB (a, k) (b, l)) p) ?_
  split_ifs with h
  · have : α k * α l = 1 := by rw [← h.2, hα]
    rw [this, one_mul]
  · rw [mul_zero]

theorem refBackAll_sgn {K : ℕ} (n : ℕ) (x : Fin r → Fin N → ℝ) (y : Fin e → Fin M → ℝ) (gxc : Fin r → Fin e → Fin K → ℝ)
    (gacf : Fin r → Fin r → ℕ → ℝ) (a : Fin r → Bool) (b : Fin e → Bool) (k : Fin r) (t : Fin N) :
    refBackAll n (fun k t => polSgn (a k) * x k t) (fun j t => polSgn (b j) * y j t) (fun k j l => polSgn (a k) * polSgn (b j) * gxc k j l)
        (fun k l p => polSgn (a k) * polSgn (a l) * gacf k l p) k t =
      polSgn (a k) * refBackAll n x y gxc gacf k t := by
  unfold refBackAll
  rw [← rfftGrad_signed]
  congr 1
  funext f
  rw [mul_add, mul_add, Finset.mul_sum, Finset.mul_sum, Finset.mul_sum]
  congr 1
  · refine Finset.sum_congr rfl fun j _ => ?_
    rw [irfftGrad_signed, spectrum_signed]
    simp only [map_mul, Complex.conj_ofReal, Complex.conj_conj]
    push_cast
    linear_combination ((polSgn (a k) : ℂ) * (starRingEnd ℂ) (irfftGrad n K (gxc k j) f) * Backward.spectrum n (y j) f) * sgn_sqc (b j)
  · congr 1
    · refine Finset.sum_congr rfl fun l _ => ?_
      rw [acf2Grad_smul, irfftGrad_signed, spectrum_signed]
      push_cast
      linear_combination ((polSgn (a k) : ℂ) * irfftGrad n n (acf2Grad n K (gacf k l)) f * Backward.spectrum n (x l) f) * sgn_sqc (a l)
    · refine Finset.sum_congr rfl fun l _ => ?_
      rw [acf2Grad_smul, irfftGrad_signed, spectrum_signed]
      simp only [map_mul, Complex.conj_ofReal]
      push_cast
      linear_combination ((polSgn (a k) : ℂ) * (starRingEnd ℂ) (irfftGrad n n (acf2Grad n K (gacf l k)) f) * Backward.spectrum n (x l) f) *
        sgn_sqc (a l)

theorem estBackOne_sgn (x : Fin r → Fin N → ℝ) (gxc : Fin r → ℝ) {α : Fin r → ℝ} (hα : ∀ k, α k * α k = 1) (β : ℝ) (t : Fin N) :
    estBackOne (fun k t => α k * x k t) (fun k => α k * β * gxc k) t = β * estBackOne x gxc t := by
  unfold estBackOne
  rw [Finset.mul_sum]
  exact Finset.sum_congr rfl fun k _ => by linear_combination β * gxc k * x k t * hα k

theorem refBackOne_sgn (x : Fin r → Fin N → ℝ) (y : Fin e → Fin N → ℝ) (gxc : Fin r → Fin e → ℝ) (gacm : Matrix (Fin r) (Fin r) ℝ)
    {α : Fin r → ℝ} (hα : ∀ k, α k * α k = 1) {β : Fin e → ℝ} (hβ : ∀ j, β j * β j = 1) (k : Fin r) (t : Fin N) :
    refBackOne (fun k t => α k * x k t) (fun j t => β j * y j t) (fun k j => α k * β j * gxc k j) (fun k l => α k * α l * gacm k l) k t =
      α k * refBackOne x y gxc gacm k t := by
  unfold refBackOne
  rw [mul_add, mul_add, Finset.mul_sum, Finset.mul_sum, Finset.mul_sum]
  congr 1
  · exact Finset.sum_congr rfl fun j _ => by linear_combination α k * gxc k j * y j t * hβ j
  · congr 1
    · exact Finset.sum_congr rfl fun l _ => by linear_combination α k * gacm k l * x l t * hα l
    · exact Finset.sum_congr rfl fun l _ => by linear_combination α k * gacm l k * x l t * hα l

/-! ### the pass of inverted signals -/

/-- The coherences and formulas of inverted signals. -/
noncomputable def passSgn (P : BssPass s r e N M) (fr : BIdx s → Fin r → Bool) (fe : BIdx s → Fin e → Bool) : BssPass s r e N M where
  cohSdr := P.cohSdr
  cohSar := P.cohSar
  est m j g h t := polSgn (fe m j) * P.est m j g h t
  ref m g h k t := polSgn (fr m k) * P.ref m g h k t

section pass

variable (fr : BIdx s → Fin r → Bool) (fe : BIdx s → Fin e → Bool)

theorem loadedGram_sgn (x : Sig s r N) (m : BIdx s) (k l : Fin r) :
    loadedGram o (fun m k t => polSgn (fr m k) * x m k t) m k l = polSgn (fr m k) * polSgn (fr m l) * loadedGram o x m k l := by
  unfold loadedGram
  cases o.loadDiag with
  | none => exact dot_smul _ _ _ _
  | some d =>
    show dot _ _ + d * (1 : Matrix (Fin r) (Fin r) ℝ) k l = _ * (dot _ _ + d * (1 : Matrix (Fin r) (Fin r) ℝ) k l)
    rw [dot_smul, Matrix.one_apply]
    split_ifs with h
    · rw [h]
      linear_combination -d * polSgn_sq (fr m l)
    · ring

theorem passOneOf_sgn {acm acm' : BIdx s → Matrix (Fin r) (Fin r) ℝ} (hA : ∀ m k l, acm' m k l = polSgn (fr m k) * polSgn (fr m l) * acm m k l)
    {x : Sig s r N} {y : Sig s e N} {P} (h : passOneOf acm x y = .ok P) :
    passOneOf acm' (fun m k t => polSgn (fr m k) * x m k t) (fun m j t => polSgn (fe m j) * y m j t) = .ok (passSgn P fr fe) := by
  unfold passOneOf at h ⊢
  split at h
  · cases h
  · rename_i sol hs
    have h1 := solveStack_sgn (a := fun m k => polSgn (fr m k)) (fun _ _ => polSgn_sq _) hA (fun m j => polSgn (fe m j)) hs
    simp only [dot_smul]
    rw [h1]
    cases h
    dsimp only
    refine congrArg Except.ok ?_
    unfold passSgn
    rw [BssPass.mk.injEq]
    refine ⟨?_, ?_, ?_, ?_⟩
    · funext m k j
      linear_combination (dot (x m k) (y m j) ^ 2) * sgn_mul_sq (fr m k) (fe m j)
    · funext m j
      exact Finset.sum_congr rfl fun k _ => by linear_combination dot (x m k) (y m j) * sol m j k * sgn_mul_sq (fr m k) (fe m j)
    · funext m j g h t
      dsimp only
      rw [← estBackOne_sgn (x m) _ (α := fun k => polSgn (fr m k)) (fun _ => polSgn_sq _)]
      congr 1
      funext k
      rw [rhsGrad_sgn (a := fun k => polSgn (fr m k)) (fun _ => polSgn_sq _) (hA m)]
      ring
    · funext m g h k t
      dsimp only
      rw [← refBackOne_sgn (x m) (y m) _ _ (α := fun k => polSgn (fr m k)) (fun _ => polSgn_sq _) (β := fun j => polSgn (fe m j))
        (fun _ => polSgn_sq _)]
      refine congrArg₂ (fun G H => refBackOne _ _ G H k t) ?_ ?_
      · funext k' j
        rw [rhsGrad_sgn (a := fun k => polSgn (fr m k)) (fun _ => polSgn_sq _) (hA m)]
        ring
      · funext p q
        exact lhsGrad_sgn (a := fun k => polSgn (fr m k)) (fun _ => polSgn_sq _) (hA m) _ _ (fun j => polSgn (fe m j)) h
          (fun _ => polSgn_sq _) p q

theorem passOne_sgn {ref : Sig s r N} {est : Sig s e N} {P} (h : passOne o ref est = .ok P) :
    passOne o (inverted fr ref) (inverted fe est) = .ok (passSgn P fr fe) := by
  rw [passOne_eq] at h ⊢
  have e1 : prep o (inverted fr ref) = fun m k t => polSgn (fr m k) * prep o ref m k t :=
    funext fun m => funext fun k => prep_inverted fr ref m k
  have e2 : prep o (inverted fe est) = fun m j t => polSgn (fe m j) * prep o est m j t :=
    funext fun m => funext fun j => prep_inverted fe est m j
  rw [e1, e2]
  exact passOneOf_sgn fr fe (loadedGram_sgn fr _) h

theorem passFir_sgn (hL : 2 ≤ o.filterLength) {ref : Sig s r N} {est : Sig s e M} {P} (h : passFir o ref est = .ok P) :
    passFir o (inverted fr ref) (inverted fe est) = .ok (passSgn P fr fe) := by
  unfold passFir at h ⊢
  cases hn : nFft N M with
  | error err => rw [hn] at h; cases h
  | ok n =>
    rw [hn] at h
    dsimp only at h ⊢
    split_ifs at h ⊢ with hK
    have hn0 := nFft_ne hn
    have hLn : o.filterLength ≤ n := by omega
    split at h
    · cases h
    · rename_i sol hs
      split at h
      · cases h
      · rename_i RB hb
        split at h
        · cases h
        · rename_i solB hsB
          have hR := related_inverted (o := o) fr fe ref est
          have F := fam_of_nFft (o := o) hn
          have hl : ∀ (x : Sig s r N) m k l, (bssAcf o n x m k l).length = min o.filterLength n + min o.filterLength n :=
            fun x m k l => length_bssAcf F rfl (by omega) x m k l
          have e1 : ∀ m k, bssAcfSdr o n (inverted fr ref) m k = bssAcfSdr o n ref m k := by
            intro m k
            rw [bssAcfSdr_eq_sdrAcf F rfl (by omega) hLn, bssAcfSdr_eq_sdrAcf F rfl (by omega) hLn]
            exact related_acf hR hn hn rfl rfl hL m k
          have e2 : ∀ m k j, vec (min o.filterLength n) (sdrXcorr o n (inverted fr ref) (inverted fe est) m k j) =
              fun l => polSgn (fr m k) * polSgn (fe m j) * vec (min o.filterLength n) (sdrXcorr o n ref est m k j) l :=
            fun m k j => related_xcorr hR hn hn rfl rfl hL m k j
          have e4 : xcorrFlat o n (min o.filterLength n) (inverted fr ref) (inverted fe est) =
              fun m j p => polSgn (fr m p.2) * polSgn (fe m j) * xcorrFlat o n (min o.filterLength n) ref est m j p :=
            funext fun m => funext fun j => related_flat hR hn hn rfl rfl hL m j
          have e5 : ∀ m, prep o (inverted fr ref) m = fun k t => polSgn (fr m k) * prep o ref m k t :=
            fun m => funext fun k => prep_inverted fr ref m k
          have e6 : ∀ m, prep o (inverted fe est) m = fun j t => polSgn (fe m j) * prep o est m j t :=
            fun m => funext fun j => prep_inverted fe est m j
          have h2 : blockToeplitz torchBackend (min o.filterLength n) (bssAcf o n (inverted fr ref)) =
              .ok fun m p q => polSgn (fr m p.2) * polSgn (fr m q.2) * RB m p q := by
            rw [blockToeplitz_ok (by omega) _ fun m k l => by rw [hl]; omega] at hb ⊢
            cases hb
            refine congrArg Except.ok (funext fun m => funext fun p => funext fun q => ?_)
            exact lagAt_signed (Equiv.refl _) (related_bssAcf hR hn hn rfl rfl hL hLn m) p.2 q.2 p.1.isLt q.1.isLt
          have h1 := solveStack_signed (fun i : BIdx s × Fin r => toeplitz torchBackend (min o.filterLength n) (bssAcfSdr o n ref i.1 i.2))
            (fun i j => vec (min o.filterLength n) (sdrXcorr o n ref est i.1 i.2 j)) fun i j => polSgn (fr i.1 i.2) * polSgn (fe i.1 j)
          rw [hs] at h1
          have h3 := solveStack_sgn (a := fun m p => polSgn (fr m p.2)) (fun _ _ => polSgn_sq _)
            (A' := fun m p q => polSgn (fr m p.2) * polSgn (fr m q.2) * RB m p q) (fun _ _ _ => rfl) (fun m j => polSgn (fe m j)) hsB
          simp only [e1, e2, e4, e5, e6]
          rw [h1]
          dsimp only [Except.map]
          rw [h2]
          dsimp only
          rw [h3]
          cases h
          dsimp only
          refine congrArg Except.ok ?_
          clear h1 h2 h3 e1 e2 e4 e5 e6 hl hs hb hsB hR F
          generalize xcorrFlat o n (min o.filterLength n) ref est = xb
          generalize bssAcfSdr o n ref = ac
          generalize sdrXcorr o n ref est = xc
          generalize min o.filterLength n = K at *
          unfold passSgn
          dsimp only
          rw [BssPass.mk.injEq]
          refine ⟨?_, ?_, ?_, ?_⟩
          · funext m k j
            exact Finset.sum_congr rfl fun l _ => by linear_combination vec K (xc m k j) l * sol (m, k) j l * sgn_mul_sq (fr m k) (fe m j)
          · funext m j
            exact Finset.sum_congr rfl fun p _ => by linear_combination xb m j p * solB m j p * sgn_mul_sq (fr m p.2) (fe m j)
          · funext m j g h t
            rw [← estBack_signed n (prep o ref m) _ (fr m) (fe m j)]
            congr 1
            funext k l
            rw [rhsGrad_sgn (a := fun p : Fin K × Fin r => polSgn (fr m p.2)) (fun _ => polSgn_sq _) (A := RB m) (fun _ _ => rfl),
              xcorrGrad_signed]
            ring
          · funext m g h k t
            rw [← refBackAll_sgn n (prep o ref m) (prep o est m) _ _ (fr m) (fe m), ← acfGrad_sgn _ _ (α := fun k => polSgn (fr m k)) fun _ => polSgn_sq _]
            refine congrArg₂ (fun G H => refBackAll n _ _ G H k t) ?_ ?_
            · funext k' j l
              rw [rhsGrad_sgn (a := fun p : Fin K × Fin r => polSgn (fr m p.2)) (fun _ => polSgn_sq _) (A := RB m) (fun _ _ => rfl),
                xcorrGrad_signed]
              ring
            · refine congrArg₂ acfGrad ?_ ?_
              · funext k'
                exact matGrad_signed _ _ _ (fun j => polSgn (fr m k') * polSgn (fe m j)) (fun j => sgn_mul_sq _ _) _
              · funext p q
                exact lhsGrad_sgn (a := fun p : Fin K × Fin r => polSgn (fr m p.2)) (fun _ => polSgn_sq _) (fun _ _ => rfl) _ _
                  (fun j => polSgn (fe m j)) h (fun _ => polSgn_sq _) p q

theorem bssPass_sgn {ref : Sig s r N} {est : Sig s e M} {P} (h : bssPass o ref est = .ok P) :
    bssPass o (inverted fr ref) (inverted fe est) = .ok (passSgn P fr fe) := by
  unfold bssPass at h ⊢
  split_ifs at h ⊢ with h0 h1 h2
  · subst h2
    exact passOne_sgn fr fe h
  · exact passFir_sgn fr fe (by omega) h

theorem gradBss_sgn (P : BssPass s r e N M) (ref : Sig s r N) (est : Sig s e M) (W : BssWeights (BIdx s × Fin r × Fin e)) :
    gradEstBss o (passSgn P fr fe) (inverted fe est) W = invertedGrad fe (gradEstBss o P est W) ∧
      gradRefBss o (passSgn P fr fe) (inverted fr ref) W = invertedGrad fr (gradRefBss o P ref W) := by
  constructor
  · funext m j
    unfold gradEstBss
    rw [invertedGrad_eq]
    dsimp only
    rw [← preprocessGrad_inverted]
    exact congrArg (preprocessGrad o.zeroMean _) (lift_signed _ _ _ _ fun g t => rfl)
  · funext m k
    unfold gradRefBss
    rw [invertedGrad_eq]
    dsimp only
    rw [← preprocessGrad_inverted]
    exact congrArg (preprocessGrad o.zeroMean _) (lift_signed _ _ _ _ fun g t => rfl)

theorem diag_sgn {fr fe : BIdx s → Fin c → Bool} (P : BssPass s c c N M) (ref : Sig s c N) (est : Sig s c M) (W : BssWeights (BIdx s × Fin c)) :
    gradEstBssDiag o (passSgn P fr fe) (inverted fe est) W = invertedGrad fe (gradEstBssDiag o P est W) ∧
      gradRefBssDiag o (passSgn P fr fe) (inverted fr ref) W = invertedGrad fr (gradRefBssDiag o P ref W) := by
  constructor
  · funext m j
    unfold gradEstBssDiag
    rw [invertedGrad_eq]
    dsimp only
    rw [← preprocessGrad_inverted]
    exact congrArg (preprocessGrad o.zeroMean _) (lift_signed _ _ _ _ fun g t => rfl)
  · funext m k
    unfold gradRefBssDiag
    rw [invertedGrad_eq]
    dsimp only
    rw [← preprocessGrad_inverted]
    exact congrArg (preprocessGrad o.zeroMean _) (lift_signed _ _ _ _ fun g t => rfl)

/-- **C105**, losses made of the values of `bss_eval_sources`, direct solver and any filter length. -/
theorem C105_bss_eval_perm {ref : Sig s r N} {est : Sig s e M} {v : BssWeights (BIdx s × Fin (min r e))} {g}
    (h : bssBackward o ref est v = .ok g) :
    bssBackward o (inverted fr ref) (inverted fe est) v = .ok (invertedGrad fe g.1, invertedGrad fr g.2) := by
  unfold bssBackward at h ⊢
  cases hP : bssPass o ref est with
  | error err => rw [hP] at h; cases h
  | ok P =>
    rw [hP] at h
    rw [bssPass_sgn fr fe hP]
    dsimp only at h ⊢
    have e1 : (passSgn P fr fe).cohSdr = P.cohSdr := rfl
    have e2 : (passSgn P fr fe).cohSar = P.cohSar := rfl
    rw [e1, e2]
    split at h
    · cases h
    · cases h
      dsimp only
      rw [(gradBss_sgn fr fe P ref est _).1, (gradBss_sgn fr fe P ref est _).2]

/-- **C105**, losses made of the values of `bss_eval_sources(compute_permutation=False)`, direct solver and any filter length. -/
theorem C105_bss_eval (fr fe : BIdx s → Fin c → Bool) {ref : Sig s c N} {est : Sig s c M} {v : BssWeights (BIdx s × Fin c)} {g}
    (h : bssBackwardDiag o ref est v = .ok g) :
    bssBackwardDiag o (inverted fr ref) (inverted fe est) v = .ok (invertedGrad fe g.1, invertedGrad fr g.2) := by
  unfold bssBackwardDiag at h ⊢
  cases hP : bssPass o ref est with
  | error err => rw [hP] at h; cases h
  | ok P =>
    rw [hP] at h
    rw [bssPass_sgn fr fe hP]
    cases h
    dsimp only
    rw [(diag_sgn P ref est _).1, (diag_sgn P ref est _).2]

end pass

/-! ### examples -/

/-- Two sources, filters of two taps, a loss made of SDR and SIR; one estimate inverted. -/
example (w w' : ℝ) : ∃ gE gR,
    bssBackward (Ex.clamped none) Ex.ref Ex.est ⟨some fun _ => w, some fun _ => w', none⟩ = .ok (gE, gR) ∧
    bssBackward (Ex.clamped none) (inverted (fun _ _ => false) Ex.ref) (inverted (fun _ j => decide (j = 0)) Ex.est)
      ⟨some fun _ => w, some fun _ => w', none⟩ = .ok (fun m j t => if j = 0 then (gE m j t).neg else gE m j t, gR) := by
  obtain ⟨gE, gR, h1, -⟩ := C85_gradient_perm (o := Ex.clamped none) (by norm_num) (Or.inr rfl) le_rfl Ex.sqCosPair_value
    ⟨some fun _ => w, some fun _ => w', none⟩ (fun _ _ k j => fifth_off none (Or.inl rfl) (k = j))
    (fun _ k j => by rw [(ex_base none _).2.1]; exact ex_fin none (Or.inl rfl) (k = j)) (fun h => absurd rfl h)
    (fun m => by simp only [(ex_base _ _).2.1]; exact Ex.unique_loss)
  refine ⟨gE, gR, h1, ?_⟩
  rw [C105_bss_eval_perm (fun _ _ => false) (fun _ j => decide (j = 0)) h1]
  refine congrArg Except.ok (Prod.ext ?_ rfl)
  funext m j t
  simp [invertedGrad]

end FBE.Props
