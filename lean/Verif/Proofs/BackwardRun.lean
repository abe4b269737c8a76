import Verif.Proofs.BackwardCgTan
import Verif.Model.BackwardBssCg
import Verif.Spec.CgSmooth

/-!
The derivative of the iterates of the conjugate gradient method for any operators, and the reverse pass as its adjoint.
-/

set_option linter.unusedSectionVars false

namespace FBE.Backward

open Spec Filter Topology Matrix

variable {J S : Type} [Fintype J]

/-- Derivatives of the variables of the loop in one direction. -/
structure RunTan (J : Type) where
  x : J → ℝ
  r : J → ℝ
  p : J → ℝ
  rsold : ℝ

/-- The derivative of one iteration for operators `A`, `P` with derivatives `A'`, `P'`. -/
noncomputable def stepTan (A P A' P' : (J → ℝ) → (J → ℝ)) (st : CgState J) (τ : RunTan J) : RunTan J :=
  let Ap := A st.p
  let Ap' := A' st.p + A τ.p
  let pAp := innerProd st.p Ap
  let pAp' := innerProd τ.p Ap + innerProd st.p Ap'
  let alpha := st.rsold / max pAp 1e-6
  let alpha' := τ.rsold / max pAp 1e-6 - st.rsold * minGrad pAp pAp' / max pAp 1e-6 ^ 2
  let r := st.r - alpha • Ap
  let r' := τ.r - (alpha' • Ap + alpha • Ap')
  let z := P r
  let z' := P' r + P r'
  let rsnew := innerProd r z
  let rsnew' := innerProd r' z + innerProd r z'
  let beta := rsnew / max st.rsold 1e-6
  let beta' := rsnew' / max st.rsold 1e-6 - rsnew * minGrad st.rsold τ.rsold / max st.rsold 1e-6 ^ 2
  ⟨τ.x + (alpha' • st.p + alpha • τ.p), r', z' + (beta' • st.p + beta • τ.p), rsnew'⟩

/-- The derivative of the initial state. -/
noncomputable def startTan (A P A' P' : (J → ℝ) → (J → ℝ)) (b x0 b' x0' : J → ℝ) : RunTan J :=
  let r := b - A x0
  let r' := b' - (A' x0 + A x0')
  let z := P r
  let z' := P' r + P r'
  ⟨x0', r', z', innerProd r' z + innerProd r z'⟩

/-- The derivative of the state after `i` iterations. -/
noncomputable def runTan (A P A' P' : (J → ℝ) → (J → ℝ)) (b x0 b' x0' : J → ℝ) : ℕ → RunTan J
  | 0 => startTan A P A' P' b x0 b' x0'
  | i + 1 => stepTan A P A' P' (cgRun A P b x0 i) (runTan A P A' P' b x0 b' x0' i)

section der

variable {X : Type*} [NormedAddCommGroup X] [NormedSpace ℝ X] {u : X}

/-- The derivative of an operator that is linear in its argument. -/
def DerOp (u : X) (A A' : X → (J → ℝ) → (J → ℝ)) : Prop :=
  ∀ y Y, DerV u y Y → DerV u (fun x => A x (y x)) fun v => A' v (y u) + A u (Y v)

theorem runTan_der {A A' P P' : X → (J → ℝ) → (J → ℝ)} {b b' x0 x0' : X → J → ℝ} (hA : DerOp u A A') (hP : DerOp u P P')
    (hb : DerV u b b') (hx0 : DerV u x0 x0') (i : ℕ) (h : CgSmooth (A u) (P u) (b u) (x0 u) i) :
    DerV u (fun x => (cgRun (A x) (P x) (b x) (x0 x) i).x) (fun v => (runTan (A u) (P u) (A' v) (P' v) (b u) (x0 u) (b' v) (x0' v) i).x) ∧
    DerV u (fun x => (cgRun (A x) (P x) (b x) (x0 x) i).r) (fun v => (runTan (A u) (P u) (A' v) (P' v) (b u) (x0 u) (b' v) (x0' v) i).r) ∧
    DerV u (fun x => (cgRun (A x) (P x) (b x) (x0 x) i).p) (fun v => (runTan (A u) (P u) (A' v) (P' v) (b u) (x0 u) (b' v) (x0' v) i).p) ∧
    Der u (fun x => (cgRun (A x) (P x) (b x) (x0 x) i).rsold)
      (fun v => (runTan (A u) (P u) (A' v) (P' v) (b u) (x0 u) (b' v) (x0' v) i).rsold) := by
  induction i with
  | zero =>
    have hr := hb.sub (hA _ _ hx0)
    have hz := hP _ _ hr
    exact ⟨hx0, hr, hz, hr.inner hz⟩
  | succ i ih =>
    obtain ⟨ix, ir, ip, irs⟩ := ih fun j hj => h j (by omega)
    obtain ⟨k1, k2⟩ := h i (by omega)
    have e1 : ∀ v, runTan (A u) (P u) (A' v) (P' v) (b u) (x0 u) (b' v) (x0' v) (i + 1) =
        stepTan (A u) (P u) (A' v) (P' v) (cgRun (A u) (P u) (b u) (x0 u) i)
          (runTan (A u) (P u) (A' v) (P' v) (b u) (x0 u) (b' v) (x0' v) i) := fun v => rfl
    simp only [cgRun_succ', e1]
    have hif : ¬ (i + 1 % 5 = 0) := by omega
    unfold cgBody stepTan
    simp only [if_neg hif]
    have hAp := hA _ _ ip
    have hpAp := ip.inner hAp
    have pos : ∀ a : ℝ, max a 1e-6 ≠ 0 := fun a => ne_of_gt (lt_max_of_lt_right (by norm_num))
    have hal := irs.div (hpAp.max k1) (pos _)
    have hr := ir.sub (DerV.smul hal hAp)
    have hz := hP _ _ hr
    have hrs := hr.inner hz
    have hbe := hrs.div (irs.max k2) (pos _)
    exact ⟨ix.add (DerV.smul hal ip), hr, hz.add (DerV.smul hbe ip), hrs⟩

end der

/-! ### The reverse pass is the adjoint -/

/-- The reverse pass of an operator is the adjoint of its derivative; the gradient of the spectra, applied to a direction, is `pa`. -/
structure Adj [Add S] [Zero S] (A : RevOp J S) (A' : (J → ℝ) → (J → ℝ)) (pa : S → ℝ) : Prop where
  add : ∀ y y', A.mul (y + y') = A.mul y + A.mul y'
  smul : ∀ (a : ℝ) y, A.mul (a • y) = a • A.mul y
  arg : ∀ g y, innerProd (A.arg g) y = innerProd g (A.mul y)
  par : ∀ v g, pa (A.par v g) = innerProd g (A' v)
  pa_add : ∀ a b, pa (a + b) = pa a + pa b
  pa_zero : pa 0 = 0

theorem Adj.sub [Add S] [Zero S] {A : RevOp J S} {A' : (J → ℝ) → (J → ℝ)} {pa : S → ℝ} (h : Adj A A' pa) (y y' : J → ℝ) :
    A.mul (y - y') = A.mul y - A.mul y' := by
  have h1 : y - y' = y + (-1 : ℝ) • y' := by
    rw [neg_one_smul, sub_eq_add_neg]
  rw [h1, h.add, h.smul, neg_one_smul, sub_eq_add_neg]

section adj

variable [Add S] [Zero S] {A P : RevOp J S} {A' P' : (J → ℝ) → (J → ℝ)} {pa pp : S → ℝ}

/-- The gradients applied to a direction. -/
noncomputable def runPair (pa pp : S → ℝ) (g : RunGrad J S) (τ : RunTan J) : ℝ :=
  innerProd g.x τ.x + innerProd g.r τ.r + innerProd g.p τ.p + g.rsold * τ.rsold + pa g.A + pp g.P

theorem stepGrad_adjoint (hA : Adj A A' pa) (hP : Adj P P' pp) (st : CgState J) (g : RunGrad J S) (τ : RunTan J) :
    runPair pa pp (stepGrad A P st g) τ = runPair pa pp g (stepTan A.mul P.mul A' P' st τ) := by
  unfold runPair stepGrad stepTan denGrad
  simp only [minGrad_mask]
  generalize hAp : A.mul st.p = Ap
  generalize hpAp : innerProd st.p Ap = pAp
  generalize hcl : max pAp 1e-6 = cl
  generalize hcb : max st.rsold 1e-6 = cb
  generalize minMask pAp = m1
  generalize minMask st.rsold = m2
  generalize hr : st.r - (st.rsold / cl) • Ap = r
  generalize hz : P.mul r = z
  generalize hrs : innerProd r z = rs
  simp only [hA.pa_add, hP.pa_add, hA.par, hP.par, add_ip, hA.arg, hP.arg, ip_add, ip_sub, ip_smul, smul_ip, sub_ip, neg_ip, hP.add, hP.sub,
    hP.smul]
  generalize A' st.p = Ad
  generalize A.mul τ.p = Aq
  generalize P' r = Pd
  rw [ip_comm Ap τ.p, ip_comm τ.r z, ip_comm Ap z, ip_comm Ad z, ip_comm Aq z]
  ring

theorem loopGrad_adjoint (hA : Adj A A' pa) (hP : Adj P P' pp) (b x0 b' x0' : J → ℝ) (i : ℕ) (g : RunGrad J S) :
    runPair pa pp (loopGrad A P b x0 i g) (startTan A.mul P.mul A' P' b x0 b' x0') =
      runPair pa pp g (runTan A.mul P.mul A' P' b x0 b' x0' i) := by
  induction i generalizing g with
  | zero => rfl
  | succ i ih =>
    unfold loopGrad runTan
    rw [ih, stepGrad_adjoint hA hP]

theorem startGrad_adjoint (hA : Adj A A' pa) (hP : Adj P P' pp) (b x0 b' x0' : J → ℝ) (g : RunGrad J S) :
    innerProd (startGrad A P b x0 g).b b' + innerProd (startGrad A P b x0 g).x0 x0' + pa (startGrad A P b x0 g).A +
        pp (startGrad A P b x0 g).P = runPair pa pp g (startTan A.mul P.mul A' P' b x0 b' x0') := by
  unfold runPair startGrad startTan
  dsimp only
  generalize hr : b - A.mul x0 = r
  generalize hz : P.mul r = z
  simp only [hA.pa_add, hP.pa_add, hA.par, hP.par, add_ip, hA.arg, hP.arg, ip_add, ip_sub, smul_ip, sub_ip, neg_ip, hP.add, hP.sub]
  generalize A' x0 = Ad
  generalize A.mul x0' = Aq
  generalize P' r = Pd
  rw [ip_comm b' z, ip_comm Ad z, ip_comm Aq z]
  ring

/-- The gradients of the solution, applied to a direction. -/
theorem runGrad_adjoint (hA : Adj A A' pa) (hP : Adj P P' pp) (b x0 b' x0' : J → ℝ) (nIter : ℕ) (g : J → ℝ) :
    innerProd (runGrad A P b x0 nIter g).b b' + innerProd (runGrad A P b x0 nIter g).x0 x0' + pa (runGrad A P b x0 nIter g).A +
        pp (runGrad A P b x0 nIter g).P = innerProd g (runTan A.mul P.mul A' P' b x0 b' x0' nIter).x := by
  unfold runGrad
  rw [startGrad_adjoint hA hP, loopGrad_adjoint hA hP]
  unfold runPair
  simp only [zero_ip, hA.pa_zero, hP.pa_zero]
  ring

end adj

end FBE.Backward
