import Verif.Proofs.BackwardBlk
import Verif.Proofs.BackwardCg

/-!
The reverse pass through the iterations of `square_cosine_metrics` is the adjoint of the derivative of the coherences.
-/

set_option linter.unusedSectionVars false

namespace FBE.Backward

open Spec Filter Topology Matrix

variable {r e K n : ℕ}

/-- The solution for the SDR. -/
noncomputable def solS (K it : ℕ) (a b : Fin K → ℝ) : Fin K → ℝ := toeplitzCg torchBackend K (List.ofFn a) b it

/-- The coherence with one reference. -/
noncomputable def cohS (K it : ℕ) (a b : Fin K → ℝ) : ℝ := innerProd b (solS K it a b)

/-- The initial value for the SAR. -/
noncomputable def startB (warm : Bool) (K it : ℕ) (a b : Fin r → Fin K → ℝ) : Fin K × Fin r → ℝ :=
  if warm then fun p => solS K it (a p.2) (b p.2) p.1 else 0

/-- The lags as lists. -/
noncomputable def lags (c : Fin r → Fin r → Fin (K + K) → ℝ) : Fin r → Fin r → List ℝ := fun k l => List.ofFn (c k l)

/-- The right-hand side for the SAR. -/
def flat (b : Fin r → Fin K → ℝ) : Fin K × Fin r → ℝ := fun p => b p.2 p.1

/-- The solution for the SAR. -/
noncomputable def solB (warm : Bool) (K it : ℕ) (a : Fin r → Fin K → ℝ) (c : Fin r → Fin r → Fin (K + K) → ℝ) (b : Fin r → Fin K → ℝ) :
    Fin K × Fin r → ℝ :=
  (cgRun (blockToeplitzOp torchBackend K (lags c)) (blockPrecond torchBackend K (lags c)) (flat b) (startB warm K it a b) it).x

/-- The coherence with all references. -/
noncomputable def cohB (warm : Bool) (K it : ℕ) (a : Fin r → Fin K → ℝ) (c : Fin r → Fin r → Fin (K + K) → ℝ) (b : Fin r → Fin K → ℝ) : ℝ :=
  innerProd (flat b) (solB warm K it a c b)

theorem solS_eq (hK : 0 < K) (it : ℕ) (a b : Fin K → ℝ) :
    solS K it a b = (specRun K (toepSpec K (List.ofFn a)) (precSpec K (List.ofFn a)) b it).x := by
  unfold solS
  rw [← cgState_eq hK (by simp)]
  rfl

section core

variable {X : Type*} [NormedAddCommGroup X] [NormedSpace ℝ X] {u : X} {b b' : X → Fin r → Fin e → Fin K → ℝ} {a a' : X → Fin r → Fin K → ℝ}
  {c c' : X → Fin r → Fin r → Fin (K + K) → ℝ} {it : ℕ} {warm : Bool} {U : Fin r → Fin e → Prop}

/-- The derivative of the solution for the SDR. -/
noncomputable def tanS (K it : ℕ) (a b a' b' : Fin K → ℝ) : Fin K → ℝ :=
  (tanRun K (toepSpec K (List.ofFn a)) (precSpec K (List.ofFn a)) (toepSpec K (List.ofFn a'))
    (fun f => invTan (circSpec K (List.ofFn a) f) (circSpec K (List.ofFn a') f)) b b' it).x

/-- The derivative of the inverse spectra of the preconditioner. -/
noncomputable def precTan (c c' : Fin r → Fin r → Fin (K + K) → ℝ) : BlkSpec r := fun f =>
  -((blockPrecondSpec torchBackend (lags c) f)⁻¹ * blockPrecondSpec torchBackend (lags c') f * (blockPrecondSpec torchBackend (lags c) f)⁻¹)

/-- The derivative of the initial value. -/
noncomputable def startTanB (warm : Bool) (K it : ℕ) (a b a' b' : Fin r → Fin K → ℝ) : Fin K × Fin r → ℝ :=
  if warm then fun p => tanS K it (a p.2) (b p.2) (a' p.2) (b' p.2) p.1 else 0

/-- The derivative of the solution for the SAR. -/
noncomputable def tanB (warm : Bool) (K it : ℕ) (a : Fin r → Fin K → ℝ) (c : Fin r → Fin r → Fin (K + K) → ℝ) (b a' : Fin r → Fin K → ℝ)
    (c' : Fin r → Fin r → Fin (K + K) → ℝ) (b' : Fin r → Fin K → ℝ) : Fin K × Fin r → ℝ :=
  (runTan (blockToeplitzOp torchBackend K (lags c)) (blockPrecond torchBackend K (lags c)) (mulBlk (blockNfft K) (blkToepSpec K (lags c')))
    (mulBlk K (precTan c c')) (flat b) (startB warm K it a b) (flat b') (startTanB warm K it a b a' b') it).x

theorem der_solS (hK : 0 < K) {a a' b b' : X → Fin K → ℝ} (hb : DerV u b b') (ha : DerV u a a')
    (hD : ∀ f < K / 2 + 1, Der u (fun x => precSpec K (List.ofFn (a x)) f)
      fun v => invTan (circSpec K (List.ofFn (a u)) f) (circSpec K (List.ofFn (a' v)) f))
    (hS : OffThreshold K (toepSpec K (List.ofFn (a u))) (precSpec K (List.ofFn (a u))) (b u) it) :
    DerV u (fun x => solS K it (a x) (b x)) fun v => tanS K it (a u) (b u) (a' v) (b' v) := by
  simp only [solS_eq hK]
  exact (tanRun_der (fun f hf => der_toepSpec hK ha hf) hD hb it hS).1

theorem der_cohS (hK : 0 < K) {a a' b b' : X → Fin K → ℝ} (hb : DerV u b b') (ha : DerV u a a')
    (hD : ∀ f < K / 2 + 1, Der u (fun x => precSpec K (List.ofFn (a x)) f)
      fun v => invTan (circSpec K (List.ofFn (a u)) f) (circSpec K (List.ofFn (a' v)) f))
    (hS : OffThreshold K (toepSpec K (List.ofFn (a u))) (precSpec K (List.ofFn (a u))) (b u) it) :
    Der u (fun x => cohS K it (a x) (b x)) fun v =>
      innerProd (b' v) (solS K it (a u) (b u)) + innerProd (b u) (tanS K it (a u) (b u) (a' v) (b' v)) :=
  hb.inner (der_solS hK hb ha hD hS)

/-- No denominator of the iterations for the SAR is exactly at the threshold. -/
def OffB (warm : Bool) (K it : ℕ) (a : Fin r → Fin K → ℝ) (c : Fin r → Fin r → Fin (K + K) → ℝ) (b : Fin r → Fin K → ℝ) : Prop :=
  CgSmooth (blockToeplitzOp torchBackend K (lags c)) (blockPrecond torchBackend K (lags c)) (flat b) (startB warm K it a b) it

theorem der_cohB (hK : 2 ≤ K) {a a' b b' : X → Fin r → Fin K → ℝ} (hb : ∀ k, DerV u (fun x => b x k) fun v => b' v k)
    (ha : ∀ k, DerV u (fun x => a x k) fun v => a' v k) (hc : ∀ k l, DerV u (fun x => c x k l) fun v => c' v k l)
    (hD : ∀ k, ∀ f < K / 2 + 1, Der u (fun x => precSpec K (List.ofFn (a x k)) f)
      fun v => invTan (circSpec K (List.ofFn (a u k)) f) (circSpec K (List.ofFn (a' v k)) f))
    (hS : warm → ∀ k, OffThreshold K (toepSpec K (List.ofFn (a u k))) (precSpec K (List.ofFn (a u k))) (b u k) it)
    (hdet : ∀ f < K / 2 + 1, (blockPrecondSpec torchBackend (lags (c u)) f).det ≠ 0) (hB : OffB warm K it (a u) (c u) (b u)) :
    Der u (fun x => cohB warm K it (a x) (c x) (b x)) fun v =>
      innerProd (flat (b' v)) (solB warm K it (a u) (c u) (b u)) +
        innerProd (flat (b u)) (tanB warm K it (a u) (c u) (b u) (a' v) (c' v) (b' v)) := by
  have hf : DerV u (fun x => flat (b x)) fun v => flat (b' v) := fun p => hb p.2 p.1
  have hx0 : DerV u (fun x => startB warm K it (a x) (b x)) fun v => startTanB warm K it (a u) (b u) (a' v) (b' v) := by
    unfold startB startTanB
    cases hw : warm with
    | false => exact fun p => Der.const 0
    | true => exact fun p => der_solS (by omega) (hb p.2) (ha p.2) (hD p.2) (hS hw p.2) p.1
  have hA : DerOp u (fun x => blockToeplitzOp torchBackend K (lags (c x))) fun v => mulBlk (blockNfft K) (blkToepSpec K (lags (c' v))) := by
    have e : (fun x => blockToeplitzOp torchBackend K (lags (c x))) = fun x => mulBlk (blockNfft K) (blkToepSpec K (lags (c x))) :=
      funext fun x => funext fun v => blockToeplitzOp_mulBlk hK _ v
    rw [e]
    exact derOp_mulBlk fun f hf k l => der_blkToepSpec hK hc hf k l
  have hP : DerOp u (fun x => blockPrecond torchBackend K (lags (c x))) fun v => mulBlk K (precTan (c u) (c' v)) := by
    have e : (fun x => blockPrecond torchBackend K (lags (c x))) =
        fun x => mulBlk K fun f => (blockPrecondSpec torchBackend (lags (c x)) f)⁻¹ :=
      funext fun x => funext fun v => blockPrecond_mulBlk hK _ v
    rw [e]
    exact derOp_mulBlk fun f hf k l => der_blkPrecSpec hK hc hf (hdet f hf) k l
  exact hf.inner (runTan_der hA hP hf hx0 it hB).1

theorem sum_lags (g : Fin r → Fin r → ℕ → ℝ) (gS : Fin r → Fin K → ℝ) (c' : Fin r → Fin r → Fin (K + K) → ℝ) :
    ∑ k, ∑ l, ∑ p : Fin (K + K), acfGradCg gS g k l p * c' k l p =
      ∑ k, innerProd (gS k) (fun p => c' k k (Fin.castAdd K p)) + ∑ k, ∑ l, ∑ p : Fin (K + K), g k l p * c' k l p := by
  unfold acfGradCg
  simp only [add_mul, Finset.sum_add_distrib]
  rw [add_comm]
  congr 1
  refine Finset.sum_congr rfl fun k _ => ?_
  rw [Finset.sum_eq_single k]
  · rw [Fin.sum_univ_add]
    unfold innerProd
    have h2 : ∑ i : Fin K, (if h : (Fin.natAdd K i : Fin (K + K)).val < K ∧ k = k then gS k ⟨(Fin.natAdd K i : Fin (K + K)).val, h.1⟩ else 0) *
        c' k k (Fin.natAdd K i) = 0 := by
      refine Finset.sum_eq_zero fun i _ => ?_
      rw [dif_neg, zero_mul]
      rw [Fin.val_natAdd]
      omega
    rw [h2, add_zero]
    refine Finset.sum_congr rfl fun i _ => ?_
    rw [dif_pos ⟨by rw [Fin.val_castAdd]; exact i.isLt, rfl⟩]
    rfl
  · intro l _ hl
    refine Finset.sum_eq_zero fun p _ => ?_
    rw [dif_neg (fun h => hl h.2.symm), zero_mul]
  · exact fun h => absurd (Finset.mem_univ _) h

/-- The gradients of `cgPass`, applied to a direction. -/
theorem cgPass_adjoint (hK : 2 ≤ K) (b b' : Fin r → Fin e → Fin K → ℝ) (a a' : Fin r → Fin K → ℝ) (c c' : Fin r → Fin r → Fin (K + K) → ℝ)
    (hrel : ∀ k p, a' k p = c' k k (Fin.castAdd K p)) (g : Fin r → Fin e → ℝ) (h : Fin e → ℝ) :
    ∑ k, ∑ j, g k j * (innerProd (b' k j) (solS K it (a k) (b k j)) + innerProd (b k j) (tanS K it (a k) (b k j) (a' k) (b' k j))) +
      ∑ j, h j * (innerProd (flat fun k => b' k j) (solB warm K it a c fun k => b k j) +
        innerProd (flat fun k => b k j) (tanB warm K it a c (fun k => b k j) a' c' fun k => b' k j)) =
    ∑ k, ∑ j, ∑ l, (cgPass warm K it (fun k => List.ofFn (a k)) (lags c) b).xcorr g h k j l * b' k j l +
      ∑ k, ∑ l, ∑ p : Fin (K + K), (cgPass warm K it (fun k => List.ofFn (a k)) (lags c) b).acf g h k l p * c' k l p := by
  have hK0 : 0 < K := by omega
  set P := cgPass warm K it (fun k => List.ofFn (a k)) (lags c) b with hP
  -- the gradients of the iterations
  let x0 : Fin e → Fin K × Fin r → ℝ := fun j => startB warm K it a fun k => b k j
  let GB := fun j => runGrad (blkToep K (lags c)) (blkPrec K (lags c)) (flat fun k => b k j) (x0 j) it (h j • flat fun k => b k j)
  let gS := fun k j => solGrad warm (b k j) (g k j) fun l => (GB j).x0 (l, k)
  let GS := fun k j => cgGrad K (List.ofFn (a k)) (b k j) it (gS k j)
  have hx0 : ∀ j, startOf warm (fun k j => toeplitzCg torchBackend K (List.ofFn (a k)) (b k j) it) j = x0 j := by
    intro j
    show startOf _ _ j = startB _ _ _ _ _
    unfold startOf startB
    rfl
  have hxc : ∀ k j l, P.xcorr g h k j l = g k j * solS K it (a k) (b k j) l + (GS k j).b l +
      (h j * solB warm K it a c (fun k => b k j) (l, k) + (GB j).b (l, k)) := by
    intro k j l
    simp only [hP, cgPass, hx0]
    rfl
  have hacf : ∀ k l p, P.acf g h k l p = acfGradCg
      (fun k => acfCgGrad K (List.ofFn (a k)) (fun f => ∑ j, (GS k j).A f) (fun f => ∑ j, (GS k j).P f))
      (blkAcfGrad K (lags c) (∑ j, (GB j).A) (∑ j, (GB j).P)) k l p := by
    intro k l p
    simp only [hP, cgPass, hx0]
    rfl
  -- the iterations for the SAR
  have h1 : ∀ j, h j * (innerProd (flat fun k => b' k j) (solB warm K it a c fun k => b k j) +
        innerProd (flat fun k => b k j) (tanB warm K it a c (fun k => b k j) a' c' fun k => b' k j)) =
      h j * innerProd (flat fun k => b' k j) (solB warm K it a c fun k => b k j) + innerProd (GB j).b (flat fun k => b' k j) +
        innerProd (GB j).x0 (startTanB warm K it a (fun k => b k j) a' fun k => b' k j) +
        blkPair (blockNfft K) (GB j).A (blkToepSpec K (lags c')) + blkPair K (GB j).P (precTan c c') := by
    intro j
    have := runGrad_adjoint (adj_toep hK (lags c) (blkToepSpec K (lags c'))) (adj_prec hK (lags c) (precTan c c'))
      (flat fun k => b k j) (x0 j) (flat fun k => b' k j) (startTanB warm K it a (fun k => b k j) a' fun k => b' k j) it
      (h j • flat fun k => b k j)
    rw [smul_ip] at this
    have h2 : innerProd (flat fun k => b k j) (tanB warm K it a c (fun k => b k j) a' c' fun k => b' k j) = innerProd (flat fun k => b k j)
      (runTan (blkToep K (lags c)).mul (blkPrec K (lags c)).mul (mulBlk (blockNfft K) (blkToepSpec K (lags c'))) (mulBlk K (precTan c c'))
        (flat fun k => b k j) (x0 j) (flat fun k => b' k j) (startTanB warm K it a (fun k => b k j) a' fun k => b' k j) it).x := rfl
    rw [mul_add, h2, ← this]
    ring
  -- the initial values
  have h2 : ∀ j, innerProd (GB j).x0 (startTanB warm K it a (fun k => b k j) a' fun k => b' k j) =
      ∑ k, innerProd (if warm then fun l => (GB j).x0 (l, k) else 0) (tanS K it (a k) (b k j) (a' k) (b' k j)) := by
    intro j
    rw [blk_ip]
    refine Finset.sum_congr rfl fun k _ => ?_
    unfold startTanB
    cases warm with
    | true => rfl
    | false =>
      simp only [Bool.false_eq_true, if_false]
      rw [zero_ip]
      exact ip_zero _
  -- the iterations for the SDR
  have h3 : ∀ k j, g k j * (innerProd (b' k j) (solS K it (a k) (b k j)) + innerProd (b k j) (tanS K it (a k) (b k j) (a' k) (b' k j))) +
      innerProd (if warm then fun l => (GB j).x0 (l, k) else 0) (tanS K it (a k) (b k j) (a' k) (b' k j)) =
      g k j * innerProd (b' k j) (solS K it (a k) (b k j)) + innerProd (GS k j).b (b' k j) +
        (specPair (2 * K) (GS k j).A (toepSpec K (List.ofFn (a' k))) +
          specPair K (GS k j).P fun f => invTan (circSpec K (List.ofFn (a k)) f) (circSpec K (List.ofFn (a' k)) f)) := by
    intro k j
    have := cgGrad_adjoint hK0 (show (List.ofFn (a k)).length = K by simp) (b k j) (b' k j) (toepSpec K (List.ofFn (a' k)))
      (fun f => invTan (circSpec K (List.ofFn (a k)) f) (circSpec K (List.ofFn (a' k)) f)) it (gS k j)
    have h4 : innerProd (gS k j) (tanS K it (a k) (b k j) (a' k) (b' k j)) = g k j * innerProd (b k j) (tanS K it (a k) (b k j) (a' k) (b' k j)) +
        innerProd (if warm then fun l => (GB j).x0 (l, k) else 0) (tanS K it (a k) (b k j) (a' k) (b' k j)) := by
      show innerProd (solGrad _ _ _ _) _ = _
      unfold solGrad
      rw [add_ip, smul_ip]
    unfold tanS at h4 ⊢
    rw [h4] at this
    linarith
  -- the lags
  have h5 : ∀ k, innerProd (acfCgGrad K (List.ofFn (a k)) (fun f => ∑ j, (GS k j).A f) (fun f => ∑ j, (GS k j).P f))
      (fun p => c' k k (Fin.castAdd K p)) = ∑ j, (specPair (2 * K) (GS k j).A (toepSpec K (List.ofFn (a' k))) +
          specPair K (GS k j).P fun f => invTan (circSpec K (List.ofFn (a k)) f) (circSpec K (List.ofFn (a' k)) f)) := by
    intro k
    rw [show (fun p => c' k k (Fin.castAdd K p)) = a' k from funext fun p => (hrel k p).symm, acfCgGrad_adjoint hK0, specPair_sum,
      specPair_sum, Finset.sum_add_distrib]
  have h6 : ∑ k, ∑ l, ∑ p : Fin (K + K), P.acf g h k l p * c' k l p =
      ∑ k, ∑ j, (specPair (2 * K) (GS k j).A (toepSpec K (List.ofFn (a' k))) +
          specPair K (GS k j).P fun f => invTan (circSpec K (List.ofFn (a k)) f) (circSpec K (List.ofFn (a' k)) f)) +
        ∑ j, (blkPair (blockNfft K) (GB j).A (blkToepSpec K (lags c')) + blkPair K (GB j).P (precTan c c')) := by
    simp only [hacf]
    rw [sum_lags]
    simp only [h5]
    congr 1
    have := blkAcfGrad_adjoint hK (lags c) (∑ j, (GB j).A) (∑ j, (GB j).P) c'
    rw [this, blkPair_sum, blkPair_sum, Finset.sum_add_distrib]
    rfl
  have h7 : ∀ j, innerProd (GB j).b (flat fun k => b' k j) = ∑ k, ∑ l, (GB j).b (l, k) * b' k j l := fun j => blk_ip _ _
  have h8 : ∀ j, h j * innerProd (flat fun k => b' k j) (solB warm K it a c fun k => b k j) =
      ∑ k, ∑ l, h j * solB warm K it a c (fun k => b k j) (l, k) * b' k j l := by
    intro j
    rw [ip_comm, blk_ip, Finset.mul_sum]
    refine Finset.sum_congr rfl fun k _ => ?_
    unfold innerProd
    rw [Finset.mul_sum]
    exact Finset.sum_congr rfl fun l _ => by simp only [flat]; ring
  have h9 : ∀ k j, ∑ l, P.xcorr g h k j l * b' k j l = g k j * innerProd (b' k j) (solS K it (a k) (b k j)) + innerProd (GS k j).b (b' k j) +
      (∑ l, h j * solB warm K it a c (fun k => b k j) (l, k) * b' k j l + ∑ l, (GB j).b (l, k) * b' k j l) := by
    intro k j
    simp only [hxc, add_mul, Finset.sum_add_distrib]
    congr 2
    rw [ip_comm]
    unfold innerProd
    rw [Finset.mul_sum]
    exact Finset.sum_congr rfl fun l _ => by ring
  rw [h6]
  simp only [h1, h2, h7, h8, h9]
  have h10 : ∀ k j, g k j * (innerProd (b' k j) (solS K it (a k) (b k j)) + innerProd (b k j) (tanS K it (a k) (b k j) (a' k) (b' k j))) =
      g k j * innerProd (b' k j) (solS K it (a k) (b k j)) + innerProd (GS k j).b (b' k j) +
        (specPair (2 * K) (GS k j).A (toepSpec K (List.ofFn (a' k))) +
          specPair K (GS k j).P fun f => invTan (circSpec K (List.ofFn (a k)) f) (circSpec K (List.ofFn (a' k)) f)) -
      innerProd (if warm then fun l => (GB j).x0 (l, k) else 0) (tanS K it (a k) (b k j) (a' k) (b' k j)) := by
    intro k j
    rw [← h3]
    ring
  simp only [h10, Finset.sum_sub_distrib, Finset.sum_add_distrib]
  rw [Finset.sum_comm (f := fun k j => innerProd (if warm then fun l => (GB j).x0 (l, k) else 0) (tanS K it (a k) (b k j) (a' k) (b' k j))),
    Finset.sum_comm (f := fun k j => ∑ l, h j * solB warm K it a c (fun k => b k j) (l, k) * b' k j l),
    Finset.sum_comm (f := fun k j => ∑ l, (GB j).b (l, k) * b' k j l)]
  ring

end core

end FBE.Backward
