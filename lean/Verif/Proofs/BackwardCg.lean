import Verif.Proofs.BackwardCgTan
import Verif.Proofs.BackwardFir
import Verif.Spec.CgSmooth

/-!
The backward pass through the conjugate gradient iterations gives the derivatives of the coherences.
-/

set_option linter.unusedSectionVars false

namespace FBE.Backward

open Spec XR Filter Topology Matrix

variable {s : List ℕ} {r e c N M K n : ℕ}

/-- `acf`, with the loaded diagonal. -/
noncomputable def acfV (n K : ℕ) (d : ℝ) (x : Fin N → ℝ) : Fin K → ℝ := fun l => circ n x x l + if l.val = 0 then d else 0

/-- The coherence. -/
noncomputable def cgCoh (n K : ℕ) (d : ℝ) (it : ℕ) (x : Fin N → ℝ) (y : Fin M → ℝ) : ℝ :=
  innerProd (xcV n K x y) (toeplitzCg torchBackend K (List.ofFn (acfV n K d x)) (xcV n K x y) it)

/-- No denominator is exactly at the threshold. -/
def CgOff (n K : ℕ) (d : ℝ) (it : ℕ) (x : Fin N → ℝ) (y : Fin M → ℝ) : Prop :=
  OffThreshold K (toepSpec K (List.ofFn (acfV n K d x))) (precSpec K (List.ofFn (acfV n K d x))) (xcV n K x y) it

theorem cgCoh_eq (hK : 0 < K) (d : ℝ) (it : ℕ) (x : Fin N → ℝ) (y : Fin M → ℝ) :
    cgCoh n K d it x y = innerProd (xcV n K x y) (specRun K (toepSpec K (List.ofFn (acfV n K d x)))
      (precSpec K (List.ofFn (acfV n K d x))) (xcV n K x y) it).x := by
  unfold cgCoh
  rw [← cgState_eq hK (by simp)]
  rfl

/-- The derivative for the estimate. -/
theorem cgCoh_der_est (hK : 0 < K) {d : ℝ} {it : ℕ} {x : Fin N → ℝ} {y : Fin M → ℝ} (h : CgOff n K d it x y) :
    ∃ q' : (Fin M → ℝ) →L[ℝ] ℝ, HasFDerivAt (cgCoh n K d it x) q' y ∧
      ∀ g v, g * q' v = ∑ l : Fin K, (cohCgGrad K (List.ofFn (acfV n K d x)) (xcV n K x y) it g).b l * circ n x v l := by
  have hb : DerV y (fun y => xcV n K x y) (fun v => xcV n K x v) := by
    intro l
    exact hasFDerivAt_circ_second n x y l
  obtain ⟨hx, -⟩ := tanRun_der (u := y) (C := fun _ => toepSpec K (List.ofFn (acfV n K d x))) (C' := fun _ _ => 0)
    (D := fun _ => precSpec K (List.ofFn (acfV n K d x))) (D' := fun _ _ => 0) (fun f _ => Der.const _) (fun f _ => Der.const _)
    hb it h
  obtain ⟨q', h1, h2⟩ := hb.inner hx
  refine ⟨q', ?_, fun g v => ?_⟩
  · rw [show cgCoh n K d it x = _ from funext fun y => cgCoh_eq hK d it x y]
    exact h1
  · have h3 := cohCgGrad_adjoint hK (show (List.ofFn (acfV n K d x)).length = K by simp) (xcV n K x y) (xcV n K x v)
      (fun _ => 0) (fun _ => 0) it g
    rw [h2, ← h3]
    have h0 : ∀ (m : ℕ) (G : ℕ → ℂ), specPair m G (fun _ => 0) = 0 := by
      intro m G
      simp [specPair]
    rw [h0, h0, add_zero, add_zero]
    rfl

/-- The derivative for the reference. -/
theorem cgCoh_der_ref (hK : 0 < K) {d : ℝ} {it : ℕ} {x : Fin N → ℝ} {y : Fin M → ℝ} (h : CgOff n K d it x y)
    (hp : ∀ f < K / 2 + 1, (circSpec K (List.ofFn (acfV n K d x)) f).re ^ 2 + (circSpec K (List.ofFn (acfV n K d x)) f).im ^ 2 ≠ 1e-6) :
    ∃ q' : (Fin N → ℝ) →L[ℝ] ℝ, HasFDerivAt (fun x => cgCoh n K d it x y) q' x ∧
      ∀ g v, g * q' v = ∑ l : Fin K, (cohCgGrad K (List.ofFn (acfV n K d x)) (xcV n K x y) it g).b l * circ n v y l +
        ∑ l : Fin K, acfCgGrad K (List.ofFn (acfV n K d x)) (cohCgGrad K (List.ofFn (acfV n K d x)) (xcV n K x y) it g).A
          (cohCgGrad K (List.ofFn (acfV n K d x)) (xcV n K x y) it g).P l * (circ n x v l + circ n v x l) := by
  have hb : DerV x (fun x => xcV n K x y) (fun v => xcV n K v y) := by
    intro l
    exact hasFDerivAt_circ_first n x y l
  have hc : DerV x (fun x => acfV n K d x) (fun v l => circ n x v l + circ n v x l) := by
    intro l
    obtain ⟨D, h1, h2⟩ := hasFDerivAt_circ_auto n x l
    exact ⟨D, h1.add_const _, h2⟩
  obtain ⟨hx, -⟩ := tanRun_der (u := x) (fun f hf => der_toepSpec hK hc hf) (fun f hf => der_precSpec hK hc hf (hp f hf)) hb it h
  obtain ⟨q', h1, h2⟩ := hb.inner hx
  refine ⟨q', ?_, fun g v => ?_⟩
  · rw [show (fun x => cgCoh n K d it x y) = _ from funext fun x => cgCoh_eq hK d it x y]
    exact h1
  · have h3 := cohCgGrad_adjoint hK (show (List.ofFn (acfV n K d x)).length = K by simp) (xcV n K x y) (xcV n K v y)
      (toepSpec K (List.ofFn fun l : Fin K => circ n x v l + circ n v x l))
      (fun f => invTan (circSpec K (List.ofFn (acfV n K d x)) f)
        (circSpec K (List.ofFn fun l : Fin K => circ n x v l + circ n v x l) f)) it g
    have h4 := acfCgGrad_adjoint hK (List.ofFn (acfV n K d x)) (cohCgGrad K (List.ofFn (acfV n K d x)) (xcV n K x y) it g).A
      (cohCgGrad K (List.ofFn (acfV n K d x)) (xcV n K x y) it g).P (fun l : Fin K => circ n x v l + circ n v x l)
    rw [h2, ← h3, add_assoc, ← h4]
    rfl

/-- The gradient of the normalised estimate `y`, if the derivatives by the coherences are `g`. -/
noncomputable def estLinCg (n K : ℕ) (d : ℝ) (it : ℕ) (x : Fin r → Fin N → ℝ) (y : Fin M → ℝ) (g : Fin r → ℝ) : Fin M → ℝ :=
  estBack n x fun k => (cohCgGrad K (List.ofFn (acfV n K d (x k))) (xcV n K (x k) y) it (g k)).b

/-- The gradient of the normalised reference `x`, if the derivatives by the coherences are `g`. -/
noncomputable def refLinCg (n K : ℕ) (d : ℝ) (it : ℕ) (x : Fin N → ℝ) (y : Fin e → Fin M → ℝ) (g : Fin e → ℝ) : Fin N → ℝ :=
  refBack n x y (fun j => (cohCgGrad K (List.ofFn (acfV n K d x)) (xcV n K x (y j)) it (g j)).b)
    (acfCgGrad K (List.ofFn (acfV n K d x))
      (fun f => ∑ j, (cohCgGrad K (List.ofFn (acfV n K d x)) (xcV n K x (y j)) it (g j)).A f)
      (fun f => ∑ j, (cohCgGrad K (List.ofFn (acfV n K d x)) (xcV n K x (y j)) it (g j)).P f))

theorem est_total_cg (hn : n ≠ 0) (hK0 : 0 < K) (hK : K ≤ n) (hM : M ≤ n) {d : ℝ} {it : ℕ} {x : Fin r → Fin N → ℝ}
    (y : Fin M → ℝ) (h : ∀ k, CgOff n K d it (x k) y) :
    ∃ q' : Fin r → (Fin M → ℝ) →L[ℝ] ℝ, (∀ k, HasFDerivAt (cgCoh n K d it (x k)) (q' k) y) ∧
      ∀ (g : Fin r → ℝ) v, ∑ t, estLinCg n K d it x y g t * v t = ∑ k, g k * q' k v := by
  choose q' h1 h2 using fun k => cgCoh_der_est hK0 (h k)
  refine ⟨q', h1, fun g v => ?_⟩
  unfold estLinCg
  rw [estBack_adjoint hn hK hM]
  exact Finset.sum_congr rfl fun k _ => (h2 k _ _).symm

theorem ref_total_cg (hn : n ≠ 0) (hK0 : 0 < K) (hK : K ≤ n) (hN : N ≤ n) {d : ℝ} {it : ℕ} {x : Fin N → ℝ} (y : Fin e → Fin M → ℝ)
    (h : ∀ j, CgOff n K d it x (y j))
    (hp : ∀ f < K / 2 + 1, (circSpec K (List.ofFn (acfV n K d x)) f).re ^ 2 + (circSpec K (List.ofFn (acfV n K d x)) f).im ^ 2 ≠ 1e-6) :
    ∃ q' : Fin e → (Fin N → ℝ) →L[ℝ] ℝ, (∀ j, HasFDerivAt (fun x => cgCoh n K d it x (y j)) (q' j) x) ∧
      ∀ (g : Fin e → ℝ) v, ∑ t, refLinCg n K d it x y g t * v t = ∑ j, g j * q' j v := by
  choose q' h1 h2 using fun j => cgCoh_der_ref hK0 (h j) hp
  refine ⟨q', h1, fun g v => ?_⟩
  unfold refLinCg
  rw [refBack_adjoint hn hK hN]
  simp only [h2, Finset.sum_add_distrib]
  congr 1
  have h4 := fun gA gP => acfCgGrad_adjoint hK0 (List.ofFn (acfV n K d x)) gA gP (fun l : Fin K => circ n x v l + circ n v x l)
  unfold innerProd at h4
  simp only [h4, specPair_sum, Finset.sum_add_distrib]

/-! ### The forward pass -/

section fwd

variable {o : Opts}

theorem sdrAcf_acfV (hn : n ≠ 0) (ref : Sig s r N) (m : BIdx s) (k : Fin r) :
    sdrAcf o n ref m k = List.ofFn (acfV n (min o.filterLength n) o.load (prep o ref m k)) := by
  have hl : (sdrAcf o n ref m k).length = min o.filterLength n := by
    unfold sdrAcf
    rw [length_addHead, length_acf1]
  refine List.ext_getElem (by rw [hl]; simp) fun i h1 h2 => ?_
  have hi : i < min o.filterLength n := by rwa [hl] at h1
  have e1 : (sdrAcf o n ref m k)[i] = (sdrAcf o n ref m k).getD i 0 := by
    rw [List.getD_eq_getElem?_getD, List.getElem?_eq_getElem h1]
    rfl
  rw [e1, List.getElem_ofFn]
  unfold sdrAcf acfV
  rw [getD_addHead _ _ _, acf1_get n _ hn _ _ (by omega) (by omega)]
  · rfl
  · intro hnil
    have := congrArg List.length hnil
    rw [length_acf1, List.length_nil] at this
    omega

theorem cohPair_cg (hn : nFft N M = .ok n) (hL : 2 ≤ o.filterLength) {it : ℕ} (hcg : o.useCgIter = some it) (ref : Sig s r N)
    (est : Sig s e M) : sdrCohPair torchBackend o ref est =
      .ok fun m k j => cgCoh n (min o.filterLength n) o.load it (prep o ref m k) (prep o est m j) := by
  rw [sdrCohPair_unfold hn rfl hL, hcg]
  have h0 := fftSize_ne hn
  simp only [sdrAcf_acfV h0, vec_xcV h0]
  rfl

theorem cohDiag_cg (hn : nFft N M = .ok n) (hL : 2 ≤ o.filterLength) {it : ℕ} (hcg : o.useCgIter = some it) (ref : Sig s c N)
    (est : Sig s c M) : sdrCohDiag torchBackend o ref est =
      .ok fun m k => cgCoh n (min o.filterLength n) o.load it (prep o ref m k) (prep o est m k) := by
  rw [sdrCohDiag_unfold hn rfl hL, hcg]
  have h0 := fftSize_ne hn
  simp only [sdrAcf_acfV h0, vec_xcV h0]
  rfl

theorem cgOff_iff (hn : nFft N M = .ok n) (hL : 1 ≤ o.filterLength) {it : ℕ} {ref : Sig s r N} {est : Sig s e M} {m : BIdx s}
    {k : Fin r} {j : Fin e} (h : PairSmooth o it ref est m k j) :
    CgOff n (min o.filterLength n) o.load it (prep o ref m k) (prep o est m j) := by
  have h0 := fftSize_ne hn
  have h1 := h n hn
  rw [sdrAcf_acfV h0, vec_xcV h0] at h1
  have hK : 0 < min o.filterLength n := by omega
  intro i hi
  have h2 := h1 i hi
  have e1 : symToeplitzOp torchBackend (min o.filterLength n) (List.ofFn (acfV n (min o.filterLength n) o.load (prep o ref m k))) =
      mulSpec (2 * (min o.filterLength n)) (toepSpec (min o.filterLength n) _) :=
    funext fun v => symToeplitzOp_mulSpec hK (by simp) v
  have e2 : circPrecond torchBackend (min o.filterLength n) (List.ofFn (acfV n (min o.filterLength n) o.load (prep o ref m k))) =
      mulSpec (min o.filterLength n) (precSpec (min o.filterLength n) _) := funext fun v => circPrecond_mulSpec hK _ v
  rw [e1, e2] at h2
  exact h2

theorem precond_off (hn : nFft N M = .ok n) {ref : Sig s r N} (h : PrecondSmooth o ref M) (m : BIdx s)
    (k : Fin r) (f : ℕ) (hf : f < min o.filterLength n / 2 + 1) :
    (circSpec (min o.filterLength n) (List.ofFn (acfV n (min o.filterLength n) o.load (prep o ref m k))) f).re ^ 2 +
      (circSpec (min o.filterLength n) (List.ofFn (acfV n (min o.filterLength n) o.load (prep o ref m k))) f).im ^ 2 ≠ 1e-6 := by
  have h1 := h n hn m k f (by omega)
  rw [sdrAcf_acfV (fftSize_ne hn), Complex.normSq_apply] at h1
  rw [pow_two, pow_two]
  exact h1

end fwd

end FBE.Backward
