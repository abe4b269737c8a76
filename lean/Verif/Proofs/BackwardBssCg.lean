import Verif.Proofs.BackwardBssCgCore
import Verif.Proofs.BackwardBssTotal
import Verif.Proofs.CgContinuous

/-!
The coherences of `square_cosine_metrics` with `use_cg_iter` and their derivatives.
-/

set_option linter.unusedSectionVars false

namespace FBE.Backward

open Spec Filter Topology Matrix

variable {s : List ℕ} {r e c N M K n : ℕ}

/-- The lag at position `p` of the `2 K` lags. -/
def lagPos (n K p : ℕ) : ℕ := if p < K then p else n - K + (p - K)

/-- `acf` of all references, with the loaded diagonal. -/
noncomputable def acf2V (n K : ℕ) (d : ℝ) (x : Fin r → Fin N → ℝ) (k l : Fin r) : Fin (K + K) → ℝ :=
  fun p => circ n (x l) (x k) (lagPos n K p) + if p.val = 0 ∧ k = l then d else 0

/-- The right-hand sides. -/
noncomputable def xcs (n K : ℕ) (x : Fin r → Fin N → ℝ) (y : Fin M → ℝ) : Fin r → Fin K → ℝ := fun k => xcV n K (x k) y

/-- The lags of single references. -/
noncomputable def acfs (n K : ℕ) (d : ℝ) (x : Fin r → Fin N → ℝ) : Fin r → Fin K → ℝ := fun k => acfV n K d (x k)

/-- The coherence with all references. -/
noncomputable def cgCohB (warm : Bool) (n K : ℕ) (d : ℝ) (it : ℕ) (x : Fin r → Fin N → ℝ) (y : Fin M → ℝ) : ℝ :=
  cohB warm K it (acfs n K d x) (acf2V n K d x) (xcs n K x y)

/-- The pass at normalised signals. -/
noncomputable def passXY (warm : Bool) (n K : ℕ) (d : ℝ) (it : ℕ) (x : Fin r → Fin N → ℝ) (y : Fin e → Fin M → ℝ) : CgPass r e K :=
  cgPass warm K it (fun k => List.ofFn (acfs n K d x k)) (lags (acf2V n K d x)) fun k j => xcs n K x (y j) k

theorem circSpec_zero (hK : 0 < K) {f : ℕ} (hf : f < K / 2 + 1) : circSpec K (List.ofFn (0 : Fin K → ℝ)) f = 0 := by
  rw [circSpec_eq hK _ hf]
  have : circ1 K (0 : Fin K → ℝ) = 0 := (circ1Lin K).map_zero
  rw [this]
  unfold dft zpad
  simp

theorem invTan_zero (c : ℂ) : invTan c 0 = 0 := by
  unfold invTan minGrad
  simp

/-- The direction of `acf`. -/
noncomputable def acf2D (n K : ℕ) (x v : Fin r → Fin N → ℝ) : Fin r → Fin r → Fin (K + K) → ℝ := fun k l p =>
  circ n (x l) (v k) (lagPos n K p) + circ n (v l) (x k) (lagPos n K p)

/-- The direction of the lags of single references. -/
noncomputable def acfD (n K : ℕ) (x v : Fin r → Fin N → ℝ) : Fin r → Fin K → ℝ := fun k p => circ n (x k) (v k) p + circ n (v k) (x k) p

theorem passXY_est_adj {warm : Bool} (hn : n ≠ 0) (hK2 : 2 ≤ K) (hK : K ≤ n) (hM : M ≤ n) {d : ℝ} {it : ℕ} (x : Fin r → Fin N → ℝ)
    (y : Fin e → Fin M → ℝ) (j : Fin e) (g : Fin r → ℝ) (h : ℝ) (v : Fin M → ℝ) :
    ∑ t, estBack n x (fun k => (passXY warm n K d it x y).xcorr (fun k _ => g k) (fun _ => h) k j) t * v t =
      ∑ k, g k * (innerProd (xcs n K x v k) (solS K it (acfs n K d x k) (xcs n K x (y j) k)) +
          innerProd (xcs n K x (y j) k) (tanS K it (acfs n K d x k) (xcs n K x (y j) k) 0 (xcs n K x v k))) +
        h * (innerProd (flat fun k => xcs n K x v k) (solB warm K it (acfs n K d x) (acf2V n K d x) fun k => xcs n K x (y j) k) +
          innerProd (flat fun k => xcs n K x (y j) k) (tanB warm K it (acfs n K d x) (acf2V n K d x) (fun k => xcs n K x (y j) k)
            (fun _ => 0) (fun _ _ => 0) fun k => xcs n K x v k)) := by
  rw [estBack_adjoint hn hK hM]
  have key := cgPass_adjoint (e := 1) (warm := warm) (it := it) hK2 (fun k _ => xcs n K x (y j) k) (fun k _ => xcs n K x v k)
    (acfs n K d x) (fun _ => 0) (acf2V n K d x) (fun _ _ => 0) (fun _ _ => rfl) (fun k _ => g k) (fun _ => h)
  simp only [Finset.univ_unique, Finset.sum_singleton, Pi.zero_apply, mul_zero, Finset.sum_const_zero, add_zero] at key
  exact key.symm

theorem passXY_ref_adj {warm : Bool} (hn : n ≠ 0) (hK2 : 2 ≤ K) (hK : K ≤ n) (hN : N ≤ n) {d : ℝ} {it : ℕ} (x : Fin r → Fin N → ℝ)
    (y : Fin e → Fin M → ℝ) (g : Fin r → Fin e → ℝ) (h : Fin e → ℝ) (v : Fin r → Fin N → ℝ) :
    ∑ k, ∑ t, refBackAll n x y ((passXY warm n K d it x y).xcorr g h) ((passXY warm n K d it x y).acf g h) k t * v k t =
      ∑ k, ∑ j, g k j * (innerProd (xcs n K v (y j) k) (solS K it (acfs n K d x k) (xcs n K x (y j) k)) +
          innerProd (xcs n K x (y j) k) (tanS K it (acfs n K d x k) (xcs n K x (y j) k) (acfD n K x v k) (xcs n K v (y j) k))) +
        ∑ j, h j * (innerProd (flat fun k => xcs n K v (y j) k) (solB warm K it (acfs n K d x) (acf2V n K d x) fun k => xcs n K x (y j) k) +
          innerProd (flat fun k => xcs n K x (y j) k) (tanB warm K it (acfs n K d x) (acf2V n K d x) (fun k => xcs n K x (y j) k)
            (acfD n K x v) (acf2D n K x v) fun k => xcs n K v (y j) k)) := by
  rw [refBackAll_adjoint hn hK hN]
  have key := cgPass_adjoint (warm := warm) (it := it) hK2 (fun k j => xcs n K x (y j) k) (fun k j => xcs n K v (y j) k)
    (acfs n K d x) (acfD n K x v) (acf2V n K d x) (acf2D n K x v) (fun k p => by
      show _ = circ n (x k) (v k) (lagPos n K p) + circ n (v k) (x k) (lagPos n K p)
      rw [show lagPos n K (p : ℕ) = p from if_pos p.isLt]
      rfl) g h
  have e2 : ∀ (G : ℕ → ℝ) (k l : Fin r), ∑ t : Fin n, acf2Grad n K G t * (circ n (x l) (v k) t + circ n (v l) (x k) t) =
      ∑ p : Fin (K + K), G p * acf2D n K x v k l p := by
    intro G k l
    rw [sum_acf2 hK G fun t => circ n (x l) (v k) t + circ n (v l) (x k) t, Fin.sum_univ_add, Finset.sum_add_distrib]
    congr 1
    · refine Finset.sum_congr rfl fun p _ => ?_
      show _ = G p * (circ n (x l) (v k) (lagPos n K p) + circ n (v l) (x k) (lagPos n K p))
      rw [show lagPos n K (p : ℕ) = p from if_pos p.isLt]
    · refine Finset.sum_congr rfl fun p _ => ?_
      show _ = G (K + p) * (circ n (x l) (v k) (lagPos n K (K + p)) + circ n (v l) (x k) (lagPos n K (K + p)))
      rw [show lagPos n K (K + p) = n - K + p by unfold lagPos; rw [if_neg (by omega)]; omega]
  simp only [e2]
  exact key.symm

theorem passEst_cg {warm : Bool} (hn : n ≠ 0) (hK2 : 2 ≤ K) (hK : K ≤ n) (hM : M ≤ n) {d : ℝ} {it : ℕ} {x : Fin r → Fin N → ℝ}
    {y : Fin e → Fin M → ℝ} {U : Fin r → Fin e → Prop} (hw : warm → ∀ k j, U k j) (hS : ∀ k j, U k j → CgOff n K d it (x k) (y j))
    (hdet : ∀ f < K / 2 + 1, (blockPrecondSpec torchBackend (lags (acf2V n K d x)) f).det ≠ 0)
    (hB : ∀ j, OffB warm K it (acfs n K d x) (acf2V n K d x) (xcs n K x (y j))) :
    PassEst U (cgCoh n K d it) (cgCohB warm n K d it) x y
      (fun j g h => estBack n x fun k => (passXY warm n K d it x y).xcorr (fun k _ => g k) (fun _ => h) k j) := by
  have hK0 : 0 < K := by omega
  classical
  intro j
  have hb : ∀ k, DerV (y j) (fun y => xcs n K x y k) (fun v => xcs n K x v k) := fun k l => hasFDerivAt_circ_second n (x k) (y j) l
  have ha : ∀ k, DerV (y j) (fun _ => acfs n K d x k) (fun _ => 0) := fun k l => Der.const _
  have hc : ∀ k l, DerV (y j) (fun _ => acf2V n K d x k l) (fun _ => 0) := fun k l p => Der.const _
  have hD : ∀ k, ∀ f < K / 2 + 1, Der (y j) (fun _ => precSpec K (List.ofFn (acfs n K d x k)) f)
      fun _ => invTan (circSpec K (List.ofFn (acfs n K d x k)) f) (circSpec K (List.ofFn (0 : Fin K → ℝ)) f) := by
    intro k f hf
    refine (Der.const _).congr fun v => ?_
    rw [circSpec_zero hK0 hf, invTan_zero]
  have hA : ∀ k, ∃ A' : (Fin M → ℝ) →L[ℝ] ℝ, U k j → HasFDerivAt (cgCoh n K d it (x k)) A' (y j) ∧ ∀ v, A' v =
      innerProd (xcs n K x v k) (solS K it (acfs n K d x k) (xcs n K x (y j) k)) +
        innerProd (xcs n K x (y j) k) (tanS K it (acfs n K d x k) (xcs n K x (y j) k) 0 (xcs n K x v k)) := by
    intro k
    by_cases hU : U k j
    · obtain ⟨A', h1, h2⟩ := der_cohS hK0 (hb k) (ha k) (hD k) (hS k j hU)
      exact ⟨A', fun _ => ⟨h1, h2⟩⟩
    · exact ⟨0, fun h => absurd h hU⟩
  choose A' hA' using hA
  obtain ⟨B', b1, b2⟩ := der_cohB (warm := warm) (u := y j) (a := fun _ => acfs n K d x) (a' := fun _ _ => 0) (b := fun y => xcs n K x y)
    (b' := fun v => xcs n K x v) (c := fun _ => acf2V n K d x) (c' := fun _ _ _ => 0) hK2 hb ha hc hD (fun h k => hS k j (hw h k j)) hdet (hB j)
  refine ⟨A', B', fun k hU => (hA' k hU).1, b1, fun g h v hg => ?_⟩
  have e1 : ∀ k, g k * A' k v = g k * (innerProd (xcs n K x v k) (solS K it (acfs n K d x k) (xcs n K x (y j) k)) +
        innerProd (xcs n K x (y j) k) (tanS K it (acfs n K d x k) (xcs n K x (y j) k) 0 (xcs n K x v k))) := by
    intro k
    by_cases hU : U k j
    · rw [(hA' k hU).2]
    · rw [hg k hU, zero_mul, zero_mul]
  rw [b2]
  simp only [e1]
  exact passXY_est_adj hn hK2 hK hM x y j g h v

theorem passRef_cg {warm : Bool} (hn : n ≠ 0) (hK2 : 2 ≤ K) (hK : K ≤ n) (hN : N ≤ n) {d : ℝ} {it : ℕ} {x : Fin r → Fin N → ℝ}
    {y : Fin e → Fin M → ℝ} {U : Fin r → Fin e → Prop} (hw : warm → ∀ k j, U k j) (hS : ∀ k j, U k j → CgOff n K d it (x k) (y j))
    (hp : ∀ k, ∀ f < K / 2 + 1, (circSpec K (List.ofFn (acfV n K d (x k))) f).re ^ 2 + (circSpec K (List.ofFn (acfV n K d (x k))) f).im ^ 2 ≠ 1e-6)
    (hdet : ∀ f < K / 2 + 1, (blockPrecondSpec torchBackend (lags (acf2V n K d x)) f).det ≠ 0)
    (hB : ∀ j, OffB warm K it (acfs n K d x) (acf2V n K d x) (xcs n K x (y j))) :
    PassRef U (cgCoh n K d it) (cgCohB warm n K d it) x y
      (fun g h => refBackAll n x y ((passXY warm n K d it x y).xcorr g h) ((passXY warm n K d it x y).acf g h)) := by
  have hK0 : 0 < K := by omega
  classical
  have hb : ∀ j k, DerV x (fun x => xcs n K x (y j) k) (fun v => xcs n K v (y j) k) := by
    intro j k l
    obtain ⟨D, h1, h2⟩ := hasFDerivAt_circ_first n (x k) (y j) l
    exact ⟨D ∘L chanCLM N k, HasFDerivAt.comp x (f := chanCLM N k) (g := fun x => circ n x (y j) l) h1 (chanCLM N k).hasFDerivAt, fun v => h2 _⟩
  have ha : ∀ k, DerV x (fun x => acfs n K d x k) (fun v => acfD n K x v k) := by
    intro k p
    obtain ⟨D, h1, h2⟩ := hasFDerivAt_circ_pair n x k k p
    exact ⟨D, h1.add_const _, h2⟩
  have hc : ∀ k l, DerV x (fun x => acf2V n K d x k l) (fun v => acf2D n K x v k l) := by
    intro k l p
    obtain ⟨D, h1, h2⟩ := hasFDerivAt_circ_pair n x k l (lagPos n K p)
    exact ⟨D, h1.add_const _, h2⟩
  have hD : ∀ k, ∀ f < K / 2 + 1, Der x (fun x => precSpec K (List.ofFn (acfs n K d x k)) f)
      fun v => invTan (circSpec K (List.ofFn (acfs n K d x k)) f) (circSpec K (List.ofFn (acfD n K x v k)) f) :=
    fun k f hf => der_precSpec hK0 (ha k) hf (hp k f hf)
  have hA : ∀ k j, ∃ A' : (Fin r → Fin N → ℝ) →L[ℝ] ℝ, U k j → HasFDerivAt (fun x : Fin r → Fin N → ℝ => cgCoh n K d it (x k) (y j)) A' x ∧
      ∀ v, A' v = innerProd (xcs n K v (y j) k) (solS K it (acfs n K d x k) (xcs n K x (y j) k)) +
        innerProd (xcs n K x (y j) k) (tanS K it (acfs n K d x k) (xcs n K x (y j) k) (acfD n K x v k) (xcs n K v (y j) k)) := by
    intro k j
    by_cases hU : U k j
    · obtain ⟨A', h1, h2⟩ := der_cohS hK0 (hb j k) (ha k) (hD k) (hS k j hU)
      exact ⟨A', fun _ => ⟨h1, h2⟩⟩
    · exact ⟨0, fun h => absurd h hU⟩
  choose A' hA' using hA
  choose B' b1 b2 using fun j => der_cohB (warm := warm) (u := x) (a := fun x => acfs n K d x) (a' := fun v => acfD n K x v) (b := fun x => xcs n K x (y j))
    (b' := fun v => xcs n K v (y j)) (c := fun x => acf2V n K d x) (c' := fun v => acf2D n K x v) hK2 (hb j) ha hc hD (fun h k => hS k j (hw h k j)) hdet (hB j)
  refine ⟨A', B', fun k j hU => (hA' k j hU).1, b1, fun g h v hg => ?_⟩
  have e1 : ∀ k j, g k j * A' k j v = g k j * (innerProd (xcs n K v (y j) k) (solS K it (acfs n K d x k) (xcs n K x (y j) k)) +
        innerProd (xcs n K x (y j) k) (tanS K it (acfs n K d x k) (xcs n K x (y j) k) (acfD n K x v k) (xcs n K v (y j) k))) := by
    intro k j
    by_cases hU : U k j
    · rw [(hA' k j hU).2]
    · rw [hg k j hU, zero_mul, zero_mul]
  simp only [e1, b2]
  exact passXY_ref_adj hn hK2 hK hN x y g h v

/-- The gradients of the iterations for the SDR, applied to a direction. -/
theorem cohCg_adj (hK : 0 < K) (it : ℕ) (a b a' b' : Fin K → ℝ) (g : ℝ) :
    ∑ l, (cohCgGrad K (List.ofFn a) b it g).b l * b' l +
      ∑ l, acfCgGrad K (List.ofFn a) (cohCgGrad K (List.ofFn a) b it g).A (cohCgGrad K (List.ofFn a) b it g).P l * a' l =
    g * (innerProd b' (solS K it a b) + innerProd b (tanS K it a b a' b')) := by
  have h3 := cohCgGrad_adjoint hK (show (List.ofFn a).length = K by simp) b b' (toepSpec K (List.ofFn a'))
    (fun f => invTan (circSpec K (List.ofFn a) f) (circSpec K (List.ofFn a') f)) it g
  have h4 := acfCgGrad_adjoint hK (List.ofFn a) (cohCgGrad K (List.ofFn a) b it g).A (cohCgGrad K (List.ofFn a) b it g).P a'
  rw [solS_eq hK]
  unfold tanS
  rw [← h3, add_assoc, ← h4]
  rfl

/-- A gradient of one SDR alone, estimates. -/
theorem passXY_est_single {warm : Bool} (hn : n ≠ 0) (hK2 : 2 ≤ K) (hK : K ≤ n) (hM : M ≤ n) (d : ℝ) (it : ℕ) (x : Fin r → Fin N → ℝ)
    (y : Fin e → Fin M → ℝ) (k : Fin r) (j : Fin e) (a : ℝ) :
    estBack n x (fun l => (passXY warm n K d it x y).xcorr (fun l _ => if l = k then a else 0) (fun _ => 0) l j) =
      estLinCg n K d it (fun _ : Fin 1 => x k) (y j) fun _ => a := by
  refine eq_of_sums fun v => ?_
  rw [passXY_est_adj hn hK2 hK hM]
  unfold estLinCg
  rw [estBack_adjoint hn hK hM]
  simp only [Finset.univ_unique, Finset.sum_singleton, zero_mul, add_zero, ite_mul, Finset.sum_ite_eq', Finset.mem_univ, if_true]
  have := cohCg_adj (show 0 < K by omega) it (acfs n K d x k) (xcs n K x (y j) k) 0 (xcs n K x v k) a
  simp only [Pi.zero_apply, mul_zero, Finset.sum_const_zero, add_zero] at this
  exact this.symm

/-- A gradient of one SDR alone, references. -/
theorem passXY_ref_single {warm : Bool} (hn : n ≠ 0) (hK2 : 2 ≤ K) (hK : K ≤ n) (hN : N ≤ n) (d : ℝ) (it : ℕ) (x : Fin r → Fin N → ℝ)
    (y : Fin e → Fin M → ℝ) (k : Fin r) (j : Fin e) (a : ℝ) :
    refBackAll n x y ((passXY warm n K d it x y).xcorr (fun l i => if l = k ∧ i = j then a else 0) fun _ => 0)
      ((passXY warm n K d it x y).acf (fun l i => if l = k ∧ i = j then a else 0) fun _ => 0) k =
      refLinCg n K d it (x k) (fun _ : Fin 1 => y j) fun _ => a := by
  classical
  refine eq_of_sums fun v => ?_
  have key := passXY_ref_adj (warm := warm) hn hK2 hK hN (d := d) (it := it) x y (fun l i => if l = k ∧ i = j then a else 0) (fun _ => 0)
    (Pi.single k v)
  have e1 : ∀ F : Fin r → Fin N → ℝ, ∑ l, ∑ t, F l t * (Pi.single k v : Fin r → Fin N → ℝ) l t = ∑ t, F k t * v t := by
    intro F
    rw [Finset.sum_eq_single k]
    · simp
    · intro l _ hl
      simp [Pi.single_eq_of_ne hl]
    · exact fun h => absurd (Finset.mem_univ _) h
  have e2 : ∀ F : Fin r → Fin e → ℝ, ∑ l, ∑ i, (if l = k ∧ i = j then a else 0) * F l i = a * F k j := by
    intro F
    rw [Finset.sum_eq_single k, Finset.sum_eq_single j]
    · simp
    · intro i _ hi
      rw [if_neg (fun h => hi h.2), zero_mul]
    · exact fun h => absurd (Finset.mem_univ _) h
    · intro l _ hl
      exact Finset.sum_eq_zero fun i _ => by rw [if_neg (fun h => hl h.1), zero_mul]
    · exact fun h => absurd (Finset.mem_univ _) h
  rw [e1, e2] at key
  simp only [zero_mul, Finset.sum_const_zero, add_zero] at key
  rw [key]
  unfold refLinCg
  rw [refBack_adjoint hn hK hN]
  simp only [Finset.univ_unique, Finset.sum_singleton]
  have h1 : xcs n K (Pi.single k v) (y j) k = xcV n K v (y j) := by
    unfold xcs
    rw [Pi.single_eq_same]
  have h2 : acfD n K x (Pi.single k v) k = fun p : Fin K => circ n (x k) v p + circ n v (x k) p := by
    unfold acfD
    rw [Pi.single_eq_same]
  rw [h1, h2]
  exact (cohCg_adj (show 0 < K by omega) it (acfs n K d x k) (xcs n K x (y j) k) (fun p : Fin K => circ n (x k) v p + circ n v (x k) p)
    (xcV n K v (y j)) a).symm

theorem passXY_loc {warm : Bool} {d : ℝ} {it : ℕ} {x : Fin r → Fin N → ℝ} {y : Fin e → Fin M → ℝ} (g g' : Fin r → Fin e → ℝ) (h : Fin e → ℝ)
    (k : Fin r) (hg : g k = g' k) : refBackAll n x y ((passXY warm n K d it x y).xcorr g h) ((passXY warm n K d it x y).acf g h) k =
      refBackAll n x y ((passXY warm n K d it x y).xcorr g' h) ((passXY warm n K d it x y).acf g' h) k := by
  have h1 : (passXY warm n K d it x y).xcorr g h k = (passXY warm n K d it x y).xcorr g' h k := by
    funext j l
    simp only [passXY, cgPass, hg]
  have h2 : ∀ l, (passXY warm n K d it x y).acf g h k l = (passXY warm n K d it x y).acf g' h k l := by
    intro l
    funext p
    simp only [passXY, cgPass, acfGradCg, hg]
  have h3 : ∀ l, (passXY warm n K d it x y).acf g h l k = (passXY warm n K d it x y).acf g' h l k := by
    intro l
    funext p
    simp only [passXY, cgPass, acfGradCg]
    congr 1
    by_cases hl : l = k
    · subst hl
      simp only [hg]
    · rw [dif_neg (fun h => hl h.2), dif_neg (fun h => hl h.2)]
  funext t
  unfold refBackAll
  simp only [h1, h2, h3]

/-! ### The calls -/

section fwd

variable {o : Opts} (hn : nFft N M = .ok n) (hL : 2 ≤ o.filterLength) (hLn : o.filterLength ≤ n)
include hn hL hLn

theorem bssAcf_acf2V (ref : Sig s r N) (m : BIdx s) : bssAcf o n ref m = lags (acf2V n (min o.filterLength n) o.load (prep o ref m)) := by
  have h0 := fftSize_ne hn
  have F : Fam N M (min o.filterLength n) n _ _ := fam_cshift h0 (min_le_right _ _)
  funext k l
  have hl := length_bssAcf F rfl (by omega) ref m k l
  unfold lags
  refine List.ext_getElem (by rw [hl]; simp) fun p h1 h2 => ?_
  have hp : p < min o.filterLength n + min o.filterLength n := by rwa [hl] at h1
  have e1 : (bssAcf o n ref m k l)[p] = (bssAcf o n ref m k l).getD p 0 := by
    rw [List.getD_eq_getElem?_getD, List.getElem?_eq_getElem h1]
    rfl
  rw [e1, List.getElem_ofFn]
  unfold acf2V lagPos
  dsimp only
  by_cases hpK : p < min o.filterLength n
  · rw [bssAcf_get F rfl (by omega) _ _ _ _ _ hpK, if_pos hpK]
  rw [if_neg hpK, if_neg (fun h => by omega : ¬ (p = 0 ∧ k = l)), add_zero]
  have key : (acf2 n o.filterLength (List.ofFn (prep o ref m k)) (List.ofFn (prep o ref m l))).getD p 0 =
      circ n (prep o ref m l) (prep o ref m k) (n - min o.filterLength n + (p - min o.filterLength n)) := by
    unfold acf2
    simp only [pySlice_take, pySlice_last _ _ (show 0 < o.filterLength by omega)]
    rw [getD_append_right (by simp; omega), acf2_swap, getD_drop]
    simp only [List.length_take, length_irfft]
    rw [circ_get n h0 _ _ _ (by omega)]
    simp only [getD_ofFn]
    rw [show n - o.filterLength = n - min o.filterLength n by omega]
    rfl
  unfold bssAcf
  simp only
  split
  · rw [getD_addHead, key, if_neg (by omega), add_zero]
    intro hnil
    have := congrArg List.length hnil
    rw [length_acf2 _ _ (by omega), List.length_nil] at this
    omega
  · exact key

theorem bssAcfSdr_acfs (ref : Sig s r N) (m : BIdx s) (k : Fin r) :
    bssAcfSdr o n ref m k = List.ofFn (acfs n (min o.filterLength n) o.load (prep o ref m) k) := by
  have h0 := fftSize_ne hn
  have F : Fam N M (min o.filterLength n) n _ _ := fam_cshift h0 (min_le_right _ _)
  rw [bssAcfSdr_eq_sdrAcf F rfl (by omega) hLn, sdrAcf_acfV h0]
  rfl

/-- The constructor of the preconditioner succeeds. -/
def DetOk (o : Opts) (n : ℕ) (ref : Sig s r N) : Prop :=
  ∀ m, ∀ f ≤ min o.filterLength n / 2, (blockPrecondSpec torchBackend (lags (acf2V n (min o.filterLength n) o.load (prep o ref m))) f).det ≠ 0

open Classical in
theorem sqCosPair_cg {it : ℕ} (hcg : o.useCgIter = some it) (ref : Sig s r N) (est : Sig s e M) : sqCosPair torchBackend o ref est =
    if DetOk o n ref then .ok (fun m k j => cgCoh n (min o.filterLength n) o.load it (prep o ref m k) (prep o est m j),
      fun m j => cgCohB true n (min o.filterLength n) o.load it (prep o ref m) (prep o est m j)) else .error .linAlgError := by
  rw [sqCosPair_unfold hn rfl hL hLn, hcg]
  unfold cohSar blockCg
  rw [hcg]
  simp only [bssAcf_acf2V hn hL hLn, bssAcfSdr_acfs hn hL hLn, vec_xcV (fftSize_ne hn), xcorrFlat_blkV hn hL hLn]
  by_cases h : DetOk o n ref
  · rw [if_neg (by unfold DetOk at h; push Not; exact h), if_pos h]
    rfl
  · rw [if_pos (by unfold DetOk at h; push Not at h; exact h), if_neg h]

open Classical in
theorem sqCosDiag_cg {it : ℕ} (hcg : o.useCgIter = some it) (ref : Sig s c N) (est : Sig s c M) : sqCosDiag torchBackend o ref est =
    if DetOk o n ref then .ok (fun m k => cgCoh n (min o.filterLength n) o.load it (prep o ref m k) (prep o est m k),
      fun m j => cgCohB false n (min o.filterLength n) o.load it (prep o ref m) (prep o est m j)) else .error .linAlgError := by
  rw [sqCosDiag_unfold hn rfl hL hLn, hcg]
  unfold cohSar blockCg
  rw [hcg]
  simp only [bssAcf_acf2V hn hL hLn, bssAcfSdr_acfs hn hL hLn, vec_xcV (fftSize_ne hn), xcorrFlat_blkV hn hL hLn]
  by_cases h : DetOk o n ref
  · rw [if_neg (by unfold DetOk at h; push Not; exact h), if_pos h]
    rfl
  · rw [if_pos (by unfold DetOk at h; push Not at h; exact h), if_neg h]

theorem sqCosPair_cg_ok {it : ℕ} (hcg : o.useCgIter = some it) {ref : Sig s r N} (hd : DetOk o n ref) (est : Sig s e M) :
    sqCosPair torchBackend o ref est = .ok (fun m k j => cgCoh n (min o.filterLength n) o.load it (prep o ref m k) (prep o est m j),
      fun m j => cgCohB true n (min o.filterLength n) o.load it (prep o ref m) (prep o est m j)) := by
  rw [sqCosPair_cg hn hL hLn hcg, if_pos hd]

theorem sqCosDiag_cg_ok {it : ℕ} (hcg : o.useCgIter = some it) {ref : Sig s c N} (hd : DetOk o n ref) (est : Sig s c M) :
    sqCosDiag torchBackend o ref est = .ok (fun m k => cgCoh n (min o.filterLength n) o.load it (prep o ref m k) (prep o est m k),
      fun m j => cgCohB false n (min o.filterLength n) o.load it (prep o ref m) (prep o est m j)) := by
  rw [sqCosDiag_cg hn hL hLn hcg, if_pos hd]

/-- The pass of the model. -/
noncomputable def cgBss (warm : Bool) (o : Opts) (n it : ℕ) (ref : Sig s r N) (est : Sig s e M) : BssPass s r e N M :=
  { cohSdr := fun m k j => cgCoh n (min o.filterLength n) o.load it (prep o ref m k) (prep o est m j)
    cohSar := fun m j => cgCohB warm n (min o.filterLength n) o.load it (prep o ref m) (prep o est m j)
    est := fun m j g h => estBack n (prep o ref m) fun k =>
      (passXY warm n (min o.filterLength n) o.load it (prep o ref m) (prep o est m)).xcorr (fun k _ => g k) (fun _ => h) k j
    ref := fun m g h => refBackAll n (prep o ref m) (prep o est m)
      ((passXY warm n (min o.filterLength n) o.load it (prep o ref m) (prep o est m)).xcorr g h)
      ((passXY warm n (min o.filterLength n) o.load it (prep o ref m) (prep o est m)).acf g h) }

open Classical in
theorem passCg_eq (warm : Bool) (it : ℕ) (ref : Sig s r N) (est : Sig s e M) : passCg warm o it ref est =
    if DetOk o n ref then .ok (cgBss warm o n it ref est) else .error .linAlgError := by
  have h1 : ∀ m, bssAcfSdr o n ref m = fun k => List.ofFn (acfs n (min o.filterLength n) o.load (prep o ref m) k) := fun m =>
    funext fun k => bssAcfSdr_acfs hn hL hLn ref m k
  have h2 : ∀ m, cgPass warm (min o.filterLength n) it (bssAcfSdr o n ref m) (bssAcf o n ref m)
      (fun k j => vec (min o.filterLength n) (sdrXcorr o n ref est m k j)) =
      passXY warm n (min o.filterLength n) o.load it (prep o ref m) (prep o est m) := by
    intro m
    rw [h1, bssAcf_acf2V hn hL hLn]
    simp only [vec_xcV (fftSize_ne hn)]
    rfl
  unfold passCg
  rw [hn]
  dsimp only
  rw [if_neg (by omega)]
  by_cases h : DetOk o n ref
  · rw [if_neg (by unfold DetOk at h; push Not; simpa only [bssAcf_acf2V hn hL hLn] using h), if_pos h]
    unfold cgBss
    simp only [h2]
    rfl
  · rw [if_pos (by unfold DetOk at h; push Not at h; simpa only [bssAcf_acf2V hn hL hLn] using h), if_neg h]

theorem detOk_near {ref : Sig s r N} (h : DetOk o n ref) : ∀ᶠ p in 𝓝 ref, DetOk o n p := by
  have hK2 : 2 ≤ min o.filterLength n := by omega
  unfold DetOk
  rw [eventually_all]
  intro m
  have hc : Tendsto (fun p : Sig s r N => prep o p m) (𝓝 ref) (𝓝 (prep o ref m)) :=
    ((continuous_apply m).comp (continuous_prep (o := o))).tendsto ref
  have hv : ∀ k l t, t < min o.filterLength n + min o.filterLength n →
      ContinuousAt (fun p : Sig s r N => (lags (acf2V n (min o.filterLength n) o.load (prep o p m)) k l).getD t 0) ref := by
    intro k l t ht
    have e : ∀ p : Sig s r N, (lags (acf2V n (min o.filterLength n) o.load (prep o p m)) k l).getD t 0 =
        circ n (prep o p m l) (prep o p m k) (lagPos n (min o.filterLength n) t) + if t = 0 ∧ k = l then o.load else 0 := by
      intro p
      unfold lags
      rw [getD_ofFn, zpad, dif_pos ht]
      rfl
    simp only [e]
    obtain ⟨D, h1, -⟩ := hasFDerivAt_circ_pair n (prep o ref m) k l (lagPos n (min o.filterLength n) t)
    exact (h1.continuousAt.tendsto.comp hc).add_const _
  have key := (blockOps_cont (B := torchBackend) (Or.inl rfl) hK2 (x0 := ref)
    (acf := fun p : Sig s r N => lags (acf2V n (min o.filterLength n) o.load (prep o p m))) (fun _ _ _ => by simp [lags])
    (fun k l t ht => hv k l t (by omega)) fun k l t h0 ht => hv k l _ (by omega)).1
  have key2 : ∀ f : Fin (min o.filterLength n / 2 + 1), ∀ᶠ p in 𝓝 ref,
      (blockPrecondSpec torchBackend (lags (acf2V n (min o.filterLength n) o.load (prep o p m))) f).det ≠ 0 := fun f =>
    (key f (by omega)).eventually_ne (h m f (by omega))
  filter_upwards [eventually_all.2 key2] with p hp f hf
  exact hp ⟨f, by omega⟩

theorem offB_of {warm : Bool} {it : ℕ} {ref : Sig s r N} {est : Sig s e M} {m : BIdx s} {j : Fin e} (h : BlockSmooth warm o it ref est m j) :
    OffB warm (min o.filterLength n) it (acfs n (min o.filterLength n) o.load (prep o ref m))
      (acf2V n (min o.filterLength n) o.load (prep o ref m)) (xcs n (min o.filterLength n) (prep o ref m) (prep o est m j)) := by
  have := h n hn
  rw [bssAcf_acf2V hn hL hLn, xcorrFlat_blkV hn hL hLn] at this
  unfold blockStart at this
  simp only [bssAcfSdr_acfs hn hL hLn, vec_xcV (fftSize_ne hn)] at this
  exact this

theorem passEst_of (hN : 0 < N) {warm : Bool} {it : ℕ} {ref : Sig s r N} {est : Sig s e M} (hd : DetOk o n ref) {U : Fin r → Fin e → Prop}
    (hw : warm → ∀ k j, U k j) (hS : ∀ m k j, U k j → PairSmooth o it ref est m k j) (hB : ∀ m j, BlockSmooth warm o it ref est m j) (m : BIdx s) :
    PassEst U (cgCoh n (min o.filterLength n) o.load it) (cgCohB warm n (min o.filterLength n) o.load it) (prep o ref m) (prep o est m)
      ((cgBss warm o n it ref est).est m) := by
  have hb := nFft_bounds hn
  exact passEst_cg (fftSize_ne hn) (by omega) (min_le_right _ _) (by omega) hw (fun k j hU => cgOff_iff hn (by omega) (hS m k j hU))
    (fun f hf => hd m f (by omega)) fun j => offB_of hn hL hLn (hB m j)

theorem passRef_of {warm : Bool} {it : ℕ} {ref : Sig s r N} {est : Sig s e M} (hd : DetOk o n ref) {U : Fin r → Fin e → Prop}
    (hw : warm → ∀ k j, U k j) (hS : ∀ m k j, U k j → PairSmooth o it ref est m k j) (hp : PrecondSmooth o ref M)
    (hB : ∀ m j, BlockSmooth warm o it ref est m j) (m : BIdx s) :
    PassRef U (cgCoh n (min o.filterLength n) o.load it) (cgCohB warm n (min o.filterLength n) o.load it) (prep o ref m) (prep o est m)
      ((cgBss warm o n it ref est).ref m) := by
  have hb := nFft_bounds hn
  exact passRef_cg (fftSize_ne hn) (by omega) (min_le_right _ _) (by omega) hw (fun k j hU => cgOff_iff hn (by omega) (hS m k j hU))
    (fun k f hf => precond_off hn hp m k f hf) (fun f hf => hd m f (by omega)) fun j => offB_of hn hL hLn (hB m j)

theorem cgBss_loc (warm : Bool) (it : ℕ) (ref : Sig s r N) (est : Sig s e M) :
    ∀ m g g' h k, g k = g' k → (cgBss warm o n it ref est).ref m g h k = (cgBss warm o n it ref est).ref m g' h k :=
  fun _ g g' h k hg => passXY_loc g g' h k hg

end fwd

end FBE.Backward
