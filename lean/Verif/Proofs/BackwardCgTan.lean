import Verif.Proofs.BackwardCgOps
import Verif.Proofs.Backward

/-!
The derivative of the iterates of the conjugate gradient method, and the reverse pass as its adjoint.
-/

set_option linter.unusedSectionVars false

namespace FBE.Backward

open Spec Filter Topology Matrix

variable {n K : ℕ}

/-! ### Derivatives with known values -/

section der

variable {X : Type*} [NormedAddCommGroup X] [NormedSpace ℝ X] {u : X}
  {E : Type*} [NormedAddCommGroup E] [NormedSpace ℝ E]

/-- `f` is differentiable at `u`, with the derivative `G`. -/
def Der (u : X) (f G : X → E) : Prop := ∃ L : X →L[ℝ] E, HasFDerivAt f L u ∧ ∀ v, L v = G v

theorem Der.const (c : E) : Der u (fun _ => c) (fun _ => 0) := ⟨0, hasFDerivAt_const _ _, fun _ => rfl⟩

theorem Der.congr {f G H : X → E} (h : Der u f G) (e : ∀ v, G v = H v) : Der u f H := by
  obtain ⟨L, h1, h2⟩ := h
  exact ⟨L, h1, fun v => (h2 v).trans (e v)⟩

theorem Der.add {f g F G : X → E} (hf : Der u f F) (hg : Der u g G) :
    Der u (fun x => f x + g x) (fun v => F v + G v) := by
  obtain ⟨L, h1, h2⟩ := hf
  obtain ⟨M, k1, k2⟩ := hg
  exact ⟨L + M, h1.add k1, fun v => by rw [_root_.add_apply, h2, k2]⟩

theorem Der.sub {f g F G : X → E} (hf : Der u f F) (hg : Der u g G) :
    Der u (fun x => f x - g x) (fun v => F v - G v) := by
  obtain ⟨L, h1, h2⟩ := hf
  obtain ⟨M, k1, k2⟩ := hg
  exact ⟨L - M, h1.sub k1, fun v => by rw [_root_.sub_apply, h2, k2]⟩

theorem Der.sum {ι : Type*} {S : Finset ι} {f F : ι → X → E} (h : ∀ i ∈ S, Der u (f i) (F i)) :
    Der u (fun x => ∑ i ∈ S, f i x) (fun v => ∑ i ∈ S, F i v) := by
  classical
  induction S using Finset.induction_on with
  | empty => simpa using Der.const (u := u) (0 : E)
  | insert a S ha ih =>
    simp only [Finset.sum_insert ha]
    exact (h a (Finset.mem_insert_self _ _)).add (ih fun i hi => h i (Finset.mem_insert_of_mem hi))

theorem Der.comp {E' : Type*} [NormedAddCommGroup E'] [NormedSpace ℝ E'] {f F : X → E} (h : Der u f F) (A : E →L[ℝ] E') :
    Der u (fun x => A (f x)) (fun v => A (F v)) := by
  obtain ⟨L, h1, h2⟩ := h
  exact ⟨A ∘L L, A.hasFDerivAt.comp u h1, fun v => by rw [ContinuousLinearMap.comp_apply, h2]⟩

theorem Der.mul {𝔸 : Type*} [NormedCommRing 𝔸] [NormedAlgebra ℝ 𝔸] {f g F G : X → 𝔸} (hf : Der u f F) (hg : Der u g G) :
    Der u (fun x => f x * g x) (fun v => F v * g u + f u * G v) := by
  obtain ⟨L, h1, h2⟩ := hf
  obtain ⟨M, k1, k2⟩ := hg
  refine ⟨_, h1.mul k1, fun v => ?_⟩
  simp only [_root_.add_apply, _root_.smul_apply, smul_eq_mul, h2, k2]
  ring

theorem Der.inv {f F : X → ℝ} (hf : Der u f F) (h0 : f u ≠ 0) : Der u (fun x => (f x)⁻¹) (fun v => -(F v / f u ^ 2)) := by
  obtain ⟨L, h1, h2⟩ := hf
  refine ⟨_, (hasDerivAt_inv h0).comp_hasFDerivAt u h1, fun v => ?_⟩
  rw [_root_.smul_apply, h2, smul_eq_mul]
  ring

theorem Der.div {f g F G : X → ℝ} (hf : Der u f F) (hg : Der u g G) (h0 : g u ≠ 0) :
    Der u (fun x => f x / g x) (fun v => F v / g u - f u * G v / g u ^ 2) := by
  have := hf.mul (hg.inv h0)
  simp only [← div_eq_mul_inv] at this
  exact this.congr fun v => by ring

theorem Der.max {f F : X → ℝ} (hf : Der u f F) (h : f u ≠ 1e-6) :
    Der u (fun x => max (f x) 1e-6) (fun v => minGrad (f u) (F v)) := by
  obtain ⟨L, h1, h2⟩ := hf
  rcases lt_or_gt_of_ne h with hlt | hlt
  · refine ⟨0, ?_, fun v => ?_⟩
    · refine (hasFDerivAt_const (1e-6 : ℝ) u).congr_of_eventuallyEq ?_
      filter_upwards [h1.continuousAt.eventually (gt_mem_nhds hlt)] with x hx
      exact max_eq_right hx.le
    · have : minGrad (f u) (F v) = 0 := if_neg (not_le.2 hlt)
      exact this.symm
  · refine ⟨L, h1.congr_of_eventuallyEq ?_, fun v => ?_⟩
    · filter_upwards [h1.continuousAt.eventually (lt_mem_nhds hlt)] with x hx
      exact max_eq_left hx.le
    · have : minGrad (f u) (F v) = F v := if_pos hlt.le
      exact (h2 v).trans this.symm

theorem Der.ofReal {f F : X → ℝ} (h : Der u f F) : Der u (fun x => (f x : ℂ)) (fun v => (F v : ℂ)) := h.comp Complex.ofRealCLM

theorem Der.re {f F : X → ℂ} (h : Der u f F) : Der u (fun x => (f x).re) (fun v => (F v).re) := h.comp Complex.reCLM

theorem Der.im {f F : X → ℂ} (h : Der u f F) : Der u (fun x => (f x).im) (fun v => (F v).im) := h.comp Complex.imCLM

theorem Der.conj {f F : X → ℂ} (h : Der u f F) :
    Der u (fun x => (starRingEnd ℂ) (f x)) (fun v => (starRingEnd ℂ) (F v)) :=
  h.comp (Complex.conjCLE : ℂ →L[ℝ] ℂ)

end der

section vectors

variable {X : Type*} [NormedAddCommGroup X] [NormedSpace ℝ X] {u : X}

/-- A differentiable vector. -/
def DerV {J : Type} (u : X) (f G : X → J → ℝ) : Prop := ∀ l, Der u (fun x => f x l) (fun v => G v l)

theorem DerV.add {J : Type} {f g F G : X → J → ℝ} (hf : DerV u f F) (hg : DerV u g G) :
    DerV u (fun x => f x + g x) (fun v => F v + G v) := fun l => (hf l).add (hg l)

theorem DerV.sub {J : Type} {f g F G : X → J → ℝ} (hf : DerV u f F) (hg : DerV u g G) :
    DerV u (fun x => f x - g x) (fun v => F v - G v) := fun l => (hf l).sub (hg l)

theorem DerV.smul {J : Type} {a A : X → ℝ} {f F : X → J → ℝ} (ha : Der u a A) (hf : DerV u f F) :
    DerV u (fun x => a x • f x) (fun v => A v • f u + a u • F v) := fun l => ha.mul (hf l)

theorem DerV.inner {J : Type} [Fintype J] {f g F G : X → J → ℝ} (hf : DerV u f F) (hg : DerV u g G) :
    Der u (fun x => innerProd (f x) (g x)) (fun v => innerProd (F v) (g u) + innerProd (f u) (G v)) := by
  unfold innerProd
  refine (Der.sum fun l _ => (hf l).mul (hg l)).congr fun v => ?_
  rw [Finset.sum_add_distrib]

theorem Der.dft {y Y : X → Fin K → ℝ} (h : DerV u y Y) (f : ℕ) :
    Der u (fun x => dft n (zpad (y x)) f) (fun v => FBE.dft n (zpad (Y v)) f) := by
  unfold FBE.dft
  refine Der.sum fun t _ => ?_
  by_cases ht : t < K
  · have hz : ∀ z : Fin K → ℝ, zpad z t = z ⟨t, ht⟩ := fun z => zpad_val z ⟨t, ht⟩
    simp only [hz]
    refine ((h ⟨t, ht⟩).ofReal.mul (Der.const _)).congr fun v => ?_
    rw [mul_zero, add_zero]
  · have hz : ∀ z : Fin K → ℝ, zpad z t = 0 := fun z => zpad_of_le z (not_lt.1 ht)
    simp only [hz]
    refine (Der.const _).congr fun v => ?_
    simp

/-- The product of a differentiable spectrum and a differentiable vector. -/
theorem DerV.mulSpec {C C' : X → ℕ → ℂ} {y Y : X → Fin K → ℝ}
    (hC : ∀ f < n / 2 + 1, Der u (fun x => C x f) (fun v => C' v f)) (h : DerV u y Y) :
    DerV u (fun x => mulSpec n (C x) (y x)) (fun v => mulSpec n (C' v) (y u) + mulSpec n (C u) (Y v)) := by
  intro l
  unfold Backward.mulSpec
  simp only [Pi.add_apply]
  simp only [div_eq_mul_inv]
  have h1 := (Der.sum (S := Finset.range (n / 2 + 1)) fun f hf => (Der.const (u := u) (half n f)).mul
    (((hC f (Finset.mem_range.1 hf)).mul (Der.dft (n := n) h f)).mul (Der.const (tw n f l)))).re.mul (Der.const ((n : ℝ)⁻¹))
  refine h1.congr fun v => ?_
  rw [mul_zero, add_zero, ← add_mul, ← Complex.add_re, ← Finset.sum_add_distrib]
  congr 2
  refine Finset.sum_congr rfl fun f _ => ?_
  ring

end vectors

/-! ### The tangents of the iterates -/

/-- Derivatives of the variables of the loop in one direction. -/
structure CgTan (K : ℕ) where
  x : Fin K → ℝ
  r : Fin K → ℝ
  p : Fin K → ℝ
  rsold : ℝ

/-- The derivative of one iteration for spectra `C`, `D` with derivatives `C'`, `D'`. -/
noncomputable def tanStep (K : ℕ) (C D C' D' : ℕ → ℂ) (st : CgState (Fin K)) (τ : CgTan K) : CgTan K :=
  let Ap := mulSpec (2 * K) C st.p
  let Ap' := mulSpec (2 * K) C' st.p + mulSpec (2 * K) C τ.p
  let pAp := innerProd st.p Ap
  let pAp' := innerProd τ.p Ap + innerProd st.p Ap'
  let alpha := st.rsold / max pAp 1e-6
  let alpha' := τ.rsold / max pAp 1e-6 - st.rsold * minGrad pAp pAp' / max pAp 1e-6 ^ 2
  let r := st.r - alpha • Ap
  let r' := τ.r - (alpha' • Ap + alpha • Ap')
  let z := mulSpec K D r
  let z' := mulSpec K D' r + mulSpec K D r'
  let rsnew := innerProd r z
  let rsnew' := innerProd r' z + innerProd r z'
  let beta := rsnew / max st.rsold 1e-6
  let beta' := rsnew' / max st.rsold 1e-6 - rsnew * minGrad st.rsold τ.rsold / max st.rsold 1e-6 ^ 2
  ⟨τ.x + (alpha' • st.p + alpha • τ.p), r', z' + (beta' • st.p + beta • τ.p), rsnew'⟩

/-- The derivative of the initial state, for a right-hand side `b` with derivative `b'`. -/
noncomputable def tanInit (K : ℕ) (C D C' D' : ℕ → ℂ) (b b' : Fin K → ℝ) : CgTan K :=
  let r := b - mulSpec (2 * K) C fun _ => 0
  let r' := b' - (mulSpec (2 * K) C' (fun _ => 0) + mulSpec (2 * K) C fun _ => 0)
  let z := mulSpec K D r
  let z' := mulSpec K D' r + mulSpec K D r'
  ⟨fun _ => 0, r', z', innerProd r' z + innerProd r z'⟩

/-- The state after `i` iterations. -/
noncomputable def specRun (K : ℕ) (C D : ℕ → ℂ) (b : Fin K → ℝ) (i : ℕ) : CgState (Fin K) :=
  cgRun (mulSpec (2 * K) C) (mulSpec K D) b (fun _ => 0) i

/-- The derivative of the state after `i` iterations. -/
noncomputable def tanRun (K : ℕ) (C D C' D' : ℕ → ℂ) (b b' : Fin K → ℝ) : ℕ → CgTan K
  | 0 => tanInit K C D C' D' b b'
  | i + 1 => tanStep K C D C' D' (specRun K C D b i) (tanRun K C D C' D' b b' i)

theorem cgRun_succ' {J : Type} [Fintype J] (A M : (J → ℝ) → (J → ℝ)) (b x0 : J → ℝ) (i : ℕ) :
    cgRun A M b x0 (i + 1) = cgBody A M b (cgRun A M b x0 i) i := by
  unfold cgRun
  rw [List.range_succ, List.foldl_append]
  rfl

section run

variable {X : Type*} [NormedAddCommGroup X] [NormedSpace ℝ X] {u : X} {C C' D D' : X → ℕ → ℂ} {b b' : X → Fin K → ℝ}

/-- The denominators of the first `i` iterations are not exactly at the threshold. -/
def OffThreshold (K : ℕ) (C D : ℕ → ℂ) (b : Fin K → ℝ) (nIter : ℕ) : Prop :=
  ∀ i < nIter, innerProd (specRun K C D b i).p (mulSpec (2 * K) C (specRun K C D b i).p) ≠ 1e-6 ∧
    (specRun K C D b i).rsold ≠ 1e-6

theorem tanRun_der (hC : ∀ f < 2 * K / 2 + 1, Der u (fun x => C x f) (fun v => C' v f))
    (hD : ∀ f < K / 2 + 1, Der u (fun x => D x f) (fun v => D' v f)) (hb : DerV u b b') (i : ℕ)
    (h : OffThreshold K (C u) (D u) (b u) i) :
    DerV u (fun x => (specRun K (C x) (D x) (b x) i).x) (fun v => (tanRun K (C u) (D u) (C' v) (D' v) (b u) (b' v) i).x) ∧
    DerV u (fun x => (specRun K (C x) (D x) (b x) i).r) (fun v => (tanRun K (C u) (D u) (C' v) (D' v) (b u) (b' v) i).r) ∧
    DerV u (fun x => (specRun K (C x) (D x) (b x) i).p) (fun v => (tanRun K (C u) (D u) (C' v) (D' v) (b u) (b' v) i).p) ∧
    Der u (fun x => (specRun K (C x) (D x) (b x) i).rsold)
      (fun v => (tanRun K (C u) (D u) (C' v) (D' v) (b u) (b' v) i).rsold) := by
  have h2K : K ≤ 2 * K := by omega
  induction i with
  | zero =>
    have h0 : DerV u (fun _ => fun _ : Fin K => (0 : ℝ)) (fun _ => fun _ => 0) := fun _ => Der.const 0
    have hr := hb.sub (DerV.mulSpec hC h0)
    have hz := DerV.mulSpec hD hr
    exact ⟨h0, hr, hz, hr.inner hz⟩
  | succ i ih =>
    obtain ⟨ix, ir, ip, irs⟩ := ih fun j hj => h j (by omega)
    obtain ⟨k1, k2⟩ := h i (by omega)
    have e0 : ∀ x, specRun K (C x) (D x) (b x) (i + 1) =
        cgBody (mulSpec (2 * K) (C x)) (mulSpec K (D x)) (b x) (specRun K (C x) (D x) (b x) i) i := fun x => cgRun_succ' _ _ _ _ _
    have e1 : ∀ v, tanRun K (C u) (D u) (C' v) (D' v) (b u) (b' v) (i + 1) =
        tanStep K (C u) (D u) (C' v) (D' v) (specRun K (C u) (D u) (b u) i)
          (tanRun K (C u) (D u) (C' v) (D' v) (b u) (b' v) i) := fun v => rfl
    simp only [e0, e1]
    have hif : ¬ (i + 1 % 5 = 0) := by omega
    unfold cgBody tanStep
    simp only [if_neg hif]
    have hAp := DerV.mulSpec hC ip
    have hpAp := ip.inner hAp
    have pos : ∀ a : ℝ, max a 1e-6 ≠ 0 := fun a => ne_of_gt (lt_max_of_lt_right (by norm_num))
    have hal := irs.div (hpAp.max k1) (pos _)
    have hr := ir.sub (DerV.smul hal hAp)
    have hz := DerV.mulSpec hD hr
    have hrs := hr.inner hz
    have hbe := hrs.div (irs.max k2) (pos _)
    exact ⟨ix.add (DerV.smul hal ip), hr, hz.add (DerV.smul hbe ip), hrs⟩

end run

/-! ### The reverse pass is the adjoint -/

theorem ip_comm {J : Type} [Fintype J] (a b : J → ℝ) : innerProd a b = innerProd b a := Finset.sum_congr rfl fun _ _ => mul_comm _ _

theorem ip_add {J : Type} [Fintype J] (a b c : J → ℝ) : innerProd a (b + c) = innerProd a b + innerProd a c := by
  unfold innerProd
  rw [← Finset.sum_add_distrib]
  exact Finset.sum_congr rfl fun _ _ => mul_add _ _ _

theorem ip_sub {J : Type} [Fintype J] (a b c : J → ℝ) : innerProd a (b - c) = innerProd a b - innerProd a c := by
  unfold innerProd
  rw [← Finset.sum_sub_distrib]
  exact Finset.sum_congr rfl fun _ _ => mul_sub _ _ _

theorem ip_smul {J : Type} [Fintype J] (t : ℝ) (a b : J → ℝ) : innerProd a (t • b) = t * innerProd a b := by
  unfold innerProd
  rw [Finset.mul_sum]
  refine Finset.sum_congr rfl fun _ _ => ?_
  rw [Pi.smul_apply, smul_eq_mul]
  ring

theorem ip_zero {J : Type} [Fintype J] (a : J → ℝ) : innerProd a (fun _ => 0) = 0 := by
  unfold innerProd
  simp

theorem add_ip {J : Type} [Fintype J] (a b c : J → ℝ) : innerProd (a + b) c = innerProd a c + innerProd b c := by
  rw [ip_comm, ip_add, ip_comm c a, ip_comm c b]

theorem sub_ip {J : Type} [Fintype J] (a b c : J → ℝ) : innerProd (a - b) c = innerProd a c - innerProd b c := by
  rw [ip_comm, ip_sub, ip_comm c a, ip_comm c b]

theorem smul_ip {J : Type} [Fintype J] (t : ℝ) (a b : J → ℝ) : innerProd (t • a) b = t * innerProd a b := by
  rw [ip_comm, ip_smul, ip_comm b]

theorem neg_ip {J : Type} [Fintype J] (a b : J → ℝ) : innerProd (-a) b = -innerProd a b := by
  rw [show -a = (-1 : ℝ) • a by simp, smul_ip]
  ring

theorem zero_ip {J : Type} [Fintype J] (a : J → ℝ) : innerProd (0 : J → ℝ) a = 0 := by
  rw [ip_comm]
  exact ip_zero a

/-- The gradients applied to a direction. -/
noncomputable def pairing (K : ℕ) (g : CgGrad K) (τ : CgTan K) (C' D' : ℕ → ℂ) : ℝ :=
  innerProd g.x τ.x + innerProd g.r τ.r + innerProd g.p τ.p + g.rsold * τ.rsold + specPair (2 * K) g.A C' + specPair K g.P D'

/-- Whether the derivative of `clamp` passes. -/
noncomputable def minMask (x : ℝ) : ℝ := if 1e-6 ≤ x then 1 else 0

theorem minGrad_mask (x g : ℝ) : minGrad x g = minMask x * g := by
  unfold minGrad minMask
  split <;> ring

theorem dft_zpad_lin (a b : ℝ) (y y' : Fin K → ℝ) (f : ℕ) :
    dft n (zpad fun t => a * y t + b * y' t) f = a * dft n (zpad y) f + b * dft n (zpad y') f := by
  unfold dft
  rw [Finset.mul_sum, Finset.mul_sum, ← Finset.sum_add_distrib]
  refine Finset.sum_congr rfl fun t _ => ?_
  unfold zpad
  split
  · push_cast
    ring
  · push_cast
    ring

theorem mulSpec_lin (C : ℕ → ℂ) (a b : ℝ) (y y' : Fin K → ℝ) :
    mulSpec n C (fun t => a * y t + b * y' t) = fun t => a * mulSpec n C y t + b * mulSpec n C y' t := by
  funext t
  unfold mulSpec
  simp only [dft_zpad_lin]
  rw [div_eq_mul_inv, div_eq_mul_inv, div_eq_mul_inv, ← mul_assoc, ← mul_assoc, ← add_mul, ← Complex.re_ofReal_mul,
    ← Complex.re_ofReal_mul, ← Complex.add_re, Finset.mul_sum, Finset.mul_sum, ← Finset.sum_add_distrib]
  congr 2
  refine Finset.sum_congr rfl fun f _ => ?_
  ring

theorem mulSpec_add (C : ℕ → ℂ) (y y' : Fin K → ℝ) : mulSpec n C (y + y') = mulSpec n C y + mulSpec n C y' := by
  have := mulSpec_lin (n := n) C 1 1 y y'
  simp only [one_mul] at this
  exact this

theorem mulSpec_sub (C : ℕ → ℂ) (y y' : Fin K → ℝ) : mulSpec n C (y - y') = mulSpec n C y - mulSpec n C y' := by
  have := mulSpec_lin (n := n) C 1 (-1) y y'
  simp only [one_mul, neg_mul, ← sub_eq_add_neg] at this
  exact this

theorem mulSpec_smul (C : ℕ → ℂ) (a : ℝ) (y : Fin K → ℝ) : mulSpec n C (a • y) = a • mulSpec n C y := by
  have := mulSpec_lin (n := n) C a 0 y y
  simp only [zero_mul, add_zero] at this
  exact this

theorem cgBodyGrad_adjoint (hK : 0 < K) {col : List ℝ} (hc : col.length = K) (st : CgState (Fin K)) (g : CgGrad K) (τ : CgTan K)
    (C' D' : ℕ → ℂ) :
    pairing K (cgBodyGrad K col st g) τ C' D' =
      pairing K g (tanStep K (toepSpec K col) (precSpec K col) C' D' st τ) C' D' := by
  have h2K : K ≤ 2 * K := by omega
  unfold pairing cgBodyGrad tanStep denGrad
  simp only [symToeplitzOp_mulSpec hK hc, circPrecond_mulSpec hK, minGrad_mask]
  generalize toepSpec K col = C
  generalize precSpec K col = D
  generalize hAp : mulSpec (2 * K) C st.p = Ap
  generalize hpAp : innerProd st.p Ap = pAp
  generalize hcl : max pAp 1e-6 = cl
  generalize hcb : max st.rsold 1e-6 = cb
  generalize minMask pAp = m1
  generalize minMask st.rsold = m2
  generalize hr : st.r - (st.rsold / cl) • Ap = r
  generalize hz : mulSpec K D r = z
  generalize hrs : innerProd r z = rs
  simp only [specPair_add, opSpecGrad_adjoint h2K, opSpecGrad_adjoint (le_refl K), add_ip, opGrad_adjoint h2K,
    opGrad_adjoint (le_refl K), ip_add, ip_sub, ip_smul, smul_ip, sub_ip, neg_ip, mulSpec_add, mulSpec_sub, mulSpec_smul]
  generalize mulSpec (2 * K) C' st.p = Ad
  generalize mulSpec (2 * K) C τ.p = Aq
  generalize mulSpec K D' r = Pd
  rw [ip_comm Ap τ.p, ip_comm τ.r z, ip_comm Ap z, ip_comm Ad z, ip_comm Aq z]
  ring

theorem mulSpec_zero (C : ℕ → ℂ) : mulSpec n C (fun _ : Fin K => 0) = 0 := by
  have := mulSpec_smul (n := n) C 0 (fun _ : Fin K => (0 : ℝ))
  rw [zero_smul, zero_smul] at this
  exact this

theorem cgState_eq (hK : 0 < K) {col : List ℝ} (hc : col.length = K) (b : Fin K → ℝ) (i : ℕ) :
    cgState K col b i = specRun K (toepSpec K col) (precSpec K col) b i := by
  unfold cgState specRun
  have h1 : symToeplitzOp torchBackend K col = mulSpec (2 * K) (toepSpec K col) := funext fun v => symToeplitzOp_mulSpec hK hc v
  have h2 : circPrecond torchBackend K col = mulSpec K (precSpec K col) := funext fun v => circPrecond_mulSpec hK col v
  rw [h1, h2]

theorem cgLoopGrad_adjoint (hK : 0 < K) {col : List ℝ} (hc : col.length = K) (b b' : Fin K → ℝ) (C' D' : ℕ → ℂ) (i : ℕ)
    (g : CgGrad K) :
    pairing K (cgLoopGrad K col b i g) (tanInit K (toepSpec K col) (precSpec K col) C' D' b b') C' D' =
      pairing K g (tanRun K (toepSpec K col) (precSpec K col) C' D' b b' i) C' D' := by
  induction i generalizing g with
  | zero => rfl
  | succ i ih =>
    unfold cgLoopGrad tanRun
    rw [ih, cgBodyGrad_adjoint hK hc, cgState_eq hK hc]

theorem cgInitGrad_adjoint (hK : 0 < K) {col : List ℝ} (hc : col.length = K) (b b' : Fin K → ℝ) (C' D' : ℕ → ℂ) (g : CgGrad K) :
    innerProd (cgInitGrad K col b g).b b' + specPair (2 * K) (cgInitGrad K col b g).A C' +
        specPair K (cgInitGrad K col b g).P D' =
      pairing K g (tanInit K (toepSpec K col) (precSpec K col) C' D' b b') C' D' := by
  have h2K : K ≤ 2 * K := by omega
  unfold pairing cgInitGrad tanInit
  simp only [symToeplitzOp_mulSpec hK hc, circPrecond_mulSpec hK, mulSpec_zero, sub_zero, add_zero]
  generalize hz : mulSpec K (precSpec K col) b = z
  simp only [specPair_add, opSpecGrad_adjoint h2K, opSpecGrad_adjoint (le_refl K), add_ip, opGrad_adjoint (le_refl K), ip_add,
    smul_ip, mulSpec_zero, ip_zero]
  have h0 : ∀ a : Fin K → ℝ, innerProd a 0 = 0 := ip_zero
  rw [ip_comm z b', h0]
  ring

/-- The gradients of the solution, applied to a direction. -/
theorem cgGrad_adjoint (hK : 0 < K) {col : List ℝ} (hc : col.length = K) (b b' : Fin K → ℝ) (C' D' : ℕ → ℂ) (nIter : ℕ)
    (g : Fin K → ℝ) :
    innerProd (cgGrad K col b nIter g).b b' + specPair (2 * K) (cgGrad K col b nIter g).A C' +
        specPair K (cgGrad K col b nIter g).P D' =
      innerProd g (tanRun K (toepSpec K col) (precSpec K col) C' D' b b' nIter).x := by
  unfold cgGrad
  rw [cgInitGrad_adjoint hK hc, cgLoopGrad_adjoint hK hc]
  unfold pairing
  simp only [zero_ip, specPair_zero]
  ring

/-- The gradients of the coherence, applied to a direction. -/
theorem cohCgGrad_adjoint (hK : 0 < K) {col : List ℝ} (hc : col.length = K) (b b' : Fin K → ℝ) (C' D' : ℕ → ℂ) (nIter : ℕ)
    (g : ℝ) :
    innerProd (cohCgGrad K col b nIter g).b b' + specPair (2 * K) (cohCgGrad K col b nIter g).A C' +
        specPair K (cohCgGrad K col b nIter g).P D' =
      g * (innerProd b' (specRun K (toepSpec K col) (precSpec K col) b nIter).x +
        innerProd b (tanRun K (toepSpec K col) (precSpec K col) C' D' b b' nIter).x) := by
  have h := cgGrad_adjoint hK hc b b' C' D' nIter (g • b)
  rw [smul_ip] at h
  have h1 : toeplitzCg torchBackend K col b nIter = (specRun K (toepSpec K col) (precSpec K col) b nIter).x := by
    rw [← cgState_eq hK hc]
    rfl
  unfold cohCgGrad
  simp only [add_ip, smul_ip, h1]
  rw [ip_comm _ b']
  linear_combination h

/-! ### From the column to the spectra -/

theorem specInvGrad_adjoint (c g c' : ℂ) :
    (specInvGrad c g * (starRingEnd ℂ) c').re = (g * ((c' : ℂ) / ((max (c.re ^ 2 + c.im ^ 2) 1e-6 : ℝ) : ℂ) -
      c * ((minGrad (c.re ^ 2 + c.im ^ 2) (2 * (c.re * c'.re + c.im * c'.im)) / max (c.re ^ 2 + c.im ^ 2) 1e-6 ^ 2 : ℝ) : ℂ))).re := by
  unfold specInvGrad
  simp only [minGrad_mask]
  generalize minMask (c.re ^ 2 + c.im ^ 2) = m
  generalize max (c.re ^ 2 + c.im ^ 2) 1e-6 = d
  simp [Complex.div_re, Complex.div_im, Complex.normSq, pow_two]
  field_simp
  ring

section column

variable {X : Type*} [NormedAddCommGroup X] [NormedSpace ℝ X] {u : X} {col col' : X → Fin K → ℝ}

theorem DerV.linear {m : ℕ} (T : (Fin K → ℝ) →ₗ[ℝ] (Fin m → ℝ)) (h : DerV u col col') :
    DerV u (fun x => T (col x)) (fun v => T (col' v)) := by
  intro l
  have h1 : ∀ y : Fin K → ℝ, T y l = ∑ i, y i * T (Pi.single i 1) l := by
    intro y
    conv_lhs => rw [pi_eq_sum_univ' y]
    rw [map_sum, Finset.sum_apply]
    refine Finset.sum_congr rfl fun i _ => ?_
    rw [map_smul]
    rfl
  rw [show (fun x => T (col x) l) = fun x => ∑ i, col x i * T (Pi.single i 1) l from funext fun x => h1 _]
  refine (Der.sum fun i _ => (h i).mul (Der.const (T (Pi.single i 1) l))).congr fun v => ?_
  refine Eq.trans ?_ (h1 (col' v)).symm
  exact Finset.sum_congr rfl fun i _ => by ring

/-- `circ2` as a linear map. -/
noncomputable def circ2Lin (K : ℕ) : (Fin K → ℝ) →ₗ[ℝ] (Fin (2 * K) → ℝ) where
  toFun := circ2 K
  map_add' x y := by
    funext t
    unfold circ2 zpad
    simp only [Pi.add_apply]
    split_ifs <;> simp
  map_smul' a x := by
    funext t
    unfold circ2 zpad
    simp only [Pi.smul_apply, smul_eq_mul, RingHom.id_apply]
    split_ifs <;> simp

/-- `circ1` as a linear map. -/
noncomputable def circ1Lin (K : ℕ) : (Fin K → ℝ) →ₗ[ℝ] (Fin K → ℝ) where
  toFun := circ1 K
  map_add' x y := by
    funext t
    unfold circ1 zpad
    simp only [Pi.add_apply]
    split_ifs <;> ring
  map_smul' a x := by
    funext t
    unfold circ1 zpad
    simp only [Pi.smul_apply, smul_eq_mul, RingHom.id_apply]
    split_ifs <;> ring

theorem der_toepSpec (hK : 0 < K) (h : DerV u col col') {f : ℕ} (hf : f < 2 * K / 2 + 1) :
    Der u (fun x => toepSpec K (List.ofFn (col x)) f) (fun v => toepSpec K (List.ofFn (col' v)) f) := by
  simp only [toepSpec_eq hK _ hf]
  exact Der.dft (h.linear (circ2Lin K)) f

theorem der_circSpec (hK : 0 < K) (h : DerV u col col') {f : ℕ} (hf : f < K / 2 + 1) :
    Der u (fun x => circSpec K (List.ofFn (col x)) f) (fun v => circSpec K (List.ofFn (col' v)) f) := by
  simp only [circSpec_eq hK _ hf]
  exact Der.dft (h.linear (circ1Lin K)) f

/-- The derivative of the spectrum of the preconditioner, if that of its column is `c'`. -/
noncomputable def invTan (c c' : ℂ) : ℂ :=
  (starRingEnd ℂ) (c' / ((max (c.re ^ 2 + c.im ^ 2) 1e-6 : ℝ) : ℂ) -
      c * ((minGrad (c.re ^ 2 + c.im ^ 2) (2 * (c.re * c'.re + c.im * c'.im)) / max (c.re ^ 2 + c.im ^ 2) 1e-6 ^ 2 : ℝ) : ℂ))

theorem der_precSpec (hK : 0 < K) (h : DerV u col col') {f : ℕ} (hf : f < K / 2 + 1)
    (h0 : (circSpec K (List.ofFn (col u)) f).re ^ 2 + (circSpec K (List.ofFn (col u)) f).im ^ 2 ≠ 1e-6) :
    Der u (fun x => precSpec K (List.ofFn (col x)) f)
      (fun v => invTan (circSpec K (List.ofFn (col u)) f) (circSpec K (List.ofFn (col' v)) f)) := by
  have hc := der_circSpec hK h hf
  have hsq : Der u (fun x => (circSpec K (List.ofFn (col x)) f).re ^ 2 + (circSpec K (List.ofFn (col x)) f).im ^ 2)
      (fun v => 2 * ((circSpec K (List.ofFn (col u)) f).re * (circSpec K (List.ofFn (col' v)) f).re +
        (circSpec K (List.ofFn (col u)) f).im * (circSpec K (List.ofFn (col' v)) f).im)) := by
    simp only [pow_two]
    exact ((hc.re.mul hc.re).add (hc.im.mul hc.im)).congr fun v => by ring
  have pos : ∀ a : ℝ, max a 1e-6 ≠ 0 := fun a => ne_of_gt (lt_max_of_lt_right (by norm_num))
  have hi := ((hsq.max h0).inv (pos _)).ofReal
  have hq := (hc.mul hi).conj
  unfold precSpec
  have e : ∀ c : ℂ, torchBackend.specInv c = (starRingEnd ℂ) (c * (((max (c.re ^ 2 + c.im ^ 2) 1e-6)⁻¹ : ℝ) : ℂ)) := by
    intro c
    show (starRingEnd ℂ) (c / _) = _
    rw [div_eq_mul_inv, Complex.ofReal_inv]
  simp only [e]
  refine hq.congr fun v => ?_
  unfold invTan
  congr 1
  push_cast
  ring

theorem specInvGrad_pair (c c' G : ℕ → ℂ) :
    specPair K (fun f => specInvGrad (c f) (G f)) c' = specPair K G fun f => invTan (c f) (c' f) := by
  unfold specPair
  rw [Complex.re_sum, Complex.re_sum]
  refine Finset.sum_congr rfl fun f _ => ?_
  rw [specInvGrad_adjoint]
  unfold invTan
  rw [Complex.conj_conj]

/-- The gradient of the column. -/
theorem acfCgGrad_adjoint (hK : 0 < K) (l : List ℝ) (gA gP : ℕ → ℂ) (c' : Fin K → ℝ) :
    innerProd (acfCgGrad K l gA gP) c' = specPair (2 * K) gA (toepSpec K (List.ofFn c')) +
      specPair K gP fun f => invTan (circSpec K l f) (circSpec K (List.ofFn c') f) := by
  unfold acfCgGrad
  rw [add_ip, toepColGrad_adjoint hK, circColGrad_adjoint hK, specInvGrad_pair]

end column

end FBE.Backward
