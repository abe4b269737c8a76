import Verif.Spec.Polarity
import Verif.Proofs.Volume
import Verif.Proofs.Related
import Verif.Proofs.BackwardCgOps
import Verif.Proofs.Signed

/-!
# Gradients of signals with the polarity inverted
-/

namespace FBE

open Classical FBE.Spec FBE.Backward XR
open Matrix hiding neg add sub

namespace Polarity

variable {s : List ℕ} {r e c N M : ℕ} {o : Opts}

/-- The sign of a polarity. -/
noncomputable def polSgn (b : Bool) : ℝ := if b then -1 else 1

/-- The sign applied to a gradient. -/
noncomputable def pol (b : Bool) (x : XR) : XR := if b then x.neg else x

theorem polSgn_sq (b : Bool) : polSgn b * polSgn b = 1 := by cases b <;> simp [polSgn]

theorem sgn_xor (a b : Bool) : polSgn (xor a b) = polSgn a * polSgn b := by cases a <;> cases b <;> simp [polSgn]

theorem pol_pol (a b : Bool) (x : XR) : pol a (pol b x) = pol (xor a b) x := by
  cases a <;> cases b <;> simp [pol, neg_neg']

theorem neg_add' (x y : XR) : neg (add x y) = add (neg x) (neg y) := by
  cases x <;> cases y <;> simp [neg, add, add_comm]

theorem neg_signInf (a : ℝ) : signInf (-a) = neg (signInf a) := by
  unfold signInf
  rcases lt_trichotomy a 0 with h | h | h
  · simp [h, not_lt.2 h.le, neg]
  · simp [h, neg]
  · simp [h, not_lt.2 h.le, neg]

theorem neg_mul_left (x : XR) (a : ℝ) : mul (neg x) (fin a) = neg (mul x (fin a)) := by
  cases x with
  | ninf => exact (neg_neg' (signInf a)).symm
  | _ => simp [neg, mul]

theorem neg_mul_right (x : XR) (a : ℝ) : mul x (fin (-a)) = neg (mul x (fin a)) := by
  cases x <;> simp [neg, mul, neg_signInf]

theorem neg_div' (x : XR) {a : ℝ} (ha : 0 < a) : div (neg x) (fin a) = neg (div x (fin a)) := Volume.div_neg ha x

theorem pol_mul (a b : Bool) (x : XR) (y : ℝ) : mul (pol a x) (fin (polSgn b * y)) = pol (xor a b) (mul x (fin y)) := by
  cases a <;> cases b <;> simp [pol, polSgn, neg_mul_left, neg_mul_right, neg_neg']

theorem pol_add (a : Bool) (x y : XR) : add (pol a x) (pol a y) = pol a (add x y) := by
  cases a <;> simp [pol, neg_add']

theorem pol_neg (a : Bool) (x : XR) : neg (pol a x) = pol a (neg x) := by
  cases a <;> simp [pol]

theorem pol_div (a : Bool) (x : XR) {d : ℝ} (hd : 0 < d) : div (pol a x) (fin d) = pol a (div x (fin d)) := by
  cases a <;> simp [pol, neg_div' _ hd]

theorem pol_xsum (a : Bool) {n : ℕ} (f : Fin n → XR) : xsum (fun k => pol a (f k)) = pol a (xsum f) := by
  have key : ∀ (l : List XR) (x : XR), (l.map (pol a)).foldl add (pol a x) = pol a (l.foldl add x) := by
    intro l
    induction l with
    | nil => exact fun _ => rfl
    | cons y l ih =>
      intro x
      rw [List.map_cons, List.foldl_cons, pol_add, ih, List.foldl_cons]
  unfold xsum
  have h0 : pol a (fin 0) = fin 0 := by cases a <;> simp [pol, neg]
  have := key (List.ofFn f) (fin 0)
  rw [h0, List.map_ofFn] at this
  exact this

theorem sum_sgn (a : Bool) (x : Fin N → ℝ) : ∑ u, (polSgn a * x u) ^ 2 = ∑ u, x u ^ 2 := by
  refine Finset.sum_congr rfl fun u _ => ?_
  rw [mul_pow, sq (polSgn a), polSgn_sq, one_mul]

theorem normalizeGrad_pol (a : Bool) (x : Fin N → ℝ) (g : Fin N → XR) (t : Fin N) :
    normalizeGrad (fun t => polSgn a * x t) (fun t => pol a (g t)) t = pol a (normalizeGrad x g t) := by
  unfold normalizeGrad
  dsimp only
  have hd : 0 < max (√(∑ u, x u ^ 2)) 1e-6 := lt_of_lt_of_le (by norm_num) (le_max_right _ _)
  have e1 : (xsum fun t => mul (neg (pol a (g t))) (fin (polSgn a * x t / max (√(∑ u, x u ^ 2)) 1e-6 / max (√(∑ u, x u ^ 2)) 1e-6))) =
      xsum fun t => mul (neg (g t)) (fin (x t / max (√(∑ u, x u ^ 2)) 1e-6 / max (√(∑ u, x u ^ 2)) 1e-6)) := by
    congr 1
    funext t
    rw [mul_div_assoc, mul_div_assoc, pol_neg, pol_mul]
    simp [pol]
  rw [sum_sgn, e1, pol_div a _ hd, ← pol_add]
  congr 1
  split_ifs with h1 h2 h2
  · cases a <;> simp [pol, neg_mul_left, ← neg_mul_right]
  · rw [mul_div_assoc]
    have := pol_mul false a
    simp only [Bool.false_xor] at this
    exact this _ _
  · cases a <;> simp [pol, ← neg_mul_right]
  · rw [mul_div_assoc]
    have := pol_mul false a
    simp only [Bool.false_xor] at this
    exact this _ _

theorem meanGrad_pol (a : Bool) (g : Fin N → XR) (t : Fin N) : meanGrad (fun t => pol a (g t)) t = pol a (meanGrad g t) := by
  have hN : (0 : ℝ) < N := by exact_mod_cast t.pos
  unfold meanGrad
  simp only [pol_neg, pol_xsum]
  rw [pol_div a _ hN, pol_add]

theorem removeMean_sgn (a : ℝ) (x : Fin N → ℝ) : removeMean (fun t => a * x t) = fun t => a * removeMean x t := by
  have := Volume.removeMean_line (b := a) x 0
  simpa using this

theorem centred_sgn (zm : Bool) (a : ℝ) (x : Fin N → ℝ) : centred zm (fun t => a * x t) = fun t => a * centred zm x t :=
  Volume.centred_line (zm := zm) (d := 0) (fun _ => rfl) fun _ => (add_zero _).symm

theorem preprocessGrad_pol (zm a : Bool) (x : Fin N → ℝ) (g : Fin N → XR) :
    preprocessGrad zm (fun t => polSgn a * x t) (fun t => pol a (g t)) = fun t => pol a (preprocessGrad zm x g t) := by
  funext t
  unfold preprocessGrad
  cases zm with
  | false => exact normalizeGrad_pol a x g t
  | true =>
    rw [if_pos rfl, if_pos rfl, removeMean_sgn, ← meanGrad_pol]
    congr 1
    funext u
    exact normalizeGrad_pol a _ g u

theorem inverted_eq (f : BIdx s → Fin c → Bool) (x : Sig s c N) (m : BIdx s) (k : Fin c) :
    inverted f x m k = fun t => polSgn (f m k) * x m k t := by
  funext t
  unfold inverted polSgn
  split <;> simp

theorem prep_inverted (f : BIdx s → Fin c → Bool) (x : Sig s c N) (m : BIdx s) (k : Fin c) :
    prep o (inverted f x) m k = fun t => polSgn (f m k) * prep o x m k t := by
  rw [prep_eq, prep_eq, inverted_eq, centred_sgn]
  have hg : gain (fun t => polSgn (f m k) * centred o.zeroMean (x m k) t) = gain (centred o.zeroMean (x m k)) := by
    unfold gain
    rw [Props.sigNorm_smul]
    have : |polSgn (f m k)| = 1 := by cases f m k <;> simp [polSgn]
    rw [this, one_mul]
  rw [hg]
  funext t
  ring

theorem invertedGrad_eq (f : BIdx s → Fin c → Bool) (g : BIdx s → Fin c → Fin N → XR) :
    invertedGrad f g = fun m k t => pol (f m k) (g m k t) := rfl

/-! ### filters of several taps -/

variable {fr : BIdx s → Fin r → Bool} {fe : BIdx s → Fin e → Bool}

theorem related_inverted (fr : BIdx s → Fin r → Bool) (fe : BIdx s → Fin e → Bool) (ref : Sig s r N) (est : Sig s e M) :
    Related o ref est (inverted fr ref) (inverted fe est) id (fun _ => Equiv.refl _) (fun _ => id) (fun m k => polSgn (fr m k))
      (fun m j => polSgn (fe m j)) :=
  related_of_prep (fun _ _ => polSgn_sq _) (fun _ _ => polSgn_sq _) (fun m k => prep_inverted fr ref m k)
    (fun m j => prep_inverted fe est m j)

theorem same_inverted (fr : BIdx s → Fin r → Bool) (fe : BIdx s → Fin e → Bool) (ref : Sig s r N) (est : Sig s e M) :
    Same torchBackend o ref est (inverted fr ref) (inverted fe est) :=
  same_of_prep (fun _ _ => polSgn_sq _) (fun _ _ => polSgn_sq _) (fun m k => prep_inverted fr ref m k)
    (fun m j => prep_inverted fe est m j)

/-- The forward pass with signs. -/
noncomputable def signed (fr : BIdx s → Fin r → Bool) (fe : BIdx s → Fin e → Bool) (F : Forward s r e) : Forward s r e :=
  ⟨F.n, F.K, F.R, fun m k j l => polSgn (fr m k) * polSgn (fe m j) * F.xc m k j l,
    fun m k j l => polSgn (fr m k) * polSgn (fe m j) * F.sol m k j l⟩

theorem solveStack_signed {ι κ J : Type} [Fintype J] [DecidableEq J] (A : ι → Matrix J J ℝ) (b : ι → κ → J → ℝ) (a : ι → κ → ℝ) :
    solveStack A (fun i k l => a i k * b i k l) = (solveStack A b).map fun x i k l => a i k * x i k l := by
  unfold solveStack
  split_ifs
  · rfl
  · show Except.ok _ = Except.ok _
    congr 1
    funext i k l
    have := congrFun (Matrix.mulVec_smul (A i)⁻¹ (a i k) (b i k)) l
    exact this

theorem forward_inverted (hL : 2 ≤ o.filterLength) (ref : Sig s r N) (est : Sig s e M) :
    forward o (inverted fr ref) (inverted fe est) = (forward o ref est).map (signed fr fe) := by
  unfold forward
  cases hn : nFft N M with
  | error err => rfl
  | ok n =>
    dsimp only
    have hR := related_inverted (o := o) fr fe ref est
    have h1 : ∀ m k, sdrAcf o n (inverted fr ref) m k = sdrAcf o n ref m k := fun m k => related_acf hR hn hn rfl rfl hL m k
    have h2 : ∀ m k j, vec (min o.filterLength n) (sdrXcorr o n (inverted fr ref) (inverted fe est) m k j) =
        fun l => polSgn (fr m k) * polSgn (fe m j) * vec (min o.filterLength n) (sdrXcorr o n ref est m k j) l :=
      fun m k j => related_xcorr hR hn hn rfl rfl hL m k j
    simp only [h1, h2]
    rw [solveStack_signed (fun i : BIdx s × Fin r => toeplitz torchBackend (min o.filterLength n) (sdrAcf o n ref i.1 i.2))
      (fun i j => vec (min o.filterLength n) (sdrXcorr o n ref est i.1 i.2 j)) fun i j => polSgn (fr i.1 i.2) * polSgn (fe i.1 j)]
    cases solveStack (fun i : BIdx s × Fin r => toeplitz torchBackend (min o.filterLength n) (sdrAcf o n ref i.1 i.2))
      (fun i j => vec (min o.filterLength n) (sdrXcorr o n ref est i.1 i.2 j)) with
    | error err => rfl
    | ok sol => rfl

theorem coh_signed (F : Forward s r e) (m : BIdx s) (k : Fin r) (j : Fin e) : (signed fr fe F).coh m k j = F.coh m k j := by
  refine Finset.sum_congr rfl fun l _ => ?_
  show polSgn (fr m k) * polSgn (fe m j) * _ * (polSgn (fr m k) * polSgn (fe m j) * _) = _
  linear_combination (polSgn (fe m j) * polSgn (fe m j) * F.xc m k j l * F.sol m k j l) * polSgn_sq (fr m k) +
    F.xc m k j l * F.sol m k j l * polSgn_sq (fe m j)

theorem xcorrGrad_signed {K : ℕ} (R : Matrix (Fin K) (Fin K) ℝ) (xc sol : Fin K → ℝ) (a g : ℝ) :
    xcorrGrad R (fun l => a * xc l) (fun l => a * sol l) g = fun l => a * xcorrGrad R xc sol g l := by
  funext l
  have := congrFun (Matrix.mulVec_smul Rᵀ⁻¹ a fun i => g * xc i) l
  have e : (fun i => g * (a * xc i)) = a • fun i => g * xc i := by
    funext i
    show _ = a * (g * xc i)
    ring
  unfold xcorrGrad
  rw [e, this]
  show _ + a * _ = _
  ring

theorem matGrad_signed {K : ℕ} (R : Matrix (Fin K) (Fin K) ℝ) (xc sol : Fin e → Fin K → ℝ) (a : Fin e → ℝ)
    (ha : ∀ j, a j * a j = 1) (g : Fin e → ℝ) :
    matGrad R (fun j l => a j * xc j l) (fun j l => a j * sol j l) g = matGrad R xc sol g := by
  funext p q
  unfold matGrad
  congr 1
  refine Finset.sum_congr rfl fun j _ => ?_
  have := congrFun (Matrix.mulVec_smul Rᵀ⁻¹ (a j) fun i => g j * xc j i) p
  have e : (fun i => g j * (a j * xc j i)) = a j • fun i => g j * xc j i := by
    funext i
    show _ = a j * (g j * xc j i)
    ring
  rw [e, this]
  show a j * _ * _ = _
  linear_combination ((Rᵀ⁻¹ *ᵥ fun i => g j * xc j i) p * sol j q) * ha j

theorem irfftGrad_signed (n K : ℕ) (a : ℝ) (g : Fin K → ℝ) (f : ℕ) : irfftGrad n K (fun l => a * g l) f = a * irfftGrad n K g f := by
  unfold irfftGrad
  have : ∑ l : Fin K, ((a * g l : ℝ) : ℂ) * (starRingEnd ℂ) (tw n f l) = a * ∑ l : Fin K, (g l : ℂ) * (starRingEnd ℂ) (tw n f l) := by
    rw [Finset.mul_sum]
    refine Finset.sum_congr rfl fun l _ => ?_
    push_cast
    ring
  rw [this]
  ring

theorem rfftGrad_signed (n : ℕ) (a : ℝ) (G : ℕ → ℂ) (t : ℕ) : rfftGrad n (fun f => a * G f) t = a * rfftGrad n G t := by
  unfold rfftGrad
  rw [← Complex.re_ofReal_mul, Finset.mul_sum]
  congr 1
  exact Finset.sum_congr rfl fun f _ => by ring

theorem lift_signed {κ : Type} (g : κ → XR) (f f' : (κ → ℝ) → Fin N → ℝ) (a : Bool) (h : ∀ g t, f' g t = polSgn a * f g t) :
    lift g f' = fun t => pol a (lift g f t) := by
  unfold lift
  funext t
  split_ifs
  · dsimp only
    rw [h]
    cases a <;> simp [pol, polSgn, neg]
  · cases a <;> rfl

theorem spectrum_signed (n : ℕ) (a : ℝ) (x : Fin N → ℝ) (f : ℕ) : spectrum n (fun t => a * x t) f = a * spectrum n x f := by
  by_cases hf : f < n / 2 + 1
  · rw [spectrum_eq _ hf, spectrum_eq _ hf]
    unfold dft
    rw [Finset.mul_sum]
    refine Finset.sum_congr rfl fun t _ => ?_
    unfold zpad
    split
    · push_cast
      ring
    · simp
  · unfold Backward.spectrum
    rw [List.getD_eq_default _ _ (by rw [length_rfft]; omega), List.getD_eq_default _ _ (by rw [length_rfft]; omega), mul_zero]

theorem sgn_sqc (b : Bool) : ((polSgn b : ℝ) : ℂ) * polSgn b = 1 := by exact_mod_cast congrArg (fun x : ℝ => (x : ℂ)) (polSgn_sq b)

theorem estBack_signed {K : ℕ} (n : ℕ) (x : Fin r → Fin N → ℝ) (gxc : Fin r → Fin K → ℝ) (a : Fin r → Bool) (b : Bool) (t : Fin M) :
    estBack n (fun k t => polSgn (a k) * x k t) (fun k l => polSgn (a k) * polSgn b * gxc k l) t = polSgn b * estBack n x gxc t := by
  unfold estBack
  rw [← rfftGrad_signed]
  congr 1
  funext f
  rw [Finset.mul_sum]
  refine Finset.sum_congr rfl fun k _ => ?_
  rw [irfftGrad_signed, spectrum_signed]
  push_cast
  linear_combination ((polSgn b : ℂ) * irfftGrad n K (gxc k) f * spectrum n (x k) f) * sgn_sqc (a k)

theorem refBack_signed {K : ℕ} (n : ℕ) (x : Fin N → ℝ) (y : Fin e → Fin M → ℝ) (gxc : Fin e → Fin K → ℝ) (gacf : Fin K → ℝ) (a : Bool)
    (b : Fin e → Bool) (t : Fin N) :
    refBack n (fun t => polSgn a * x t) (fun j t => polSgn (b j) * y j t) (fun j l => polSgn a * polSgn (b j) * gxc j l) gacf t =
      polSgn a * refBack n x y gxc gacf t := by
  unfold refBack
  rw [← rfftGrad_signed]
  congr 1
  funext f
  rw [mul_add, Finset.mul_sum, spectrum_signed]
  congr 1
  · refine Finset.sum_congr rfl fun j _ => ?_
    rw [irfftGrad_signed, spectrum_signed]
    simp only [map_mul, Complex.conj_ofReal, Complex.conj_conj]
    push_cast
    linear_combination ((polSgn a : ℂ) * (starRingEnd ℂ) (irfftGrad n K (gxc j) f) * spectrum n (y j) f) * sgn_sqc (b j)
  · ring

theorem forwardDiag_inverted {fr fe : BIdx s → Fin c → Bool} (hL : 2 ≤ o.filterLength) (ref : Sig s c N) (est : Sig s c M) :
    forwardDiag o (inverted fr ref) (inverted fe est) = (forwardDiag o ref est).map fun F =>
      ⟨F.n, F.K, F.R, fun m k j l => polSgn (fr m k) * polSgn (fe m k) * F.xc m k j l,
        fun m k j l => polSgn (fr m k) * polSgn (fe m k) * F.sol m k j l⟩ := by
  unfold forwardDiag
  cases hn : nFft N M with
  | error err => rfl
  | ok n =>
    dsimp only
    have hR := related_inverted (o := o) fr fe ref est
    have h1 : ∀ m k, sdrAcf o n (inverted fr ref) m k = sdrAcf o n ref m k := fun m k => related_acf hR hn hn rfl rfl hL m k
    have h2 : ∀ m k, vec (min o.filterLength n) (sdrXcorr o n (inverted fr ref) (inverted fe est) m k k) =
        fun l => polSgn (fr m k) * polSgn (fe m k) * vec (min o.filterLength n) (sdrXcorr o n ref est m k k) l :=
      fun m k => related_xcorr hR hn hn rfl rfl hL m k k
    simp only [h1, h2]
    rw [solveStack_signed (fun i : BIdx s × Fin c => toeplitz torchBackend (min o.filterLength n) (sdrAcf o n ref i.1 i.2))
      (fun i (_ : Fin 1) => vec (min o.filterLength n) (sdrXcorr o n ref est i.1 i.2 i.2)) fun i _ => polSgn (fr i.1 i.2) * polSgn (fe i.1 i.2)]
    cases solveStack (fun i : BIdx s × Fin c => toeplitz torchBackend (min o.filterLength n) (sdrAcf o n ref i.1 i.2))
      (fun i (_ : Fin 1) => vec (min o.filterLength n) (sdrXcorr o n ref est i.1 i.2 i.2)) with
    | error err => rfl
    | ok sol => rfl

theorem sgn_mul_sq (a b : Bool) : polSgn a * polSgn b * (polSgn a * polSgn b) = 1 := by cases a <;> cases b <;> simp [polSgn]

/-! ### the iterative solver -/

section cg

variable {K : ℕ} {col : List ℝ}

theorem rfftGrad_neg (n : ℕ) (G : ℕ → ℂ) (t : ℕ) : rfftGrad n (fun f => -G f) t = -rfftGrad n G t := by
  have := rfftGrad_signed n (-1) G t
  simpa using this

theorem irfftGrad_neg (n : ℕ) (g : Fin K → ℝ) (f : ℕ) : irfftGrad n K (-g) f = -irfftGrad n K g f := by
  have := irfftGrad_signed n K (-1) g f
  have e : (fun l => -1 * g l) = -g := by funext l; simp
  rw [e] at this
  simpa using this

theorem opGrad_neg (n : ℕ) (C : ℕ → ℂ) (g : Fin K → ℝ) : opGrad n C (-g) = -opGrad n C g := by
  funext t
  unfold opGrad
  simp only [irfftGrad_neg, neg_mul]
  exact rfftGrad_neg n _ t

theorem spectrum_neg (n : ℕ) (x : Fin N → ℝ) (f : ℕ) : spectrum n (-x) f = -spectrum n x f := by
  have := spectrum_signed n (-1) x f
  have e : (fun t => -1 * x t) = -x := by funext t; simp
  rw [e] at this
  simpa using this

theorem opSpecGrad_neg (n : ℕ) (v g : Fin K → ℝ) : opSpecGrad n (-v) (-g) = opSpecGrad n v g := by
  funext f
  unfold opSpecGrad
  rw [irfftGrad_neg, spectrum_neg, map_neg, neg_mul_neg]

theorem opSpecGrad_zero (n : ℕ) (g : Fin K → ℝ) : opSpecGrad n (fun _ => 0) (- -g) = opSpecGrad n (fun _ => 0) (-g) := by
  have := opSpecGrad_neg n 0 (-g)
  rw [neg_zero] at this
  exact this

theorem innerProd_neg (a b : Fin K → ℝ) : innerProd (-a) (-b) = innerProd a b := by
  simp [innerProd]

theorem op_neg (hc : col.length = K) (hK : 0 < K) (v : Fin K → ℝ) :
    symToeplitzOp torchBackend K col (-v) = -symToeplitzOp torchBackend K col v := by
  rw [symToeplitzOp_coe (Or.inl rfl) hc hK, map_neg]

theorem precond_neg (v : Fin K → ℝ) : circPrecond torchBackend K col (-v) = -circPrecond torchBackend K col v := by
  rw [circPrecond_coe (Or.inl rfl), map_neg]

/-- The variables of the loop with the opposite sign. -/
noncomputable def negState (st : CgState (Fin K)) : CgState (Fin K) := ⟨-st.x, -st.r, -st.p, st.rsold⟩

/-- Their gradients. -/
noncomputable def negGrad (g : CgGrad K) : CgGrad K := ⟨-g.x, -g.r, -g.p, g.rsold, g.A, g.P⟩

theorem cgBodyGrad_neg (hc : col.length = K) (hK : 0 < K) (st : CgState (Fin K)) (g : CgGrad K) :
    cgBodyGrad K col (negState st) (negGrad g) = negGrad (cgBodyGrad K col st g) := by
  unfold cgBodyGrad negState negGrad
  simp only [op_neg hc hK, smul_neg, ← _root_.neg_sub', innerProd_neg, precond_neg, ← _root_.neg_add, opGrad_neg, opSpecGrad_neg]

theorem cgState_neg (hc : col.length = K) (hK : 0 < K) (b : Fin K → ℝ) (i : ℕ) :
    cgState K col (-b) i = negState (cgState K col b i) := by
  have := cgRun_map (T := -LinearMap.id) (A := symToeplitzOp torchBackend K col) (M := circPrecond torchBackend K col)
    (A' := symToeplitzOp torchBackend K col) (M' := circPrecond torchBackend K col) (fun v w => by
      show (-v) ⬝ᵥ (-w) = _
      rw [neg_dotProduct_neg]) (fun v => op_neg hc hK v) (fun v => precond_neg v) b (fun _ => 0) i
  have h0 : (-LinearMap.id : (Fin K → ℝ) →ₗ[ℝ] (Fin K → ℝ)) (fun _ => 0) = fun _ => 0 := by
    funext i; simp
  rw [h0] at this
  exact this

theorem cgLoopGrad_neg (hc : col.length = K) (hK : 0 < K) (b : Fin K → ℝ) (i : ℕ) (g : CgGrad K) :
    cgLoopGrad K col (-b) i (negGrad g) = negGrad (cgLoopGrad K col b i g) := by
  induction i generalizing g with
  | zero => rfl
  | succ i ih => rw [cgLoopGrad, cgState_neg hc hK, cgBodyGrad_neg hc hK, ih, cgLoopGrad]

theorem cohCgGrad_neg (hc : col.length = K) (hK : 0 < K) (b : Fin K → ℝ) (it : ℕ) (g : ℝ) :
    (cohCgGrad K col (-b) it g).b = -(cohCgGrad K col b it g).b ∧ (cohCgGrad K col (-b) it g).A = (cohCgGrad K col b it g).A ∧
      (cohCgGrad K col (-b) it g).P = (cohCgGrad K col b it g).P := by
  have h1 := toeplitzCg_sign (B := torchBackend) (Or.inl rfl) hc hK (ε := -1) (by norm_num) b it
  rw [neg_one_smul, neg_one_smul] at h1
  have h2 := cgLoopGrad_neg hc hK b it ⟨g • b, 0, 0, 0, fun _ => 0, fun _ => 0⟩
  have e : negGrad (⟨g • b, 0, 0, 0, fun _ => 0, fun _ => 0⟩ : CgGrad K) = ⟨g • -b, 0, 0, 0, fun _ => 0, fun _ => 0⟩ := by
    simp [negGrad]
  rw [e] at h2
  have h0 : symToeplitzOp torchBackend K col (fun _ => 0) = 0 := by
    rw [symToeplitzOp_coe (Or.inl rfl) hc hK]
    exact map_zero _
  unfold cohCgGrad cgGrad cgInitGrad
  rw [h2, h1, h0]
  simp only [sub_zero, precond_neg, negGrad, smul_neg, ← neg_add, opGrad_neg, opSpecGrad_neg, true_and]
  exact ⟨congrArg (fun v => fun f => (cgLoopGrad K col b it ⟨g • b, 0, 0, 0, fun _ => 0, fun _ => 0⟩).A f + v f)
    (opSpecGrad_zero _ _), trivial⟩

theorem cohCgGrad_signed (hc : col.length = K) (hK : 0 < K) {ε : ℝ} (hε : ε = 1 ∨ ε = -1) (b : Fin K → ℝ) (it : ℕ) (g : ℝ) :
    (cohCgGrad K col (fun l => ε * b l) it g).b = (fun l => ε * (cohCgGrad K col b it g).b l) ∧
      (cohCgGrad K col (fun l => ε * b l) it g).A = (cohCgGrad K col b it g).A ∧
      (cohCgGrad K col (fun l => ε * b l) it g).P = (cohCgGrad K col b it g).P := by
  rcases hε with rfl | rfl
  · simp only [one_mul, and_self]
  · simp only [neg_one_mul]
    exact cohCgGrad_neg hc hK b it g

theorem sgn_or (a b : Bool) : polSgn a * polSgn b = 1 ∨ polSgn a * polSgn b = -1 := by cases a <;> cases b <;> simp [polSgn]

theorem cohCg_signed (hc : col.length = K) (hK : 0 < K) {ε : ℝ} (hε : ε = 1 ∨ ε = -1) (b : Fin K → ℝ) (it : ℕ) :
    innerProd (fun l => ε * b l) (toeplitzCg torchBackend K col (fun l => ε * b l) it) =
      innerProd b (toeplitzCg torchBackend K col b it) := by
  rcases hε with rfl | rfl
  · simp only [one_mul]
  · have h1 := toeplitzCg_sign (B := torchBackend) (Or.inl rfl) hc hK (ε := -1) (by norm_num) b it
    rw [neg_one_smul, neg_one_smul] at h1
    simp only [neg_one_mul]
    show innerProd (-b) (toeplitzCg torchBackend K col (-b) it) = _
    rw [h1, innerProd_neg]

end cg

end Polarity

end FBE
