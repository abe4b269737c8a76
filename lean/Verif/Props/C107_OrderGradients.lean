import Verif.Props.C106_BatchGradients
import Verif.Props.C14_C39_Channels
import Verif.Proofs.Steepness

/-!
# C107: gradients follow the order of the channels
-/

namespace FBE.Props

open Classical FBE.Spec FBE.Backward XR

variable {s : List ℕ} {r e c N M it : ℕ} {o : Opts}

theorem add_right_comm_xr (x y z : XR) : add (add x y) z = add (add x z) y := by
  cases x <;> cases y <;> cases z <;> simp [add, add_right_comm]

theorem xsum_perm {n : ℕ} (f : Fin n → XR) (π : Equiv.Perm (Fin n)) : xsum (fun k => f (π k)) = xsum f := by
  unfold xsum
  have : RightCommutative add := ⟨fun x y z => add_right_comm_xr x y z⟩
  exact (Equiv.Perm.ofFn_comp_perm π f).foldl_eq _

theorem lift_perm {n : ℕ} (g : Fin n → XR) (π : Equiv.Perm (Fin n)) (f f' : (Fin n → ℝ) → Fin N → ℝ)
    (h : ∀ g, f' (fun k => g (π k)) = f g) : lift (fun k => g (π k)) f' = lift g f := by
  unfold lift
  have e : (∀ k, (g (π k)).toReal?.isSome) ↔ ∀ k, (g k).toReal?.isSome :=
    ⟨fun h k => by have := h (π.symm k); rwa [Equiv.apply_symm_apply] at this, fun h k => h _⟩
  by_cases h1 : ∀ k, (g k).toReal?.isSome
  · rw [if_pos (e.2 h1), if_pos h1]
    funext t
    rw [h fun k => (g k).toReal?.getD 0]
  · rw [if_neg (mt e.1 h1), if_neg h1]

theorem solveStack_surj {ι ι' κ κ' J : Type} [Fintype J] [DecidableEq J] (A : ι → Matrix J J ℝ) (b : ι → κ → J → ℝ) (f : ι' → ι)
    (hf : Function.Surjective f) (g : ι' → κ' → κ) :
    solveStack (fun i => A (f i)) (fun i j => b (f i) (g i j)) = (solveStack A b).map fun x i j => x (f i) (g i j) := by
  unfold solveStack
  by_cases h : ∃ i, (A i).det = 0
  · have h' : ∃ i, (A (f i)).det = 0 := by
      obtain ⟨i, hi⟩ := h
      obtain ⟨j, rfl⟩ := hf i
      exact ⟨j, hi⟩
    rw [if_pos h, if_pos h']
    rfl
  · rw [if_neg h, if_neg fun ⟨i, hi⟩ => h ⟨f i, hi⟩]
    rfl

section pairs

variable (ref : Sig s r N) (est : Sig s e M) (π : BIdx s → Equiv.Perm (Fin r)) (σ : BIdx s → Equiv.Perm (Fin e))

/-- **C107**, `sdr_loss` with `filter_length=1` and `si_sdr_loss`. -/
theorem C107_si_pairwise (est : Sig s e N) (w : BIdx s → Fin r → Fin e → ℝ) :
    gradEst o (fun m k => ref m (π m k)) (fun m j => est m (σ m j)) (fun m k j => w m (π m k) (σ m j)) =
        (fun m j => gradEst o ref est w m (σ m j)) ∧
      gradRef o (fun m k => ref m (π m k)) (fun m j => est m (σ m j)) (fun m k j => w m (π m k) (σ m j)) =
        fun m k => gradRef o ref est w m (π m k) := by
  constructor
  · funext m j
    unfold gradEst
    refine congrArg (preprocessGrad o.zeroMean (est m (σ m j))) (funext fun t => ?_)
    exact xsum_perm (fun k => mul (innerGrad o ref est w m k (σ m j)) (fin (prep o ref m k t))) (π m)
  · funext m k
    unfold gradRef
    refine congrArg (preprocessGrad o.zeroMean (ref m (π m k))) (funext fun t => ?_)
    exact xsum_perm (fun j => mul (innerGrad o ref est w m (π m k) j) (fin (prep o est m j t))) (σ m)

theorem estBack_perm {K : ℕ} (n : ℕ) (x : Fin r → Fin N → ℝ) (gxc : Fin r → Fin K → ℝ) (π : Equiv.Perm (Fin r)) :
    estBack (M := M) n (fun k => x (π k)) (fun k => gxc (π k)) = estBack n x gxc := by
  unfold estBack
  funext t
  congr 1
  funext f
  exact Equiv.sum_comp π fun k => irfftGrad n K (gxc k) f * Backward.spectrum n (x k) f

theorem refBack_perm {K : ℕ} (n : ℕ) (x : Fin N → ℝ) (y : Fin e → Fin M → ℝ) (gxc : Fin e → Fin K → ℝ) (gacf : Fin K → ℝ)
    (σ : Equiv.Perm (Fin e)) : refBack n x (fun j => y (σ j)) (fun j => gxc (σ j)) gacf = refBack n x y gxc gacf := by
  unfold refBack
  funext t
  congr 1
  funext f
  congr 1
  exact Equiv.sum_comp σ fun j => (starRingEnd ℂ) (irfftGrad n K (gxc j) f * (starRingEnd ℂ) (Backward.spectrum n (y j) f))

theorem matGrad_perm {K : ℕ} (R : Matrix (Fin K) (Fin K) ℝ) (xc sol : Fin e → Fin K → ℝ) (g : Fin e → ℝ) (σ : Equiv.Perm (Fin e)) :
    matGrad R (fun j => xc (σ j)) (fun j => sol (σ j)) (fun j => g (σ j)) = matGrad R xc sol g := by
  funext a b
  unfold matGrad
  congr 1
  exact Equiv.sum_comp σ fun j => (R.transpose⁻¹.mulVec fun i => g j * xc j i) a * sol j b

theorem forward_perm : forward o (fun m k => ref m (π m k)) (fun m j => est m (σ m j)) = (forward o ref est).map fun F =>
    ⟨F.n, F.K, fun m k => F.R m (π m k), fun m k j => F.xc m (π m k) (σ m j), fun m k j => F.sol m (π m k) (σ m j)⟩ := by
  unfold forward
  cases hn : nFft N M with
  | error err => rfl
  | ok n =>
    have h := solveStack_surj (fun i : BIdx s × Fin r => toeplitz torchBackend (min o.filterLength n) (sdrAcf o n ref i.1 i.2))
      (fun i j => vec (min o.filterLength n) (sdrXcorr o n ref est i.1 i.2 j)) (fun i => (i.1, π i.1 i.2))
      (fun i => ⟨(i.1, (π i.1).symm i.2), by simp⟩) (fun i j => σ i.1 j)
    dsimp only at h ⊢
    have e1 : ∀ m k, sdrAcf o n (fun m k => ref m (π m k)) m k = sdrAcf o n ref m (π m k) := fun _ _ => rfl
    have e2 : ∀ m k j, sdrXcorr o n (fun m k => ref m (π m k)) (fun m j => est m (σ m j)) m k j = sdrXcorr o n ref est m (π m k) (σ m j) :=
      fun _ _ _ => rfl
    simp only [e1, e2]
    rw [h]
    cases solveStack (fun i : BIdx s × Fin r => toeplitz torchBackend (min o.filterLength n) (sdrAcf o n ref i.1 i.2))
      (fun i j => vec (min o.filterLength n) (sdrXcorr o n ref est i.1 i.2 j)) with
    | error err => rfl
    | ok sol => rfl

/-- **C107**, `sdr_loss` with longer filters and the direct solver; exceptions included. -/
theorem C107_sdr_pairwise (w : BIdx s → Fin r → Fin e → ℝ) :
    gradEstFir o (fun m k => ref m (π m k)) (fun m j => est m (σ m j)) (fun m k j => w m (π m k) (σ m j)) =
        (gradEstFir o ref est w).map (fun g m j => g m (σ m j)) ∧
      gradRefFir o (fun m k => ref m (π m k)) (fun m j => est m (σ m j)) (fun m k j => w m (π m k) (σ m j)) =
        (gradRefFir o ref est w).map fun g m k => g m (π m k) := by
  unfold gradEstFir gradRefFir
  rw [forward_perm]
  cases forward o ref est with
  | error err => exact ⟨rfl, rfl⟩
  | ok F =>
    constructor
    · show Except.ok _ = Except.ok _
      congr 1
      funext m j
      refine congrArg (preprocessGrad o.zeroMean (est m (σ m j))) ?_
      refine lift_perm (fun k => decibelGrad o.clampDb (F.coh m k (σ m j)) (fin (w m k (σ m j)))) (π m) _ _ fun g => ?_
      exact estBack_perm F.n (prep o ref m) (fun k => xcorrGrad (F.R m k) (F.xc m k (σ m j)) (F.sol m k (σ m j)) (g k)) (π m)
    · show Except.ok _ = Except.ok _
      congr 1
      funext m k
      refine congrArg (preprocessGrad o.zeroMean (ref m (π m k))) ?_
      refine lift_perm (fun j => decibelGrad o.clampDb (F.coh m (π m k) j) (fin (w m (π m k) j))) (σ m) _ _ fun g => ?_
      have := refBack_perm F.n (prep o ref m (π m k)) (prep o est m)
        (fun j => xcorrGrad (F.R m (π m k)) (F.xc m (π m k) j) (F.sol m (π m k) j) (g j))
        (toeplitzGrad (matGrad (F.R m (π m k)) (F.xc m (π m k)) (F.sol m (π m k)) g)) (σ m)
      rw [← this, ← matGrad_perm (F.R m (π m k)) (F.xc m (π m k)) (F.sol m (π m k)) g (σ m)]
      rfl

theorem estLift_perm {K : ℕ} (n : ℕ) (x : Fin r → Fin N → ℝ) (d : Fin r → XR) (b : Fin r → ℝ → Fin K → ℝ) (π : Equiv.Perm (Fin r)) :
    lift (fun k => d (π k)) (fun g => estBack (M := M) n (fun k => x (π k)) fun k => b (π k) (g k)) =
      lift d fun g => estBack n x fun k => b k (g k) :=
  lift_perm d π _ _ fun g => estBack_perm n x (fun k => b k (g k)) π

theorem refLift_perm {K : ℕ} (n : ℕ) (x : Fin N → ℝ) (y : Fin e → Fin M → ℝ) (d : Fin e → XR) (G : Fin e → ℝ → SolveGrad K)
    (a : (ℕ → ℂ) → (ℕ → ℂ) → Fin K → ℝ) (σ : Equiv.Perm (Fin e)) :
    lift (fun j => d (σ j)) (fun g => refBack n x (fun j => y (σ j)) (fun j => (G (σ j) (g j)).b)
        (a (fun f => ∑ j, (G (σ j) (g j)).A f) fun f => ∑ j, (G (σ j) (g j)).P f)) =
      lift d fun g => refBack n x y (fun j => (G j (g j)).b) (a (fun f => ∑ j, (G j (g j)).A f) fun f => ∑ j, (G j (g j)).P f) := by
  refine lift_perm d σ _ _ fun g => ?_
  have e1 : (fun f => ∑ j, (G (σ j) (g (σ j))).A f) = fun f => ∑ j, (G j (g j)).A f :=
    funext fun f => Equiv.sum_comp σ fun j => (G j (g j)).A f
  have e2 : (fun f => ∑ j, (G (σ j) (g (σ j))).P f) = fun f => ∑ j, (G j (g j)).P f :=
    funext fun f => Equiv.sum_comp σ fun j => (G j (g j)).P f
  rw [e1, e2]
  exact refBack_perm n x y (fun j => (G j (g j)).b) _ σ

/-- **C107**, `sdr_loss` with `use_cg_iter`; exceptions included. -/
theorem C107_iterative_pairwise (w : BIdx s → Fin r → Fin e → ℝ) :
    gradEstCg o it (fun m k => ref m (π m k)) (fun m j => est m (σ m j)) (fun m k j => w m (π m k) (σ m j)) =
        (gradEstCg o it ref est w).map (fun g m j => g m (σ m j)) ∧
      gradRefCg o it (fun m k => ref m (π m k)) (fun m j => est m (σ m j)) (fun m k j => w m (π m k) (σ m j)) =
        (gradRefCg o it ref est w).map fun g m k => g m (π m k) := by
  unfold gradEstCg gradRefCg
  cases hn : nFft N M with
  | error err => exact ⟨rfl, rfl⟩
  | ok n =>
    have e1 : ∀ m k, sdrAcf o n (fun m k => ref m (π m k)) m k = sdrAcf o n ref m (π m k) := fun _ _ => rfl
    have e2 : ∀ m k j, sdrXcorr o n (fun m k => ref m (π m k)) (fun m j => est m (σ m j)) m k j = sdrXcorr o n ref est m (π m k) (σ m j) :=
      fun _ _ _ => rfl
    have e3 : ∀ m k, prep o (fun m k => ref m (π m k)) m k = prep o ref m (π m k) := fun _ _ => rfl
    have e3' : ∀ m, prep o (fun m k => ref m (π m k)) m = fun k => prep o ref m (π m k) := fun _ => rfl
    have e4 : ∀ m, prep o (fun m j => est m (σ m j)) m = fun j => prep o est m (σ m j) := fun _ => rfl
    dsimp only
    simp only [e1, e2, e3, e3', e4, Except.map]
    generalize sdrAcf o n ref = acf
    generalize sdrXcorr o n ref est = xc
    constructor
    · refine congrArg Except.ok (funext fun m => funext fun j => congrArg (preprocessGrad o.zeroMean (est m (σ m j))) ?_)
      exact estLift_perm n (prep o ref m) (fun k => decibelGrad o.clampDb (innerProd (vec (min o.filterLength n) (xc m k (σ m j)))
        (toeplitzCg torchBackend (min o.filterLength n) (acf m k) (vec (min o.filterLength n) (xc m k (σ m j))) it)) (fin (w m k (σ m j))))
        (fun k g => (cohCgGrad (min o.filterLength n) (acf m k) (vec (min o.filterLength n) (xc m k (σ m j))) it g).b) (π m)
    · refine congrArg Except.ok (funext fun m => funext fun k => congrArg (preprocessGrad o.zeroMean (ref m (π m k))) ?_)
      exact refLift_perm n (prep o ref m (π m k)) (prep o est m) (fun j => decibelGrad o.clampDb (innerProd
        (vec (min o.filterLength n) (xc m (π m k) j)) (toeplitzCg torchBackend (min o.filterLength n) (acf m (π m k))
        (vec (min o.filterLength n) (xc m (π m k) j)) it)) (fin (w m (π m k) j)))
        (fun j g => cohCgGrad (min o.filterLength n) (acf m (π m k)) (vec (min o.filterLength n) (xc m (π m k) j)) it g)
        (acfCgGrad (min o.filterLength n) (acf m (π m k))) (σ m)

/-- The weights of the pairs: those of reordered channels are reordered, if there is only one best pairing. -/
theorem pitWeights_perm {ref : Sig s r N} {est : Sig s e M} {cs : Bool} {v : BIdx s → ℝ} {L w}
    (hL : pairwiseSdrLoss torchBackend o est ref = .ok L) (hu : ∀ m, UniqueBest (L m))
    (h : pitWeights o cs ref est (fun m _ => v m) = .ok w) (π : BIdx s → Equiv.Perm (Fin r)) (σ : BIdx s → Equiv.Perm (Fin e)) :
    pitWeights o cs (fun m k => ref m (π m k)) (fun m j => est m (σ m j)) (fun m _ => v m) = .ok fun m k j => w m (π m k) (σ m j) := by
  have hL' := C14_pairwise_reordered Ex.covered hL π σ
  unfold pairwiseSdrLoss at hL hL'
  unfold pitWeights at h ⊢
  rw [hL] at h
  rw [hL']
  dsimp only at h ⊢
  split at h
  · cases h
  · rename_i p hp
    have hsol : ∀ m, Solvable (L m) := (solvePermutation_ok_iff _ Ex.covered.lsa _ _).1 ⟨p, hp⟩
    obtain ⟨p', hp'⟩ := (solvePermutation_ok_iff torchBackend Ex.covered.lsa (fun m k j => L m (π m k) (σ m j)) (nArgs := 0)
      (fun i => i.elim0)).2 fun m => solvable_reorder (π m) (σ m) (hsol m)
    rw [hp']
    cases h
    show Except.ok _ = Except.ok _
    congr 1
    funext m k j
    obtain ⟨-, P, hP⟩ := solvePermutation_spec torchBackend Ex.covered.lsa _ _ hp m
    obtain ⟨-, P', hP'⟩ := solvePermutation_spec torchBackend Ex.covered.lsa _ _ hp' m
    rw [Steepness.permGrad_at hP.describes, Steepness.permGrad_at hP'.describes]
    have hs := hu m P _ hP.best (bestPairing_map hP'.best) (π m k) (σ m j)
    have key : ∀ (Q : Pairing r e) (k : Fin r) (j : Fin e) (x : ℝ), (∑ i, if Q.ref i = k ∧ Q.est i = j then x else 0) =
        if ∃ i, Q.ref i = k ∧ Q.est i = j then x else 0 := by
      intro Q k j x
      split_ifs with hx
      · obtain ⟨i, hi⟩ := hx
        rw [Finset.sum_eq_single i (fun i' _ hi' => if_neg fun h2 => hi' (Q.ref_inj (h2.1.trans hi.1.symm)))
          fun h => absurd (Finset.mem_univ _) h, if_pos hi]
      · exact Finset.sum_eq_zero fun i _ => if_neg fun hi => hx ⟨i, hi⟩
    rw [key, key]
    refine if_congr ?_ rfl rfl
    rw [hs]
    constructor
    · rintro ⟨i, h1, h2⟩
      exact ⟨i, congrArg _ h1, congrArg _ h2⟩
    · rintro ⟨i, h1, h2⟩
      exact ⟨i, (π m).injective h1, (σ m).injective h2⟩

variable {ref est}

/-- **C107**, `sdr` and `sdr_pit_loss` (`cs`) with `filter_length=1`: every item with a weight for its total. -/
theorem C107_pit_si {est : Sig s e N} {cs : Bool} {v : BIdx s → ℝ} {L gE gR} (hL : pairwiseSdrLoss torchBackend o est ref = .ok L)
    (hu : ∀ m, UniqueBest (L m)) (hE : gradEstPit o cs ref est (fun m _ => v m) = .ok gE)
    (hR : gradRefPit o cs ref est (fun m _ => v m) = .ok gR) :
    gradEstPit o cs (fun m k => ref m (π m k)) (fun m j => est m (σ m j)) (fun m _ => v m) = .ok (fun m j => gE m (σ m j)) ∧
      gradRefPit o cs (fun m k => ref m (π m k)) (fun m j => est m (σ m j)) (fun m _ => v m) = .ok fun m k => gR m (π m k) := by
  unfold gradEstPit gradRefPit at *
  cases h : pitWeights o cs ref est (fun m _ => v m) with
  | error err => rw [h] at hE; cases hE
  | ok w =>
    rw [h] at hE hR
    rw [pitWeights_perm hL hu h π σ]
    cases hE
    cases hR
    have := C107_si_pairwise (o := o) ref π σ est w
    exact ⟨congrArg Except.ok this.1, congrArg Except.ok this.2⟩

/-- **C107**, `sdr` and `sdr_pit_loss` (`cs`) with longer filters and the direct solver. -/
theorem C107_pit {cs : Bool} {v : BIdx s → ℝ} {L gE gR} (hL : pairwiseSdrLoss torchBackend o est ref = .ok L)
    (hu : ∀ m, UniqueBest (L m)) (hE : gradEstFirPit o cs ref est (fun m _ => v m) = .ok gE)
    (hR : gradRefFirPit o cs ref est (fun m _ => v m) = .ok gR) :
    gradEstFirPit o cs (fun m k => ref m (π m k)) (fun m j => est m (σ m j)) (fun m _ => v m) = .ok (fun m j => gE m (σ m j)) ∧
      gradRefFirPit o cs (fun m k => ref m (π m k)) (fun m j => est m (σ m j)) (fun m _ => v m) = .ok fun m k => gR m (π m k) := by
  unfold gradEstFirPit gradRefFirPit at *
  cases h : pitWeights o cs ref est (fun m _ => v m) with
  | error err => rw [h] at hE; cases hE
  | ok w =>
    rw [h] at hE hR
    rw [pitWeights_perm hL hu h π σ]
    have := C107_sdr_pairwise (o := o) ref est π σ w
    dsimp only at hE hR ⊢
    rw [this.1, this.2, hE, hR]
    exact ⟨rfl, rfl⟩

/-- **C107**, `sdr` and `sdr_pit_loss` (`cs`) with `use_cg_iter`. -/
theorem C107_pit_iterative {cs : Bool} {v : BIdx s → ℝ} {L gE gR} (hL : pairwiseSdrLoss torchBackend o est ref = .ok L)
    (hu : ∀ m, UniqueBest (L m)) (hE : gradEstCgPit o it cs ref est (fun m _ => v m) = .ok gE)
    (hR : gradRefCgPit o it cs ref est (fun m _ => v m) = .ok gR) :
    gradEstCgPit o it cs (fun m k => ref m (π m k)) (fun m j => est m (σ m j)) (fun m _ => v m) = .ok (fun m j => gE m (σ m j)) ∧
      gradRefCgPit o it cs (fun m k => ref m (π m k)) (fun m j => est m (σ m j)) (fun m _ => v m) = .ok fun m k => gR m (π m k) := by
  unfold gradEstCgPit gradRefCgPit at *
  cases h : pitWeights o cs ref est (fun m _ => v m) with
  | error err => rw [h] at hE; cases hE
  | ok w =>
    rw [h] at hE hR
    rw [pitWeights_perm hL hu h π σ]
    have := C107_iterative_pairwise (o := o) (it := it) ref est π σ w
    dsimp only at hE hR ⊢
    rw [this.1, this.2, hE, hR]
    exact ⟨rfl, rfl⟩

end pairs

/-! ### examples -/

/-- The estimates of the example exchanged: the gradients exist (C72) and are exchanged. -/
example (w : BIdx [] → Fin 2 → Fin 2 → ℝ) : ∃ gE gR, gradEstFir (Ex.clamped none) Ex.ref Ex.est w = .ok gE ∧
    gradRefFir (Ex.clamped none) Ex.ref Ex.est w = .ok gR ∧
    gradEstFir (Ex.clamped none) Ex.ref (fun m j => Ex.est m (1 - j)) (fun m k j => w m k (1 - j)) = .ok (fun m j => gE m (1 - j)) ∧
    gradRefFir (Ex.clamped none) Ex.ref (fun m j => Ex.est m (1 - j)) (fun m k j => w m k (1 - j)) = .ok gR := by
  obtain ⟨gE, gR, h1, h2, -⟩ := C72_finite (o := Ex.clamped none) (by decide) rfl rfl (Ex.sdrLossPair_cl _) w
  obtain ⟨h3, h4⟩ := C107_sdr_pairwise (o := Ex.clamped none) Ex.ref Ex.est (fun _ => Equiv.refl _) (fun _ => Equiv.subLeft 1) w
  rw [h1] at h3
  rw [h2] at h4
  exact ⟨gE, gR, h1, h2, h3, h4⟩

/-- The same through the permutation: the example has one best pairing. -/
example (cs : Bool) (v : ℝ) : ∃ gE gR, gradEstFirPit (Ex.clamped none) cs Ex.ref Ex.est (fun _ _ => v) = .ok gE ∧
    gradRefFirPit (Ex.clamped none) cs Ex.ref Ex.est (fun _ _ => v) = .ok gR ∧
    gradEstFirPit (Ex.clamped none) cs Ex.ref (fun m j => Ex.est m (1 - j)) (fun _ _ => v) = .ok (fun m j => gE m (1 - j)) ∧
    gradRefFirPit (Ex.clamped none) cs Ex.ref (fun m j => Ex.est m (1 - j)) (fun _ _ => v) = .ok gR := by
  have h := C73_gradient_fir (o := Ex.clamped none) (by norm_num) le_rfl rfl (Ex.sdrLossPair_cl none)
    (fun _ _ _ => fifth_off none (Or.inl rfl) _) (Ex.sdrLossPair_cl none) (fun _ => Ex.unique_loss) cs (fun _ _ => v)
  obtain ⟨-, gE, -, h1, -⟩ := h.1 fun m j => (ex_norm m j).1
  obtain ⟨-, gR, -, h2, -⟩ := h.2 fun m k => (ex_norm m k).2
  refine ⟨_, _, h1, h2, ?_⟩
  exact C107_pit (o := Ex.clamped none) (v := fun _ => v) (fun _ => Equiv.refl _) (fun _ => Equiv.subLeft 1) (Ex.sdrLossPair_cl none)
    (fun _ => Ex.unique_loss) h1 h2

end FBE.Props
