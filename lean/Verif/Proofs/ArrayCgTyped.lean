import Verif.Proofs.ArrayCgCall

/-!
# `conjugate_gradient` for arrays that hold given matrices
-/

set_option linter.unusedSectionVars false

namespace FBE

open Classical Tensor Matrix Spec

namespace Arrays

variable {A : Api} {n e : ℕ}

/-! ### arrays with given matrices -/

section typed

variable {s : List ℕ}

/-- The columns after `k` iterations. -/
noncomputable def cgColumns (M Q : BIdx s → Matrix (Fin n) (Fin n) ℝ) (R X : BIdx s → Matrix (Fin n) (Fin e) ℝ) (k : ℕ)
    (m : BIdx s) : Matrix (Fin n) (Fin e) ℝ :=
  fun t j => FBE.conjugateGradient (M m).mulVecLin (Q m).mulVecLin (fun t => R m t j) (fun t => X m t j) k t

variable {M Q : BIdx s → Matrix (Fin n) (Fin n) ℝ} {R X Z : BIdx s → Matrix (Fin n) (Fin e) ℝ} {T Y : Tensor ℝ}
  {U x xTrue : Option (Tensor ℝ)}

theorem holds_matrixAt (hT : Holds2 T M) (m : BIdx s) : matrixAt T n (pos m) = M m := by
  funext p q; exact hT.2 m p q

/-- The preconditioner as it acts on arrays. -/
theorem precond_V (hU : HoldsPrecond U Q) : ∃ Mop : List ℕ → (Fin n → ℝ) → Fin n → ℝ,
    (∀ f : List ℕ → ℕ → Fin n → ℝ, ((U.map (denseOp A)).getD identityOp).mul (V s.reverse e (Equiv.refl _) f) =
      .ok (V s.reverse e (Equiv.refl _) fun i j => Mop i (f i j))) ∧ ∀ m, Mop (pos m) = (Q m).mulVecLin := by
  cases U with
  | none =>
    refine ⟨fun _ v => (1 : Matrix (Fin n) (Fin n) ℝ) *ᵥ v, identityOp_V, fun m => ?_⟩
    rw [show Q m = 1 from hU m]
    rfl
  | some U =>
    refine ⟨fun i v => matrixAt U n i *ᵥ v, fun f => denseOp_isV hU.1 (isV_V f), fun m => ?_⟩
    show (fun v => matrixAt U n (pos m) *ᵥ v) = _
    rw [holds_matrixAt hU m]
    rfl

/-- The argument `x`. -/
theorem start_isV (hx : HoldsStart x X) : ∃ f : List ℕ → ℕ → Fin n → ℝ, (∀ t ∈ x, IsV s.reverse e t f) ∧
    (x = none → f = fun _ _ _ => 0) ∧ ∀ m (j : Fin e), f (pos m) j = fun t => X m t j := by
  cases x with
  | none =>
    refine ⟨fun _ _ _ => 0, fun _ h => (by cases h), fun _ => rfl, fun m j => ?_⟩
    rw [show X m = 0 from hx m]
    rfl
  | some S => exact ⟨fun i j t => S.get (j :: t.val :: i),
      fun S' h => (by cases h; exact ⟨hx.1, fun _ _ _ _ _ => rfl⟩), fun h => (by cases h),
      fun m j => funext fun t => hx.2 m t j⟩

theorem holds_of_isV {S : Tensor ℝ} {f : List ℕ → ℕ → Fin n → ℝ} (h : IsV s.reverse e S f)
    (hX : ∀ m (j : Fin e) (t : Fin n), f (pos m) j t = X m t j) : Holds2 S X :=
  ⟨h.1, fun m t j => (h.2 _ (pos_inRange m) j j.isLt t).trans (hX m j t)⟩

/-- The call with arrays that hold given matrices. -/
theorem cgCall_holds (hT : Holds2 T M) (hU : HoldsPrecond U Q) (hY : Holds2 Y R) (hx : HoldsStart x X)
    (hZ : ∀ S ∈ xTrue, Holds2 S Z) (verbose : Bool) (nIter : Option ℤ) :
    ∃ S, Holds2 S (cgColumns M Q R X (nIter.getD e).toNat) ∧
      cgCall A (denseOp A T) Y x nIter (U.map (denseOp A)) verbose xTrue = .ok ⟨S,
        xTrue.map fun _ => (List.range ((nIter.getD e).toNat + 1)).map fun k => meanDistance (cgColumns M Q R X k) Z,
        if verbose then (List.range (nIter.getD e).toNat).map fun k => batchMean fun m (j : Fin e) =>
          (cgRun (M m).mulVecLin (Q m).mulVecLin (fun t => R m t j) (fun t => X m t j) (k + 1)).rsold else []⟩ := by
  obtain ⟨Mop, hP, hMop⟩ := precond_V (A := A) (e := e) hU
  obtain ⟨f, hf, hf0, hfX⟩ := start_isV hx
  have hAop : ∀ m : BIdx s, (fun v => matrixAt T n (pos m) *ᵥ v) = (M m).mulVecLin := fun m => by
    rw [holds_matrixAt hT m]; rfl
  have hy : ∀ m (j : Fin e), (fun t : Fin n => Y.get (j.val :: t.val :: pos m)) = fun t => R m t j := fun m j =>
    funext fun t => hY.2 m t j
  obtain ⟨X', hX', h⟩ := cgCall_isV (A := A) (F := denseOp A T) (Aop := fun i v => matrixAt T n i *ᵥ v)
    (fun S g hS => denseOp_isV hT.1 hS) hP rfl (by simp [denseOp, hT.1]) (by simp [denseOp, hT.1])
    (y := fun i j t => Y.get (j :: t.val :: i)) ⟨hY.1, fun _ _ _ _ _ => rfl⟩ hf hf0
    (z := fun i j t => xTrue.elim 0 fun S => S.get (j :: t.val :: i))
    (fun S hS => by have hS' : xTrue = some S := hS; subst hS'; exact ⟨(hZ _ rfl).1, fun _ _ _ _ _ => rfl⟩) verbose nIter
  refine ⟨X', holds_of_isV hX' fun m j t => ?_, ?_⟩
  · simp only [hAop, hMop, hy, hfX, cgColumns]
  · rw [h]
    have he : (xTrue.map fun _ => (List.range ((nIter.getD e).toNat + 1)).map (errAfter s e
        (fun i v => matrixAt T n i *ᵥ v) Mop (fun i j t => Y.get (j :: t.val :: i)) f
          fun i j t => xTrue.elim 0 fun S => S.get (j :: t.val :: i))) =
        xTrue.map fun _ => (List.range ((nIter.getD e).toNat + 1)).map fun k => meanDistance (cgColumns M Q R X k) Z := by
      cases xTrue with
      | none => rw [Option.map_none, Option.map_none]
      | some S =>
        refine congrArg some (List.map_congr_left fun k _ => ?_)
        have key : ∀ m (j : Fin e), FBE.conjugateGradient (fun v => matrixAt T n (pos m) *ᵥ v) (Mop (pos m))
            (fun t => Y.get (j.val :: t.val :: pos m)) (f (pos m) j) k = fun t => cgColumns M Q R X k m t j := fun m j => by
          rw [hAop, hMop, hy, hfX]
          rfl
        exact congrArg batchMean (funext fun m => funext fun j =>
          congrArg₂ (fun v w : Fin n → ℝ => Real.sqrt (∑ t, (v t - w t) ^ 2)) (key m j)
            (funext fun t => (hZ S rfl).2 m t j))
    have hp : printAfter s e (fun i v => matrixAt T n i *ᵥ v) Mop (fun i j t => Y.get (j :: t.val :: i)) f =
        fun k => batchMean fun m (j : Fin e) =>
          (cgRun (M m).mulVecLin (Q m).mulVecLin (fun t => R m t j) (fun t => X m t j) (k + 1)).rsold := by
      funext k
      have key : ∀ m (j : Fin e), cgRun (fun v => matrixAt T n (pos m) *ᵥ v) (Mop (pos m))
          (fun t => Y.get (j.val :: t.val :: pos m)) (f (pos m) j) (k + 1) =
          cgRun (M m).mulVecLin (Q m).mulVecLin (fun t => R m t j) (fun t => X m t j) (k + 1) := fun m j => by
        rw [hAop, hMop, hy, hfX]
      exact congrArg batchMean (funext fun m => funext fun j => congrArg CgState.rsold (key m j))
    rw [he, hp]

/-- The call with a vector for every matrix. -/
theorem cgCall_holds_vec {r z : BIdx s → Fin n → ℝ} {X : BIdx s → Matrix (Fin n) (Fin 1) ℝ} (hT : Holds2 T M)
    (hU : HoldsPrecond U Q) (hY : Holds1 Y r) (hx : HoldsStart x X)
    (hZ : ∀ S ∈ xTrue, Holds1 S z) (verbose : Bool) (nIter : Option ℤ) :
    ∃ S, Holds1 S (fun m t => cgColumns M Q (fun m t (_ : Fin 1) => r m t) X (nIter.getD 1).toNat m t 0) ∧
      cgCall A (denseOp A T) Y x nIter (U.map (denseOp A)) verbose xTrue = .ok ⟨S,
        xTrue.map fun _ => (List.range ((nIter.getD 1).toNat + 1)).map fun k =>
          meanDistance (cgColumns M Q (fun m t _ => r m t) X k) fun m t _ => z m t,
        if verbose then (List.range (nIter.getD 1).toNat).map fun k => batchMean fun m (j : Fin 1) =>
          (cgRun (M m).mulVecLin (Q m).mulVecLin (r m) (fun t => X m t j) (k + 1)).rsold else []⟩ := by
  obtain ⟨Mop, hP, hMop⟩ := precond_V (A := A) (e := 1) hU
  obtain ⟨f, hf, hf0, hfX⟩ := start_isV hx
  have hAop : ∀ m : BIdx s, (fun v => matrixAt T n (pos m) *ᵥ v) = (M m).mulVecLin := fun m => by
    rw [holds_matrixAt hT m]; rfl
  have hy : ∀ m, (fun t : Fin n => Y.get (t.val :: pos m)) = r m := fun m => funext fun t => hY.2 m t
  have hf1 : ∀ m, f (pos m) 0 = fun t => X m t 0 := fun m => hfX m 0
  obtain ⟨X', hX1, hX2, h⟩ := cgCall_vec (A := A) (F := denseOp A T) (Aop := fun i v => matrixAt T n i *ᵥ v)
    (fun S g hS => denseOp_isV hT.1 hS) hP rfl (by simp [denseOp, hT.1]) (by simp [denseOp, hT.1])
    hY.1 hf hf0
    (z := fun i t => xTrue.elim 0 fun S => S.get (t.val :: i))
    (fun S hS => by have hS' : xTrue = some S := hS; subst hS'; exact ⟨(hZ _ rfl).1, fun _ _ _ => rfl⟩) verbose nIter
  refine ⟨X', ⟨hX1, fun m t => ?_⟩, ?_⟩
  · rw [hX2 _ (pos_inRange m) t]
    simp only [hAop, hMop, hy, hf1, cgColumns]
  · rw [h]
    have he : (xTrue.map fun _ => (List.range ((nIter.getD 1).toNat + 1)).map (errAfter s 1
        (fun i v => matrixAt T n i *ᵥ v) Mop (fun i _ t => Y.get (t.val :: i)) f
          fun i _ t => xTrue.elim 0 fun S => S.get (t.val :: i))) =
        xTrue.map fun _ => (List.range ((nIter.getD 1).toNat + 1)).map fun k =>
          meanDistance (cgColumns M Q (fun m t (_ : Fin 1) => r m t) X k) fun m t _ => z m t := by
      cases xTrue with
      | none => rw [Option.map_none, Option.map_none]
      | some S =>
        refine congrArg some (List.map_congr_left fun k _ => ?_)
        have key : ∀ m (j : Fin 1), FBE.conjugateGradient (fun v => matrixAt T n (pos m) *ᵥ v) (Mop (pos m))
            (fun t => Y.get (t.val :: pos m)) (f (pos m) j) k =
              fun t => cgColumns M Q (fun m t (_ : Fin 1) => r m t) X k m t j := fun m j => by
          rw [hAop, hMop, hy, hfX]
          rfl
        exact congrArg batchMean (funext fun m => funext fun j =>
          congrArg₂ (fun v w : Fin n → ℝ => Real.sqrt (∑ t, (v t - w t) ^ 2)) (key m j)
            (funext fun t => (hZ S rfl).2 m t))
    have hp : printAfter s 1 (fun i v => matrixAt T n i *ᵥ v) Mop (fun i _ t => Y.get (t.val :: i)) f =
        fun k => batchMean fun m (j : Fin 1) =>
          (cgRun (M m).mulVecLin (Q m).mulVecLin (r m) (fun t => X m t j) (k + 1)).rsold := by
      funext k
      have key : ∀ m (j : Fin 1), cgRun (fun v => matrixAt T n (pos m) *ᵥ v) (Mop (pos m))
          (fun t => Y.get (t.val :: pos m)) (f (pos m) j) (k + 1) =
          cgRun (M m).mulVecLin (Q m).mulVecLin (r m) (fun t => X m t j) (k + 1) := fun m j => by
        rw [hAop, hMop, hy, hfX]
      exact congrArg batchMean (funext fun m => funext fun j => congrArg CgState.rsold (key m j))
    rw [he, hp]

end typed

end Arrays

end FBE
