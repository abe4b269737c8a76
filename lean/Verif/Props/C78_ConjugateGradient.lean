import Verif.Proofs.CgCallOutcome
import Verif.Props.C26_C30_ConjugateGradient
import Verif.Props.C52_Convergence

/-!
# C78 — `conjugate_gradient` called directly

`conjugate_gradient(A, b, x, n_iter, precond, verbose, x_true)` with real arrays: `A` of shape `(..., n, n)`, `b` of
shape `(..., n, e)` (or `(..., n)`), no preconditioner or an array of matrices.
-/

namespace FBE.Props

open Spec Arrays Matrix Filter Topology

variable {s : List ℕ} {n e : ℕ} {A : Api} {M Q : BIdx s → Matrix (Fin n) (Fin n) ℝ}
  {R X Z : BIdx s → Matrix (Fin n) (Fin e) ℝ} {T Y : Tensor ℝ} {U x xTrue : Option (Tensor ℝ)}

namespace Ex78

/-- A batch of two matrices with two rows. -/
def mat : BIdx [2] → Matrix (Fin 2) (Fin 2) ℝ := fun m => if m.1 = 0 then !![1, 0; 0, 2] else !![2, 1; 1, 2]

/-- The array of these matrices. -/
def arr : Tensor ℝ := ⟨[2, 2, 2], fun i => match i with
  | [q, p, b] => if b = 0 then (if p = 0 ∧ q = 0 then 1 else if p = 1 ∧ q = 1 then 2 else 0)
      else if p = q then 2 else 1
  | _ => 0⟩

theorem holds : Holds2 arr mat := by
  refine ⟨rfl, fun m k j => ?_⟩
  obtain ⟨b, u⟩ := m
  fin_cases b <;> fin_cases k <;> fin_cases j <;> simp [arr, mat, pos]

theorem posDef (m : BIdx [2]) : (mat m).PosDef := by
  rw [posDef_iff_dotProduct_mulVec]
  have key : ∀ B : Matrix (Fin 2) (Fin 2) ℝ, B.IsHermitian → (∀ v : Fin 2 → ℝ, v ≠ 0 → 0 < v ⬝ᵥ B *ᵥ v) →
      B.IsHermitian ∧ ∀ ⦃v : Fin 2 → ℝ⦄, v ≠ 0 → 0 < star v ⬝ᵥ B *ᵥ v := fun B h1 h2 =>
    ⟨h1, fun v hv => by simpa using h2 v hv⟩
  have hne : ∀ v : Fin 2 → ℝ, v ≠ 0 → v 0 ≠ 0 ∨ v 1 ≠ 0 := fun v hv => by
    by_contra h
    push Not at h
    exact hv (funext fun i => by fin_cases i <;> simp [h.1, h.2])
  by_cases h : m.1 = 0
  · have : mat m = !![1, 0; 0, 2] := by simp [mat, h]
    rw [this]
    refine key _ (by ext i j; fin_cases i <;> fin_cases j <;> simp) fun v hv => ?_
    simp [dotProduct, Fin.sum_univ_two, mulVec]
    rcases hne v hv with h0 | h0
    · nlinarith [sq_nonneg (v 1), mul_self_pos.2 h0]
    · nlinarith [sq_nonneg (v 0), mul_self_pos.2 h0]
  · have : mat m = !![2, 1; 1, 2] := by simp [mat, h]
    rw [this]
    refine key _ (by ext i j; fin_cases i <;> fin_cases j <;> simp) fun v hv => ?_
    simp [dotProduct, Fin.sum_univ_two, mulVec]
    rcases hne v hv with h0 | h0
    · nlinarith [sq_nonneg (v 0 + v 1), sq_nonneg (v 1), mul_self_pos.2 h0]
    · nlinarith [sq_nonneg (v 0 + v 1), sq_nonneg (v 0), mul_self_pos.2 h0]

end Ex78

/-- C78: if the safeguards stay inactive and there are at least as many iterations as unknowns, the systems are
solved. -/
theorem C78_solves (hT : Holds2 T M) (hM : ∀ m, (M m).PosDef) (hU : HoldsPrecond U Q) (hQ : ∀ m, (Q m).PosDef)
    (hY : Holds2 Y R) (hx : HoldsStart x X) {it : ℕ} (hit : n ≤ it)
    (hq : ∀ m j, CgQuiet (M m).mulVecLin (Q m).mulVecLin (fun t => R m t j) (fun t => X m t j) it) :
    ∃ (out : CgOut) (S : BIdx s → Matrix (Fin n) (Fin e) ℝ), cgCall A (denseOp A T) Y x (some it) (U.map (denseOp A)) false none = .ok out ∧ Holds2 out.x S ∧
      ∀ m, M m * S m = R m := by
  obtain ⟨S, hS, h⟩ := cgCall_holds (A := A) (xTrue := none) (Z := R) hT hU hY hx (fun _ h => by cases h) false (some it)
  refine ⟨_, _, h, hS, fun m => ?_⟩
  ext t j
  have := C27_exact (mulVec_spd (hM m)) (mulVec_spd (hQ m)) (by simpa using hit) (hq m j)
  exact congrFun this t

-- the identity, with all entries of the right-hand side equal to one
example : ∃ (out : CgOut) (S : BIdx [] → Matrix (Fin 2) (Fin 1) ℝ),
    cgCall torchApi (denseOp torchApi ⟨[2, 2], fun i => if i.getD 0 0 = i.getD 1 0 then 1 else 0⟩) ⟨[1, 2], fun _ => 1⟩ none
      (some (2 : ℕ)) none false none = .ok out ∧ Holds2 out.x S ∧
      ∀ m, (1 : Matrix (Fin 2) (Fin 2) ℝ) * S m = fun _ _ => 1 := by
  refine C78_solves (M := fun _ => 1) (Q := fun _ => 1) (U := none) (x := none) (X := fun _ => 0) ?_ (fun _ => PosDef.one) (fun _ => rfl)
    (fun _ => PosDef.one) (R := fun _ _ _ => 1) ⟨rfl, fun _ _ _ => rfl⟩ (fun _ => rfl) le_rfl fun m j i hi => ?_
  · refine ⟨rfl, fun m k j => ?_⟩
    fin_cases k <;> fin_cases j <;> simp [pos]
  · have h0 : cgRun (1 : Matrix (Fin 2) (Fin 2) ℝ).mulVecLin (1 : Matrix (Fin 2) (Fin 2) ℝ).mulVecLin (fun _ => 1)
        (fun t => (0 : Matrix (Fin 2) (Fin 1) ℝ) t j) 0 = ⟨fun _ => 0, fun _ => 1, fun _ => 1, 2⟩ := by
      show FBE.cgInit _ _ _ _ = _
      simp only [FBE.cgInit, mulVecLin_one, LinearMap.id_apply, FBE.innerProd]
      have hz : (fun t => (0 : Matrix (Fin 2) (Fin 1) ℝ) t j) = fun _ => 0 := rfl
      rw [hz]
      have h1 : ((fun _ => 1 : Fin 2 → ℝ) - fun _ => 0) = fun _ => 1 := by funext t; simp
      rw [h1]
      simp
    interval_cases i
    · right
      rw [h0]
      simp [dotProduct]
      norm_num
    · left
      rw [cgRun_succ, h0, cgBody_eq]
      funext t
      simp [dotProduct]
      norm_num

/-- C78: for symmetric positive definite matrices the solution is approached, and the error, measured by the
matrix, never grows.  Nothing is assumed about the safeguards. -/
theorem C78_converges (hT : Holds2 T M) (hM : ∀ m, (M m).PosDef) (hU : HoldsPrecond U Q) (hQ : ∀ m, (Q m).PosDef)
    (hY : Holds2 Y R) (hx : HoldsStart x X) :
    ∃ S : ℕ → BIdx s → Matrix (Fin n) (Fin e) ℝ,
      (∀ it : ℕ, ∃ out, cgCall A (denseOp A T) Y x (some it) (U.map (denseOp A)) false none = .ok out ∧
        Holds2 out.x (S it)) ∧
      ∀ m j, (∀ t, Tendsto (fun it => S it m t j) atTop (𝓝 (((M m)⁻¹ * R m) t j))) ∧
        ∀ it it', it ≤ it' →
          (((M m)⁻¹ * R m - S it' m)ᵀ * M m * ((M m)⁻¹ * R m - S it' m)) j j ≤
            (((M m)⁻¹ * R m - S it m)ᵀ * M m * ((M m)⁻¹ * R m - S it m)) j j := by
  refine ⟨fun it => cgColumns M Q R X it, fun it => ?_, fun m j => ?_⟩
  · obtain ⟨S, hS, h⟩ := cgCall_holds (A := A) (xTrue := none) (Z := R) hT hU hY hx (fun _ h => by cases h) false (some it)
    exact ⟨_, h, hS⟩
  have hsol : (M m).mulVecLin (fun t => ((M m)⁻¹ * R m) t j) = fun t => R m t j := by
    have h1 : M m * ((M m)⁻¹ * R m) = R m := by
      rw [← Matrix.mul_assoc, Matrix.mul_nonsing_inv _ ((Matrix.isUnit_iff_isUnit_det _).1 (hM m).isUnit), Matrix.one_mul]
    funext t
    exact congrFun (congrFun h1 t) j
  refine ⟨fun t => ?_, fun it it' h => ?_⟩
  · exact tendsto_pi_nhds.1 (C52_error_vanishes (mulVec_spd (hM m)) (mulVec_spd (hQ m)) (x0 := fun t => X m t j) hsol) t
  · have key : ∀ E : Matrix (Fin n) (Fin e) ℝ, (Eᵀ * M m * E) j j = (fun t => E t j) ⬝ᵥ (M m).mulVecLin (fun t => E t j) :=
      fun E => by
        rw [Matrix.mul_assoc]; rfl
    rw [key, key]
    exact C52_error_decreases (mulVec_spd (hM m)) (mulVec_spd (hQ m)) (x0 := fun t => X m t j) hsol h

-- two systems with three right-hand sides each, without preconditioner, from zero
example (R : BIdx [2] → Matrix (Fin 2) (Fin 3) ℝ) (Y : Tensor ℝ) (hY : Holds2 Y R) :
    ∃ S : ℕ → BIdx [2] → Matrix (Fin 2) (Fin 3) ℝ,
      (∀ it : ℕ, ∃ out, cgCall torchApi (denseOp torchApi Ex78.arr) Y none (some it) none false none = .ok out ∧
        Holds2 out.x (S it)) ∧
      ∀ m j, (∀ t, Tendsto (fun it => S it m t j) atTop (𝓝 (((Ex78.mat m)⁻¹ * R m) t j))) ∧
        ∀ it it', it ≤ it' →
          (((Ex78.mat m)⁻¹ * R m - S it' m)ᵀ * Ex78.mat m * ((Ex78.mat m)⁻¹ * R m - S it' m)) j j ≤
            (((Ex78.mat m)⁻¹ * R m - S it m)ᵀ * Ex78.mat m * ((Ex78.mat m)⁻¹ * R m - S it m)) j j :=
  C78_converges (U := none) (Q := fun _ => 1) (X := fun _ => 0) Ex78.holds Ex78.posDef (fun _ => rfl)
    (fun _ => PosDef.one) hY fun _ => rfl

/-- C78: every right-hand side of every item of the batch is treated as if it were given alone, as a vector. -/
theorem C78_alone (hT : Holds2 T M) (hU : HoldsPrecond U Q) (hY : Holds2 Y R) (hx : HoldsStart x X) (m : BIdx s) (j : Fin e)
    {T' Y' : Tensor ℝ} {U' x' : Option (Tensor ℝ)} (hT' : Holds2 (s := []) T' fun _ => M m)
    (hU' : HoldsPrecond (s := []) U' fun _ => Q m) (hY' : Holds1 (s := []) Y' fun _ t => R m t j)
    (hx' : HoldsStart (s := []) (e := 1) x' fun _ t _ => X m t j) (it : ℤ) :
    ∃ (out out' : CgOut) (S : BIdx s → Matrix (Fin n) (Fin e) ℝ), cgCall A (denseOp A T) Y x (some it) (U.map (denseOp A)) false none = .ok out ∧
      cgCall A (denseOp A T') Y' x' (some it) (U'.map (denseOp A)) false none = .ok out' ∧
      Holds2 out.x S ∧ Holds1 (s := []) out'.x fun _ t => S m t j := by
  obtain ⟨S, hS, h⟩ := cgCall_holds (A := A) (xTrue := none) (Z := R) hT hU hY hx (fun _ h => by cases h) false (some it)
  obtain ⟨S', hS', h'⟩ := cgCall_holds_vec (A := A) (xTrue := none) (z := fun _ _ => 0) hT' hU' hY' hx'
    (fun _ h => by cases h) false (some it)
  exact ⟨_, _, _, h, h', hS, hS'⟩

-- the second right-hand side of the second system, two iterations
example (y : List ℕ → ℝ) : ∃ (out out' : CgOut) (S : BIdx [2] → Matrix (Fin 2) (Fin 3) ℝ),
    cgCall torchApi (denseOp torchApi Ex78.arr) ⟨[3, 2, 2], y⟩ none (some 2) none false none = .ok out ∧
    cgCall torchApi (denseOp torchApi ⟨[2, 2], fun i => Ex78.arr.get (i ++ [1])⟩) ⟨[2], fun i => y (1 :: (i ++ [1]))⟩ none
      (some 2) none false none = .ok out' ∧
    Holds2 out.x S ∧ Holds1 (s := []) out'.x fun _ t => S (1, ()) t 1 :=
  C78_alone (U := none) (U' := none) (x := none) (x' := none) (R := fun m t j => y (j.val :: t.val :: pos m)) (X := fun _ => 0) Ex78.holds
    (Q := fun _ => 1) (fun _ => rfl) ⟨rfl, fun _ _ _ => rfl⟩ (fun _ => rfl) (1, ()) 1
    ⟨rfl, fun _ k j => Ex78.holds.2 (1, ()) k j⟩ (fun _ => rfl) ⟨rfl, fun _ _ => rfl⟩ (fun _ => rfl) 2

/-- C78: without `n_iter` there are as many iterations as right-hand sides (not unknowns): one for vectors. -/
theorem C78_default {F : Op} {b : List ℕ} (P : Option Op) (verbose : Bool) :
    (∀ Y : Tensor ℝ, Y.shape = e :: n :: b → F.shape.length = b.length + 2 →
      cgCall A F Y x none P verbose xTrue = cgCall A F Y x (some e) P verbose xTrue) ∧
    ∀ Y : Tensor ℝ, Y.shape = n :: b → F.shape.length = b.length + 2 →
      cgCall A F Y x none P verbose xTrue = cgCall A F Y x (some 1) P verbose xTrue := by
  refine ⟨fun Y hY hF => ?_, fun Y hY hF => ?_⟩
  · have h1 : ¬ (F.shape.length = Y.shape.length + 1) := by rw [hY, hF]; simp
    simp only [cgCall, h1, decide_false, Bool.false_eq_true, if_false]
    rw [Tensor.size_one hY, ok_bind, ok_bind]
    rfl
  · have h1 : F.shape.length = Y.shape.length + 1 := by rw [hY, hF]; simp
    have h2 : (Y.unsqueeze 0).shape = 1 :: n :: b := by rw [Tensor.unsqueeze_0, Tensor.tab_shape, hY]
    simp only [cgCall, h1, decide_true, if_true]
    rw [Tensor.size_one h2, ok_bind, ok_bind]
    rfl

-- two systems of two equations, three right-hand sides: three iterations; one right-hand side: one iteration
example (y : List ℕ → ℝ) : cgCall torchApi (denseOp torchApi Ex78.arr) ⟨[3, 2, 2], y⟩ none none none false none =
    cgCall torchApi (denseOp torchApi Ex78.arr) ⟨[3, 2, 2], y⟩ none (some 3) none false none :=
  (C78_default (n := 2) (b := [2]) none false).1 _ rfl rfl

/-- C78: `verbose` and `x_true` have no influence on the solution.  For all operators and arguments. -/
theorem C78_extra_outputs {F : Op} {nIter : Option ℤ} {P : Option Op} {verbose : Bool} {out : CgOut}
    (h : cgCall A F Y x nIter P verbose xTrue = .ok out) :
    cgCall A F Y x nIter P false none = .ok ⟨out.x, none, []⟩ ∧
      ∀ Q, P = some Q → Arrays.conjugateGradient A F Q Y x nIter = .ok out.x :=
  ⟨cgCall_plain h, fun _ hQ => conjugateGradient_of_call (hQ ▸ h)⟩

/-- C78: with `x_true` the mean distance to it is reported for the starting point and after every iteration: the
entries of `errors` are those of the solutions found with fewer iterations. -/
theorem C78_errors (hT : Holds2 T M) (hU : HoldsPrecond U Q) (hY : Holds2 Y R) (hx : HoldsStart x X) {W : Tensor ℝ}
    (hW : Holds2 W Z) (it : ℕ) (verbose : Bool) :
    ∃ out errors, cgCall A (denseOp A T) Y x (some it) (U.map (denseOp A)) verbose (some W) = .ok out ∧
      out.errors = some errors ∧ errors.length = it + 1 ∧
      ∀ k ≤ it, ∃ (out' : CgOut) (S : BIdx s → Matrix (Fin n) (Fin e) ℝ), cgCall A (denseOp A T) Y x (some k) (U.map (denseOp A)) false none = .ok out' ∧
        Holds2 out'.x S ∧ errors[k]? = some (meanDistance S Z) := by
  obtain ⟨S, hS, h⟩ := cgCall_holds (A := A) (xTrue := some W) (Z := Z) hT hU hY hx (fun _ h => by cases h; exact hW)
    verbose (some it)
  refine ⟨_, _, h, rfl, by simp, fun k hk => ?_⟩
  obtain ⟨S', hS', h'⟩ := cgCall_holds (A := A) (xTrue := none) (Z := R) hT hU hY hx (fun _ h => by cases h) false (some k)
  refine ⟨_, _, h', hS', ?_⟩
  simp only [Option.getD_some, Int.toNat_natCast]
  rw [List.getElem?_map, List.getElem?_range (by omega)]
  rfl

-- four iterations: five numbers
example (y w : List ℕ → ℝ) : ∃ out errors, cgCall torchApi (denseOp torchApi Ex78.arr) ⟨[3, 2, 2], y⟩ none (some (4 : ℕ)) none
    true (some ⟨[3, 2, 2], w⟩) = .ok out ∧ out.errors = some errors ∧ errors.length = 4 + 1 := by
  obtain ⟨out, errors, h1, h2, h3, -⟩ := C78_errors (A := torchApi) (U := none) (x := none) (X := fun _ => 0)
    (R := fun m t j => y (j.val :: t.val :: pos m)) (Y := ⟨[3, 2, 2], y⟩) (W := ⟨[3, 2, 2], w⟩)
    (Z := fun m t j => w (j.val :: t.val :: pos m)) Ex78.holds (Q := fun _ => 1) (fun _ => rfl)
    ⟨rfl, fun _ _ _ => rfl⟩ (fun _ => rfl) ⟨rfl, fun _ _ _ => rfl⟩ 4 true
  exact ⟨out, errors, h1, h2, h3⟩

/-- C78, the same for vectors. -/
theorem C78_errors_vector {r z : BIdx s → Fin n → ℝ} {X : BIdx s → Matrix (Fin n) (Fin 1) ℝ} (hT : Holds2 T M)
    (hU : HoldsPrecond U Q) (hY : Holds1 Y r) (hx : HoldsStart x X) {W : Tensor ℝ} (hW : Holds1 W z) (it : ℕ)
    (verbose : Bool) :
    ∃ out errors, cgCall A (denseOp A T) Y x (some it) (U.map (denseOp A)) verbose (some W) = .ok out ∧
      out.errors = some errors ∧ errors.length = it + 1 ∧
      ∀ k ≤ it, ∃ (out' : CgOut) (v : BIdx s → Fin n → ℝ), cgCall A (denseOp A T) Y x (some k) (U.map (denseOp A)) false none = .ok out' ∧
        Holds1 out'.x v ∧
        errors[k]? = some (meanDistance (e := 1) (fun m t _ => v m t) fun m t _ => z m t) := by
  obtain ⟨S, hS, h⟩ := cgCall_holds_vec (A := A) (xTrue := some W) (z := z) hT hU hY hx (fun _ h => by cases h; exact hW)
    verbose (some it)
  refine ⟨_, _, h, rfl, by simp, fun k hk => ?_⟩
  obtain ⟨S', hS', h'⟩ := cgCall_holds_vec (A := A) (xTrue := none) (z := r) hT hU hY hx (fun _ h => by cases h) false
    (some k)
  refine ⟨_, _, h', hS', ?_⟩
  simp only [Option.getD_some, Int.toNat_natCast]
  rw [List.getElem?_map, List.getElem?_range (by omega), Option.map_some]
  refine congrArg some (congrArg (meanDistance · _) ?_)
  funext m t j
  rw [Subsingleton.elim j 0]

-- vectors, three iterations
example (y w : List ℕ → ℝ) : ∃ out errors, cgCall torchApi (denseOp torchApi Ex78.arr) ⟨[2, 2], y⟩ none (some (3 : ℕ)) none
    false (some ⟨[2, 2], w⟩) = .ok out ∧ out.errors = some errors ∧ errors.length = 3 + 1 := by
  obtain ⟨out, errors, h1, h2, h3, -⟩ := C78_errors_vector (A := torchApi) (U := none) (x := none) (X := fun _ => 0)
    (r := fun m t => y (t.val :: pos m)) (Y := ⟨[2, 2], y⟩) (W := ⟨[2, 2], w⟩)
    (z := fun m t => w (t.val :: pos m)) Ex78.holds (Q := fun _ => 1) (fun _ => rfl)
    ⟨rfl, fun _ _ => rfl⟩ (fun _ => rfl) ⟨rfl, fun _ _ => rfl⟩ 3 false
  exact ⟨out, errors, h1, h2, h3⟩

/-- C78: `verbose` prints one number in each iteration: the mean of `rᵀ P r`, `r` the residual of the solution found
so far and `P` the preconditioner. -/
theorem C78_printed (hT : Holds2 T M) (hU : HoldsPrecond U Q) (hY : Holds2 Y R) (hx : HoldsStart x X)
    (hW : ∀ W ∈ xTrue, Holds2 W Z) (it : ℕ) :
    ∃ out, cgCall A (denseOp A T) Y x (some it) (U.map (denseOp A)) true xTrue = .ok out ∧ out.printed.length = it ∧
      ∀ k < it, ∃ (out' : CgOut) (S : BIdx s → Matrix (Fin n) (Fin e) ℝ), cgCall A (denseOp A T) Y x (some (k + 1 : ℕ)) (U.map (denseOp A)) false none = .ok out' ∧
        Holds2 out'.x S ∧
        out.printed[k]? = some (batchMean fun m j => ((R m - M m * S m)ᵀ * Q m * (R m - M m * S m)) j j) := by
  obtain ⟨S, hS, h⟩ := cgCall_holds (A := A) hT hU hY hx hW true (some it)
  refine ⟨_, h, by simp, fun k hk => ?_⟩
  obtain ⟨S', hS', h'⟩ := cgCall_holds (A := A) (xTrue := none) (Z := R) hT hU hY hx (fun _ h => by cases h) false
    (some (k + 1 : ℕ))
  refine ⟨_, _, h', hS', ?_⟩
  simp only [Option.getD_some, Int.toNat_natCast, if_true]
  rw [List.getElem?_map, List.getElem?_range hk, Option.map_some]
  refine congrArg some (congrArg batchMean (funext fun m => funext fun j => ?_))
  rw [cgRun_rsold, C26_residual, Matrix.mul_assoc]
  rfl

-- three iterations, preconditioned by the matrices themselves
example (y : List ℕ → ℝ) : ∃ out, cgCall torchApi (denseOp torchApi Ex78.arr) ⟨[3, 2, 2], y⟩ none (some (3 : ℕ))
    (some (denseOp torchApi Ex78.arr)) true none = .ok out ∧ out.printed.length = 3 := by
  obtain ⟨out, h1, h2, -⟩ := C78_printed (A := torchApi) (U := some Ex78.arr) (x := none) (X := fun _ => 0) (xTrue := none)
    (R := fun m t j => y (j.val :: t.val :: pos m)) (Y := ⟨[3, 2, 2], y⟩) (Z := fun _ => 0) Ex78.holds Ex78.holds
    ⟨rfl, fun _ _ _ => rfl⟩ (fun _ => rfl) (fun _ h => nomatch h) 3
  exact ⟨out, h1, h2⟩

/-- C78: started at a solution, the function returns it, whatever the number of iterations. -/
theorem C78_start_at_solution (hT : Holds2 T M) (hU : HoldsPrecond U Q) (hY : Holds2 Y R) {W : Tensor ℝ}
    (hx : Holds2 W X) (hsol : ∀ m, M m * X m = R m) (nIter : Option ℤ) :
    ∃ out, cgCall A (denseOp A T) Y (some W) nIter (U.map (denseOp A)) false none = .ok out ∧ Holds2 out.x X := by
  obtain ⟨S, hS, h⟩ := cgCall_holds (A := A) (x := some W) (xTrue := none) (Z := R) hT hU hY hx (fun _ h => by cases h)
    false nIter
  refine ⟨_, h, ?_⟩
  have : cgColumns M Q R X (nIter.getD e).toNat = X := by
    funext m t j
    have hA : (M m).mulVecLin (fun t => X m t j) = fun t => R m t j := by
      funext t; exact congrFun (congrFun (hsol m) t) j
    unfold cgColumns FBE.conjugateGradient
    rw [cgRun_solution _ _ (map_zero _) (map_zero _) hA]
  rw [this] at hS
  exact hS

-- any matrices of columns, for the right-hand sides they belong to
example (X : BIdx [2] → Matrix (Fin 2) (Fin 3) ℝ) (Y W : Tensor ℝ) (hW : Holds2 W X) (hY : Holds2 Y fun m => Ex78.mat m * X m) :
    ∃ out, cgCall torchApi (denseOp torchApi Ex78.arr) Y (some W) none none false none = .ok out ∧ Holds2 out.x X :=
  C78_start_at_solution (U := none) (Q := fun _ => 1) Ex78.holds (fun _ => rfl) hY hW (fun _ => rfl) none

/-- C78: a starting point means the same as its residual as the right-hand side. -/
theorem C78_start_shift (hT : Holds2 T M) (hU : HoldsPrecond U Q) (hY : Holds2 Y R) {W Y' : Tensor ℝ}
    (hx : Holds2 W X) (hY' : Holds2 Y' fun m => R m - M m * X m) (nIter : Option ℤ) :
    ∃ (out out' : CgOut) (S : BIdx s → Matrix (Fin n) (Fin e) ℝ), cgCall A (denseOp A T) Y (some W) nIter (U.map (denseOp A)) false none = .ok out ∧
      cgCall A (denseOp A T) Y' none nIter (U.map (denseOp A)) false none = .ok out' ∧
      Holds2 out'.x S ∧ Holds2 out.x fun m => X m + S m := by
  obtain ⟨S, hS, h⟩ := cgCall_holds (A := A) (x := some W) (xTrue := none) (Z := R) hT hU hY hx (fun _ h => by cases h)
    false nIter
  obtain ⟨S', hS', h'⟩ := cgCall_holds (A := A) (x := none) (X := fun _ => (0 : Matrix (Fin n) (Fin e) ℝ)) (xTrue := none)
    (Z := R) hT hU hY' (fun _ => rfl) (fun _ h => by cases h) false nIter
  refine ⟨_, _, _, h, h', hS', ?_⟩
  have : cgColumns M Q R X (nIter.getD e).toNat = fun m => X m +
      cgColumns M Q (fun m => R m - M m * X m) (fun _ => 0) (nIter.getD e).toNat m := by
    funext m t j
    show FBE.conjugateGradient _ _ _ _ _ t = X m t j + FBE.conjugateGradient _ _ _ _ _ t
    unfold FBE.conjugateGradient
    rw [cgRun_shift]
    rfl
  rw [this] at hS
  exact hS

/-- C78: arguments that do not fit raise an `AssertionError`: another number of axes, or of rows. -/
theorem C78_assertion {F : Op} (nIter : Option ℤ) (P : Option Op) (verbose : Bool) :
    (Y.shape.length ≠ F.shape.length → Y.shape.length + 1 ≠ F.shape.length →
      cgCall A F Y x nIter P verbose xTrue = .error .assertionError) ∧
    (∀ e k b, Y.shape = e :: k :: b → F.shape.length = b.length + 2 → F.shape.head? ≠ some k →
      cgCall A F Y x nIter P verbose xTrue = .error .assertionError) ∧
    ∀ k b, Y.shape = k :: b → F.shape.length = b.length + 2 → F.shape.head? ≠ some k →
      cgCall A F Y x nIter P verbose xTrue = .error .assertionError := by
  have hd : ∀ (l : List ℕ) (k m : ℕ), l.length = m + 2 → l.head? ≠ some k → l.getD 0 0 ≠ k := fun l k m hl h => by
    cases l with
    | nil => simp at hl
    | cons a l => simpa using h
  refine ⟨fun h1 h2 => ?_, fun e k b hY hF h => ?_, fun k b hY hF h => ?_⟩
  · have h3 : ¬ (F.shape.length = Y.shape.length + 1) := fun h => h2 h.symm
    simp only [cgCall, h3, decide_false, Bool.false_eq_true, if_false]
    rw [if_pos (Ne.symm h1)]
  · have h1 : ¬ (F.shape.length = Y.shape.length + 1) := by rw [hY, hF]; simp
    simp only [cgCall, h1, decide_false, Bool.false_eq_true, if_false]
    rw [if_neg (not_not.2 (by rw [hY, hF]; simp)), Tensor.size_two hY, ok_bind, if_pos (hd _ _ _ hF h)]
  · have h1 : F.shape.length = Y.shape.length + 1 := by rw [hY, hF]; simp
    have h2 : (Y.unsqueeze 0).shape = 1 :: k :: b := by rw [Tensor.unsqueeze_0, Tensor.tab_shape, hY]
    simp only [cgCall, h1, decide_true, if_true]
    rw [← h1, if_neg (not_not.2 (by rw [h2, hF]; simp)), Tensor.size_two h2, ok_bind, if_pos (hd _ _ _ hF h)]

-- three rows against two
example (y : List ℕ → ℝ) : cgCall torchApi (denseOp torchApi Ex78.arr) ⟨[3, 3, 2], y⟩ none none none false none =
    .error .assertionError :=
  (C78_assertion none none false).2.1 3 3 [2] rfl rfl (by simp [denseOp, Ex78.arr])

/-- C78: for a right-hand side given as a vector, a starting point given as a vector is misread (it has to have the
axis that the function adds to the right-hand side).  Here it is the solution, and is left for something that is
not. -/
theorem C78_vector_start (it : ℕ) (hit : 1 ≤ it) : ∃ T Y W : Tensor ℝ,
    Holds2 (s := []) T (fun _ => !![1, 0; 0, 2]) ∧ Holds1 (s := []) Y (fun _ => ![1, 2]) ∧
    Holds1 (s := []) W (fun _ => ![1, 1]) ∧ !![(1 : ℝ), 0; 0, 2] *ᵥ ![1, 1] = ![1, 2] ∧
    ∃ out, cgCall A (denseOp A T) Y (some W) (some it) none false none = .ok out ∧
      Holds1 (s := []) out.x fun _ => ![1, 3 / 2] := by
  let T : Tensor ℝ := ⟨[2, 2], fun i => if i = [0, 0] then 1 else if i = [1, 1] then 2 else 0⟩
  let Y : Tensor ℝ := ⟨[2], fun i => if i = [0] then 1 else 2⟩
  let W : Tensor ℝ := ⟨[2], fun _ => 1⟩
  have hTM : ∀ p q : Fin 2, T.get [q.val, p.val] = !![(1 : ℝ), 0; 0, 2] p q := fun p q => by
    fin_cases p <;> fin_cases q <;> simp [T]
  have hYy : ∀ t : Fin 2, Y.get [t.val] = ![(1 : ℝ), 2] t := fun t => by fin_cases t <;> simp [Y]
  have hWv : ∀ t : Fin 2, W.get [t.val] = ![(1 : ℝ), 1] t := fun t => by fin_cases t <;> simp [W]
  refine ⟨T, Y, W, ⟨rfl, fun _ p q => hTM p q⟩, ⟨rfl, fun _ t => hYy t⟩, ⟨rfl, fun _ t => hWv t⟩, ?_, ?_⟩
  · funext i; fin_cases i <;> simp [mulVec, dotProduct, Fin.sum_univ_two]
  obtain ⟨k, rfl⟩ : ∃ k, it = k + 1 := ⟨it - 1, by omega⟩
  obtain ⟨S, h, hS, hSt⟩ := cgCall_guess (A := A) (T := T) (Y := Y) (x := W) (n := 2) Nat.two_pos rfl hTM rfl hYy rfl hWv k
  refine ⟨_, h, hS, fun _ t => (hSt t).trans ?_⟩
  have key : ∀ k, (List.range (k + 1)).foldl (FBE.cgBody (!![(1 : ℝ), 0; 0, 2]).mulVecLin id ![1, 2])
      (guessState !![(1 : ℝ), 0; 0, 2] ![1, 2] ![1, 1] ⟨0, Nat.two_pos⟩) = ⟨![1, 3 / 2], 0, 0, 0⟩ := by
    intro k
    induction k with
    | zero =>
      have hr : (fun t : Fin 2 => (![1, 2] : Fin 2 → ℝ) t - (!![(1 : ℝ), 0; 0, 2] *ᵥ ![1, 1]) ⟨0, Nat.two_pos⟩) = ![0, 1] := by
        funext t
        fin_cases t <;> norm_num [mulVec, dotProduct, Fin.sum_univ_two]
      have hp : (!![(1 : ℝ), 0; 0, 2]).mulVecLin ![0, 1] = ![0, 2] := by
        funext t; fin_cases t <;> simp [mulVec, dotProduct, Fin.sum_univ_two]
      simp only [zero_add, List.range_one, List.foldl_cons, List.foldl_nil]
      rw [cgBody_eq, guessState, hr]
      simp only [hp]
      have h1 : (![0, 1] : Fin 2 → ℝ) ⬝ᵥ ![0, 2] = 2 := by simp [dotProduct, Fin.sum_univ_two]
      have h2 : (![0, 1] : Fin 2 → ℝ) ⬝ᵥ ![0, 1] = 1 := by simp [dotProduct, Fin.sum_univ_two]
      have h3 : max (2 : ℝ) 1e-6 = 2 := max_eq_left (by norm_num)
      rw [h1, h2, h3]
      have h4 : (![0, 1] : Fin 2 → ℝ) - (1 / 2 : ℝ) • ![0, 2] = 0 := by
        funext t; fin_cases t <;> norm_num
      rw [h4]
      have h5 : (fun _ => (![1, 1] : Fin 2 → ℝ) ⟨0, Nat.two_pos⟩) + (1 / 2 : ℝ) • (![0, 1] : Fin 2 → ℝ) = ![1, 3 / 2] := by
        funext t; fin_cases t <;> norm_num
      rw [h5]
      simp
    | succ k ih =>
      rw [List.range_succ, List.foldl_append, ih]
      simp only [List.foldl_cons, List.foldl_nil]
      rw [cgBody_eq]
      simp
  rw [key]

end FBE.Props
