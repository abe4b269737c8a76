import Verif.Proofs.CgComplex
import Verif.Props.C78_ConjugateGradient

/-!
# C104 — `conjugate_gradient` with complex arrays
-/

namespace FBE.Props

open Spec Matrix Filter Topology
open scoped ComplexOrder

variable {J κ : Type} [Fintype J] {T Q : Matrix J J ℂ} {b x0 : κ → J → ℂ}

/-- **C104.**  The torch package cannot iterate with complex tensors; without iterations it returns the start.  The numpy package
never raises. -/
theorem C104_outcome (A M : (J → ℂ) → (J → ℂ)) (n : ℕ) :
    CplxCg.conjugateGradient true A M b x0 0 = .ok x0 ∧
    CplxCg.conjugateGradient true A M b x0 (n + 1) = .error .runtimeError ∧
    ∃ X, CplxCg.conjugateGradient false A M b x0 n = .ok X := by
  refine ⟨?_, ?_, ?_⟩
  · unfold CplxCg.conjugateGradient
    rw [if_neg (by omega)]
    rfl
  · unfold CplxCg.conjugateGradient
    rw [if_pos ⟨rfl, by omega⟩]
  · unfold CplxCg.conjugateGradient
    rw [if_neg (by simp)]
    exact ⟨_, rfl⟩

theorem complex_columns {A M : (J → ℂ) → (J → ℂ)} {n : ℕ} {X} (h : CplxCg.conjugateGradient false A M b x0 n = .ok X) (k : κ) :
    X k = (CplxCg.cgRun A M (b k) (x0 k) n).x := by
  unfold CplxCg.conjugateGradient at h
  rw [if_neg (by simp)] at h
  cases h
  rfl

/-- **C104.**  A Hermitian system is solved like the real system of twice the size for the real and imaginary parts, in every
iteration, also where the safeguards take effect. -/
theorem C104_real_system (hT : T.IsHermitian) (hQ : Q.IsHermitian) {n : ℕ} {X}
    (h : CplxCg.conjugateGradient false (T *ᵥ ·) (Q *ᵥ ·) b x0 n = .ok X) (k : κ) :
    reIm (X k) = conjugateGradient (realMatrix T *ᵥ ·) (realMatrix Q *ᵥ ·) (reIm (b k)) (reIm (x0 k)) n := by
  rw [complex_columns h k]
  have := complex_run hT hQ (b k) (x0 k) n
  dsimp only at this
  unfold conjugateGradient
  rw [this]

/-- **C104.**  Real systems given as complex arrays are solved like those given as real arrays. -/
theorem C104_real_data {A M : Matrix J J ℝ} {c y0 : κ → J → ℝ} {n : ℕ} {X}
    (h : CplxCg.conjugateGradient false (A.map Complex.ofReal *ᵥ ·) (M.map Complex.ofReal *ᵥ ·)
      (fun k i => (c k i : ℂ)) (fun k i => (y0 k i : ℂ)) n = .ok X) (k : κ) (i : J) :
    X k i = (conjugateGradient (A *ᵥ ·) (M *ᵥ ·) (c k) (y0 k) n i : ℂ) := by
  rw [complex_columns h k, real_run]
  rfl

-- a Hermitian matrix with an imaginary entry
def exHerm : Matrix (Fin 2) (Fin 2) ℂ := !![2, Complex.I; -Complex.I, 2]

theorem exHerm_posDef : exHerm.PosDef := by
  have h := (Matrix.PosDef.one (n := Fin 2) (R := ℂ)).add_posSemidef (posSemidef_vecMulVec_self_star ![1, -Complex.I])
  have e : (1 : Matrix (Fin 2) (Fin 2) ℂ) + vecMulVec ![1, -Complex.I] (star ![1, -Complex.I]) = exHerm := by
    ext i j
    rw [Matrix.add_apply, vecMulVec_apply]
    fin_cases i <;> fin_cases j <;> simp [exHerm] <;> norm_num
  rwa [e] at h

example : ∃ X, CplxCg.conjugateGradient false (exHerm *ᵥ ·) ((1 : Matrix (Fin 2) (Fin 2) ℂ) *ᵥ ·)
      (fun _ : Fin 1 => ![1, 0]) (fun _ => 0) 7 = .ok X ∧
    reIm (X 0) = conjugateGradient (realMatrix exHerm *ᵥ ·) (realMatrix (1 : Matrix (Fin 2) (Fin 2) ℂ) *ᵥ ·)
      (reIm ![1, 0]) (reIm 0) 7 := by
  obtain ⟨X, hX⟩ := (C104_outcome (b := fun _ : Fin 1 => ![1, 0]) (x0 := fun _ => 0) (exHerm *ᵥ ·)
    ((1 : Matrix (Fin 2) (Fin 2) ℂ) *ᵥ ·) 7).2.2
  exact ⟨X, hX, C104_real_system exHerm_posDef.isHermitian Matrix.isHermitian_one hX 0⟩

/-- **C104.**  With positive definite matrices of size `n`, the system is solved after `n` iterations, if the safeguards take no
effect. -/
theorem C104_solves (hT : T.PosDef) (hQ : Q.PosDef) {n : ℕ} (hn : Fintype.card J ≤ n)
    (hq : ∀ k, ComplexQuiet (T *ᵥ ·) (Q *ᵥ ·) (b k) (x0 k) n) {X}
    (h : CplxCg.conjugateGradient false (T *ᵥ ·) (Q *ᵥ ·) b x0 n = .ok X) (k : κ) : T *ᵥ X k = b k := by
  have h1 := complex_terminates hT hQ (hq k) hn
  have h2 : (CplxCg.cgRun (T *ᵥ ·) (Q *ᵥ ·) (b k) (x0 k) n).r = _ := CplxCg.cgRun_residual T.mulVecLin (Q *ᵥ ·) (b k) (x0 k) n
  rw [complex_columns h k]
  rw [h1] at h2
  exact (sub_eq_zero.1 h2.symm).symm

theorem exHerm_quiet : ComplexQuiet (exHerm *ᵥ ·) ((1 : Matrix (Fin 2) (Fin 2) ℂ) *ᵥ ·) ![1, 0] 0 2 := by
  have hc : (starRingEnd ℂ) 2 = 2 := map_ofNat _ 2
  have c1 : CplxCg.clampMin 1 1e-6 = 1 := by
    have := clampMin_real 1
    rw [max_eq_left (by norm_num)] at this
    simpa using this
  have c2 : CplxCg.clampMin 2 1e-6 = 2 := by
    have := clampMin_real 2
    rw [max_eq_left (by norm_num)] at this
    simpa using this
  have h0 : CplxCg.cgRun (exHerm *ᵥ ·) ((1 : Matrix (Fin 2) (Fin 2) ℂ) *ᵥ ·) ![1, 0] 0 0 = ⟨0, ![1, 0], ![1, 0], 1⟩ := by
    simp [CplxCg.cgRun, CplxCg.cgInit, CplxCg.innerProd, dotProduct]
  have a0 : exHerm *ᵥ ![1, 0] = ![2, -Complex.I] := by
    ext i
    fin_cases i <;> simp [exHerm]
  have h1 : CplxCg.cgRun (exHerm *ᵥ ·) ((1 : Matrix (Fin 2) (Fin 2) ℂ) *ᵥ ·) ![1, 0] 0 1 =
      ⟨![1 / 2, 0], ![0, Complex.I / 2], ![1 / 4, Complex.I / 2], 1 / 4⟩ := by
    have e1 : (star ![1, 0] : Fin 2 → ℂ) ⬝ᵥ ![2, -Complex.I] = 2 := by simp [dotProduct]
    have e2 : (![1, 0] : Fin 2 → ℂ) - (1 / 2 : ℂ) • ![2, -Complex.I] = ![0, Complex.I / 2] := by
      ext i
      fin_cases i <;> simp <;> ring
    have e3 : (star ![0, Complex.I / 2] : Fin 2 → ℂ) ⬝ᵥ ![0, Complex.I / 2] = 1 / 4 := by
      have := Complex.I_mul_I
      simp [dotProduct, hc]
      linear_combination (-1 / 4) * this
    rw [CplxCg.cgRun_succ, h0, CplxCg.cgBody_eq]
    simp only [a0, e1, c1, c2, e2, Matrix.one_mulVec, e3]
    congr 1
    · ext i
      fin_cases i <;> simp
    · ext i
      fin_cases i <;> simp
  have a1 : exHerm *ᵥ ![1 / 4, Complex.I / 2] = ![0, 3 / 4 * Complex.I] := by
    have := Complex.I_mul_I
    ext i
    fin_cases i
    · simp [exHerm]
      linear_combination (1 / 2) * this
    · simp [exHerm]
      ring
  intro i hi
  right
  interval_cases i
  · rw [h0]
    dsimp only
    rw [a0]
    constructor <;> simp [dotProduct] <;> norm_num
  · rw [h1]
    dsimp only
    rw [a1]
    constructor <;> simp [dotProduct, hc] <;> norm_num

example : ∃ X, CplxCg.conjugateGradient false (exHerm *ᵥ ·) ((1 : Matrix (Fin 2) (Fin 2) ℂ) *ᵥ ·)
    (fun _ : Fin 1 => ![1, 0]) (fun _ => 0) 2 = .ok X ∧ exHerm *ᵥ X 0 = ![1, 0] := by
  obtain ⟨X, hX⟩ := (C104_outcome (b := fun _ : Fin 1 => ![1, 0]) (x0 := fun _ => 0) (exHerm *ᵥ ·)
    ((1 : Matrix (Fin 2) (Fin 2) ℂ) *ᵥ ·) 2).2.2
  exact ⟨X, hX, C104_solves exHerm_posDef Matrix.PosDef.one (by simp) (fun _ => exHerm_quiet) hX 0⟩

/-- **C104.**  Nothing assumed about the safeguards: the iterates tend to the solution, and the error, measured by the matrix,
never grows. -/
theorem C104_converges (hT : T.PosDef) (hQ : Q.PosDef) {y : κ → J → ℂ} (hy : ∀ k, T *ᵥ y k = b k) :
    ∃ S : ℕ → κ → J → ℂ, (∀ n, CplxCg.conjugateGradient false (T *ᵥ ·) (Q *ᵥ ·) b x0 n = .ok (S n)) ∧
      ∀ k, (∀ i, Tendsto (fun n => S n k i) atTop (𝓝 (y k i))) ∧
        ∀ n n', n ≤ n' → (star (y k - S n' k) ⬝ᵥ T *ᵥ (y k - S n' k)).re ≤ (star (y k - S n k) ⬝ᵥ T *ᵥ (y k - S n k)).re := by
  classical
  choose S hS using fun n => (C104_outcome (b := b) (x0 := x0) (T *ᵥ ·) (Q *ᵥ ·) n).2.2
  have hsol : ∀ k, (realMatrix T).mulVecLin (reIm (y k)) = reIm (b k) := fun k => by
    rw [Matrix.mulVecLin_apply, ← reIm_mulVec, hy]
  have hx : ∀ n k, reIm (S n k) = conjugateGradient (realMatrix T).mulVecLin (realMatrix Q).mulVecLin (reIm (b k)) (reIm (x0 k)) n :=
    fun n k => C104_real_system hT.isHermitian hQ.isHermitian (hS n) k
  refine ⟨S, hS, fun k => ⟨fun i => ?_, fun n n' hn => ?_⟩⟩
  · have h1 := tendsto_pi_nhds.1 (C52_error_vanishes (mulVec_spd (realMatrix_posDef hT)) (mulVec_spd (realMatrix_posDef hQ))
      (x0 := reIm (x0 k)) (hsol k))
    have hre : Tendsto (fun n => (S n k i).re) atTop (𝓝 (y k i).re) := by
      refine (h1 (Sum.inl i)).congr fun n => ?_
      exact congrFun (hx n k).symm (Sum.inl i)
    have him : Tendsto (fun n => (S n k i).im) atTop (𝓝 (y k i).im) := by
      refine (h1 (Sum.inr i)).congr fun n => ?_
      exact congrFun (hx n k).symm (Sum.inr i)
    have := (Complex.continuous_ofReal.tendsto _ |>.comp hre).add
      ((Complex.continuous_ofReal.tendsto _ |>.comp him).mul_const Complex.I)
    rw [Complex.re_add_im] at this
    refine this.congr fun n => ?_
    exact Complex.re_add_im _
  · have := C52_error_decreases (mulVec_spd (realMatrix_posDef hT)) (mulVec_spd (realMatrix_posDef hQ))
      (x0 := reIm (x0 k)) (hsol k) hn
    rw [← hx, ← hx] at this
    simp only [← reIm_sub, Matrix.mulVecLin_apply, ← reIm_mulVec, reIm_dot] at this
    exact this

example : ∃ S : ℕ → Fin 1 → Fin 2 → ℂ, (∀ n, CplxCg.conjugateGradient false (exHerm *ᵥ ·)
      ((1 : Matrix (Fin 2) (Fin 2) ℂ) *ᵥ ·) (fun _ => exHerm *ᵥ ![1, Complex.I]) (fun _ => 0) n = .ok (S n)) ∧
    Tendsto (fun n => S n 0 1) atTop (𝓝 Complex.I) := by
  obtain ⟨S, h1, h2⟩ := C104_converges (κ := Fin 1) (b := fun _ => exHerm *ᵥ ![1, Complex.I]) (x0 := fun _ => 0)
    exHerm_posDef (Matrix.PosDef.one) (y := fun _ => ![1, Complex.I]) fun _ => rfl
  exact ⟨S, h1, (h2 0).1 1⟩

end FBE.Props
