import Verif.Spec.Tags

/-!
# Data types and devices: the functions one after the other
-/

namespace FBE.Tags

open Spec

variable {D d d' : Device} {T t : DType} {b zm pw ld : Bool} {n : ℕ} {o : Opt}

/-! ### torch -/

theorem ok_bind' {α β : Type} (a : α) (f : α → Except PyErr β) : (Except.ok a >>= f) = f a := rfl

theorem pure_ok {α : Type} (a : α) : (pure a : Except PyErr α) = .ok a := rfl

theorem error_bind' {α β : Type} (e : PyErr) (f : α → Except PyErr β) :
    ((Except.error e : Except PyErr α) >>= f) = .error e := rfl

theorem t_binop (ht : t = .f32 ∨ t = .f64) : binop (.torch D T) ⟨d, t⟩ ⟨d, t⟩ = .ok ⟨d, t⟩ := by
  rcases ht with rfl | rfl <;> simp [binop, promote]

theorem t_scal (ht : t = .f32 ∨ t = .f64) : scal (.torch D T) ⟨d, t⟩ = ⟨d, t⟩ := by
  rcases ht with rfl | rfl <;> simp [scal]

theorem t_einsum : einsum (.torch D T) ⟨d, t⟩ ⟨d, t⟩ = .ok ⟨d, t⟩ := by simp [einsum]

theorem t_solve : solve (.torch D T) ⟨d, t⟩ ⟨d, t⟩ = .ok ⟨d, t⟩ := by simp [solve]

theorem t_prepare (ht : t = .f32 ∨ t = .f64) : prepare (.torch D T) zm ⟨d, t⟩ = .ok ⟨d, t⟩ := by
  rcases ht with rfl | rfl <;> cases zm <;>
    simp [prepare, removeMean, normalize, mean, norm, realOf, binop, promote, scal, bind, Except.bind, pure,
      Except.pure]

theorem t_prepare_int : prepare (.torch D T) zm ⟨d, .int⟩ = .error .runtimeError := by
  cases zm <;> simp [prepare, removeMean, normalize, mean, norm, bind, Except.bind, pure, Except.pure]

theorem t_cohToNegSdr (ht : t = .f32 ∨ t = .f64) : cohToNegSdr (.torch D T) ⟨d, t⟩ = .ok ⟨d, t⟩ := by
  rcases ht with rfl | rfl <;> simp [cohToNegSdr, binop, promote, scal, bind, Except.bind, pure, Except.pure]

theorem t_computeStats (ht : t = .f32 ∨ t = .f64) :
    computeStats (.torch D T) pw ⟨d, t⟩ ⟨d, t⟩ = .ok (⟨d, t⟩, ⟨d, t⟩) := by
  rcases ht with rfl | rfl <;> cases pw <;>
    simp [computeStats, rfft, irfft, realOf, einsum, binop, promote, bind, Except.bind, pure, Except.pure]

theorem t_computeStats2 (ht : t = .f32 ∨ t = .f64) :
    computeStats2 (.torch D T) ⟨d, t⟩ ⟨d, t⟩ = .ok (⟨d, t⟩, ⟨d, t⟩) := by
  rcases ht with rfl | rfl <;>
    simp [computeStats2, rfft, irfft, realOf, einsum, binop, promote, bind, Except.bind, pure, Except.pure]

theorem t_circInit (ht : t = .f32 ∨ t = .f64) (hT : Fits T t) :
    ∃ c, circInit (.torch D T) ⟨d, t⟩ = .ok c ∧ fftMatmul (.torch D T) c ⟨d, t⟩ = .ok ⟨d, t⟩ := by
  obtain ⟨h1, h2⟩ := hT
  rcases ht with rfl | rfl
  · cases h2 rfl
    refine ⟨⟨d, .c64⟩, ?_, ?_⟩ <;>
      simp [circInit, symPrecond, fractions, rfftCg, irfftCg, fftMatmul, rfft, irfft, realOf, binop, promote, scal, bind,
        Except.bind]
  · refine ⟨⟨d, .c128⟩, ?_, ?_⟩ <;> rcases h1 with rfl | rfl <;>
      simp [circInit, symPrecond, fractions, rfftCg, irfftCg, fftMatmul, rfft, irfft, realOf, binop, promote, scal, bind,
        Except.bind]

theorem t_symToepInit (ht : t = .f32 ∨ t = .f64) :
    ∃ c, symToepInit (.torch D T) ⟨d, t⟩ = .ok c ∧ fftMatmul (.torch D T) c ⟨d, t⟩ = .ok ⟨d, t⟩ ∧
      fftBlockMatmul (.torch D T) c ⟨d, t⟩ = .ok ⟨d, t⟩ := by
  rcases ht with rfl | rfl
  · refine ⟨⟨d, .c64⟩, ?_, ?_, ?_⟩ <;>
      simp [symToepInit, rfftCg, irfftCg, fftMatmul, fftBlockMatmul, einsum, rfft, irfft, realOf, binop, promote, bind,
        Except.bind]
  · refine ⟨⟨d, .c128⟩, ?_, ?_, ?_⟩ <;>
      simp [symToepInit, rfftCg, irfftCg, fftMatmul, fftBlockMatmul, einsum, rfft, irfft, realOf, binop, promote, bind,
        Except.bind]

theorem t_blockCircInit (ht : t = .f32 ∨ t = .f64) (hT : Fits T t) :
    ∃ c, blockCircInit (.torch D T) ⟨d, t⟩ = .ok c ∧ fftBlockMatmul (.torch D T) c ⟨d, t⟩ = .ok ⟨d, t⟩ := by
  obtain ⟨h1, h2⟩ := hT
  rcases ht with rfl | rfl
  · cases h2 rfl
    refine ⟨⟨d, .c64⟩, ?_, ?_⟩ <;>
      simp [blockCircInit, nonsymPrecond, inv, solve, fractions, rfftCg, irfftCg, fftBlockMatmul, einsum, rfft, irfft,
        realOf, binop, promote, scal, bind, Except.bind]
  · refine ⟨⟨d, .c128⟩, ?_, ?_⟩ <;> rcases h1 with rfl | rfl <;>
      simp [blockCircInit, nonsymPrecond, inv, solve, fractions, rfftCg, irfftCg, fftBlockMatmul, einsum, rfft, irfft,
        realOf, binop, promote, scal, bind, Except.bind]

theorem t_cgLoop (ht : t = .f32 ∨ t = .f64) (matA matP : Tag → Except PyErr Tag)
    (hA : matA ⟨d, t⟩ = .ok ⟨d, t⟩) (hP : matP ⟨d, t⟩ = .ok ⟨d, t⟩) :
    cgLoop (.torch D T) matA matP n ⟨d, t⟩ ⟨d, t⟩ ⟨d, t⟩ ⟨d, t⟩ = .ok ⟨d, t⟩ := by
  induction n with
  | zero => rfl
  | succ n ih =>
    unfold cgLoop
    simp only [hA, hP, t_einsum, t_scal ht, t_binop ht, ok_bind', ih]

theorem t_conjugateGradient (ht : t = .f32 ∨ t = .f64) (matA matP : Tag → Except PyErr Tag)
    (hA : matA ⟨d, t⟩ = .ok ⟨d, t⟩) (hP : matP ⟨d, t⟩ = .ok ⟨d, t⟩) :
    conjugateGradient (.torch D T) matA matP n ⟨d, t⟩ ⟨d, t⟩ = .ok ⟨d, t⟩ := by
  unfold conjugateGradient
  simp only [hA, hP, t_einsum, t_binop ht, ok_bind', t_cgLoop ht matA matP hA hP]

theorem t_toeplitzCg (ht : t = .f32 ∨ t = .f64) (hT : Fits T t) :
    toeplitzCg (.torch D T) n ⟨d, t⟩ ⟨d, t⟩ = .ok ⟨d, t⟩ := by
  obtain ⟨c, h1, h2⟩ := t_circInit (D := D) (d := d) ht hT
  obtain ⟨a, h3, h4, -⟩ := t_symToepInit (D := D) (T := T) (d := d) ht
  unfold toeplitzCg
  rw [h1, ok_bind', h3, ok_bind']
  exact t_conjugateGradient ht _ _ h4 h2

theorem t_blockToeplitzCg (ht : t = .f32 ∨ t = .f64) (hT : Fits T t) (x0 : Option Tag)
    (hx : x0.getD ⟨d, t⟩ = ⟨d, t⟩) :
    blockToeplitzCg (.torch D T) n ⟨d, t⟩ ⟨d, t⟩ x0 = .ok ⟨d, t⟩ := by
  obtain ⟨c, h1, h2⟩ := t_blockCircInit (D := D) (d := d) ht hT
  obtain ⟨a, h3, -, h4⟩ := t_symToepInit (D := D) (T := T) (d := d) ht
  unfold blockToeplitzCg
  rw [h1, ok_bind', h3, ok_bind', hx]
  exact t_conjugateGradient ht _ _ h4 h2

theorem t_solveOne (ht : t = .f32 ∨ t = .f64) (hT : o.useCgIter ≠ none → Fits T t) :
    solveOne (.torch D T) o ⟨d, t⟩ ⟨d, t⟩ = .ok ⟨d, t⟩ := by
  unfold solveOne
  cases hc : o.useCgIter with
  | none => simp only [toeplitz, t_binop ht, ok_bind', t_solve]
  | some n => exact t_toeplitzCg ht (hT (by simp [hc]))

theorem t_solveBlock (ht : t = .f32 ∨ t = .f64) (hT : o.useCgIter ≠ none → Fits T t) (x0 : Option Tag)
    (hx : x0.getD ⟨d, t⟩ = ⟨d, t⟩) :
    solveBlock (.torch D T) o ⟨d, t⟩ ⟨d, t⟩ x0 = .ok ⟨d, t⟩ := by
  unfold solveBlock
  cases hc : o.useCgIter with
  | none => simp only [blockToeplitz, t_binop ht, ok_bind', pure_ok, t_solve]
  | some n => exact t_blockToeplitzCg ht (hT (by simp [hc])) x0 hx

theorem t_sdrLoss (ht : t = .f32 ∨ t = .f64) (hT : o.filterLength ≠ 1 → o.useCgIter ≠ none → Fits T t) :
    sdrLoss (.torch D T) o pw ⟨d, t⟩ ⟨d, t⟩ = .ok ⟨d, t⟩ := by
  unfold sdrLoss
  by_cases h1 : o.filterLength = 1
  · rw [if_pos h1]
    unfold lengthOne
    cases pw <;>
      simp only [t_prepare ht, t_einsum, t_scal ht, t_cohToNegSdr ht, ok_bind', pure_ok, if_true, if_false,
        Bool.false_eq_true]
  · rw [if_neg h1]
    simp only [t_prepare ht, t_computeStats ht, addDiag, t_solveOne ht (hT h1), t_einsum, t_cohToNegSdr ht, ok_bind']

theorem t_squareCosine (ht : t = .f32 ∨ t = .f64) (h1 : o.filterLength ≠ 1)
    (hT : o.useCgIter ≠ none → Fits T t) :
    squareCosine (.torch D T) o pw ⟨d, t⟩ ⟨d, t⟩ = .ok (⟨d, t⟩, ⟨d, t⟩) := by
  unfold squareCosine
  rw [if_neg h1]
  simp only [t_prepare ht, t_computeStats2 ht, addDiag, t_solveOne ht hT, t_einsum, ok_bind', pure_ok]
  rw [t_solveBlock ht hT]
  · simp only [t_einsum, ok_bind']
  · cases pw <;> rfl

theorem t_bss_of_cosine (ht : t = .f32 ∨ t = .f64) {ref est : Tag}
    (h : squareCosine (.torch D T) o pw ref est = .ok (⟨d, t⟩, ⟨d, t⟩)) :
    bssEval (.torch D T) o pw ref est =
      .ok ⟨⟨d, t⟩, ⟨d, t⟩, ⟨d, t⟩, if pw then some ⟨d, .int⟩ else none⟩ := by
  unfold bssEval
  rw [h]
  simp only [t_binop ht, t_cohToNegSdr ht, ok_bind', pure_ok, permTag]

/-! ### numpy -/

/-- The types between the transforms and the results. -/
def Single (t : DType) : Prop := t = .f32 ∨ t = .f64

theorem n_prepare (ht : IsSignalType t) :
    prepare (.numpy b) zm (arr t) = .ok (arr (floatOfBits (bits t))) := by
  rcases ht with rfl | rfl | rfl | rfl <;> cases zm <;> cases b <;> rfl

theorem n_circInit {s : DType} (hs : Single s) : circInit (.numpy b) (arr s) = .ok (arr .c128) := by
  rcases hs with rfl | rfl <;> cases b <;> rfl

theorem n_blockCircInit {s : DType} (hs : Single s) : blockCircInit (.numpy b) (arr s) = .ok (arr .c128) := by
  rcases hs with rfl | rfl <;> cases b <;> rfl

theorem n_matP {s : DType} (hs : Single s) :
    fftMatmul (.numpy b) (arr .c128) (arr s) = .ok (arr .f64) ∧
    fftBlockMatmul (.numpy b) (arr .c128) (arr s) = .ok (arr .f64) := by
  rcases hs with rfl | rfl <;> cases b <;> exact ⟨rfl, rfl⟩

theorem n_matA {s : DType} (hs : Single s) :
    ∃ c, symToepInit (.numpy b) (arr s) = .ok (arr c) ∧
      fftMatmul (.numpy b) (arr c) (arr .f64) = .ok (arr .f64) ∧
      fftBlockMatmul (.numpy b) (arr c) (arr .f64) = .ok (arr .f64) ∧
      (∀ u, Single u → ∃ v, Single v ∧ fftMatmul (.numpy b) (arr c) (arr u) = .ok (arr v)) ∧
      (∀ u, Single u → ∃ v, Single v ∧ fftBlockMatmul (.numpy b) (arr c) (arr u) = .ok (arr v)) := by
  rcases hs with rfl | rfl <;> cases b
  · refine ⟨.c128, rfl, rfl, rfl, ?_, ?_⟩ <;> rintro u (rfl | rfl) <;> exact ⟨.f64, Or.inr rfl, rfl⟩
  · refine ⟨.c64, rfl, rfl, rfl, ?_, ?_⟩ <;> rintro u (rfl | rfl) <;>
      first | exact ⟨.f32, Or.inl rfl, rfl⟩ | exact ⟨.f64, Or.inr rfl, rfl⟩
  · refine ⟨.c128, rfl, rfl, rfl, ?_, ?_⟩ <;> rintro u (rfl | rfl) <;> exact ⟨.f64, Or.inr rfl, rfl⟩
  · refine ⟨.c128, rfl, rfl, rfl, ?_, ?_⟩ <;> rintro u (rfl | rfl) <;> exact ⟨.f64, Or.inr rfl, rfl⟩

theorem n_binop {s u : DType} (hs : Single s) (hu : Single u) :
    ∃ v, Single v ∧ binop (.numpy b) (arr s) (arr u) = .ok (arr v) := by
  rcases hs with rfl | rfl <;> rcases hu with rfl | rfl <;> cases b <;>
    first | exact ⟨.f32, Or.inl rfl, rfl⟩ | exact ⟨.f64, Or.inr rfl, rfl⟩

theorem n_binop_left {s : DType} (hs : Single s) : binop (.numpy b) (arr .f64) (arr s) = .ok (arr .f64) := by
  rcases hs with rfl | rfl <;> cases b <;> rfl

theorem n_binop_right {s : DType} (hs : Single s) : binop (.numpy b) (arr s) (arr .f64) = .ok (arr .f64) := by
  rcases hs with rfl | rfl <;> cases b <;> rfl

theorem n_scal {s : DType} (hs : Single s) : scal (.numpy b) (arr s) = arr s := by
  rcases hs with rfl | rfl <;> cases b <;> rfl

theorem n_cgLoop (matA matP : Tag → Except PyErr Tag) (hA : matA (arr .f64) = .ok (arr .f64))
    (hP : ∀ u, Single u → matP (arr u) = .ok (arr .f64)) {s r : DType} (hs : Single s) (hr : Single r) :
    cgLoop (.numpy b) matA matP n (arr s) (arr r) (arr .f64) (arr .f64) =
      .ok (arr (if n = 0 then s else .f64)) := by
  have h64 : Single .f64 := Or.inr rfl
  induction n generalizing s r with
  | zero => rfl
  | succ n ih =>
    unfold cgLoop
    simp only [hA, hP _ h64, einsum, n_binop_left h64, n_binop_right hs, n_binop_right hr, n_scal h64, ok_bind']
    rw [ih h64 h64]
    simp

theorem n_conjugateGradient (matA matP : Tag → Except PyErr Tag) (hA : matA (arr .f64) = .ok (arr .f64))
    (hA' : ∀ u, Single u → ∃ v, Single v ∧ matA (arr u) = .ok (arr v))
    (hP : ∀ u, Single u → matP (arr u) = .ok (arr .f64)) {s x : DType} (hs : Single s) (hx : Single x) :
    conjugateGradient (.numpy b) matA matP n (arr s) (arr x) = .ok (arr (if n = 0 then x else .f64)) := by
  unfold conjugateGradient
  obtain ⟨v, hv, h1⟩ := hA' x hx
  obtain ⟨r, hr, h2⟩ := n_binop (b := b) hs hv
  simp only [h1, h2, hP r hr, einsum, n_binop_right hr, ok_bind']
  exact n_cgLoop matA matP hA hP hx hr

theorem n_toeplitzCg {a s : DType} (ha : Single a) (hs : Single s) :
    toeplitzCg (.numpy b) n (arr a) (arr s) = .ok (arr (if n = 0 then s else .f64)) := by
  obtain ⟨c, h1, h2, -, h3, -⟩ := n_matA (b := b) ha
  unfold toeplitzCg
  rw [n_circInit ha, ok_bind', h1, ok_bind']
  exact n_conjugateGradient _ _ h2 h3 (fun u hu => (n_matP hu).1) hs hs

theorem n_blockToeplitzCg {a s x : DType} (ha : Single a) (hs : Single s) (hx : Single x) (x0 : Option Tag)
    (h0 : x0.getD (arr s) = arr x) :
    blockToeplitzCg (.numpy b) n (arr a) (arr s) x0 = .ok (arr (if n = 0 then x else .f64)) := by
  obtain ⟨c, h1, -, h2, -, h3⟩ := n_matA (b := b) ha
  unfold blockToeplitzCg
  rw [n_blockCircInit ha, ok_bind', h1, ok_bind', h0]
  exact n_conjugateGradient _ _ h2 h3 (fun u hu => (n_matP hu).2) hs hx

/-- The type after the transforms. -/
def stat (t : DType) : DType := floatOfBits (max 32 (bits t))

theorem stat_single : Single (stat t) := by
  cases t <;> simp [stat, Single, floatOfBits, bits]

theorem n_computeStats {u : DType} (ht : IsSignalType t) (hu : IsSignalType u) :
    computeStats (.numpy b) pw (arr (floatOfBits (bits t))) (arr (floatOfBits (bits u))) =
      .ok (arr (stat t), arr (floatOfBits (max 32 (max (bits t) (bits u))))) := by
  rcases ht with rfl | rfl | rfl | rfl <;> rcases hu with rfl | rfl | rfl | rfl <;> cases pw <;> cases b <;> rfl

theorem n_computeStats2 {u : DType} (ht : IsSignalType t) (hu : IsSignalType u) :
    computeStats2 (.numpy b) (arr (floatOfBits (bits t))) (arr (floatOfBits (bits u))) =
      .ok (arr (stat t), arr (floatOfBits (max 32 (max (bits t) (bits u))))) := by
  rcases ht with rfl | rfl | rfl | rfl <;> rcases hu with rfl | rfl | rfl | rfl <;> cases b <;> rfl

/-- The type of the cross-correlations. -/
def cross (t u : DType) : DType := floatOfBits (max 32 (max (bits t) (bits u)))

theorem cross_single {u : DType} : Single (cross t u) := by
  cases t <;> cases u <;> simp [cross, Single, floatOfBits, bits]

theorem n_solve {u : DType} (ht : IsSignalType t) (hu : IsSignalType u) :
    solve (.numpy b) (arr (stat t)) (arr (cross t u)) = .ok (arr (cross t u)) := by
  rcases ht with rfl | rfl | rfl | rfl <;> rcases hu with rfl | rfl | rfl | rfl <;> cases b <;> rfl

theorem n_cohToNegSdr {s : DType} (hs : s = .f16 ∨ Single s) : cohToNegSdr (.numpy b) (arr s) = .ok (arr s) := by
  rcases hs with rfl | rfl | rfl <;> cases b <;> rfl

theorem n_self {s : DType} (hs : s = .f16 ∨ Single s) : binop (.numpy b) (arr s) (arr s) = .ok (arr s) := by
  rcases hs with rfl | rfl | rfl <;> cases b <;> rfl

/-- The type of the solutions. -/
def solType (o : Opt) (t u : DType) : DType :=
  match o.useCgIter with
  | none => cross t u
  | some n => if n = 0 then cross t u else .f64

theorem solType_single {u : DType} : Single (solType o t u) := by
  unfold solType
  split
  · exact cross_single
  · split
    · exact cross_single
    · exact Or.inr rfl

theorem n_cross_sol {u : DType} :
    binop (.numpy b) (arr (cross t u)) (arr (solType o t u)) = .ok (arr (solType o t u)) := by
  unfold solType
  have hc := cross_single (t := t) (u := u)
  split
  · exact n_self (Or.inr hc)
  · split
    · exact n_self (Or.inr hc)
    · exact n_binop_right hc

theorem solType_bits {u : DType} (h1 : o.filterLength ≠ 1) :
    solType o t u = floatOfBits (numpyBits o t u) := by
  unfold solType numpyBits
  cases hc : o.useCgIter with
  | none => simp [Iterates, hc, h1, cross]
  | some n => cases n <;> simp [Iterates, hc, h1, cross, floatOfBits]

theorem n_solveOne {u : DType} (ht : IsSignalType t) (hu : IsSignalType u) :
    solveOne (.numpy b) o (arr (stat t)) (arr (cross t u)) = .ok (arr (solType o t u)) := by
  unfold solveOne
  cases hc : o.useCgIter with
  | none =>
    simp only [toeplitz, n_self (Or.inr stat_single), ok_bind', n_solve ht hu, solType, hc]
  | some n =>
    simp only [n_toeplitzCg stat_single cross_single, solType, hc]

theorem n_solveBlock {u : DType} (ht : IsSignalType t) (hu : IsSignalType u) :
    solveBlock (.numpy b) o (arr (stat t)) (arr (cross t u))
      (if pw = true then some (arr (solType o t u)) else none) = .ok (arr (solType o t u)) := by
  unfold solveBlock
  cases hc : o.useCgIter with
  | none =>
    simp only [blockToeplitz, n_self (Or.inr stat_single), ok_bind', pure_ok, n_solve ht hu, solType, hc]
  | some n =>
    simp only
    cases pw
    · rw [n_blockToeplitzCg stat_single cross_single cross_single _ rfl]
      simp only [solType, hc]
    · rw [n_blockToeplitzCg stat_single cross_single (solType_single (o := o) (t := t) (u := u)) _ rfl]
      simp only [solType, hc]
      split <;> rfl

theorem n_sdrLoss {u : DType} (ht : IsSignalType t) (hu : IsSignalType u) :
    sdrLoss (.numpy b) o pw (arr u) (arr t) = .ok (arr (floatOfBits (numpyBits o t u))) := by
  unfold sdrLoss
  by_cases h1 : o.filterLength = 1
  · rw [if_pos h1]
    have hb : numpyBits o t u = max (bits t) (bits u) := by simp [numpyBits, Iterates, h1]
    rw [hb]
    unfold lengthOne
    simp only [n_prepare ht, n_prepare hu, ok_bind']
    rcases ht with rfl | rfl | rfl | rfl <;> rcases hu with rfl | rfl | rfl | rfl <;> cases pw <;> cases b <;> rfl
  · rw [if_neg h1, ← solType_bits h1]
    simp only [n_prepare ht, n_prepare hu, n_computeStats ht hu, ok_bind', addDiag]
    rw [show floatOfBits (max 32 (max (bits t) (bits u))) = cross t u from rfl]
    simp only [n_solveOne ht hu, ok_bind', einsum, n_cross_sol, n_cohToNegSdr (Or.inr solType_single)]

theorem n_squareCosine {u : DType} (ht : IsSignalType t) (hu : IsSignalType u) (h1 : o.filterLength ≠ 1) :
    squareCosine (.numpy b) o pw (arr t) (arr u) = .ok (arr (solType o t u), arr (solType o t u)) := by
  unfold squareCosine
  rw [if_neg h1]
  simp only [n_prepare ht, n_prepare hu, n_computeStats2 ht hu, ok_bind', addDiag]
  rw [show floatOfBits (max 32 (max (bits t) (bits u))) = cross t u from rfl]
  simp only [n_solveOne ht hu, ok_bind', einsum, n_cross_sol, n_solveBlock ht hu, pure_ok]

/-! ### Tensors on different devices, integers -/

theorem x_lengthOne {u : DType} (hd : d ≠ d') (ht : t = .f32 ∨ t = .f64) (hu : u = .f32 ∨ u = .f64) {ws : Bool} :
    lengthOne (.torch D T) zm pw ld ws ⟨d, t⟩ ⟨d', u⟩ = .error .runtimeError := by
  unfold lengthOne
  simp only [t_prepare ht, t_prepare hu, ok_bind', einsum]
  simp [hd, error_bind']

theorem x_rfft (ht : t = .f32 ∨ t = .f64) : ∃ c, rfft (.torch D T) ⟨d, t⟩ = .ok ⟨d, c⟩ ∧
    ∃ v, (binop (.torch D T) ⟨d, realOf c⟩ ⟨d, realOf c⟩ = .ok ⟨d, v⟩ ∧
      irfft (.torch D T) ⟨d, v⟩ = .ok ⟨d, v⟩) ∧ irfft (.torch D T) ⟨d, c⟩ = .ok ⟨d, v⟩ ∧
      binop (.torch D T) ⟨d, v⟩ ⟨d, v⟩ = .ok ⟨d, v⟩ := by
  rcases ht with rfl | rfl
  · exact ⟨.c64, by simp [rfft], .f32, by simp [binop, promote, realOf, irfft]⟩
  · exact ⟨.c128, by simp [rfft], .f64, by simp [binop, promote, realOf, irfft]⟩

theorem x_computeStats {u : DType} (hd : d ≠ d') (ht : t = .f32 ∨ t = .f64) (hu : u = .f32 ∨ u = .f64) :
    computeStats (.torch D T) pw ⟨d, t⟩ ⟨d', u⟩ = .error .runtimeError := by
  obtain ⟨c, h1, v, ⟨h2, h3⟩, -⟩ := x_rfft (D := D) (T := T) (d := d) ht
  obtain ⟨c', h1', -⟩ := x_rfft (D := D) (T := T) (d := d') hu
  unfold computeStats
  simp only [h1, h1', h2, h3, ok_bind']
  cases pw <;> simp [einsum, binop, hd, error_bind']

theorem x_computeStats2 {u : DType} (hd : d ≠ d') (ht : t = .f32 ∨ t = .f64) (hu : u = .f32 ∨ u = .f64) :
    computeStats2 (.torch D T) ⟨d, t⟩ ⟨d', u⟩ = .error .runtimeError := by
  obtain ⟨c, h1, v, -, h3, h4⟩ := x_rfft (D := D) (T := T) (d := d) ht
  obtain ⟨c', h1', -⟩ := x_rfft (D := D) (T := T) (d := d') hu
  unfold computeStats2
  simp only [h1, h1', t_einsum, h3, h4, ok_bind']
  simp [einsum, hd, error_bind']

end FBE.Tags
