import Verif.Proofs.Equal
import Verif.Spec.Options
import Verif.Proofs.Shift
import Verif.Proofs.Toeplitz

/-!
# The coherences of the direct solver in terms of shifted signals
-/

set_option linter.unusedSectionVars false

namespace FBE

open Spec Matrix

variable {s : List ℕ} {r e c N M : ℕ}

theorem getD_addHead (od : Option ℝ) (l : List ℝ) (hl : l ≠ []) (t : ℕ) :
    (addHead od l).getD t 0 = l.getD t 0 + if t = 0 then od.getD 0 else 0 := by
  cases od with
  | none => cases l <;> simp [addHead]
  | some d =>
    cases l with
    | nil => exact absurd rfl hl
    | cons a l => cases t <;> simp [addHead]

theorem length_addHead (od : Option ℝ) (l : List ℝ) : (addHead od l).length = l.length := by
  cases od with
  | none => cases l <;> simp [addHead]
  | some d => cases l <;> simp [addHead]

theorem nFft_ok {N n : ℕ} (h : nFft N = .ok n) : 0 < N ∧ n = 2 ^ Nat.clog 2 (N + N - 1) := by
  simp only [nFft_def] at h
  split at h
  · cases h
  · cases h; exact ⟨by omega, rfl⟩

theorem nFft_bounds {N M n : ℕ} (h : nFft N M = .ok n) : 1 < N + max N M ∧ N + max N M - 1 ≤ n := by
  unfold nFft at h
  split at h
  · cases h
  · cases h
    exact ⟨by omega, Nat.le_pow_clog (by norm_num) _⟩

theorem nFft_ge {N n : ℕ} (h : nFft N = .ok n) : N + N - 1 ≤ n := by
  obtain ⟨-, rfl⟩ := nFft_ok h
  exact Nat.le_pow_clog (by norm_num) _

/-- The vectors of one reference. -/
noncomputable def refFam {D : ℕ} (f : (Fin N → ℝ) → ℕ → Space D) (K : ℕ) (x : Fin N → ℝ) :
    Fin K → Space D := fun l => f x l

/-- The vectors of all references. -/
noncomputable def allFam {D : ℕ} (f : (Fin N → ℝ) → ℕ → Space D) (K : ℕ) (x : Fin r → Fin N → ℝ) :
    Fin K × Fin r → Space D := fun p => f (x p.2) p.1

/-- The system of one reference is singular. -/
def SingularOne {D : ℕ} (f : (Fin N → ℝ) → ℕ → Space D) (K : ℕ) (d : ℝ) (x : Fin N → ℝ) : Prop :=
  (gramD (refFam f K x) d).det = 0

/-- The system of all references is singular. -/
def SingularAll {D : ℕ} (f : (Fin N → ℝ) → ℕ → Space D) (K : ℕ) (d : ℝ) (x : Fin r → Fin N → ℝ) :
    Prop := (gramD (allFam f K x) d).det = 0

theorem Fam.gram' {K n D : ℕ} {f : (Fin N → ℝ) → ℕ → Space D} {g : (Fin M → ℝ) → Space D}
    (F : Fam N M K n f g) (x y : Fin N → ℝ) (i j : ℕ) (hij : j ≤ i) (hi : i < K) :
    inner ℝ (f x i) (f y j) = circ n x y (i - j) := by
  rw [real_inner_comm, F.gram y x j i hij hi]

section lists

variable {o : Opts} {n D K : ℕ} {f : (Fin N → ℝ) → ℕ → Space D} {g : (Fin M → ℝ) → Space D}
  (F : Fam N M K n f g) (hK : min o.filterLength n = K) (hL : 1 ≤ o.filterLength)
include F hK hL

theorem length_sdrAcf (ref : Sig s r N) (m : BIdx s) (k : Fin r) :
    (sdrAcf o n ref m k).length = K := by
  unfold sdrAcf
  rw [length_addHead, length_acf1, hK]

theorem sdrAcf_get (ref : Sig s r N) (m : BIdx s) (k : Fin r) (l : ℕ) (hl : l < K) :
    (sdrAcf o n ref m k).getD l 0 =
      circ n (prep o ref m k) (prep o ref m k) l + if l = 0 then o.load else 0 := by
  unfold sdrAcf
  rw [getD_addHead _ _ _, acf1_get n _ F.n_ne _ l (by omega) (by omega)]
  · rfl
  · intro hnil
    have := congrArg List.length hnil
    rw [length_acf1, hK, List.length_nil] at this
    omega

theorem toeplitz_sdrAcf {B : Backend} (hB : Covered B) (ref : Sig s r N) (m : BIdx s) (k : Fin r) :
    toeplitz B K (sdrAcf o n ref m k) = gramD (refFam f K (prep o ref m k)) o.load := by
  ext i j
  rw [toeplitz_apply hB (length_sdrAcf F hK hL ref m k), sdrAcf_get F hK hL ref m k _ (by omega)]
  unfold gramD
  rw [Matrix.add_apply, Matrix.smul_apply, Matrix.one_apply, gram_apply]
  congr 1
  · unfold refFam
    rcases le_total i.val j.val with hij | hij
    · rw [max_eq_right hij, min_eq_left hij, F.gram _ _ _ _ hij (by omega)]
    · rw [max_eq_left hij, min_eq_right hij, F.gram' _ _ _ _ hij (by omega)]
  · by_cases hij : i = j
    · subst hij; simp
    · have : i.val ≠ j.val := fun h => hij (Fin.ext h)
      rw [if_neg (by omega), if_neg hij]
      simp

theorem vec_sdrXcorr (ref : Sig s r N) (est : Sig s e M) (m : BIdx s) (k : Fin r) (j : Fin e) :
    vec K (sdrXcorr o n ref est m k j) =
      coeffs (refFam f K (prep o ref m k)) (g (prep o est m j)) := by
  funext l
  unfold vec sdrXcorr coeffs refFam
  rw [xcorr1_get n _ F.n_ne _ _ _ (by omega) (by omega), F.cross _ _ _ l.isLt]

theorem length_bssAcf (ref : Sig s r N) (m : BIdx s) (k l : Fin r) :
    (bssAcf o n ref m k l).length = K + K := by
  unfold bssAcf
  simp only
  split
  · rw [length_addHead, length_acf2 _ _ (by omega), hK]
  · rw [length_acf2 _ _ (by omega), hK]

theorem bssAcf_get (ref : Sig s r N) (m : BIdx s) (k k' : Fin r) (l : ℕ) (hl : l < K) :
    (bssAcf o n ref m k k').getD l 0 =
      circ n (prep o ref m k') (prep o ref m k) l + if l = 0 ∧ k = k' then o.load else 0 := by
  have key := acf2_get n o.filterLength F.n_ne (prep o ref m k) (prep o ref m k') l (by omega)
    (by omega)
  unfold bssAcf
  simp only
  split
  · rename_i hk
    rw [getD_addHead, key]
    · simp [hk, Opts.load]
    · intro hnil
      have := congrArg List.length hnil
      rw [length_acf2 _ _ (by omega), hK, List.length_nil] at this
      omega
  · rename_i hk
    rw [key]
    simp [hk]

theorem bssAcf_get_neg (hLn : o.filterLength ≤ n) (ref : Sig s r N) (m : BIdx s) (k k' : Fin r)
    (j : ℕ) (hj : 0 < j) (hjK : j < K) :
    (bssAcf o n ref m k k').getD (K + K - j) 0 = circ n (prep o ref m k) (prep o ref m k') j := by
  have key := acf2_get_neg n o.filterLength F.n_ne hLn (prep o ref m k) (prep o ref m k') j hj
    (by omega)
  rw [two_mul, show o.filterLength = K by omega] at key
  unfold bssAcf
  simp only
  rw [show o.filterLength = K by omega]
  split
  · rename_i hk
    rw [getD_addHead, key, if_neg (by omega), add_zero]
    intro hnil
    have := congrArg List.length hnil
    rw [length_acf2 _ _ (by omega), List.length_nil] at this
    omega
  · exact key

theorem bssAcfSdr_eq_sdrAcf (hLn : o.filterLength ≤ n) (ref : Sig s r N) (m : BIdx s) (k : Fin r) :
    bssAcfSdr o n ref m k = sdrAcf o n ref m k := by
  have hKL : o.filterLength = K := by omega
  have h1 : (bssAcfSdr o n ref m k).length = K := by
    unfold bssAcfSdr
    rw [pySlice_take, List.length_take, length_bssAcf F hK hL]; omega
  refine List.ext_getElem (by rw [h1, length_sdrAcf F hK hL]) fun l hl hl' => ?_
  rw [← List.getD_eq_getElem _ 0 hl, ← List.getD_eq_getElem _ 0 hl']
  rw [h1] at hl
  unfold bssAcfSdr
  rw [pySlice_take, getD_take _ _ _ _ (by omega), bssAcf_get F hK hL ref m k k l hl,
    sdrAcf_get F hK hL ref m k l hl]
  simp

end lists

section lists2

variable {o : Opts} {n D K : ℕ} {f : (Fin N → ℝ) → ℕ → Space D} {g : (Fin M → ℝ) → Space D}
  (F : Fam N M K n f g) (hK : min o.filterLength n = K) (hL : 2 ≤ o.filterLength)
include F hK hL

theorem blockToeplitz_bssAcf {B : Backend} (hLn : o.filterLength ≤ n) (ref : Sig s r N) :
    blockToeplitz B K (bssAcf o n ref) = .ok fun m => gramD (allFam f K (prep o ref m)) o.load := by
  rw [blockToeplitz_ok (by omega) _ (fun m k l => by rw [length_bssAcf F hK (by omega)]; omega)]
  congr 1
  funext m
  ext p q
  unfold lagAt gramD allFam
  rw [length_bssAcf F hK (by omega), Matrix.add_apply, Matrix.smul_apply, Matrix.one_apply, gram_apply]
  obtain ⟨i, a⟩ := p
  obtain ⟨j, b⟩ := q
  simp only
  show (if i.val ≤ j.val then _ else _) = inner ℝ (f (prep o ref m a) i) (f (prep o ref m b) j) + _
  split
  · rename_i hij
    rw [bssAcf_get F hK (by omega) _ _ _ _ _ (by omega), F.gram _ _ _ _ hij (by omega)]
    congr 1
    by_cases hpq : ((i, a) : Fin K × Fin r) = (j, b)
    · rw [if_pos hpq]
      cases hpq
      simp
    · rw [if_neg hpq, if_neg]
      · simp
      · rintro ⟨h1, h2⟩
        exact hpq (by rw [h2, Fin.ext (by omega : i.val = j.val)])
  · rename_i hij
    rw [bssAcf_get_neg F hK (by omega) hLn _ _ _ _ _ (by omega) (by omega),
      F.gram' _ _ _ _ (by omega) (by omega), if_neg]
    · simp
    · rintro h'
      cases h'
      exact hij le_rfl

theorem xcorrFlat_eq (ref : Sig s r N) (est : Sig s e M) (m : BIdx s) (j : Fin e) :
    xcorrFlat o n K ref est m j = coeffs (allFam f K (prep o ref m)) (g (prep o est m j)) := by
  funext p
  unfold xcorrFlat
  rw [vec_sdrXcorr F hK (by omega)]
  rfl

end lists2

/-! ### the coherences -/

section coh

variable {o : Opts} {n D K : ℕ} {f : (Fin N → ℝ) → ℕ → Space D} {g : (Fin M → ℝ) → Space D}
  (hn : nFft N M = .ok n) (hK : min o.filterLength n = K) (hL : 2 ≤ o.filterLength)
include hn hK hL

theorem sdrCohPair_unfold (B : Backend) (ref : Sig s r N) (est : Sig s e M) :
    sdrCohPair B o ref est =
      match (match o.useCgIter with
        | none => solveStack (fun i : BIdx s × Fin r => toeplitz B K (sdrAcf o n ref i.1 i.2))
            (fun i j => vec K (sdrXcorr o n ref est i.1 i.2 j))
        | some it => .ok fun i j => toeplitzCg B K (sdrAcf o n ref i.1 i.2)
            (vec K (sdrXcorr o n ref est i.1 i.2 j)) it :
          Except PyErr (BIdx s × Fin r → Fin e → Fin K → ℝ)) with
      | .error err => .error err
      | .ok sol => .ok fun m k j =>
          ∑ l, vec K (sdrXcorr o n ref est m k j) l * sol (m, k) j l := by
  rw [sdrCohPair_gen B hL]; unfold sdrCohPairGen
  rw [hn]
  simp only
  rw [hK]
  cases o.useCgIter
  · dsimp only
    generalize solveStack (fun i : BIdx s × Fin r => toeplitz B K (sdrAcf o n ref i.1 i.2)) (fun i j => vec K (sdrXcorr o n ref est i.1 i.2 j)) = S
    cases S <;> rfl
  · rfl

theorem sdrCohDiag_unfold (B : Backend) (ref : Sig s c N) (est : Sig s c M) :
    sdrCohDiag B o ref est =
      match (match o.useCgIter with
        | none => solveVecs B c (fun i : BIdx s × Fin c => toeplitz B K (sdrAcf o n ref i.1 i.2))
            (fun i => vec K (sdrXcorr o n ref est i.1 i.2 i.2))
        | some it => .ok fun i => toeplitzCg B K (sdrAcf o n ref i.1 i.2)
            (vec K (sdrXcorr o n ref est i.1 i.2 i.2)) it :
          Except PyErr (BIdx s × Fin c → Fin K → ℝ)) with
      | .error err => .error err
      | .ok sol => .ok fun m k =>
          ∑ l, vec K (sdrXcorr o n ref est m k k) l * sol (m, k) l := by
  rw [sdrCohDiag_gen B hL]; unfold sdrCohDiagGen
  rw [hn]
  simp only
  rw [hK]
  cases o.useCgIter
  · dsimp only
    generalize solveVecs B c (fun i : BIdx s × Fin c => toeplitz B K (sdrAcf o n ref i.1 i.2)) (fun i => vec K (sdrXcorr o n ref est i.1 i.2 i.2)) = S
    cases S <;> rfl
  · rfl

theorem sqCosPair_unfold (hLn : o.filterLength ≤ n) (B : Backend) (ref : Sig s r N) (est : Sig s e M) :
    sqCosPair B o ref est =
      match (match o.useCgIter with
        | none => solveStack (fun i : BIdx s × Fin r => toeplitz B K (bssAcfSdr o n ref i.1 i.2))
            (fun i j => vec K (sdrXcorr o n ref est i.1 i.2 j))
        | some it => .ok fun i j => toeplitzCg B K (bssAcfSdr o n ref i.1 i.2)
            (vec K (sdrXcorr o n ref est i.1 i.2 j)) it :
          Except PyErr (BIdx s × Fin r → Fin e → Fin K → ℝ)) with
      | .error err => .error err
      | .ok sol =>
        match cohSar B o n K ref est (fun m j p => sol (m, p.2) j p.1) with
        | .error err => .error err
        | .ok sar => .ok (fun m k j =>
          ∑ l, vec K (sdrXcorr o n ref est m k j) l * sol (m, k) j l, sar) := by
  rw [sqCosPair_gen B hL]; unfold sqCosPairGen
  rw [hn]
  simp only
  rw [hK, if_neg (by omega)]
  cases o.useCgIter
  · dsimp only
    generalize solveStack (fun i : BIdx s × Fin r => toeplitz B K (bssAcfSdr o n ref i.1 i.2)) (fun i j => vec K (sdrXcorr o n ref est i.1 i.2 j)) = S
    cases S <;> rfl
  · rfl

theorem sqCosDiag_unfold (hLn : o.filterLength ≤ n) (B : Backend) (ref : Sig s c N) (est : Sig s c M) :
    sqCosDiag B o ref est =
      match (match o.useCgIter with
        | none => solveVecs B c (fun i : BIdx s × Fin c => toeplitz B K (bssAcfSdr o n ref i.1 i.2))
            (fun i => vec K (sdrXcorr o n ref est i.1 i.2 i.2))
        | some it => .ok fun i => toeplitzCg B K (bssAcfSdr o n ref i.1 i.2)
            (vec K (sdrXcorr o n ref est i.1 i.2 i.2)) it :
          Except PyErr (BIdx s × Fin c → Fin K → ℝ)) with
      | .error err => .error err
      | .ok sol =>
        match cohSar B o n K ref est (fun _ _ _ => 0) with
        | .error err => .error err
        | .ok sar => .ok (fun m k =>
          ∑ l, vec K (sdrXcorr o n ref est m k k) l * sol (m, k) l, sar) := by
  rw [sqCosDiag_gen B hL]; unfold sqCosDiagGen
  rw [hn]
  simp only
  rw [hK, if_neg (by omega)]
  cases o.useCgIter
  · dsimp only
    generalize solveVecs B c (fun i : BIdx s × Fin c => toeplitz B K (bssAcfSdr o n ref i.1 i.2)) (fun i => vec K (sdrXcorr o n ref est i.1 i.2 i.2)) = S
    cases S <;> rfl
  · rfl

variable (F : Fam N M K n f g)
include F

open Classical in
theorem sdrCohPair_direct {B : Backend} (hB : Covered B) (hcg : o.useCgIter = none)
    (ref : Sig s r N) (est : Sig s e M) :
    sdrCohPair B o ref est =
      if ∃ i : BIdx s × Fin r, SingularOne f K o.load (prep o ref i.1 i.2) then .error .linAlgError
      else .ok fun m k j =>
        quad (refFam f K (prep o ref m k)) o.load (g (prep o est m j)) := by
  rw [sdrCohPair_unfold hn hK hL, hcg]
  simp only [solveStack, toeplitz_sdrAcf F hK (by omega) hB, vec_sdrXcorr F hK (by omega)]
  by_cases h1 : ∃ i : BIdx s × Fin r, SingularOne f K o.load (prep o ref i.1 i.2)
  · have h1' := h1
    unfold SingularOne at h1'
    rw [if_pos h1', if_pos h1]
  · have h1' := h1
    unfold SingularOne at h1'
    rw [if_neg h1', if_neg h1]
    rfl

open Classical in
theorem sdrCohDiag_direct {B : Backend} (hB : Covered B) (hsv : B.stackedVectors = true)
    (hcg : o.useCgIter = none) (ref : Sig s c N) (est : Sig s c M) :
    sdrCohDiag B o ref est =
      if ∃ i : BIdx s × Fin c, SingularOne f K o.load (prep o ref i.1 i.2) then .error .linAlgError
      else .ok fun m k =>
        quad (refFam f K (prep o ref m k)) o.load (g (prep o est m k)) := by
  rw [sdrCohDiag_unfold hn hK hL, hcg]
  simp only [solveVecs, hsv, if_true, solveStack, toeplitz_sdrAcf F hK (by omega) hB, vec_sdrXcorr F hK (by omega)]
  by_cases h1 : ∃ i : BIdx s × Fin c, SingularOne f K o.load (prep o ref i.1 i.2)
  · have h1' := h1
    unfold SingularOne at h1'
    rw [if_pos h1', if_pos h1]
  · have h1' := h1
    unfold SingularOne at h1'
    rw [if_neg h1', if_neg h1]
    rfl

open Classical in
theorem cohSar_direct (hLn : o.filterLength ≤ n) (B : Backend) (hcg : o.useCgIter = none) (ref : Sig s r N) (est : Sig s e M)
    (x0 : BIdx s → Fin e → Fin K × Fin r → ℝ) :
    cohSar B o n K ref est x0 =
      if ∃ m : BIdx s, SingularAll f K o.load (prep o ref m) then .error .linAlgError
      else .ok fun m j =>
        quad (allFam f K (prep o ref m)) o.load (g (prep o est m j)) := by
  unfold cohSar
  rw [hcg, blockToeplitz_bssAcf F hK hL hLn]
  simp only [solveStack]
  have hx : xcorrFlat o n K ref est = fun m j =>
      coeffs (allFam f K (prep o ref m)) (g (prep o est m j)) := by
    funext m j; exact xcorrFlat_eq F hK hL ref est m j
  rw [hx]
  by_cases h1 : ∃ m : BIdx s, SingularAll f K o.load (prep o ref m)
  · have h1' := h1
    unfold SingularAll at h1'
    rw [if_pos h1', if_pos h1]
  · have h1' := h1
    unfold SingularAll at h1'
    rw [if_neg h1', if_neg h1]
    rfl

open Classical in
theorem sqCosPair_direct (hLn : o.filterLength ≤ n) {B : Backend} (hB : Covered B) (hcg : o.useCgIter = none)
    (ref : Sig s r N) (est : Sig s e M) :
    sqCosPair B o ref est =
      if (∃ i : BIdx s × Fin r, SingularOne f K o.load (prep o ref i.1 i.2)) ∨
        ∃ m : BIdx s, SingularAll f K o.load (prep o ref m) then .error .linAlgError
      else .ok (fun m k j =>
          quad (refFam f K (prep o ref m k)) o.load (g (prep o est m j)),
        fun m j =>
          quad (allFam f K (prep o ref m)) o.load (g (prep o est m j))) := by
  rw [sqCosPair_unfold hn hK hL hLn, hcg]
  simp only [solveStack, bssAcfSdr_eq_sdrAcf F hK (by omega) hLn, toeplitz_sdrAcf F hK (by omega) hB, vec_sdrXcorr F hK (by omega),
    cohSar_direct hn hK hL F hLn B hcg]
  by_cases h1 : ∃ i : BIdx s × Fin r, SingularOne f K o.load (prep o ref i.1 i.2)
  · have h1' := h1
    unfold SingularOne at h1'
    rw [if_pos h1', if_pos (Or.inl h1)]
  · have h1' := h1
    unfold SingularOne at h1'
    rw [if_neg h1']
    by_cases h2 : ∃ m : BIdx s, SingularAll f K o.load (prep o ref m)
    · rw [if_pos h2, if_pos (Or.inr h2)]
    · rw [if_neg h2, if_neg (by tauto)]
      rfl

open Classical in
theorem sqCosDiag_direct (hLn : o.filterLength ≤ n) {B : Backend} (hB : Covered B) (hsv : B.stackedVectors = true)
    (hcg : o.useCgIter = none) (ref : Sig s c N) (est : Sig s c M) :
    sqCosDiag B o ref est =
      if (∃ i : BIdx s × Fin c, SingularOne f K o.load (prep o ref i.1 i.2)) ∨
        ∃ m : BIdx s, SingularAll f K o.load (prep o ref m) then .error .linAlgError
      else .ok (fun m k =>
          quad (refFam f K (prep o ref m k)) o.load (g (prep o est m k)),
        fun m j =>
          quad (allFam f K (prep o ref m)) o.load (g (prep o est m j))) := by
  rw [sqCosDiag_unfold hn hK hL hLn, hcg]
  simp only [solveVecs, hsv, if_true, solveStack, bssAcfSdr_eq_sdrAcf F hK (by omega) hLn, toeplitz_sdrAcf F hK (by omega) hB,
    vec_sdrXcorr F hK (by omega), cohSar_direct hn hK hL F hLn B hcg]
  by_cases h1 : ∃ i : BIdx s × Fin c, SingularOne f K o.load (prep o ref i.1 i.2)
  · have h1' := h1
    unfold SingularOne at h1'
    rw [if_pos h1', if_pos (Or.inl h1)]
  · have h1' := h1
    unfold SingularOne at h1'
    rw [if_neg h1']
    by_cases h2 : ∃ m : BIdx s, SingularAll f K o.load (prep o ref m)
    · rw [if_pos h2, if_pos (Or.inr h2)]
    · rw [if_neg h2, if_neg (by tauto)]
      rfl

end coh

end FBE
