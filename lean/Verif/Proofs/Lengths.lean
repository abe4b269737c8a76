import Verif.Proofs.Same
import Verif.Spec.Lengths

/-!
# References and estimates of different lengths
-/

set_option linter.unusedSectionVars false

namespace FBE

open Spec Matrix

variable {s : List ℕ} {r e c N M N' M' T : ℕ} {B : Backend} {o o' : Opts}

/-! ### statistics of extended signals -/

theorem rfft_congr (n : ℕ) {x y : List ℝ} (h : ∀ t, x.getD t 0 = y.getD t 0) : rfft n x = rfft n y := by
  unfold rfft
  simp only [h]

theorem zpad_extend (hT : N ≤ T) (x : Fin N → ℝ) (t : ℕ) : zpad (fun t : Fin T => zpad x t) t = zpad x t := by
  by_cases ht : t < T
  · show (if h : t < T then zpad x t else 0) = _
    rw [dif_pos ht]
  · rw [zpad_of_le _ (by omega), zpad_of_le _ (by omega)]

theorem sum_extend (hT : N ≤ T) (f : ℕ → ℝ) (h : ∀ t, N ≤ t → f t = 0) : ∑ t : Fin T, f t = ∑ t : Fin N, f t := by
  rw [Fin.sum_univ_eq_sum_range, Fin.sum_univ_eq_sum_range]
  symm
  refine Finset.sum_subset (Finset.range_subset_range.2 hT) fun t _ ht => h t ?_
  rw [Finset.mem_range, not_lt] at ht
  exact ht

theorem gain_extend (hT : N ≤ T) (x : Fin N → ℝ) : gain (fun t : Fin T => zpad x t) = gain x := by
  unfold gain sigNorm
  rw [sum_extend hT (fun t => zpad x t ^ 2) (fun t ht => by rw [zpad_of_le _ ht]; simp)]
  simp only [zpad_val]

theorem zpad_prep (hz : o'.zeroMean = false) (hT : N ≤ T) (x : Sig s c N) (m : BIdx s) (k : Fin c) (t : ℕ) :
    zpad (prep o' (extended o.zeroMean T x) m k) t = zpad (prep o x m k) t := by
  rw [prep_eq, prep_eq, hz]
  have e : centred false (extended o.zeroMean T x m k) = fun t : Fin T => zpad (centred o.zeroMean (x m k)) t := rfl
  rw [e, gain_extend hT, zpad_smul, zpad_smul, zpad_extend hT]

theorem rfft_prep (hz : o'.zeroMean = false) (n : ℕ) (hT : N ≤ T) (x : Sig s c N) (m : BIdx s) (k : Fin c) :
    rfft n (List.ofFn (prep o' (extended o.zeroMean T x) m k)) = rfft n (List.ofFn (prep o x m k)) :=
  rfft_congr n fun t => by rw [getD_ofFn, getD_ofFn, zpad_prep hz hT]

/-! ### the results depend on the statistics only -/

/-- The options agree, except perhaps `zero_mean`. -/
structure SameOpts (o o' : Opts) : Prop where
  filterLength : o'.filterLength = o.filterLength
  useCgIter : o'.useCgIter = o.useCgIter
  clampDb : o'.clampDb = o.clampDb
  loadDiag : o'.loadDiag = o.loadDiag

section congr

variable {ref : Sig s r N} {est : Sig s e M} {ref' : Sig s r N'} {est' : Sig s e M'} {n n' K : ℕ}

theorem sdrCohPairGen_unfold (hn : nFft N M = .ok n) (hK : min o.filterLength n = K) (ref : Sig s r N)
    (est : Sig s e M) : sdrCohPairGen B o ref est = match solOne B o.useCgIter K (sdrAcf o n ref)
          (fun m k j => vec K (sdrXcorr o n ref est m k j)) with
        | .error err => .error err
        | .ok sol => .ok fun m k j => ∑ l, vec K (sdrXcorr o n ref est m k j) l * sol (m, k) j l := by
  subst hK
  unfold sdrCohPairGen solOne
  rw [hn]
  simp only
  cases o.useCgIter with
  | none =>
    dsimp only
    generalize solveStack (fun i : BIdx s × Fin r => toeplitz B _ (sdrAcf o n ref i.1 i.2))
      (fun i j => vec (min o.filterLength n) (sdrXcorr o n ref est i.1 i.2 j)) = S
    cases S <;> rfl
  | some it => rfl

theorem sdrCohPairGen_congr (ho : SameOpts o o') (hn : nFft N M = .ok n) (hn' : nFft N' M' = .ok n')
    (hK : min o.filterLength n = K) (hK' : min o.filterLength n' = K) (ha : sdrAcf o' n' ref' = sdrAcf o n ref)
    (hx : ∀ m k j, vec K (sdrXcorr o' n' ref' est' m k j) = vec K (sdrXcorr o n ref est m k j)) :
    sdrCohPairGen B o' ref' est' = sdrCohPairGen B o ref est := by
  rw [sdrCohPairGen_unfold hn hK, sdrCohPairGen_unfold (K := K) hn' (by rw [ho.filterLength]; exact hK'), ha, ho.useCgIter]
  simp only [hx]

theorem cohSar_solAll (n K : ℕ) (ref : Sig s r N) (est : Sig s e M) (x0 : BIdx s → Fin e → Fin K × Fin r → ℝ) :
      cohSar B o n K ref est x0 = match solAll B o.useCgIter K (bssAcf o n ref) (xcorrFlat o n K ref est) x0 with
        | .error err => .error err
        | .ok sol => .ok fun m j => ∑ p, xcorrFlat o n K ref est m j p * sol m j p := by
  unfold cohSar solAll
  cases o.useCgIter with
  | none =>
    dsimp only
    cases blockToeplitz B K (bssAcf o n ref) with
    | error err => rfl
    | ok R =>
      dsimp only
      cases solveStack R (xcorrFlat o n K ref est) <;> rfl
  | some it =>
    dsimp only
    cases blockCg B K (bssAcf o n ref) (xcorrFlat o n K ref est) x0 it <;> rfl

theorem cohSar_congr (ho : SameOpts o o') {x0 : BIdx s → Fin e → Fin K × Fin r → ℝ}
    (hs : solAll B o.useCgIter K (bssAcf o' n' ref') (xcorrFlat o n K ref est) x0 =
      solAll B o.useCgIter K (bssAcf o n ref) (xcorrFlat o n K ref est) x0)
    (hx : ∀ m k j, vec K (sdrXcorr o' n' ref' est' m k j) = vec K (sdrXcorr o n ref est m k j)) :
    cohSar B o' n' K ref' est' x0 = cohSar B o n K ref est x0 := by
  have hf : xcorrFlat o' n' K ref' est' = xcorrFlat o n K ref est := by
    funext m j p
    unfold xcorrFlat
    rw [hx]
  rw [cohSar_solAll, cohSar_solAll, hf, ho.useCgIter, hs]

theorem sqCosPairGen_unfold (hn : nFft N M = .ok n) (hK : min o.filterLength n = K) (ref : Sig s r N)
    (est : Sig s e M) : sqCosPairGen B o ref est =
      if min o.filterLength (K + K) ≠ K then .error (sizeErr B o.useCgIter) else
      match solOne B o.useCgIter K (bssAcfSdr o n ref) (fun m k j => vec K (sdrXcorr o n ref est m k j)) with
        | .error err => .error err
        | .ok sol => match cohSar B o n K ref est (fun m j p => sol (m, p.2) j p.1) with
          | .error err => .error err
          | .ok sar => .ok (fun m k j => ∑ l, vec K (sdrXcorr o n ref est m k j) l * sol (m, k) j l, sar) := by
  subst hK
  unfold sqCosPairGen solOne
  rw [hn]
  simp only
  split
  · rfl
  · cases o.useCgIter with
    | none =>
      dsimp only
      generalize solveStack (fun i : BIdx s × Fin r => toeplitz B _ (bssAcfSdr o n ref i.1 i.2))
        (fun i j => vec (min o.filterLength n) (sdrXcorr o n ref est i.1 i.2 j)) = S
      cases S <;> rfl
    | some it => rfl

theorem sqCosPairGen_congr (ho : SameOpts o o') (hn : nFft N M = .ok n) (hn' : nFft N' M' = .ok n')
    (hK : min o.filterLength n = K) (hK' : min o.filterLength n' = K) (ha : bssAcfSdr o' n' ref' = bssAcfSdr o n ref)
    (hs : min o.filterLength (K + K) = K → ∀ xc x0 : BIdx s → Fin e → Fin K × Fin r → ℝ,
      solAll B o.useCgIter K (bssAcf o' n' ref') xc x0 = solAll B o.useCgIter K (bssAcf o n ref) xc x0)
    (hx : ∀ m k j, vec K (sdrXcorr o' n' ref' est' m k j) = vec K (sdrXcorr o n ref est m k j)) :
    sqCosPairGen B o' ref' est' = sqCosPairGen B o ref est := by
  rw [sqCosPairGen_unfold hn hK, sqCosPairGen_unfold (K := K) hn' (by rw [ho.filterLength]; exact hK'), ha, ho.useCgIter,
    ho.filterLength]
  split
  · rfl
  · rename_i hKs
    simp only [hx]
    cases solOne B o.useCgIter K (bssAcfSdr o n ref) (fun m k j => vec K (sdrXcorr o n ref est m k j)) with
    | error err => rfl
    | ok sol =>
      simp only
      rw [cohSar_congr ho (hs (by omega) _ _) hx]

end congr

section congrDiag

variable {ref : Sig s c N} {est : Sig s c M} {ref' : Sig s c N'} {est' : Sig s c M'} {n n' K : ℕ}

/-- The solutions for single references, channel by channel. -/
noncomputable def solDiag (B : Backend) (cg : Option ℕ) (K : ℕ) (acf : BIdx s → Fin c → List ℝ)
    (xc : BIdx s → Fin c → Fin K → ℝ) : Except PyErr (BIdx s × Fin c → Fin K → ℝ) :=
  match cg with
  | none => solveVecs B c (fun i => toeplitz B K (acf i.1 i.2)) (fun i => xc i.1 i.2)
  | some it => .ok fun i => toeplitzCg B K (acf i.1 i.2) (xc i.1 i.2) it

theorem sdrCohDiagGen_unfold (hn : nFft N M = .ok n) (hK : min o.filterLength n = K) (ref : Sig s c N)
    (est : Sig s c M) : sdrCohDiagGen B o ref est = match solDiag B o.useCgIter K (sdrAcf o n ref)
          (fun m k => vec K (sdrXcorr o n ref est m k k)) with
        | .error err => .error err
        | .ok sol => .ok fun m k => ∑ l, vec K (sdrXcorr o n ref est m k k) l * sol (m, k) l := by
  subst hK
  unfold sdrCohDiagGen solDiag
  rw [hn]
  rfl

theorem sdrCohDiagGen_congr (ho : SameOpts o o') (hn : nFft N M = .ok n) (hn' : nFft N' M' = .ok n')
    (hK : min o.filterLength n = K) (hK' : min o.filterLength n' = K) (ha : sdrAcf o' n' ref' = sdrAcf o n ref)
    (hx : ∀ m k j, vec K (sdrXcorr o' n' ref' est' m k j) = vec K (sdrXcorr o n ref est m k j)) :
    sdrCohDiagGen B o' ref' est' = sdrCohDiagGen B o ref est := by
  rw [sdrCohDiagGen_unfold hn hK, sdrCohDiagGen_unfold (K := K) hn' (by rw [ho.filterLength]; exact hK'), ha, ho.useCgIter]
  simp only [hx]

theorem sqCosDiagGen_unfold (hn : nFft N M = .ok n) (hK : min o.filterLength n = K) (ref : Sig s c N)
    (est : Sig s c M) : sqCosDiagGen B o ref est =
      if min o.filterLength (K + K) ≠ K then .error (if o.useCgIter = none ∧ c = min o.filterLength (K + K) then
        .unmodelled else sizeErr B o.useCgIter) else
      match solDiag B o.useCgIter K (bssAcfSdr o n ref) (fun m k => vec K (sdrXcorr o n ref est m k k)) with
        | .error err => .error err
        | .ok sol => match cohSar B o n K ref est (fun _ _ _ => 0) with
          | .error err => .error err
          | .ok sar => .ok (fun m k => ∑ l, vec K (sdrXcorr o n ref est m k k) l * sol (m, k) l, sar) := by
  subst hK
  unfold sqCosDiagGen solDiag
  rw [hn]
  rfl

theorem sqCosDiagGen_congr (ho : SameOpts o o') (hn : nFft N M = .ok n) (hn' : nFft N' M' = .ok n')
    (hK : min o.filterLength n = K) (hK' : min o.filterLength n' = K) (ha : bssAcfSdr o' n' ref' = bssAcfSdr o n ref)
    (hs : min o.filterLength (K + K) = K → ∀ xc x0 : BIdx s → Fin c → Fin K × Fin c → ℝ,
      solAll B o.useCgIter K (bssAcf o' n' ref') xc x0 = solAll B o.useCgIter K (bssAcf o n ref) xc x0)
    (hx : ∀ m k j, vec K (sdrXcorr o' n' ref' est' m k j) = vec K (sdrXcorr o n ref est m k j)) :
    sqCosDiagGen B o' ref' est' = sqCosDiagGen B o ref est := by
  rw [sqCosDiagGen_unfold hn hK, sqCosDiagGen_unfold (K := K) hn' (by rw [ho.filterLength]; exact hK'), ha, ho.useCgIter,
    ho.filterLength]
  split
  · rfl
  · rename_i hKs
    simp only [hx]
    rw [cohSar_congr ho (hs (by omega) _ _) hx]

end congrDiag

/-! ### the same transform size: a shorter estimate -/

theorem sdrAcf_extended (ho : SameOpts o o') (hz : o'.zeroMean = false) (n : ℕ) (hT : N ≤ T) (ref : Sig s r N) :
    sdrAcf o' n (extended o.zeroMean T ref) = sdrAcf o n ref := by
  funext m k
  unfold sdrAcf acf1
  rw [rfft_prep hz n hT, ho.filterLength, ho.loadDiag]

theorem bssAcf_extended (ho : SameOpts o o') (hz : o'.zeroMean = false) (n : ℕ) (hT : N ≤ T) (ref : Sig s r N) :
    bssAcf o' n (extended o.zeroMean T ref) = bssAcf o n ref := by
  funext m k l
  unfold bssAcf acf2
  rw [rfft_prep hz n hT, rfft_prep hz n hT, ho.filterLength, ho.loadDiag]

theorem bssAcfSdr_extended (ho : SameOpts o o') (hz : o'.zeroMean = false) (n : ℕ) (hT : N ≤ T) (ref : Sig s r N) :
    bssAcfSdr o' n (extended o.zeroMean T ref) = bssAcfSdr o n ref := by
  unfold bssAcfSdr
  rw [bssAcf_extended ho hz n hT, ho.filterLength]

theorem sdrXcorr_extended (ho : SameOpts o o') (hz : o'.zeroMean = false) (n : ℕ) (hN : N ≤ T) (hM : M ≤ T)
    (ref : Sig s r N) (est : Sig s e M) :
    sdrXcorr o' n (extended o.zeroMean T ref) (extended o.zeroMean T est) = sdrXcorr o n ref est := by
  funext m k j
  unfold sdrXcorr xcorr1
  rw [rfft_prep hz n hN, rfft_prep hz n hM, ho.filterLength]

/-! ### another transform size: a shorter reference -/

/-- Circular correlations of a signal with `N` samples do not wrap around for lags up to `n - N`. -/
theorem circ_short {n t : ℕ} {x y : Fin T → ℝ} (hx : ∀ u, N ≤ u → zpad x u = 0) (hN : N ≤ n) (ht : t + N ≤ n) :
    circ n x y t = ∑ u ∈ Finset.range N, zpad x u * zpad y (u + t) := by
  unfold circ
  rw [← Finset.sum_subset (Finset.range_subset_range.2 hN)]
  · refine Finset.sum_congr rfl fun u hu => ?_
    rw [Finset.mem_range] at hu
    rw [Nat.mod_eq_of_lt (by omega)]
  · intro u _ hu
    rw [Finset.mem_range, not_lt] at hu
    rw [hx u hu, zero_mul]

theorem circ_size {n n' t : ℕ} {x y : Fin T → ℝ} (hx : ∀ u, N ≤ u → zpad x u = 0) (hN : N ≤ n) (ht : t + N ≤ n)
    (hn : n ≤ n') : circ n' x y t = circ n x y t := by
  rw [circ_short hx hN ht, circ_short hx (by omega) (by omega)]

theorem prep_short (hz : o'.zeroMean = false) (hT : N ≤ T) (ref : Sig s r N) (m : BIdx s) (k : Fin r) (u : ℕ)
    (hu : N ≤ u) : zpad (prep o' (extended o.zeroMean T ref) m k) u = 0 := by
  rw [zpad_prep hz hT, zpad_of_le _ hu]

section size

variable {n n' K : ℕ} {ref : Sig s r T} {est : Sig s e T}
  (hx : ∀ m k u, N ≤ u → zpad (prep o ref m k) u = 0) (hNn : N ≤ n) (hTn : T ≤ n) (hn0 : n ≠ 0) (hnn : n ≤ n')
  (hK : o.filterLength = K) (hfit : K + N ≤ n + 1) (hKn : K ≤ n) (hL : 2 ≤ K)
include hx hNn hTn hn0 hnn hK hfit hKn hL

theorem sdrAcf_size : sdrAcf o n' ref = sdrAcf o n ref := by
  funext m k
  have F : Fam T T K n _ _ := fam_cshift hn0 hKn
  have F' : Fam T T K n' _ _ := fam_cshift (by omega) (by omega)
  have l1 := length_sdrAcf (o := o) F' (by omega) (by omega) ref m k
  have l2 := length_sdrAcf (o := o) F (by omega) (by omega) ref m k
  refine List.ext_getElem (by rw [l1, l2]) fun t ht ht' => ?_
  rw [← List.getD_eq_getElem _ 0 ht, ← List.getD_eq_getElem _ 0 ht']
  rw [l1] at ht
  rw [sdrAcf_get F' (by omega) (by omega) _ _ _ _ ht, sdrAcf_get F (by omega) (by omega) _ _ _ _ ht,
    circ_size (hx m k) hNn (by omega) hnn]

theorem sdrXcorr_size (m : BIdx s) (k : Fin r) (j : Fin e) :
    vec K (sdrXcorr o n' ref est m k j) = vec K (sdrXcorr o n ref est m k j) := by
  funext t
  unfold vec sdrXcorr
  rw [xcorr1_get n _ (by omega) _ _ _ (by omega) (by omega),
    xcorr1_get n' _ (by omega) _ _ _ (by omega) (by omega), circ_size (hx m k) hNn (by omega) hnn]

theorem bssAcf_size (m : BIdx s) :
    SignedLists K (fun _ => 1) (Equiv.refl (Fin r)) (bssAcf o n' ref m) (bssAcf o n ref m) := by
  have F : Fam T T K n _ _ := fam_cshift hn0 hKn
  have F' : Fam T T K n' _ _ := fam_cshift (by omega) (by omega)
  refine ⟨fun k l => length_bssAcf F' (by omega) (by omega) ref m k l,
    fun k l => length_bssAcf F (by omega) (by omega) ref m k l, fun k l t ht => ?_, fun k l t h0 ht => ?_⟩
  · rw [bssAcf_get F' (by omega) (by omega) _ _ _ _ _ ht, bssAcf_get F (by omega) (by omega) _ _ _ _ _ ht,
      circ_size (hx m l) hNn (by omega) hnn, one_mul, one_mul]
    rfl
  · rw [bssAcf_get_neg F' (by omega) (by omega) (by omega) _ _ _ _ _ h0 ht,
      bssAcf_get_neg F (by omega) (by omega) (by omega) _ _ _ _ _ h0 ht, circ_size (hx m k) hNn (by omega) hnn]
    simp

theorem bssAcfSdr_size : bssAcfSdr o n' ref = bssAcfSdr o n ref := by
  have F : Fam T T K n _ _ := fam_cshift hn0 hKn
  have F' : Fam T T K n' _ _ := fam_cshift (by omega) (by omega)
  funext m k
  rw [bssAcfSdr_eq_sdrAcf F (by omega) (by omega) (by omega), bssAcfSdr_eq_sdrAcf F' (by omega) (by omega) (by omega),
    sdrAcf_size hx hNn hTn hn0 hnn hK hfit hKn hL]

end size

theorem solAll_err {cg : Option ℕ} {K : ℕ} (hK : 2 ≤ K) {acf : BIdx s → Fin r → Fin r → List ℝ}
    (hlen : ∀ i k l, (acf i k l).length = K + K) {xc x0 : BIdx s → Fin e → Fin K × Fin r → ℝ} {err}
    (h : solAll B cg K acf xc x0 = .error err) : err = .linAlgError := by
  unfold solAll at h
  cases cg with
  | none =>
    simp only at h
    rw [blockToeplitz_ok hK _ (fun i k l => by rw [hlen]; omega)] at h
    exact solveStack_err h
  | some it =>
    simp only [blockCg] at h
    split at h
    · cases h; rfl
    · cases h

theorem signed_one {K : ℕ} (v : Fin K × Fin r → ℝ) :
    signed (fun _ => (1 : ℝ) * 1) (chan K (Equiv.refl (Fin r))) v = v := by
  funext p
  show 1 * 1 * v _ = _
  rw [one_mul, one_mul]
  rfl

/-- The lists matter only at the lags that are used. -/
theorem solAll_congr (hB : Covered B) (cg : Option ℕ) {K : ℕ} (hK : 2 ≤ K) {acf acf' : BIdx s → Fin r → Fin r → List ℝ}
    (ha : ∀ i, SignedLists K (fun _ => 1) (Equiv.refl (Fin r)) (acf' i) (acf i))
    (xc x0 : BIdx s → Fin e → Fin K × Fin r → ℝ) : solAll B cg K acf' xc x0 = solAll B cg K acf xc x0 := by
  have key : ∀ {acf acf' : BIdx s → Fin r → Fin r → List ℝ},
      (∀ i, SignedLists K (fun _ => 1) (Equiv.refl (Fin r)) (acf' i) (acf i)) → ∀ {sol},
      solAll B cg K acf xc x0 = .ok sol → solAll B cg K acf' xc x0 = .ok sol := by
    intro acf acf' ha sol h
    have := solAll_map hB cg hK (μ := id) (π := fun _ => Equiv.refl (Fin r)) (σ := fun _ => id) (α := fun _ _ => 1)
      (β := fun _ _ => 1) (acf := acf) (acf' := acf') (xc' := xc) (x0' := x0) (xc := xc) (x0 := x0)
      (fun _ _ => one_mul 1) (fun _ _ => one_mul 1) ha
      (fun i => (ha i).len) (fun i j => (signed_one _).symm) (fun _ i j => (signed_one _).symm) h
    rw [this]
    congr 1
    funext i j
    exact signed_one _
  have hsymm : ∀ i, SignedLists K (fun _ => 1) (Equiv.refl (Fin r)) (acf i) (acf' i) := fun i =>
    ⟨(ha i).len, (ha i).len', fun k l t ht => by have := (ha i).get k l t ht; simp at this ⊢; exact this.symm,
      fun k l t h0 ht => by have := (ha i).get_neg k l t h0 ht; simp at this ⊢; exact this.symm⟩
  cases h : solAll B cg K acf xc x0 with
  | ok sol => exact key ha h
  | error err =>
    cases h' : solAll B cg K acf' xc x0 with
    | ok sol => rw [key hsymm h'] at h; cases h
    | error err' => rw [solAll_err hK (fun i => (ha i).len) h, solAll_err hK (fun i => (ha i).len') h']

end FBE
