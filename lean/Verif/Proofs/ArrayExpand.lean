import Verif.Proofs.ArrayItem
import Verif.Proofs.ArrayReject
import Verif.Spec.Expand

/-!
# `sdr_loss(pairwise=False)` on arrays when references are expanded
-/

set_option linter.unusedSectionVars false

namespace FBE

open Classical Matrix Spec Tensor

namespace Arrays

variable {A : Api} {s a b : List ℕ} {c N M K n : ℕ} {o : Opts} {ref est : Tensor ℝ}

theorem solveVec_bc (err : PyErr) {sa sb : List ℕ} {F : List ℕ → Matrix (Fin n) (Fin n) ℝ} {g : List ℕ → List ℝ}
    (hb : bcShape sa sb = some sb) :
    Tensor.solveVec err (Mx sa n F) (L1 sb n g) =
      if ∃ i, InRange sb i ∧ (F (bcIdx sa i)).det = 0 then .error .linAlgError
      else .ok (L1 sb n fun i => List.ofFn ((F (bcIdx sa i))⁻¹ *ᵥ vec n (g i))) := by
  unfold Tensor.solveVec
  rw [unsqueeze_L1, solveMat_eq err hb]
  split_ifs with h
  · rfl
  · show (L2 sb n 1 _).select 0 0 = _
    rw [select_L2]
    refine congrArg _ (L1_congr fun i hi => ?_)
    rw [bcIdx_self hi]

theorem toeplitzCg_vec_bc {ba bl : List ℕ} {f : List ℕ → List ℝ} (hA : A.Lawful) (hB : Covered A.B) (hn : 0 < n)
    (hf : ∀ i, (f i).length = n) (hlen : bl.length = ba.length) (hb : bcShape ba bl = some bl)
    {g : List ℕ → List ℝ} (hg : ∀ i, (g i).length = n) (it : ℕ) :
    Arrays.toeplitzCg A (L1 ba n f) (L1 bl n g) (some (it : ℤ)) =
      .ok (L1 bl n fun i => List.ofFn (FBE.toeplitzCg A.B n (f (bcIdx ba i)) (vec n (g i)) it)) := by
  obtain ⟨P, hP, hPm⟩ := circPrecond_eq (ba := ba) hA hn hf
  obtain ⟨F, hF, hFs, hFm⟩ := symToeplitzOp_eq' (ba := ba) hA hB hn hf
  have hL : L1 bl n g = L1 bl n fun i => List.ofFn (vec n (g i)) := by
    refine L1_congr fun i _ => ?_
    rw [← list_of_getD (hg i), map_range_eq_ofFn]
    congr 1
    funext t
    show _ = (List.ofFn _).getD t.val 0
    rw [getD_ofFn' _ t.isLt]
  simp only [Arrays.toeplitzCg]
  rw [hP, ok_bind, hF, ok_bind, hL, conjugateGradient_vec (hFm _ _ hlen hb) (hPm _ _ hlen hb)
    (by rw [hFs]; simp [hlen]) (by rw [hFs]; rfl)]
  rfl

/-- Direct solvers that take vectors for every matrix by the number of axes. -/
theorem expands_solve (hA : ExpandsMatrices A) {X y : Tensor ℝ} (h : y.shape.length = X.shape.length - 1) :
    A.solve X y = Tensor.solveVec A.err X y := by
  obtain rfl | ⟨lsa, -, rfl⟩ := hA
  · show compatSolve X y = _
    unfold compatSolve
    rw [if_pos h]
    rfl
  · show solveNumpy false X y = _
    unfold solveNumpy
    rw [if_pos (by simpa using h)]
    rfl

theorem expands_installed (hA : ExpandsMatrices A) : Installed A := by
  obtain rfl | ⟨lsa, h, rfl⟩ := hA
  · exact .inr (.inl rfl)
  · exact .inr (.inr ⟨lsa, false, h, rfl⟩)

theorem expands_vectors (hA : ExpandsMatrices A) : A.B.stackedVectors = true := by
  obtain rfl | ⟨lsa, h, rfl⟩ := hA <;> rfl

theorem solveOne_expand (hA : A.Lawful) (hB : Covered A.B) (hK : 0 < K) {cg : Option ℕ}
    (hcg : cg ≠ none ∨ ExpandsMatrices A) {f g : List ℕ → List ℝ}
    (hf : ∀ i, (f i).length = K) (hg : ∀ i, (g i).length = K) (hlen : (c :: s.reverse).length = a.length)
    (hb : bcShape a (c :: s.reverse) = some (c :: s.reverse)) {acf : BIdx s → Fin c → List ℝ}
    {xc : BIdx s → Fin c → Fin K → ℝ} (hacf : ∀ m (k : Fin c), acf m k = f (bcIdx a (k.val :: pos m)))
    (hxc : ∀ m (k : Fin c), xc m k = vec K (g (k.val :: pos m))) :
    Matches IsSol1 (solveOne A (cg.map fun it : ℕ => (it : ℤ)) (L1 a K f) (L1 (c :: s.reverse) K g))
      (solDiag A.B cg K acf xc) := by
  cases cg with
  | none =>
    have hE := hcg.resolve_left (by simp)
    simp only [solveOne, Option.map_none, solDiag, solveVecs]
    rw [toeplitz_eq hB hK hf, ok_bind, expands_solve hE (by simp [L1_shape, Mx_shape]; simpa using hlen),
      solveVec_bc _ hb, expands_vectors hE]
    have h1 : (∃ i, InRange (c :: s.reverse) i ∧ (FBE.toeplitz A.B K (f (bcIdx a i))).det = 0) ↔
        ∃ i : BIdx s × Fin c, (FBE.toeplitz A.B K (acf i.1 i.2)).det = 0 := by
      constructor
      · rintro ⟨i, hi, h⟩
        obtain ⟨m, k, rfl⟩ := exists_row hi
        exact ⟨(m, k), by rw [hacf]; exact h⟩
      · rintro ⟨⟨m, k⟩, h⟩
        exact ⟨k.val :: pos m, row_inRange m k, by rw [← hacf]; exact h⟩
    simp only [solveStack, h1, if_true]
    split_ifs with h
    · exact .inr rfl
    · refine same_ok rfl ⟨fun i => (FBE.toeplitz A.B K (f (bcIdx a i)))⁻¹ *ᵥ vec K (g i), rfl, fun m k => ?_⟩
      show _ = (FBE.toeplitz A.B K (acf m k))⁻¹ *ᵥ xc m k
      rw [hacf, hxc]
  | some it =>
    simp only [solveOne, Option.map_some, solDiag]
    refine same_ok (toeplitzCg_vec_bc hA hB hK hf hlen hb hg it) ⟨_, rfl, fun m k => ?_⟩
    show FBE.toeplitzCg A.B K (f (bcIdx a (k.val :: pos m))) (vec K (g (k.val :: pos m))) it = _
    rw [← hacf, ← hxc]

theorem sdrCohDiagGen_expand (hA : A.Lawful) (hB : Covered A.B) (href : ref.shape = N :: a)
    (hest : est.shape = M :: b) (hb : bcShape a b = some (c :: s.reverse)) (hlen : (c :: s.reverse).length = a.length)
    (hcg : o.useCgIter ≠ none ∨ ExpandsMatrices A) (hL : 0 < o.filterLength)
    {len : Option ℤ} (hlen' : IsLength o N len) :
    Matches Holds1 (sdrLossGen A { o.args with filterLength := len } false ref est)
      (sdrCohDiagGen A.B o (channels ref a s c N) (channels est b s c M)) := by
  simp only [sdrLossGen, Opts.args]
  rw [prepare_eq hest, ok_bind, prepare_eq href, ok_bind, hlen'.stats (L1_shape _ _ _)]
  cases hn : nFft N M with
  | error err =>
    rw [computeStats_error rfl rfl hn]
    unfold sdrCohDiagGen
    rw [hn]
    exact .inr rfl
  | ok n =>
    have hn0 := nFft_pos' hn
    have hK : 0 < min o.filterLength n := by omega
    have hl : ∀ i, (acf1 n o.filterLength (List.ofFn (preprocess o.zeroMean (row ref N i)))).length =
        min o.filterLength n := fun i => length_acf1 _ _ _
    rw [computeStats_diag hA hb (fun i => by simp) (fun i => by simp) hn, ok_bind]
    dsimp only
    rw [loadFirst_eq hK hl, ok_bind, sdrCohDiagGen_unfold hn rfl]
    have hxc : ∀ m (k : Fin c),
        vec (min o.filterLength n) (sdrXcorr o n (channels ref a s c N) (channels est b s c M) m k k) =
        vec (min o.filterLength n) (xcorr1 n o.filterLength
          (List.ofFn (preprocess o.zeroMean (row ref N (bcIdx a (k.val :: pos m)))))
          (List.ofFn (preprocess o.zeroMean (row est M (bcIdx b (k.val :: pos m)))))) := fun m k => rfl
    have h1 := solveOne_expand (c := c) (s := s) (a := a) hA hB hK hcg
      (f := fun i => addHead o.loadDiag (acf1 n o.filterLength (List.ofFn (preprocess o.zeroMean (row ref N i)))))
      (g := fun i => xcorr1 n o.filterLength
          (List.ofFn (preprocess o.zeroMean (row ref N (bcIdx a i))))
          (List.ofFn (preprocess o.zeroMean (row est M (bcIdx b i)))))
      (fun i => by rw [length_addHead, hl]) (fun i => length_xcorr1 _ _ _ _) hlen (bcShape_absorb hb)
      (acf := sdrAcf o n (channels ref a s c N))
      (xc := fun m k => vec (min o.filterLength n) (sdrXcorr o n (channels ref a s c N) (channels est b s c M) m k k))
      (fun m k => rfl) hxc
    cases hs : solDiag A.B o.useCgIter (min o.filterLength n) (sdrAcf o n (channels ref a s c N))
      (fun m k => vec (min o.filterLength n)
        (sdrXcorr o n (channels ref a s c N) (channels est b s c M) m k k)) with
    | error err =>
      rw [hs] at h1
      refine h1.imp id fun h1 => ?_
      rw [h1]
      rfl
    | ok sol =>
      rw [hs] at h1
      obtain ⟨t, ht, hR⟩ := h1
      rw [ht, ok_bind]
      exact coherence_holds1 hR hxc

theorem lengthOneSdr_expand (href : ref.shape = N :: a) (hest : est.shape = M :: b)
    (hb : bcShape a b = some (c :: s.reverse)) :
    Matches Holds1 (do
      let ref ← prepare A o.zeroMean ref
      let est ← prepare A o.zeroMean est
      lengthOneSdr A false ref est)
      ((sameLength A.B N (channels est b s c M)).map (cohSdrOneDiag o (channels ref a s c N))) := by
  rw [prepare_eq href, ok_bind, prepare_eq hest, ok_bind]
  unfold sameLength
  split_ifs with h h1
  · subst h
    simp only [lengthOneSdr, Bool.false_eq_true, if_false]
    rw [einsum_n _ rfl rfl hb, ok_bind]
    refine same_ok rfl (holds1_map (s := s) (c := c)
      (v := fun m k => dot (prep o (channels ref a s c M) m k) (prep o (channels est b s c M) m k))
      ⟨rfl, fun m k => ?_⟩ (· ^ 2))
    rw [tab_get (row_inRange m k), sum_range_fin]
    refine Finset.sum_congr rfl fun t _ => ?_
    rw [L1_row_get t (bcIdx_range_left hb (row_inRange m k)), L1_row_get t (bcIdx_range_right hb (row_inRange m k))]
    rfl
  · exact .inl rfl
  · refine .inr ?_
    simp only [lengthOneSdr, Bool.false_eq_true, if_false]
    rw [einsum_n_err A.err rfl rfl (fun h' => h h'.symm) (fun h' => h1 (.inr h')) (fun h' => h1 (.inl h'))]
    rfl

theorem sdrLoss_expand (hA : A.Lawful) (hB : Covered A.B) (href : ref.shape = N :: a)
    (hest : est.shape = M :: b) (hb : bcShape a b = some (c :: s.reverse))
    (hx : o.filterLength = 1 ∨ a.length = s.length + 1 ∧ (o.useCgIter ≠ none ∨ ExpandsMatrices A)) :
    Matches Holds1 (Arrays.sdrLoss A o.args false est ref)
      (FBE.sdrLossDiag A.B o (channels est b s c M) (channels ref a s c N)) := by
  rw [sdrLossDiag_eq_map]
  unfold sdrCohDiag
  split_ifs with h0 h1
  · exact .inl rfl
  · rw [sdrLoss_one A (by simp [Opts.args, h1])]
    exact matches_map1 (lengthOneSdr_expand href hest hb)
  · rw [sdrLoss_gen A (by simpa [Opts.args] using h1)]
    have hx := hx.resolve_left h1
    exact matches_map1 (sdrCohDiagGen_expand hA hB href hest hb (by simp [hx.1]) hx.2 (by omega) (.inl rfl))

theorem sdrLoss_expand_none (hA : A.Lawful) (hB : Covered A.B) (href : ref.shape = N :: a)
    (hest : est.shape = M :: b) (hb : bcShape a b = some (c :: s.reverse)) (hN : 0 < N)
    (hx : a.length = s.length + 1) (hcg : o.useCgIter ≠ none ∨ ExpandsMatrices A) :
    Matches Holds1 (Arrays.sdrLoss A { o.args with filterLength := none } false est ref)
      (FBE.sdrLossDiagNone A.B o (channels est b s c M) (channels ref a s c N)) := by
  have h1 : FBE.sdrLossDiagNone A.B o (channels est b s c M) (channels ref a s c N) =
      (sdrCohDiagGen A.B (o.atLength N) (channels ref a s c N) (channels est b s c M)).map
        fun coh m k => coherenceToNegSdr o.clampDb (.fin (coh m k)) := by
    unfold FBE.sdrLossDiagNone
    cases sdrCohDiagGen A.B (o.atLength N) (channels ref a s c N) (channels est b s c M) <;> rfl
  rw [h1, sdrLoss_gen A (by simp)]
  exact matches_map1 (sdrCohDiagGen_expand (o := o.atLength N) hA hB href hest hb (by simp [hx]) hcg hN (.inr ⟨rfl, rfl⟩))

/-! ### one reference -/

/-- One reference repeated, compared channel by channel, or with every estimate. -/
theorem sdrLossDiag_one {B : Backend} (hc : 0 < c) (hv : TakesVectors B o) (ref : Sig s 1 N) (est : Sig s c M) :
    sdrLossDiag B o est (fun m _ => ref m 0) = (sdrLossPair B o est ref).map fun V m k => V m 0 k := by
  rw [sdrLossDiag_eq_map, sdrLossPair_eq_map]
  suffices h : sdrCohDiag B o (fun m _ => ref m 0) est = (sdrCohPair B o ref est).map fun V m k => V m 0 k by
    rw [h]
    cases sdrCohPair B o ref est <;> rfl
  unfold sdrCohDiag sdrCohPair
  split_ifs with h0 h1
  · rfl
  · cases sameLength B N est <;> rfl
  · cases hn : nFft N M with
    | error err =>
      unfold sdrCohDiagGen sdrCohPairGen
      rw [hn]
      rfl
    | ok n =>
      rw [sdrCohDiagGen_unfold hn rfl, sdrCohPairGen_unfold hn rfl]
      cases hcg : o.useCgIter with
      | some it => rfl
      | none =>
        have hs : B.stackedVectors = true := by
          obtain h | h | h := hv
          · exact absurd h h1
          · exact absurd hcg h
          · exact h
        have hd : (∃ i : BIdx s × Fin c, (FBE.toeplitz B (min o.filterLength n)
              (sdrAcf o n (fun m (_ : Fin c) => ref m 0) i.1 i.2)).det = 0) ↔
            ∃ i : BIdx s × Fin 1, (FBE.toeplitz B (min o.filterLength n) (sdrAcf o n ref i.1 i.2)).det = 0 := by
          constructor
          · rintro ⟨⟨m, k⟩, h⟩
            exact ⟨(m, 0), h⟩
          · rintro ⟨⟨m, k⟩, h⟩
            obtain rfl := Subsingleton.elim k 0
            exact ⟨(m, ⟨0, hc⟩), h⟩
        simp only [solDiag, solOne, solveVecs, solveStack, hs, if_true, hd]
        split_ifs with h
        · rfl
        · rfl

/-- The array repeated. -/
theorem signals_repeated (x : Tensor ℝ) :
    signals (repeated x a (c :: s.reverse) N) s.reverse s c N = channels x a s c N := by
  funext m k t
  show x.get (t.val :: bcIdx a (k.val :: bcIdx s.reverse (pos m))) = x.get (t.val :: bcIdx a (k.val :: pos m))
  rw [bcIdx_self (pos_inRange m)]

/-! ### rejected by the direct solver -/

theorem sdrLoss_expand_torch {f : List ℕ} (href : ref.shape = N :: a) (hest : est.shape = M :: b)
    (hb : bcShape a b = some (c :: f)) (hn : nFft N M = .ok n) (hL : 0 < o.filterLength) {len : Option ℤ}
    (hlen : IsLength o N len) (h1 : len ≠ some 1) (hcg : o.useCgIter = none) (ha : a ≠ c :: f)
    (hc : c ≠ min o.filterLength n) :
    sdrLoss torchApi { o.args with filterLength := len } false est ref = .error .runtimeError := by
  have hn0 := nFft_pos' hn
  have hI : Installed torchApi := .inl rfl
  obtain ⟨f, g, hf, h⟩ := sdrLossGen_diag_tail (o := o) hI.lawful href hest hb hL hlen hn
  rw [sdrLoss_gen _ h1, h, hcg]
  simp only [solveOne, Option.map_none]
  rw [toeplitz_eq hI.covered (by omega) hf, ok_bind]
  show solveTorch _ _ >>= _ >>= _ = _
  unfold solveTorch
  rw [if_neg (by simp [L1_shape, Mx_shape]; exact fun _ h => absurd h.symm ha), solveMat_size (Mx_shape _ _ _) (L1_shape _ _ _) hc]
  rfl

theorem sdrLoss_expand_numpy2 {f : List ℕ} {lsa : Lsa} (hlsa : LsaCorrect lsa) (href : ref.shape = N :: a)
    (hest : est.shape = M :: b)
    (hb : bcShape a b = some (c :: f)) (hn : nFft N M = .ok n) (hL : 0 < o.filterLength) {len : Option ℤ}
    (hlen : IsLength o N len) (h1 : len ≠ some 1) (hcg : o.useCgIter = none)
    (hc : c ≠ min o.filterLength n) :
    sdrLoss (numpyApi lsa true) { o.args with filterLength := len } false est ref = .error .valueError := by
  have hn0 := nFft_pos' hn
  have hI : Installed (numpyApi lsa true) := .inr (.inr ⟨lsa, true, hlsa, rfl⟩)
  obtain ⟨f, g, hf, h⟩ := sdrLossGen_diag_tail (o := o) hI.lawful href hest hb hL hlen hn
  rw [sdrLoss_gen _ h1, h, hcg]
  simp only [solveOne, Option.map_none]
  rw [toeplitz_eq hI.covered (by omega) hf, ok_bind]
  rw [show (numpyApi lsa true).solve = solveNumpy true from rfl]
  unfold solveNumpy
  rw [if_neg (by simp [L1_shape]), solveMat_size (Mx_shape _ _ _) (L1_shape _ _ _) hc]
  rfl

/-! ### as many estimates as taps -/

theorem L1_cons_eq_L2 {bl : List ℕ} {g : List ℕ → List ℝ} :
    L1 (c :: bl) K g = L2 bl c K fun i j => List.ofFn fun k : Fin c => (g (k.val :: i)).getD j 0 := by
  refine tab_congr (s := K :: c :: bl) fun i hi => ?_
  obtain ⟨t, i, rfl, ht, hi⟩ := inRange_cons_inv hi
  obtain ⟨k, i, rfl, hk, hi⟩ := inRange_cons_inv hi
  show (g (k :: i)).getD t 0 = (List.ofFn _).getD k 0
  rw [getD_ofFn' _ hk]
  rfl

theorem sdrLoss_confused (href : ref.shape = [N, 1]) (hest : est.shape = [M, c]) (hn : nFft N M = .ok n)
    (hL : 0 < o.filterLength) (hc1 : c ≠ 1) (h1 : o.filterLength ≠ 1) (hcg : o.useCgIter = none)
    (hc : c = min o.filterLength n) {V : BIdx [] → Fin 1 → Fin c → XR}
    (hV : sdrLossPair torchBackend o (signals est [] [] c M) (signals ref [] [] 1 N) = .ok V) :
    ∃ T, sdrLoss torchApi o.args false est ref = .ok T ∧ T.shape = [c, 1] := by
  have hn0 := nFft_pos' hn
  have hI : Installed torchApi := .inl rfl
  have hb : bcShape [1] [c] = some [c] := by simp [bcShape, Ne.symm hc1]
  have hK : 0 < min o.filterLength n := by omega
  have hl : ∀ i, (acf1 n o.filterLength (List.ofFn (preprocess o.zeroMean (row ref N i)))).length =
      min o.filterLength n := fun i => length_acf1 _ _ _
  have hd : ¬ ∃ i : List ℕ, InRange [1] i ∧ (FBE.toeplitz torchBackend (min o.filterLength n)
      (addHead o.loadDiag (acf1 n o.filterLength (List.ofFn (preprocess o.zeroMean (row ref N i)))))).det = 0 := by
    rw [sdrLossPair_eq_map] at hV
    unfold sdrCohPair at hV
    rw [if_neg (by omega), if_neg h1, sdrCohPairGen_unfold hn rfl, hcg] at hV
    simp only [solOne, solveStack] at hV
    split_ifs at hV with h
    · cases hV
    · rintro ⟨i, hi, h0⟩
      obtain ⟨m, k, rfl⟩ := exists_row (s := []) hi
      exact h ⟨(m, k), h0⟩
  rw [sdrLoss_gen _ (by simpa [Opts.args] using h1)]
  simp only [sdrLossGen, Opts.args]
  rw [prepare_eq hest, ok_bind, prepare_eq href, ok_bind,
    computeStats_diag hI.lawful hb (fun i => by simp) (fun i => by simp) hn, ok_bind]
  dsimp only
  rw [loadFirst_eq hK hl, ok_bind, hcg]
  simp only [solveOne, Option.map_none]
  rw [toeplitz_eq hI.covered hK (fun i => by rw [length_addHead, hl]), ok_bind, show torchApi.solve = solveTorch from rfl]
  unfold solveTorch
  change ¬ ∃ i : List ℕ, InRange [1] i ∧ (FBE.toeplitz torchApi.B (min o.filterLength n) (addHead o.loadDiag _)).det = 0 at hd
  generalize min o.filterLength n = K at *
  subst hc
  rw [if_neg (by simp [L1_shape, Mx_shape]; exact hc1), L1_cons_eq_L2, solveMat_eq _ (bcShape_nil_right _),
    if_neg (fun ⟨i, hi, h⟩ => hd ⟨i, hi, by rw [bcIdx_self hi] at h; exact h⟩), ok_bind]
  simp only [coherence, Bool.false_eq_true, if_false]
  rw [einsum_l _ (L2_shape _ _ _ _) (L2_shape _ _ _ _) (b := [c, 1]) (by simp [bcShape]), ok_bind]
  exact ⟨_, rfl, rfl⟩

end Arrays

end FBE
