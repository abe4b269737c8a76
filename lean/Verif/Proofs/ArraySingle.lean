import Verif.Proofs.ArrayReject

/-!
# Arrays with one axis: a single signal
-/

set_option linter.unusedSectionVars false

namespace FBE

open Classical Matrix Spec Tensor

namespace Arrays

variable {A : Api} {N M K : ℕ} {o : Opts} {ref est : Tensor ℝ}

/-- All installations solve for a vector. -/
theorem solve_vector (hA : Installed A) {R b : Tensor ℝ} {n m : ℕ} (hR : R.shape = [n, n]) (hb : b.shape = [m]) :
    A.solve R b = Tensor.solveVec A.err R b := by
  rcases hA with rfl | rfl | ⟨lsa, n2, -, rfl⟩
  · exact if_pos (Or.inl (by rw [hb]; rfl))
  · exact if_pos (by rw [hb, hR]; rfl)
  · refine if_pos ?_
    rw [hb, hR]
    cases n2 <;> simp

/-- A number, held by an array without axes. -/
def Holds0 {α : Type} (t : Tensor α) (v : BIdx [] → Fin 1 → Fin 1 → α) : Prop :=
  t.shape = [] ∧ t.get [] = v () 0 0

/-- The solution for one signal. -/
def IsSol0 (t : Tensor ℝ) (v : BIdx [] × Fin 1 → Fin 1 → Fin K → ℝ) : Prop :=
  t = L1 [] K fun _ => List.ofFn (v ((), 0) 0)

theorem solveOne_single (hA : Installed A) (hK : 0 < K) (cg : Option ℕ) {f g : List ℕ → List ℝ}
    (hf : ∀ i, (f i).length = K) (hg : ∀ i, (g i).length = K) {acf : BIdx [] → Fin 1 → List ℝ}
    {xc : BIdx [] → Fin 1 → Fin 1 → Fin K → ℝ} (hacf : ∀ m k, acf m k = f [])
    (hxc : ∀ m k j, xc m k j = vec K (g [])) :
    Matches IsSol0 (solveOne A (cg.map fun it : ℕ => (it : ℤ)) (L1 [] K f) (L1 [] K g))
      (solOne A.B cg K acf xc) := by
  cases cg with
  | none =>
    simp only [solveOne, Option.map_none, solOne]
    rw [toeplitz_eq hA.covered hK hf, ok_bind, solve_vector hA rfl rfl, solveVec_eq]
    have h1 : (∃ i, InRange [] i ∧ (FBE.toeplitz A.B K (f i)).det = 0) ↔
        ∃ i : BIdx [] × Fin 1, (FBE.toeplitz A.B K (acf i.1 i.2)).det = 0 := by
      constructor
      · rintro ⟨i, hi, h⟩
        cases i with
        | nil => exact ⟨((), 0), by rw [hacf]; exact h⟩
        | cons => exact absurd hi id
      · rintro ⟨⟨m, k⟩, h⟩
        exact ⟨[], trivial, by rw [← hacf m k]; exact h⟩
    simp only [solveStack, h1]
    split_ifs with h
    · exact .inr rfl
    · refine same_ok rfl ?_
      refine L1_congr fun i hi => ?_
      cases i with
      | nil =>
        show List.ofFn ((FBE.toeplitz A.B K (f []))⁻¹ *ᵥ vec K (g [])) =
          List.ofFn ((FBE.toeplitz A.B K (acf () 0))⁻¹ *ᵥ xc () 0 0)
        rw [hacf () 0, hxc () 0 0]
      | cons => exact absurd hi id
  | some it =>
    simp only [solveOne, Option.map_some, solOne]
    refine same_ok (toeplitzCg_vec hA.lawful hA.covered hK hf hg it) ?_
    refine L1_congr fun i hi => ?_
    cases i with
    | nil =>
      show List.ofFn (FBE.toeplitzCg A.B K (f []) (vec K (g [])) it) =
        List.ofFn (FBE.toeplitzCg A.B K (acf () 0) (xc () 0 0) it)
      rw [hacf () 0, hxc () 0 0]
    | cons => exact absurd hi id

/-- The signal of an array with one axis. -/
def oneSignal (x : Tensor ℝ) (n : ℕ) : Sig [] 1 n := fun _ _ t => x.get [t.val]

theorem sdrCohGen_single (hA : Installed A) (href : ref.shape = [N]) (hest : est.shape = [M])
    (hL : 0 < o.filterLength) {len : Option ℤ} (hlen : IsLength o N len) :
    Matches Holds0 (sdrLossGen A { o.args with filterLength := len } false ref est)
      (sdrCohPairGen A.B o (oneSignal ref N) (oneSignal est M)) := by
  simp only [sdrLossGen, Opts.args]
  rw [prepare_eq hest, ok_bind, prepare_eq href, ok_bind, hlen.stats (L1_shape _ _ _)]
  cases hn : nFft N M with
  | error err =>
    rw [computeStats_error rfl rfl hn]
    unfold sdrCohPairGen
    rw [hn]
    exact .inr rfl
  | ok n =>
    have hn0 := nFft_pos' hn
    have hK : 0 < min o.filterLength n := by omega
    have hl : ∀ i, (acf1 n o.filterLength (List.ofFn (preprocess o.zeroMean (row ref N i)))).length =
        min o.filterLength n := fun i => length_acf1 _ _ _
    rw [computeStats_diag (b := []) hA.lawful rfl (fun i => by simp) (fun i => by simp) hn, ok_bind]
    dsimp only
    rw [loadFirst_eq hK hl, ok_bind, sdrCohPairGen_unfold hn rfl]
    have h1 := solveOne_single hA hK o.useCgIter
      (f := fun i => addHead o.loadDiag (acf1 n o.filterLength (List.ofFn (preprocess o.zeroMean (row ref N i)))))
      (g := fun i => xcorr1 n o.filterLength
          (List.ofFn (preprocess o.zeroMean (row ref N (bcIdx [] i))))
          (List.ofFn (preprocess o.zeroMean (row est M (bcIdx [] i)))))
      (fun i => by rw [length_addHead, hl]) (fun i => length_xcorr1 _ _ _ _)
      (acf := sdrAcf o n (oneSignal ref N))
      (xc := fun m k j => vec (min o.filterLength n) (sdrXcorr o n (oneSignal ref N) (oneSignal est M) m k j))
      (fun m k => rfl) (fun m k j => rfl)
    cases hs : solOne A.B o.useCgIter (min o.filterLength n) (sdrAcf o n (oneSignal ref N))
      (fun m k j => vec (min o.filterLength n) (sdrXcorr o n (oneSignal ref N) (oneSignal est M) m k j)) with
    | error err =>
      rw [hs] at h1
      refine h1.imp id fun h1 => ?_
      rw [h1]
      rfl
    | ok sol =>
      rw [hs] at h1
      obtain ⟨t, ht, hR⟩ := h1
      rw [ht, ok_bind, hR]
      exact same_ok coherence_diag ⟨rfl, tab_get (s := []) (i := []) trivial⟩

theorem lengthOneSdr_single (href : ref.shape = [N]) (hest : est.shape = [M]) :
    Matches Holds0 (do
      let ref ← prepare A o.zeroMean ref
      let est ← prepare A o.zeroMean est
      lengthOneSdr A false ref est)
      ((sameLength A.B N (oneSignal est M)).map (cohSdrOnePair o (oneSignal ref N))) := by
  rw [prepare_eq href, ok_bind, prepare_eq hest, ok_bind]
  unfold sameLength
  split_ifs with h h1
  · subst h
    simp only [lengthOneSdr, Bool.false_eq_true, if_false]
    rw [einsum_n _ rfl rfl (show bcShape [] [] = some [] from rfl), ok_bind]
    refine same_ok rfl ⟨rfl, ?_⟩
    refine (tab_get (s := []) (i := []) trivial).trans ?_
    rw [tab_get (s := []) (i := []) trivial, sum_range_fin]
    refine congrArg (· ^ 2) (Finset.sum_congr rfl fun t _ => ?_)
    show (L1 [] M _).get (t.val :: []) * (L1 [] M _).get (t.val :: []) = _
    rw [L1_row_get (b := []) (i := []) t trivial, L1_row_get (b := []) (i := []) t trivial]
    rfl
  · exact .inl rfl
  · refine .inr ?_
    simp only [lengthOneSdr, Bool.false_eq_true, if_false]
    rw [einsum_n_err A.err rfl rfl (fun h' => h h'.symm) (fun h' => h1 (.inr h')) (fun h' => h1 (.inl h'))]
    rfl

theorem matches_map0 {clampDb : Option ℝ} {x : Except PyErr (Tensor ℝ)} {v : Except PyErr (BIdx [] → Fin 1 → Fin 1 → ℝ)}
    (h : Matches Holds0 x v) :
    Matches Holds0 (x >>= fun coh => .ok (coh.map fun c => coherenceToNegSdr clampDb (.fin c)))
      (v.map fun coh m k j => coherenceToNegSdr clampDb (.fin (coh m k j))) := by
  cases v with
  | error err => exact h.imp id fun h => by rw [h]; rfl
  | ok v =>
    obtain ⟨t, rfl, hs, hv⟩ := h
    refine same_ok rfl ⟨hs, ?_⟩
    show (tab t.shape fun i => coherenceToNegSdr clampDb (.fin (t.get i))).get [] = _
    rw [hs, tab_get (s := []) (i := []) trivial, hv]

theorem sdrLoss_single (hA : Installed A) (href : ref.shape = [N]) (hest : est.shape = [M]) :
    Matches Holds0 (Arrays.sdrLoss A o.args false est ref)
      (FBE.sdrLossPair A.B o (oneSignal est M) (oneSignal ref N)) := by
  rw [sdrLossPair_eq_map]
  unfold sdrCohPair
  split_ifs with h0 h1
  · exact .inl rfl
  · rw [sdrLoss_one A (by simp [Opts.args, h1])]
    exact matches_map0 (lengthOneSdr_single href hest)
  · rw [sdrLoss_gen A (by simpa [Opts.args] using h1)]
    exact matches_map0 (sdrCohGen_single hA href hest (by omega) (.inl rfl))

theorem signals_unsqueeze {x : Tensor ℝ} (hx : x.shape = [N]) :
    signals (x.unsqueeze 1) [] [] 1 N = oneSignal x N := by
  funext m k t
  have hk : k = 0 := Subsingleton.elim _ _
  subst hk
  unfold signals oneSignal unsqueeze
  rw [hx]
  exact tab_get (s := [N, 1]) ⟨t.isLt, Nat.one_pos, trivial⟩

/-! ### rejected -/

theorem einsum_few {α : Type} [Semiring α] (err : PyErr) {x y : Tensor α} (lo : List Char)
    (h : x.shape.length < 2 ∨ y.shape.length < 2) : Tensor.einsum err ['c', 'n'] ['d', 'n'] lo x y = .error err := by
  unfold Tensor.einsum
  exact if_pos h

variable {bx by' : List ℕ} {oa : AOpts}

theorem few_axes (h : bx = [] ∨ by' = []) : (N :: bx).length < 2 ∨ (M :: by').length < 2 := by
  rcases h with rfl | rfl <;> simp

theorem sdrLoss_few (hA : A.Lawful) (href : ref.shape = N :: bx) (hest : est.shape = M :: by') (h : bx = [] ∨ by' = [])
    (hN : 0 < N) : sdrLoss A oa true est ref = .error A.err := by
  simp only [sdrLoss]
  by_cases hL : oa.filterLength = some 1
  · rw [if_pos hL, prepare_eq href, ok_bind, prepare_eq hest, ok_bind]
    simp only [lengthOneSdr, if_true]
    rw [einsum_few _ _ (by rw [L1_shape, L1_shape]; exact few_axes h)]
    rfl
  · obtain ⟨n, hn⟩ := nFft_exists hN M
    have h0 := nFft_pos' hn
    rw [if_neg hL, prepare_eq hest, ok_bind, prepare_eq href, ok_bind]
    simp only [computeStats, size_one (L1_shape _ _ _), ok_bind, hn, if_true]
    rw [hA.rfft1 h0 (fun i => by simp), ok_bind, hA.rfft1 h0 (fun i => by simp), ok_bind,
      map_L1 _ (fun i => rfft_length n _), hA.irfftReal1 h0 (fun i => by simp), ok_bind,
      map_L1 _ (fun i => rfft_length n _), einsum_few _ _ (by rw [L1_shape, L1_shape]; exact few_axes h)]
    rfl

theorem squareCosine_few (hA : A.Lawful) {L : ℕ} (hL0 : 0 < L) (ho : oa.filterLength = some (L : ℤ))
    (href : ref.shape = N :: bx) (hest : est.shape = M :: by') (h : bx = [] ∨ by' = []) (hN : 0 < N) (pw : Bool) :
    squareCosine A oa pw ref est = .error A.err := by
  by_cases hL : oa.filterLength = some 1
  · simp only [squareCosine, if_pos hL]
    rw [prepare_eq href, ok_bind, prepare_eq hest, ok_bind]
    simp only [lengthOneBoth]
    rw [einsum_few _ _ (by rw [L1_shape, L1_shape]; exact few_axes h)]
    rfl
  · simp only [squareCosine, if_neg hL]
    obtain ⟨n, hn⟩ := nFft_exists hN M
    have h0 := nFft_pos' hn
    have hs : ∀ (l : List ℝ), l.length = n → (pySlice l (some (-(L : ℤ))) none).length = min L n := by
      intro l hl
      rw [pySlice_last _ _ hL0, List.length_drop, hl]; omega
    rw [prepare_eq hest, ok_bind, prepare_eq href, ok_bind]
    simp only [computeStats2, size_one (L1_shape _ _ _), ok_bind, hn, ho, Option.getD_some]
    rw [hA.rfft1 h0 (fun i => by simp), ok_bind, hA.rfft1 h0 (fun i => by simp), ok_bind,
      map_L1 _ (fun i => rfft_length n _)]
    cases bx with
    | nil =>
      rw [einsum_few _ _ (.inl (by rw [L1_shape]; simp))]
      rfl
    | cons r bx =>
      have h : by' = [] := by simpa using h
      subst h
      rw [einsum_ncd_L1 _ (bcShape_self bx) (fun i => rfft_length n _) (fun i => by simp), ok_bind,
        hA.irfft3 h0 (fun i k j => by simp), ok_bind, slice_L3 (fun i k j => irfft_length n _), ok_bind]
      unfold Tensor.slice
      rw [along_L3 hs (fun i k j => irfft_length n _), ok_bind,
        cat_L3 _ (fun i k j => by rw [pySlice_take, List.length_take, irfft_length]), ok_bind,
        einsum_few _ _ (.inr (by rw [L1_shape]; simp))]
      rfl

theorem size_few {x : Tensor ℝ} (hx : x.shape = [N]) : x.size (-2) = .error .indexError := by
  unfold Tensor.size
  rw [hx]
  rfl

theorem size_some {x : Tensor ℝ} {r : ℕ} (hx : x.shape = N :: r :: bx) : x.size (-2) = .ok r := size_two hx

theorem bssEval_few_true (hA : A.Lawful) {L : ℕ} (hL0 : 0 < L) (ho : oa.filterLength = some (L : ℤ))
    (href : ref.shape = N :: bx) (hest : est.shape = M :: by') (h : bx = [] ∨ by' = []) (hN : 0 < N) :
    Arrays.bssEvalSources A oa true ref est = .error A.err := by
  simp only [Arrays.bssEvalSources, if_true, ok_bind, ne_eq, not_true_eq_false, if_false,
    squareCosine_few hA hL0 ho href hest h hN true]
  rfl

theorem bssEval_few_false (href : ref.shape = N :: bx) (hest : est.shape = M :: by') (h : bx = [] ∨ by' = []) :
    Arrays.bssEvalSources A oa false ref est = .error .indexError := by
  simp only [Arrays.bssEvalSources, Bool.false_eq_true, if_false]
  cases bx with
  | nil => rw [size_few href]; rfl
  | cons r bx =>
    have h : by' = [] := by simpa using h
    subst h
    rw [size_some href, ok_bind, size_few hest]
    rfl

theorem sdr_few (hA : A.Lawful) (href : ref.shape = N :: bx) (hest : est.shape = M :: by') (h : bx = [] ∨ by' = [])
    (hN : 0 < N) (rp cs : Bool) : Arrays.sdr A oa rp cs ref est = .error A.err := by
  simp only [Arrays.sdr, sdrLoss_few hA href hest h hN]
  rfl

end Arrays

end FBE
