import Verif.Proofs.ArrayBss

/-!
# `square_cosine_metrics` and `bss_eval_sources` on arrays: all cases
-/

set_option linter.unusedSectionVars false

namespace FBE

open Classical Matrix Spec Tensor

namespace Arrays

variable {A : Api} {s bx by' : List ℕ} {r e c n N M K : ℕ} {o : Opts} {ref est : Tensor ℝ}

theorem computeStats2_none {x y : Tensor ℝ} {b : List ℕ} {n : ℕ} (hx : x.shape = n :: b) :
    computeStats2 A x y none = computeStats2 A x y (some (n : ℤ)) := by
  simp only [computeStats2, size_one hx, ok_bind, Option.getD_none, Option.getD_some]

theorem IsLength.stats2 {len : Option ℤ} (h : IsLength o N len) {x y : Tensor ℝ} {b : List ℕ} (hx : x.shape = N :: b) :
    computeStats2 A x y len = computeStats2 A x y (some (o.filterLength : ℤ)) := by
  obtain rfl | ⟨rfl, h⟩ := h
  · rfl
  · rw [h, computeStats2_none hx]

theorem bind_of_eq {α β γ : Type} {x : Except PyErr α} {f : α → Except PyErr β} {b : β} (h : (x >>= f) = .ok b)
    (k : β → Except PyErr γ) : (x >>= fun a => f a >>= k) = k b := by
  rw [← bind_assoc, h, ok_bind]

/-- The loaded correlations of all pairs of references. -/
noncomputable def allAcf (o : Opts) (n N : ℕ) (ref : Tensor ℝ) (i : List ℕ) (k l : ℕ) : List ℝ :=
  if k = l then addHead o.loadDiag (acf2 n o.filterLength (List.ofFn (preprocess o.zeroMean (row ref N (k :: i))))
    (List.ofFn (preprocess o.zeroMean (row ref N (l :: i)))))
  else acf2 n o.filterLength (List.ofFn (preprocess o.zeroMean (row ref N (k :: i))))
    (List.ofFn (preprocess o.zeroMean (row ref N (l :: i))))

/-- The correlations of references and estimates. -/
noncomputable def allXcorr (o : Opts) (n N M : ℕ) (ref est : Tensor ℝ) (bx by' i : List ℕ) (k j : ℕ) : List ℝ :=
  xcorr1 n o.filterLength (List.ofFn (preprocess o.zeroMean (row ref N (k :: bcIdx bx i))))
    (List.ofFn (preprocess o.zeroMean (row est M (j :: bcIdx by' i))))

theorem length_allAcf (hL : 0 < o.filterLength) (i : List ℕ) (k l : ℕ) :
    (allAcf o n N ref i k l).length = min o.filterLength n + min o.filterLength n := by
  unfold allAcf
  split_ifs <;> simp [length_addHead, length_acf2 _ _ hL]

theorem length_allXcorr (i : List ℕ) (k j : ℕ) :
    (allXcorr o n N M ref est bx by' i k j).length = min o.filterLength n := length_xcorr1 _ _ _ _

theorem allAcf_eq (m : BIdx s) (k l : Fin r) :
    bssAcf o n (signals ref bx s r N) m k l = allAcf o n N ref (bcIdx bx (pos m)) k l := by
  simp only [bssAcf, allAcf, Fin.ext_iff]
  rfl

theorem allXcorr_eq (m : BIdx s) (k : Fin r) (j : Fin e) :
    sdrXcorr o n (signals ref bx s r N) (signals est by' s e M) m k j =
      allXcorr o n N M ref est bx by' (pos m) k j := rfl

/-- `square_cosine_metrics` after the correlations. -/
noncomputable def cosineTail (A : Api) (cg len : Option ℤ) (pairwise : Bool) (c : ℕ) (acf xcorr : Tensor ℝ) :
    Except PyErr (Tensor ℝ × Tensor ℝ) := do
  let acfSdr ← (do
    let a ← A.diag c acf
    let a ← a.transpose (-2) (-1)
    a.slice (-1) none len)
  let xcorrSdr ← if pairwise then xcorr.transpose (-3) (-2) else do
    let d ← A.diag c xcorr
    d.transpose (-2) (-1)
  let sol ← solveOne A cg acfSdr xcorrSdr
  let cohSdr ← coherence A pairwise xcorrSdr sol
  let cohSar ← Arrays.cohSar A cg pairwise acf xcorr sol
  if pairwise then do
    let a ← Tensor.zip A.err (fun a _ => a) cohSdr (cohSar.unsqueeze 1)
    let b ← Tensor.zip A.err (fun _ b => b) cohSdr (cohSar.unsqueeze 1)
    .ok (a, b)
  else .ok (cohSdr, cohSar)

theorem squareCosine_tail (hA : A.Lawful) (href : ref.shape = N :: r :: bx) (hest : est.shape = M :: e :: by')
    {b : List ℕ} (hb : bcShape bx by' = some b) (hL : 0 < o.filterLength) {len : Option ℤ} (hlen : IsLength o N len)
    (h1 : len ≠ some 1) (hn : nFft N M = .ok n) (pw : Bool) :
    squareCosine A { o.args with filterLength := len } pw ref est =
      cosineTail A (o.useCgIter.map fun it : ℕ => (it : ℤ)) len pw r
        (L3 bx (min o.filterLength n + min o.filterLength n) r r (allAcf o n N ref))
        (L3 b (min o.filterLength n) r e (allXcorr o n N M ref est bx by')) := by
  have hn0 := nFft_pos' hn
  simp only [squareCosine, if_neg h1, Opts.args, cosineTail, bind_assoc]
  rw [prepare_eq hest, ok_bind, prepare_eq href, ok_bind, hlen.stats2 (L1_shape _ _ _),
    computeStats2_eq hA hb (fun i => by simp) (fun i => by simp) hn hL, ok_bind]
  dsimp only
  rw [size_two (L1_shape _ _ _), ok_bind, loadDiagonal_eq (by omega) (fun i k l => length_acf2 _ _ hL _ _), ok_bind]
  rfl

theorem squareCosine_error (href : ref.shape = N :: r :: bx) (hest : est.shape = M :: e :: by')
    {o : AOpts} (h1 : o.filterLength ≠ some 1) {err : PyErr} (hn : nFft N M = .error err) (pw : Bool) :
    squareCosine A o pw ref est = .error err := by
  simp only [squareCosine, if_neg h1]
  rw [prepare_eq hest, ok_bind, prepare_eq href, ok_bind, computeStats2_error rfl rfl hn]
  rfl

/-- The arrays of `square_cosine_metrics`, all pairs. -/
def IsCos2 (t : Tensor ℝ × Tensor ℝ) (v : (BIdx s → Fin r → Fin e → ℝ) × (BIdx s → Fin e → ℝ)) : Prop :=
  Holds2 t.1 v.1 ∧ Holds2 t.2 fun m (_ : Fin r) j => v.2 m j

/-- The arrays of `square_cosine_metrics`, channel by channel. -/
def IsCos1 (t : Tensor ℝ × Tensor ℝ) (v : (BIdx s → Fin c → ℝ) × (BIdx s → Fin c → ℝ)) : Prop :=
  Holds1 t.1 v.1 ∧ Holds1 t.2 v.2

theorem holds2_zip {α β γ : Type} [Zero α] [Zero β] [Zero γ] (err : PyErr) {x : Tensor α} {y : Tensor β}
    {v : BIdx s → Fin r → Fin e → α} {w : BIdx s → Fin e → β} (hx : Holds2 x v) (hy : Holds1 y w) (f : α → β → γ) :
    ∃ t, Tensor.zip err f x (y.unsqueeze 1) = .ok t ∧ Holds2 t fun m k j => f (v m k j) (w m j) := by
  have h1 : bcShape (e :: r :: s.reverse) (e :: 1 :: s.reverse) = some (e :: r :: s.reverse) := by
    refine bcShape_cons_self ?_
    simp only [bcShape, bcShape_self]
    split_ifs <;> simp_all
  have h2 : (y.unsqueeze 1).shape = e :: 1 :: s.reverse := by rw [unsqueeze_1 hy.1]; rfl
  refine ⟨_, by simp only [Tensor.zip, hx.1, h2, h1]; rfl, rfl, fun m k j => ?_⟩
  have hr : InRange (e :: r :: s.reverse) (j.val :: k.val :: pos m) := ⟨j.isLt, row_inRange m k⟩
  rw [tab_get hr, bcIdx_self hr, hx.2]
  congr 1
  rw [bcIdx_cons _ _ _ _ j.isLt, bcIdx_one, bcIdx_self (pos_inRange m), unsqueeze_1 hy.1,
    tab_get (show InRange (e :: 1 :: s.reverse) (j.val :: 0 :: pos m) from ⟨j.isLt, Nat.zero_lt_one, pos_inRange m⟩)]
  exact hy.2 m j

theorem sqCosPairGen_matches (hA : A.Lawful) (hB : Covered A.B) (href : ref.shape = N :: r :: bx)
    (hest : est.shape = M :: e :: by') (hb : bcShape bx by' = some s.reverse) (hL : 2 ≤ o.filterLength)
    (hpos : 0 < e * r * s.reverse.prod) (hcg : o.useCgIter = none ∨ bx.length = s.length) :
    Matches IsCos2 (squareCosine A o.args true ref est)
      (sqCosPairGen A.B o (signals ref bx s r N) (signals est by' s e M)) := by
  have h1 : (some (o.filterLength : ℤ)) ≠ some 1 := by simp; omega
  cases hn : nFft N M with
  | error err =>
    refine Eq.mpr (congrArg _ (show sqCosPairGen A.B o (signals ref bx s r N) (signals est by' s e M) = .error err by
      unfold sqCosPairGen; rw [hn])) (.inr (squareCosine_error href hest h1 hn true))
  | ok n =>
    have hn0 := nFft_pos' hn
    rw [show squareCosine A o.args true ref est = _ from
      squareCosine_tail hA href hest hb (by omega) (len := some (o.filterLength : ℤ)) (.inl rfl) h1 hn true,
      sqCosPairGen_unfold hn rfl]
    simp only [cosineTail, if_true]
    have hlenF : ∀ i k l, (allAcf o n N ref i k l).length = min o.filterLength n + min o.filterLength n :=
      length_allAcf (by omega)
    have hslice : ∀ l : List ℝ, l.length = min o.filterLength n + min o.filterLength n →
        (pySlice l none (some (o.filterLength : ℤ))).length =
          min o.filterLength (min o.filterLength n + min o.filterLength n) := by
      intro l hl
      rw [pySlice_take, List.length_take, hl]
    rw [acfSdr_eq hA hlenF hslice, ok_bind, transpose_L3_32, ok_bind]
    by_cases hK : min o.filterLength (min o.filterLength n + min o.filterLength n) ≠ min o.filterLength n
    · rw [if_pos hK]
      have hlen := bcShape_length (bcShape_absorb hb)
      rw [solveOne_size_pair hA hB (by omega) (fun i => hslice _ (hlenF _ _ _)) (L2_shape _ _ _ _)
        (by simp at hlen ⊢; omega) (fun h => hK h.symm)]
      exact .inr rfl
    · rw [if_neg hK]
      have hK' : min o.filterLength (min o.filterLength n + min o.filterLength n) = min o.filterLength n := by
        simpa using hK
      have hK2 : 2 ≤ min o.filterLength n := by omega
      rw [hK'] at hslice ⊢
      have hxc : ∀ m (k : Fin r) (j : Fin e),
          vec (min o.filterLength n) (sdrXcorr o n (signals ref bx s r N) (signals est by' s e M) m k j) =
          vec (min o.filterLength n) (allXcorr o n N M ref est bx by' ((k.val :: pos m).drop 1)
            ((k.val :: pos m).getD 0 0) j.val) := fun m k j => rfl
      have h2 := solveOne_pair (s := s) (r := r) (e := e) (cg := o.useCgIter) hA hB (by omega) (bcShape_absorb hb) hcg
        (f := fun i => pySlice (allAcf o n N ref (i.drop 1) (i.getD 0 0) (i.getD 0 0)) none (some (o.filterLength : ℤ)))
        (g := fun i j => allXcorr o n N M ref est bx by' (i.drop 1) (i.getD 0 0) j)
        (fun i => hslice _ (hlenF _ _ _)) (fun i j => length_allXcorr _ _ _)
        (acf := bssAcfSdr o n (signals ref bx s r N))
        (xc := fun m k j => vec (min o.filterLength n) (sdrXcorr o n (signals ref bx s r N) (signals est by' s e M) m k j))
        (fun m k => by rw [bssAcfSdr, allAcf_eq]; rfl) hxc
      cases hs : solOne A.B o.useCgIter (min o.filterLength n) (bssAcfSdr o n (signals ref bx s r N))
        (fun m k j => vec (min o.filterLength n)
          (sdrXcorr o n (signals ref bx s r N) (signals est by' s e M) m k j)) with
      | error err =>
        rw [hs] at h2
        refine h2.imp id fun h2 => ?_
        rw [h2]
        rfl
      | ok sol =>
        rw [hs] at h2
        obtain ⟨t, ht, hR⟩ := h2
        rw [ht, ok_bind]
        obtain ⟨t1, ht1, hR1⟩ := coherence_holds (A := A)
          (g := fun i j => allXcorr o n N M ref est bx by' (i.drop 1) (i.getD 0 0) j) hR hxc
        rw [ht1, ok_bind]
        dsimp only
        rw [cohSar_solAll]
        have h3 := cohSar_matches (pw := true) (cg := o.useCgIter) (sol := t) (v := sol) hA hB hK2 hpos
          (bcShape_absorb hb) hcg (f := allAcf o n N ref) (g := allXcorr o n N M ref est bx by') hlenF (fun _ => hR)
          (acf := bssAcf o n (signals ref bx s r N))
          (xc := xcorrFlat o n (min o.filterLength n) (signals ref bx s r N) (signals est by' s e M))
          (x0 := fun m j p => sol (m, p.2) j p.1) (fun m k l => allAcf_eq m k l) (fun m j p => rfl) (fun m j p => rfl)
        cases hs2 : solAll A.B o.useCgIter (min o.filterLength n) (bssAcf o n (signals ref bx s r N))
          (xcorrFlat o n (min o.filterLength n) (signals ref bx s r N) (signals est by' s e M))
          (fun m j p => sol (m, p.2) j p.1) with
        | error err =>
          rw [hs2] at h3
          refine h3.imp id fun h3 => ?_
          rw [h3]
          rfl
        | ok sol2 =>
          rw [hs2] at h3
          obtain ⟨t2, ht2, hR2⟩ := h3
          rw [ht2, ok_bind]
          obtain ⟨a, ha, hRa⟩ := holds2_zip A.err hR1 hR2 fun a _ => a
          obtain ⟨b, hb', hRb⟩ := holds2_zip A.err hR1 hR2 fun _ b => b
          rw [ha, ok_bind, hb', ok_bind]
          exact same_ok rfl ⟨hRa, hRb⟩

theorem sqCosDiagGen_matches (hA : A.Lawful) (hB : Covered A.B) (href : ref.shape = N :: c :: s.reverse)
    (hest : est.shape = M :: c :: by') (hb : bcShape s.reverse by' = some s.reverse) (hL : 2 ≤ o.filterLength)
    (hpos : 0 < c * c * s.reverse.prod) :
    Matches IsCos1 (squareCosine A o.args false ref est)
      (sqCosDiagGen A.B o (signals ref s.reverse s c N) (signals est by' s c M)) := by
  have h1 : (some (o.filterLength : ℤ)) ≠ some 1 := by simp; omega
  cases hn : nFft N M with
  | error err =>
    refine Eq.mpr (congrArg _ (show sqCosDiagGen A.B o (signals ref s.reverse s c N) (signals est by' s c M) =
      .error err by unfold sqCosDiagGen; rw [hn])) (.inr (squareCosine_error href hest h1 hn false))
  | ok n =>
    have hn0 := nFft_pos' hn
    rw [show squareCosine A o.args false ref est = _ from
      squareCosine_tail hA href hest hb (by omega) (len := some (o.filterLength : ℤ)) (.inl rfl) h1 hn false,
      sqCosDiagGen_unfold hn rfl]
    simp only [cosineTail, Bool.false_eq_true, if_false]
    have hlenF : ∀ i k l, (allAcf o n N ref i k l).length = min o.filterLength n + min o.filterLength n :=
      length_allAcf (by omega)
    have hslice : ∀ l : List ℝ, l.length = min o.filterLength n + min o.filterLength n →
        (pySlice l none (some (o.filterLength : ℤ))).length =
          min o.filterLength (min o.filterLength n + min o.filterLength n) := by
      intro l hl
      rw [pySlice_take, List.length_take, hl]
    rw [acfSdr_eq hA hlenF hslice, ok_bind]
    refine Eq.mpr (congrArg (fun x => Matches IsCos1 x _) (bind_of_eq (xcorrDiag_eq hA) _)) ?_
    by_cases hK : min o.filterLength (min o.filterLength n + min o.filterLength n) ≠ min o.filterLength n
    · rw [if_pos hK]
      by_cases hu : o.useCgIter = none ∧ c = min o.filterLength (min o.filterLength n + min o.filterLength n)
      · rw [if_pos hu]
        exact .inl rfl
      · rw [if_neg hu]
        rw [solveOne_size_diag hA hB (by omega) (fun i => hslice _ (hlenF _ _ _)) (L1_shape _ _ _)
          (fun h => hK h.symm) _ (fun h h' => hu ⟨h, h'⟩)]
        exact .inr rfl
    · rw [if_neg hK]
      have hK' : min o.filterLength (min o.filterLength n + min o.filterLength n) = min o.filterLength n := by
        simpa using hK
      have hK2 : 2 ≤ min o.filterLength n := by omega
      rw [hK'] at hslice ⊢
      have hxc : ∀ m (k : Fin c),
          vec (min o.filterLength n) (sdrXcorr o n (signals ref s.reverse s c N) (signals est by' s c M) m k k) =
          vec (min o.filterLength n) (allXcorr o n N M ref est s.reverse by' ((k.val :: pos m).drop 1)
            ((k.val :: pos m).getD 0 0) ((k.val :: pos m).getD 0 0)) := fun m k => rfl
      have h2 := solveOne_diag (s := s) (c := c) hA hB (show 0 < min o.filterLength n by omega) o.useCgIter
        (f := fun i => pySlice (allAcf o n N ref (i.drop 1) (i.getD 0 0) (i.getD 0 0)) none (some (o.filterLength : ℤ)))
        (g := fun i => allXcorr o n N M ref est s.reverse by' (i.drop 1) (i.getD 0 0) (i.getD 0 0))
        (fun i => hslice _ (hlenF _ _ _)) (fun i => length_allXcorr _ _ _)
        (acf := bssAcfSdr o n (signals ref s.reverse s c N))
        (xc := fun m k => vec (min o.filterLength n)
          (sdrXcorr o n (signals ref s.reverse s c N) (signals est by' s c M) m k k))
        (fun m k => by rw [bssAcfSdr, allAcf_eq, bcIdx_self (pos_inRange m)]; rfl) hxc
      cases hs : solDiag A.B o.useCgIter (min o.filterLength n) (bssAcfSdr o n (signals ref s.reverse s c N))
        (fun m k => vec (min o.filterLength n)
          (sdrXcorr o n (signals ref s.reverse s c N) (signals est by' s c M) m k k)) with
      | error err =>
        rw [hs] at h2
        refine h2.imp id fun h2 => ?_
        rw [h2]
        rfl
      | ok sol =>
        rw [hs] at h2
        obtain ⟨t, ht, hR⟩ := h2
        rw [ht, ok_bind]
        obtain ⟨t1, ht1, hR1⟩ := coherence_holds1 (A := A)
          (g := fun i => allXcorr o n N M ref est s.reverse by' (i.drop 1) (i.getD 0 0) (i.getD 0 0)) hR hxc
        rw [ht1, ok_bind]
        dsimp only
        rw [cohSar_solAll]
        have h3 := cohSar_matches (s := s) (pw := false) (cg := o.useCgIter) (sol := t) (v := fun _ _ _ => 0) hA hB hK2
          hpos (bcShape_self _) (.inr (List.length_reverse)) (f := allAcf o n N ref)
          (g := allXcorr o n N M ref est s.reverse by') hlenF (fun h => Bool.noConfusion h)
          (acf := bssAcf o n (signals ref s.reverse s c N))
          (xc := xcorrFlat o n (min o.filterLength n) (signals ref s.reverse s c N) (signals est by' s c M))
          (x0 := fun m j p => 0) (fun m k l => allAcf_eq m k l) (fun m j p => rfl) (fun m j p => rfl)
        cases hs2 : solAll A.B o.useCgIter (min o.filterLength n) (bssAcf o n (signals ref s.reverse s c N))
          (xcorrFlat o n (min o.filterLength n) (signals ref s.reverse s c N) (signals est by' s c M))
          (fun m j p => 0) with
        | error err =>
          rw [hs2] at h3
          refine h3.imp id fun h3 => ?_
          rw [h3]
          rfl
        | ok sol2 =>
          rw [hs2] at h3
          obtain ⟨t2, ht2, hR2⟩ := h3
          rw [ht2, ok_bind]
          exact same_ok rfl ⟨hR1, hR2⟩

/-! ### `filter_length=None` -/

theorem sqCosPairNone_matches (hA : A.Lawful) (hB : Covered A.B) (href : ref.shape = N :: r :: bx)
    (hest : est.shape = M :: e :: by') (hb : bcShape bx by' = some s.reverse) :
    sqCosPairNone A.B o N M = .unmodelled ∨
      squareCosine A { o.args with filterLength := none } true ref est = .error (sqCosPairNone A.B o N M) := by
  unfold sqCosPairNone
  cases hn : nFft N M with
  | error err => exact .inr (squareCosine_error href hest (by simp) hn true)
  | ok n =>
    have hn0 := nFft_pos' hn
    dsimp only [noneSizes]
    by_cases h : N = 0 ∨ min N n + min N n = min N n
    · exact .inl (if_pos h)
    · refine .inr ?_
      have hN : 0 < N := by omega
      rw [show squareCosine A { o.args with filterLength := none } true ref est = _ from
        squareCosine_tail (o := o.atLength N) hA href hest hb hN (.inr ⟨rfl, rfl⟩) (by simp) hn true]
      simp only [cosineTail, if_true, Opts.atLength]
      have hlenF : ∀ i k l, (allAcf { o with filterLength := N } n N ref i k l).length = min N n + min N n :=
        length_allAcf (o := { o with filterLength := N }) hN
      have hslice : ∀ l : List ℝ, l.length = min N n + min N n → (pySlice l none none).length = min N n + min N n := by
        intro l hl
        simp [pySlice, hl]
      rw [acfSdr_eq hA hlenF hslice, ok_bind, transpose_L3_32, ok_bind]
      have hlen := bcShape_length (bcShape_absorb hb)
      rw [solveOne_size_pair hA hB (by omega) (fun i => hslice _ (hlenF _ _ _)) (L2_shape _ _ _ _)
        (by simp at hlen ⊢; omega) (by omega)]
      exact congrArg Except.error (if_neg h).symm

theorem sqCosDiagNone_matches (hA : A.Lawful) (hB : Covered A.B) (href : ref.shape = N :: c :: s.reverse)
    (hest : est.shape = M :: c :: by') (hb : bcShape s.reverse by' = some s.reverse) :
    sqCosDiagNone A.B o c N M = .unmodelled ∨
      squareCosine A { o.args with filterLength := none } false ref est = .error (sqCosDiagNone A.B o c N M) := by
  unfold sqCosDiagNone
  cases hn : nFft N M with
  | error err => exact .inr (squareCosine_error href hest (by simp) hn false)
  | ok n =>
    have hn0 := nFft_pos' hn
    dsimp only [noneSizes]
    by_cases h : N = 0 ∨ min N n + min N n = min N n ∨ o.useCgIter = none ∧ c = min N n + min N n
    · exact .inl (if_pos h)
    · refine .inr ?_
      have hN : 0 < N := by omega
      rw [show squareCosine A { o.args with filterLength := none } false ref est = _ from
        squareCosine_tail (o := o.atLength N) hA href hest hb hN (.inr ⟨rfl, rfl⟩) (by simp) hn false]
      simp only [cosineTail, Bool.false_eq_true, if_false, Opts.atLength]
      have hlenF : ∀ i k l, (allAcf { o with filterLength := N } n N ref i k l).length = min N n + min N n :=
        length_allAcf (o := { o with filterLength := N }) hN
      have hslice : ∀ l : List ℝ, l.length = min N n + min N n → (pySlice l none none).length = min N n + min N n := by
        intro l hl
        simp [pySlice, hl]
      rw [acfSdr_eq hA hlenF hslice, ok_bind]
      refine (bind_of_eq (xcorrDiag_eq hA) _).trans ?_
      rw [solveOne_size_diag hA hB (by omega) (fun i => hslice _ (hlenF _ _ _)) (L1_shape _ _ _)
        (by omega) _ (fun h1 h2 => h (.inr (.inr ⟨h1, h2⟩)))]
      exact congrArg Except.error (if_neg h).symm

/-! ### filters of length one -/

/-- The second part of the length one shortcut. -/
noncomputable def oneSar (A : Api) (loadDiag : Option ℝ) (ref xcorr : Tensor ℝ) : Except PyErr (Tensor ℝ) := do
  let acm ← Tensor.einsum A.err ['c', 'n'] ['d', 'n'] ['c', 'd'] ref ref
  let acm ← match loadDiag with
    | none => .ok acm
    | some d => do
      let c ← acm.size (-1)
      Tensor.zip A.err (· + ·) acm (tab [c, c] fun i => if i.getD 0 0 = i.getD 1 0 then d else 0)
  let sol ← A.solve acm xcorr
  coherence A true xcorr sol

/-- Array of inner products. -/
noncomputable def dots (s : List ℕ) (r e N : ℕ) (f g : List ℕ → Fin N → ℝ) (bx by' : List ℕ) : Tensor ℝ :=
  L2 s r e fun i j => List.ofFn fun k : Fin r => dot (f (k.val :: bcIdx bx i)) (g (j :: bcIdx by' i))

theorem einsum_dots {b : List ℕ} (hb : bcShape bx by' = some b) (f g : List ℕ → Fin N → ℝ) (err : PyErr) :
    Tensor.einsum err ['c', 'n'] ['d', 'n'] ['c', 'd'] (L1 (r :: bx) N fun i => List.ofFn (f i))
      (L1 (e :: by') N fun i => List.ofFn (g i)) = .ok (dots b r e N f g bx by') := by
  rw [einsum_cd _ (L1_shape _ _ _) (L1_shape _ _ _) hb]
  refine congrArg _ (tab_congr fun i hi => ?_)
  obtain ⟨j, i, rfl, hj, hi⟩ := inRange_cons_inv hi
  obtain ⟨k, i, rfl, hk, hi⟩ := inRange_cons_inv hi
  rw [sum_range_fin]
  refine Eq.trans ?_ (getD_ofFn' (fun k : Fin r => dot (f (k.val :: bcIdx bx i)) (g (j :: bcIdx by' i))) hk).symm
  refine Finset.sum_congr rfl fun t _ => ?_
  show (L1 (r :: bx) N _).get (t.val :: k :: bcIdx bx i) * (L1 (e :: by') N _).get (t.val :: j :: bcIdx by' i) = _
  rw [L1_row_get t (inRange_cons.2 ⟨hk, bcIdx_range_left hb hi⟩),
    L1_row_get t (inRange_cons.2 ⟨hj, bcIdx_range_right hb hi⟩)]

/-- The Gram matrices. -/
noncomputable def gramAt (r : ℕ) (f : List ℕ → Fin N → ℝ) (i : List ℕ) : Matrix (Fin r) (Fin r) ℝ :=
  fun k l => dot (f (k.val :: i)) (f (l.val :: i))

/-- The loaded matrix. -/
noncomputable def loadMat (d : Option ℝ) (G : Matrix (Fin r) (Fin r) ℝ) : Matrix (Fin r) (Fin r) ℝ :=
  match d with
  | some d => G + d • (1 : Matrix (Fin r) (Fin r) ℝ)
  | none => G

theorem cohSarOne_eq (ref : Sig s r N) (est : Sig s e N) {G : BIdx s → Matrix (Fin r) (Fin r) ℝ}
    (hG : ∀ m k l, G m k l = dot (prep o ref m k) (prep o ref m l)) :
    cohSarOne o ref est =
      match solveStack (fun m => loadMat o.loadDiag (G m)) (fun m (j : Fin e) k => dot (prep o ref m k) (prep o est m j)) with
      | .error err => .error err
      | .ok sol => .ok fun m j => ∑ k, dot (prep o ref m k) (prep o est m j) * sol m j k := by
  have h : G = fun m => fun k l => dot (prep o ref m k) (prep o ref m l) := by
    funext m k l
    exact hG m k l
  subst h
  unfold cohSarOne loadMat
  cases o.loadDiag <;> rfl

theorem dots_Mx (f : List ℕ → Fin N → ℝ) : dots bx r r N f f bx bx = Mx bx r (gramAt r f) := by
  refine tab_congr fun i hi => ?_
  obtain ⟨j, i, rfl, hj, hi⟩ := inRange_cons_inv hi
  obtain ⟨k, i, rfl, hk, hi⟩ := inRange_cons_inv hi
  refine (getD_ofFn' (fun k : Fin r => dot (f (k.val :: bcIdx bx i)) (f (j :: bcIdx bx i))) hk).trans ?_
  refine Eq.trans ?_ (dif_pos (c := k < r ∧ j < r) ⟨hk, hj⟩).symm
  show dot (f (k :: bcIdx bx i)) (f (j :: bcIdx bx i)) = _
  rw [bcIdx_self hi]
  rfl

theorem loadMx (err : PyErr) (F : List ℕ → Matrix (Fin r) (Fin r) ℝ) (d : ℝ) :
    Tensor.zip err (· + ·) (Mx bx r F) (tab [r, r] fun i => if i.getD 0 0 = i.getD 1 0 then d else 0) =
      .ok (Mx bx r fun i => F i + d • (1 : Matrix (Fin r) (Fin r) ℝ)) := by
  have h1 : bcShape (r :: r :: bx) [r, r] = some (r :: r :: bx) :=
    bcShape_cons_self (bcShape_cons_self (bcShape_nil_right _))
  simp only [Tensor.zip, Mx_shape, tab_shape, h1]
  refine congrArg _ (tab_congr fun i hi => ?_)
  have hi0 := hi
  obtain ⟨j, i, rfl, hj, hi⟩ := inRange_cons_inv hi
  obtain ⟨k, i, rfl, hk, hi⟩ := inRange_cons_inv hi
  rw [bcIdx_self hi0, bcIdx_cons _ _ _ _ hj, bcIdx_cons _ _ _ _ hk]
  refine Eq.trans ?_ (dif_pos (c := k < r ∧ j < r) ⟨hk, hj⟩).symm
  have h2 : (Mx bx r F).get (j :: k :: i) = F i ⟨k, hk⟩ ⟨j, hj⟩ :=
    (tab_get (s := r :: r :: bx) (i := j :: k :: i) hi0).trans (dif_pos (c := k < r ∧ j < r) ⟨hk, hj⟩)
  have h3 : bcIdx [] i = [] := by cases i <;> simp [bcIdx]
  rw [h2, h3, tab_get (show InRange [r, r] [j, k] from ⟨hj, hk, trivial⟩)]
  show F i ⟨k, hk⟩ ⟨j, hj⟩ + (if j = k then d else 0) = F i ⟨k, hk⟩ ⟨j, hj⟩ + d * (1 : Matrix (Fin r) (Fin r) ℝ) ⟨k, hk⟩ ⟨j, hj⟩
  rw [one_apply]
  by_cases h : j = k
  · subst h; simp
  · rw [if_neg h, if_neg (by simpa using fun h' : k = j => h h'.symm), mul_zero]

theorem oneSar_matches (hA : A.Lawful) (hb : bcShape bx by' = some s.reverse) :
    Matches Holds1 (oneSar A o.loadDiag (L1 (r :: bx) N fun i => List.ofFn (preprocess o.zeroMean (row ref N i)))
      (dots s.reverse r e N (fun i => preprocess o.zeroMean (row ref N i))
        (fun i => preprocess o.zeroMean (row est N i)) bx by'))
      (cohSarOne o (signals ref bx s r N) (signals est by' s e N)) := by
  have hb' := bcShape_absorb hb
  have hlen := bcShape_length hb'
  have hmx : oneSar A o.loadDiag (L1 (r :: bx) N fun i => List.ofFn (preprocess o.zeroMean (row ref N i)))
      (dots s.reverse r e N (fun i => preprocess o.zeroMean (row ref N i))
        (fun i => preprocess o.zeroMean (row est N i)) bx by') =
      (A.solve (Mx bx r fun i => loadMat o.loadDiag (gramAt r (fun i => preprocess o.zeroMean (row ref N i)) i))
        (dots s.reverse r e N (fun i => preprocess o.zeroMean (row ref N i))
        (fun i => preprocess o.zeroMean (row est N i)) bx by') >>= fun sol =>
      coherence A true (dots s.reverse r e N (fun i => preprocess o.zeroMean (row ref N i))
        (fun i => preprocess o.zeroMean (row est N i)) bx by') sol) := by
    unfold oneSar
    rw [einsum_dots (bcShape_self bx), ok_bind, dots_Mx]
    unfold loadMat
    cases o.loadDiag with
    | none => rfl
    | some d =>
      dsimp only
      rw [size_one (Mx_shape _ _ _), ok_bind, loadMx, ok_bind]
  rw [hmx, hA.solve (by simp [dots, L2_shape]) (by simp [dots, L2_shape, Mx_shape]; simp at hlen; omega),
    cohSarOne_eq (signals ref bx s r N) _ (G := fun m => gramAt r (fun i => preprocess o.zeroMean (row ref N i)) (bcIdx bx (pos m)))
      (fun m k l => rfl)]
  unfold dots solveStack
  rw [solveMat_eq _ hb']
  generalize gramAt r (fun i => preprocess o.zeroMean (row ref N i)) = G
  have h1 : (∃ i, InRange s.reverse i ∧ (loadMat o.loadDiag (G (bcIdx bx i))).det = 0) ↔
      ∃ m : BIdx s, (loadMat o.loadDiag (G (bcIdx bx (pos m)))).det = 0 := by
    constructor
    · rintro ⟨i, hi, h⟩
      obtain ⟨m, rfl⟩ := exists_pos hi
      exact ⟨m, h⟩
    · rintro ⟨m, h⟩
      exact ⟨pos m, pos_inRange m, h⟩
  by_cases h : ∃ m : BIdx s, (loadMat o.loadDiag (G (bcIdx bx (pos m)))).det = 0
  · rw [if_pos (h1.2 h), if_pos h]
    exact .inr rfl
  · rw [if_neg (fun h' => h (h1.1 h')), if_neg h, ok_bind, coherence_pair]
    refine same_ok rfl ⟨rfl, fun m j => ?_⟩
    refine (tab_get (s := e :: s.reverse) (i := j.val :: pos m) (row_inRange m j)).trans ?_
    refine Finset.sum_congr rfl fun k _ => ?_
    rw [vec_ofFn, vec_ofFn]
    show _ * ((loadMat o.loadDiag (G (bcIdx bx (pos m))))⁻¹ *ᵥ fun k : Fin r =>
      dot (preprocess o.zeroMean (row ref N (k.val :: bcIdx bx (bcIdx s.reverse (pos m)))))
      (preprocess o.zeroMean (row est N (j.val :: bcIdx by' (bcIdx s.reverse (pos m)))))) k = _
    rw [bcIdx_self (pos_inRange m)]
    rfl

theorem lengthOneBoth_eq (A : Api) (pw : Bool) (d : Option ℝ) (ref est : Tensor ℝ) :
    lengthOneBoth A pw d ref est = (do
      let xcorr ← Tensor.einsum A.err ['c', 'n'] ['d', 'n'] ['c', 'd'] ref est
      let cohSdr ← lengthOneSdr A pw ref est
      let cohSar ← oneSar A d ref xcorr
      if pw then do
        let a ← Tensor.zip A.err (fun a _ => a) cohSdr (cohSar.unsqueeze 1)
        let b ← Tensor.zip A.err (fun _ b => b) cohSdr (cohSar.unsqueeze 1)
        .ok (a, b)
      else .ok (cohSdr, cohSar)) := by
  cases d <;> simp only [lengthOneBoth, oneSar, bind_assoc, coherence, if_true]

theorem sqCosPair_matches (hA : A.Lawful) (hB : Covered A.B) (href : ref.shape = N :: r :: bx)
    (hest : est.shape = M :: e :: by') (hb : bcShape bx by' = some s.reverse)
    (hpos : o.filterLength = 1 ∨ 0 < e * r * s.reverse.prod)
    (hcg : o.useCgIter = none ∨ o.filterLength = 1 ∨ bx.length = s.length) :
    Matches IsCos2 (squareCosine A o.args true ref est)
      (sqCosPair A.B o (signals ref bx s r N) (signals est by' s e M)) := by
  unfold sqCosPair
  split_ifs with h0 h1
  · exact .inl rfl
  · have h2 := lengthOneSdr_pair (A := A) (o := o) href hest hb
    simp only [squareCosine, Opts.args, h1, Nat.cast_one, if_true]
    rw [prepare_eq href, ok_bind, prepare_eq hest, ok_bind] at h2 ⊢
    rw [lengthOneBoth_eq]
    by_cases hl : M = N
    · subst hl
      have hsame : sameLength A.B M (signals est by' s e M) = .ok (signals est by' s e M) := dif_pos rfl
      rw [hsame] at h2 ⊢
      obtain ⟨t, ht, hR⟩ := h2
      rw [einsum_dots hb, ok_bind, ht, ok_bind]
      have h3 := oneSar_matches (e := e) (r := r) (N := M) (ref := ref) (est := est) (o := o) hA hb
      dsimp only
      cases hs : cohSarOne o (signals ref bx s r M) (signals est by' s e M) with
      | error err =>
        rw [hs] at h3
        refine h3.imp id fun h3 => ?_
        rw [h3]
        rfl
      | ok sar =>
        rw [hs] at h3
        obtain ⟨t2, ht2, hR2⟩ := h3
        rw [ht2, ok_bind]
        obtain ⟨a, ha, hRa⟩ := holds2_zip A.err hR hR2 fun a _ => a
        obtain ⟨b, hb', hRb⟩ := holds2_zip A.err hR hR2 fun _ b => b
        rw [if_pos rfl, ha, ok_bind, hb', ok_bind]
        exact same_ok rfl ⟨hRa, hRb⟩
    · by_cases hl1 : M = 1 ∨ N = 1
      · have hsame : sameLength A.B N (signals est by' s e M) = .error .unmodelled := by
          unfold sameLength; rw [dif_neg hl, if_pos hl1]
        rw [hsame]
        exact .inl rfl
      · have hsame : sameLength A.B N (signals est by' s e M) = .error A.B.shapeErr := by
          unfold sameLength; rw [dif_neg hl, if_neg hl1]
        rw [hsame, einsum_cd_err A.err rfl rfl (fun h' => hl h'.symm) (fun h' => hl1 (.inr h')) (fun h' => hl1 (.inl h'))]
        exact .inr rfl
  · exact sqCosPairGen_matches hA hB href hest hb (by omega) (by simpa [h1] using hpos) (by simpa [h1] using hcg)

theorem channels_eq (x : Tensor ℝ) (m : BIdx s) (k : Fin c) :
    channels x (c :: by') s c N m k = signals x by' s c N m k := by
  funext t
  simp only [channels, signals, bcIdx_cons _ _ _ _ k.isLt]

theorem sqCosDiag_matches (hA : A.Lawful) (hB : Covered A.B) (href : ref.shape = N :: c :: s.reverse)
    (hest : est.shape = M :: c :: by') (hb : bcShape s.reverse by' = some s.reverse)
    (hpos : o.filterLength = 1 ∨ 0 < c * c * s.reverse.prod) :
    Matches IsCos1 (squareCosine A o.args false ref est)
      (sqCosDiag A.B o (signals ref s.reverse s c N) (signals est by' s c M)) := by
  unfold sqCosDiag
  split_ifs with h0 h1
  · exact .inl rfl
  · have h2 := lengthOneSdr_diag (A := A) (o := o) href hest (bcShape_cons_self hb)
    rw [show channels est (c :: by') s c M = signals est by' s c M by funext m k; exact channels_eq est m k] at h2
    simp only [squareCosine, Opts.args, h1, Nat.cast_one, if_true]
    rw [prepare_eq href, ok_bind, prepare_eq hest, ok_bind] at h2 ⊢
    rw [lengthOneBoth_eq]
    by_cases hl : M = N
    · subst hl
      have hsame : sameLength A.B M (signals est by' s c M) = .ok (signals est by' s c M) := dif_pos rfl
      rw [hsame] at h2 ⊢
      obtain ⟨t, ht, hR⟩ := h2
      rw [einsum_dots hb, ok_bind, ht, ok_bind]
      have h3 := oneSar_matches (e := c) (r := c) (N := M) (ref := ref) (est := est) (o := o) hA hb
      dsimp only
      cases hs : cohSarOne o (signals ref s.reverse s c M) (signals est by' s c M) with
      | error err =>
        rw [hs] at h3
        refine h3.imp id fun h3 => ?_
        rw [h3]
        rfl
      | ok sar =>
        rw [hs] at h3
        obtain ⟨t2, ht2, hR2⟩ := h3
        rw [ht2, ok_bind]
        exact same_ok rfl ⟨hR, hR2⟩
    · by_cases hl1 : M = 1 ∨ N = 1
      · have hsame : sameLength A.B N (signals est by' s c M) = .error .unmodelled := by
          unfold sameLength; rw [dif_neg hl, if_pos hl1]
        rw [hsame]
        exact .inl rfl
      · have hsame : sameLength A.B N (signals est by' s c M) = .error A.B.shapeErr := by
          unfold sameLength; rw [dif_neg hl, if_neg hl1]
        rw [hsame, einsum_cd_err A.err rfl rfl (fun h' => hl h'.symm) (fun h' => hl1 (.inr h')) (fun h' => hl1 (.inl h'))]
        exact .inr rfl
  · exact sqCosDiagGen_matches hA hB href hest hb (by omega) (by simpa [h1] using hpos)

/-! ### `bss_eval_sources` -/

theorem holds2_zip_same {α β γ : Type} [Zero α] [Zero β] [Zero γ] (err : PyErr) {x : Tensor α} {y : Tensor β}
    {v : BIdx s → Fin r → Fin e → α} {w : BIdx s → Fin r → Fin e → β} (hx : Holds2 x v) (hy : Holds2 y w)
    (f : α → β → γ) : ∃ t, Tensor.zip err f x y = .ok t ∧ Holds2 t fun m k j => f (v m k j) (w m k j) := by
  refine ⟨_, by simp only [Tensor.zip, hx.1, hy.1, bcShape_self]; rfl, rfl, fun m k j => ?_⟩
  have hr : InRange (e :: r :: s.reverse) (j.val :: k.val :: pos m) := ⟨j.isLt, row_inRange m k⟩
  rw [tab_get hr, bcIdx_self hr, hx.2, hy.2]

theorem holds1_zip_same {α β γ : Type} [Zero α] [Zero β] [Zero γ] (err : PyErr) {x : Tensor α} {y : Tensor β}
    {v : BIdx s → Fin c → α} {w : BIdx s → Fin c → β} (hx : Holds1 x v) (hy : Holds1 y w) (f : α → β → γ) :
    ∃ t, Tensor.zip err f x y = .ok t ∧ Holds1 t fun m k => f (v m k) (w m k) := by
  refine ⟨_, by simp only [Tensor.zip, hx.1, hy.1, bcShape_self]; rfl, rfl, fun m k => ?_⟩
  rw [tab_get (row_inRange m k), bcIdx_self (row_inRange m k), hx.2, hy.2]

theorem bssEvalPerm_agrees {oa : AOpts} (hclamp : oa.clampDb = o.clampDb)
    (h : Agrees IsCos2 (squareCosine A oa true ref est)
      (sqCosPair A.B o (signals ref bx s r N) (signals est by' s e M))) :
    Agrees HoldsBss (Arrays.bssEvalSources A oa true ref est)
      (bssEvalPerm A.B o (signals ref bx s r N) (signals est by' s e M)) := by
  simp only [Arrays.bssEvalSources, if_true, ok_bind, ne_eq, not_true_eq_false, if_false, bssEvalPerm, baseMetrics,
    hclamp]
  cases hs : sqCosPair A.B o (signals ref bx s r N) (signals est by' s e M) with
  | error err =>
    rw [hs] at h
    rw [show squareCosine A oa true ref est = _ from h]
    rfl
  | ok v =>
    rw [hs] at h
    obtain ⟨t, ht, h1, h2⟩ := h
    rw [ht, ok_bind]
    dsimp only
    obtain ⟨u, hu, h3⟩ := holds2_zip_same A.err h1 h2 fun a b => XR.div (.fin a) (.fin b)
    rw [hu, ok_bind, ok_bind]
    dsimp only
    have hp := solvePermutation_agrees (A := A) (holds2_map h3 (coherenceToNegSdr o.clampDb))
      (T := ![t.1.map fun c => coherenceToNegSdr o.clampDb (.fin c), t.2.map fun c => coherenceToNegSdr o.clampDb (.fin c)])
      (args' := ![fun m k j => (FBE.baseMetrics o.clampDb (v.1 m k j) (v.2 m j)).1,
        fun m k j => (FBE.baseMetrics o.clampDb (v.1 m k j) (v.2 m j)).2.2])
      (fun i => by
        fin_cases i
        · exact holds2_map h1 fun c => coherenceToNegSdr o.clampDb (.fin c)
        · exact holds2_map h2 fun c => coherenceToNegSdr o.clampDb (.fin c))
    rw [show List.ofFn ![t.1.map fun c => coherenceToNegSdr o.clampDb (.fin c),
      t.2.map fun c => coherenceToNegSdr o.clampDb (.fin c)] = [t.1.map fun c => coherenceToNegSdr o.clampDb (.fin c),
      t.2.map fun c => coherenceToNegSdr o.clampDb (.fin c)] from rfl] at hp
    refine Eq.mpr (congrArg _ (?_ : _ = match FBE.solvePermutation A.B
      (fun m k j => coherenceToNegSdr o.clampDb (XR.div (.fin (v.1 m k j)) (.fin (v.2 m j))))
      ![fun m k j => (FBE.baseMetrics o.clampDb (v.1 m k j) (v.2 m j)).1,
        fun m k j => (FBE.baseMetrics o.clampDb (v.1 m k j) (v.2 m j)).2.2] with
      | .error err => .error err
      | .ok out => .ok ⟨fun m k => (out.args 0 m k).neg, fun m k => (out.loss m k).neg,
          fun m k => (out.args 1 m k).neg, some out.perm⟩)) ?_
    · rfl
    cases hP : FBE.solvePermutation A.B
      (fun m k j => coherenceToNegSdr o.clampDb (XR.div (.fin (v.1 m k j)) (.fin (v.2 m j))))
      ![fun m k j => (FBE.baseMetrics o.clampDb (v.1 m k j) (v.2 m j)).1,
        fun m k j => (FBE.baseMetrics o.clampDb (v.1 m k j) (v.2 m j)).2.2] with
    | error err =>
      rw [hP] at hp
      rw [show solvePermutation A _ _ = _ from hp]
      rfl
    | ok out =>
      rw [hP] at hp
      obtain ⟨w, hw, hl, ⟨T, hT, hTv⟩, hpm⟩ := hp
      rw [hw, ok_bind]
      have hT' : w.args = [T 0, T 1] := hT
      rw [hT']
      exact agrees_ok rfl ⟨holds1_map (hTv 0) XR.neg, holds1_map hl XR.neg, holds1_map (hTv 1) XR.neg, hpm⟩

theorem bssEvalNoPerm_agrees {oa : AOpts} (hclamp : oa.clampDb = o.clampDb) (href : ref.shape = N :: c :: s.reverse)
    (hest : est.shape = M :: c :: by')
    (h : Agrees IsCos1 (squareCosine A oa false ref est)
      (sqCosDiag A.B o (signals ref s.reverse s c N) (signals est by' s c M))) :
    Agrees HoldsBss (Arrays.bssEvalSources A oa false ref est)
      (bssEvalNoPerm A.B o (signals ref s.reverse s c N) (signals est by' s c M)) := by
  simp only [Arrays.bssEvalSources, Bool.false_eq_true, if_false, size_two href, size_two hest, ok_bind, ne_eq,
    not_true_eq_false, bssEvalNoPerm, baseMetrics, hclamp]
  cases hs : sqCosDiag A.B o (signals ref s.reverse s c N) (signals est by' s c M) with
  | error err =>
    rw [hs] at h
    rw [show squareCosine A oa false ref est = _ from h]
    rfl
  | ok v =>
    rw [hs] at h
    obtain ⟨t, ht, h1, h2⟩ := h
    rw [ht, ok_bind]
    dsimp only
    obtain ⟨u, hu, h3⟩ := holds1_zip_same A.err h1 h2 fun a b => XR.div (.fin a) (.fin b)
    rw [hu, ok_bind, ok_bind]
    refine agrees_ok rfl ⟨?_, ?_, ?_, trivial⟩
    · exact holds1_map (holds1_map h1 fun c => coherenceToNegSdr o.clampDb (.fin c)) XR.neg
    · exact holds1_map (holds1_map h3 (coherenceToNegSdr o.clampDb)) XR.neg
    · exact holds1_map (holds1_map h2 fun c => coherenceToNegSdr o.clampDb (.fin c)) XR.neg

theorem bssEval_assert {oa : AOpts} (href : ref.shape = N :: r :: bx) (hest : est.shape = M :: e :: by') (h : r ≠ e) :
    Arrays.bssEvalSources A oa false ref est = .error .assertionError := by
  simp only [Arrays.bssEvalSources, Bool.false_eq_true, if_false, size_two href, size_two hest, ok_bind, ne_eq, h,
    not_false_eq_true, if_true]

end Arrays

end FBE
