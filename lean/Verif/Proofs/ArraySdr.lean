import Verif.Proofs.ArrayIndex
import Verif.Proofs.Lengths

/-!
# `sdr_loss` on arrays
-/

set_option linter.unusedSectionVars false

namespace FBE

open Classical Tensor Matrix Spec

namespace Arrays

variable {A : Api} {s bx by' : List ℕ} {r e c N M K : ℕ} {o : Opts}

/-- As `Agrees`; nothing is said where the index model says that it does not model the case. -/
def Matches {α β : Type} (R : α → β → Prop) (x : Except PyErr α) : Except PyErr β → Prop
  | .error err => err = .unmodelled ∨ x = .error err
  | .ok v => ∃ t, x = .ok t ∧ R t v

theorem Matches.agrees {α β : Type} {R : α → β → Prop} {x : Except PyErr α} {v : Except PyErr β} (h : Matches R x v)
    (hv : v ≠ .error .unmodelled) : Agrees R x v := by
  cases v with
  | error err => exact h.resolve_left fun h => hv (by rw [h])
  | ok v => exact h

theorem Agrees.matches {α β : Type} {R : α → β → Prop} {x : Except PyErr α} {v : Except PyErr β} (h : Agrees R x v) :
    Matches R x v := by
  cases v with
  | error err => exact .inr h
  | ok v => exact h

theorem agrees_ok {α β : Type} {R : α → β → Prop} {x : Except PyErr α} {v : β} {t : α} (h : x = .ok t) (hR : R t v) :
    Agrees R x (.ok v) := ⟨t, h, hR⟩

theorem same_ok {α β : Type} {R : α → β → Prop} {x : Except PyErr α} {v : β} {t : α} (h : x = .ok t) (hR : R t v) :
    Matches R x (.ok v) := ⟨t, h, hR⟩

/-- The solutions for single references. -/
def IsSol2 (t : Tensor ℝ) (v : BIdx s × Fin r → Fin e → Fin K → ℝ) : Prop :=
  ∃ w : List ℕ → ℕ → Fin K → ℝ, t = L2 (r :: s.reverse) K e (fun i j => List.ofFn (w i j)) ∧
    ∀ m (k : Fin r) (j : Fin e), w (k.val :: pos m) j = v (m, k) j

/-- Indices of the rows of references. -/
theorem exists_row {i : List ℕ} (hi : InRange (r :: s.reverse) i) : ∃ (m : BIdx s) (k : Fin r), i = k.val :: pos m := by
  obtain ⟨k, i, rfl, hk, hi⟩ := inRange_cons_inv hi
  obtain ⟨m, rfl⟩ := exists_pos hi
  exact ⟨m, ⟨k, hk⟩, rfl⟩

theorem row_inRange (m : BIdx s) (k : Fin r) : InRange (r :: s.reverse) (k.val :: pos m) := ⟨k.isLt, pos_inRange m⟩

theorem solveOne_pair (hA : A.Lawful) (hB : Covered A.B) (hK : 0 < K) (hb : bcShape bx s.reverse = some s.reverse)
    {cg : Option ℕ} (hcg : cg = none ∨ bx.length = s.length) {f : List ℕ → List ℝ} {g : List ℕ → ℕ → List ℝ}
    (hf : ∀ i, (f i).length = K) (hg : ∀ i j, (g i j).length = K) {acf : BIdx s → Fin r → List ℝ}
    {xc : BIdx s → Fin r → Fin e → Fin K → ℝ} (hacf : ∀ m k, acf m k = f (k.val :: bcIdx bx (pos m)))
    (hxc : ∀ m (k : Fin r) (j : Fin e), xc m k j = vec K (g (k.val :: pos m) j)) :
    Matches IsSol2 (solveOne A (cg.map fun it : ℕ => (it : ℤ)) (L1 (r :: bx) K f) (L2 (r :: s.reverse) K e g))
      (solOne A.B cg K acf xc) := by
  have hb' : bcShape (r :: bx) (r :: s.reverse) = some (r :: s.reverse) := bcShape_cons_self hb
  have hrow : ∀ (m : BIdx s) (k : Fin r), bcIdx (r :: bx) (k.val :: pos m) = k.val :: bcIdx bx (pos m) := fun m k =>
    bcIdx_cons _ _ _ _ k.isLt
  cases cg with
  | none =>
    have hlen := bcShape_length hb
    simp only [solveOne, Option.map_none]
    rw [toeplitz_eq hB hK hf, ok_bind, hA.solve (by simp [L2_shape]) (by simp [L2_shape, Mx_shape]; simp at hlen; omega),
      solveMat_eq _ hb']
    have h1 : (∃ i, InRange (r :: s.reverse) i ∧ (FBE.toeplitz A.B K (f (bcIdx (r :: bx) i))).det = 0) ↔
        ∃ i : BIdx s × Fin r, (FBE.toeplitz A.B K (acf i.1 i.2)).det = 0 := by
      constructor
      · rintro ⟨i, hi, h⟩
        obtain ⟨m, k, rfl⟩ := exists_row hi
        exact ⟨(m, k), by rw [hacf, ← hrow]; exact h⟩
      · rintro ⟨⟨m, k⟩, h⟩
        refine ⟨k.val :: pos m, row_inRange m k, ?_⟩
        rw [hrow, ← hacf]; exact h
    simp only [solOne, solveStack, h1]
    split_ifs with h
    · exact .inr rfl
    · refine same_ok rfl ⟨fun i j => (FBE.toeplitz A.B K (f (bcIdx (r :: bx) i)))⁻¹ *ᵥ vec K (g i j), ?_, ?_⟩
      · exact L2_congr fun i hi j hj => by rw [bcIdx_self hi]
      · intro m k j
        show (FBE.toeplitz A.B K (f (bcIdx (r :: bx) (k.val :: pos m))))⁻¹ *ᵥ vec K (g (k.val :: pos m) j) =
          (FBE.toeplitz A.B K (acf m k))⁻¹ *ᵥ xc m k j
        rw [hrow, hacf, hxc]
  | some it =>
    have hlen : bx.length = s.length := by simpa using hcg
    simp only [solveOne, Option.map_some, solOne]
    refine same_ok (toeplitzCg_pair hA hB hK hf (by simp [hlen]) hb' hg it) ⟨_, rfl, fun m k j => ?_⟩
    show FBE.toeplitzCg A.B K (f (bcIdx (r :: bx) (k.val :: pos m))) (vec K (g (k.val :: pos m) j)) it =
      FBE.toeplitzCg A.B K (acf m k) (xc m k j) it
    rw [hrow, hacf, hxc]

theorem coherence_holds {t : Tensor ℝ} {v : BIdx s × Fin r → Fin e → Fin K → ℝ} (ht : IsSol2 t v)
    {g : List ℕ → ℕ → List ℝ} {xc : BIdx s → Fin r → Fin e → Fin K → ℝ}
    (hxc : ∀ m (k : Fin r) (j : Fin e), xc m k j = vec K (g (k.val :: pos m) j)) :
    Matches Holds2 (coherence A true (L2 (r :: s.reverse) K e g) t)
      (.ok fun m k j => ∑ l, xc m k j l * v (m, k) j l) := by
  obtain ⟨w, rfl, hw⟩ := ht
  refine same_ok coherence_pair ⟨rfl, fun m k j => ?_⟩
  refine (tab_get (s := e :: r :: s.reverse) (i := j.val :: k.val :: pos m) ⟨j.isLt, row_inRange m k⟩).trans ?_
  refine Finset.sum_congr rfl fun l _ => ?_
  rw [hxc, ← hw]
  rfl

theorem computeStats_none {x y : Tensor ℝ} {b : List ℕ} {n : ℕ} (hx : x.shape = n :: b) (pw : Bool) :
    computeStats A x y none pw = computeStats A x y (some (n : ℤ)) pw := by
  simp only [computeStats, size_one hx, ok_bind, Option.getD_none, Option.getD_some]

/-- Lengths that the code reads as the filter length of the options. -/
def IsLength (o : Opts) (N : ℕ) (len : Option ℤ) : Prop :=
  len = some (o.filterLength : ℤ) ∨ len = none ∧ o.filterLength = N

theorem IsLength.stats {len : Option ℤ} (h : IsLength o N len) {x y : Tensor ℝ} {b : List ℕ} (hx : x.shape = N :: b)
    (pw : Bool) : computeStats A x y len pw = computeStats A x y (some (o.filterLength : ℤ)) pw := by
  obtain rfl | ⟨rfl, h⟩ := h
  · rfl
  · rw [h, computeStats_none hx]

/-- `sdr_loss` after the shortcut for length one. -/
noncomputable def sdrLossGen (A : Api) (o : AOpts) (pairwise : Bool) (ref est : Tensor ℝ) : Except PyErr (Tensor ℝ) := do
  let est ← prepare A o.zeroMean est
  let ref ← prepare A o.zeroMean ref
  let (acf, xcorr) ← computeStats A ref est o.filterLength pairwise
  let acf ← loadFirst o.loadDiag acf
  let sol ← solveOne A o.useCgIter acf xcorr
  coherence A pairwise xcorr sol

theorem sdrCohPairGen_matches (hA : A.Lawful) (hB : Covered A.B) {ref est : Tensor ℝ} (href : ref.shape = N :: r :: bx)
    (hest : est.shape = M :: e :: by') (hb : bcShape bx by' = some s.reverse) (hL : 0 < o.filterLength)
    {len : Option ℤ} (hlen : IsLength o N len) (hcg : o.useCgIter = none ∨ bx.length = s.length) :
    Matches Holds2 (sdrLossGen A { o.args with filterLength := len } true ref est)
      (sdrCohPairGen A.B o (signals ref bx s r N) (signals est by' s e M)) := by
  simp only [sdrLossGen, Opts.args]
  rw [prepare_eq hest, ok_bind, prepare_eq href, ok_bind, hlen.stats (L1_shape _ _ _)]
  cases hn : nFft N M with
  | error err =>
    rw [computeStats_error rfl rfl hn]
    unfold sdrCohPairGen
    rw [hn]
    exact .inr rfl
  | ok n =>
    have hn0 := nFft_pos' hn
    have hK : 0 < min o.filterLength n := by omega
    have hl : ∀ i, (acf1 n o.filterLength (List.ofFn (preprocess o.zeroMean (row ref N i)))).length =
        min o.filterLength n := fun i => length_acf1 _ _ _
    rw [computeStats_pair hA hb (fun i => by simp) (fun i => by simp) hn, ok_bind]
    dsimp only
    rw [loadFirst_eq hK hl, ok_bind, sdrCohPairGen_unfold hn rfl]
    have hxc : ∀ m (k : Fin r) (j : Fin e),
        vec (min o.filterLength n) (sdrXcorr o n (signals ref bx s r N) (signals est by' s e M) m k j) =
        vec (min o.filterLength n) (xcorr1 n o.filterLength
          (List.ofFn (preprocess o.zeroMean (row ref N ((k.val :: pos m).getD 0 0 :: bcIdx bx ((k.val :: pos m).drop 1)))))
          (List.ofFn (preprocess o.zeroMean (row est M (j.val :: bcIdx by' ((k.val :: pos m).drop 1)))))) :=
      fun m k j => rfl
    have h1 := solveOne_pair (r := r) (e := e) (cg := o.useCgIter) hA hB hK (bcShape_absorb hb) hcg
      (f := fun i => addHead o.loadDiag (acf1 n o.filterLength (List.ofFn (preprocess o.zeroMean (row ref N i)))))
      (g := fun i j => xcorr1 n o.filterLength
          (List.ofFn (preprocess o.zeroMean (row ref N (i.getD 0 0 :: bcIdx bx (i.drop 1)))))
          (List.ofFn (preprocess o.zeroMean (row est M (j :: bcIdx by' (i.drop 1))))))
      (fun i => by rw [length_addHead, hl]) (fun i j => length_xcorr1 _ _ _ _)
      (acf := sdrAcf o n (signals ref bx s r N))
      (xc := fun m k j => vec (min o.filterLength n) (sdrXcorr o n (signals ref bx s r N) (signals est by' s e M) m k j))
      (fun m k => rfl) hxc
    cases hs : solOne A.B o.useCgIter (min o.filterLength n) (sdrAcf o n (signals ref bx s r N))
      (fun m k j => vec (min o.filterLength n) (sdrXcorr o n (signals ref bx s r N) (signals est by' s e M) m k j)) with
    | error err =>
      rw [hs] at h1
      refine h1.imp id fun h1 => ?_
      rw [h1]
      rfl
    | ok sol =>
      rw [hs] at h1
      obtain ⟨t, ht, hR⟩ := h1
      rw [ht, ok_bind]
      exact coherence_holds hR hxc

/-! ### channel by channel -/

/-- The solutions for single references, channel by channel. -/
def IsSol1 (t : Tensor ℝ) (v : BIdx s × Fin c → Fin K → ℝ) : Prop :=
  ∃ w : List ℕ → Fin K → ℝ, t = L1 (c :: s.reverse) K (fun i => List.ofFn (w i)) ∧
    ∀ m (k : Fin c), w (k.val :: pos m) = v (m, k)

theorem solveOne_diag (hA : A.Lawful) (hB : Covered A.B) (hK : 0 < K) (cg : Option ℕ) {f g : List ℕ → List ℝ}
    (hf : ∀ i, (f i).length = K) (hg : ∀ i, (g i).length = K) {acf : BIdx s → Fin c → List ℝ}
    {xc : BIdx s → Fin c → Fin K → ℝ} (hacf : ∀ m k, acf m k = f (k.val :: pos m))
    (hxc : ∀ m (k : Fin c), xc m k = vec K (g (k.val :: pos m))) :
    Matches IsSol1 (solveOne A (cg.map fun it : ℕ => (it : ℤ)) (L1 (c :: s.reverse) K f) (L1 (c :: s.reverse) K g))
      (solDiag A.B cg K acf xc) := by
  cases cg with
  | none =>
    simp only [solveOne, Option.map_none, solDiag, solveVecs]
    rw [toeplitz_eq hB hK hf, ok_bind]
    cases hv : A.B.stackedVectors with
    | true =>
      rw [hA.solveVec hv (n := K) rfl, solveVec_eq]
      have h1 : (∃ i, InRange (c :: s.reverse) i ∧ (FBE.toeplitz A.B K (f i)).det = 0) ↔
          ∃ i : BIdx s × Fin c, (FBE.toeplitz A.B K (acf i.1 i.2)).det = 0 := by
        constructor
        · rintro ⟨i, hi, h⟩
          obtain ⟨m, k, rfl⟩ := exists_row hi
          exact ⟨(m, k), by rw [hacf]; exact h⟩
        · rintro ⟨⟨m, k⟩, h⟩
          exact ⟨k.val :: pos m, row_inRange m k, by rw [← hacf]; exact h⟩
      simp only [solveStack, h1, if_true]
      split_ifs with h
      · exact .inr rfl
      · refine same_ok rfl ⟨fun i => (FBE.toeplitz A.B K (f i))⁻¹ *ᵥ vec K (g i), rfl, fun m k => ?_⟩
        show _ = (FBE.toeplitz A.B K (acf m k))⁻¹ *ᵥ xc m k
        rw [hacf, hxc]
    | false =>
      rw [hA.solveMatrix hv (by simp [L1_shape])]
      simp only [Bool.false_eq_true, if_false]
      split_ifs with h
      · refine .inr ?_
        have he : A.err = .valueError := by
          obtain h | ⟨lsa, np2, _, h⟩ := hB
          · rw [h] at hv; simp [torchBackend] at hv
          · unfold Api.err; rw [h]; rfl
        rw [he]
        show (if K ≠ K then _ else if c ≠ K then _ else _) = _
        rw [if_neg (by simp), if_pos h]
      · exact .inl rfl
  | some it =>
    simp only [solveOne, Option.map_some, solDiag]
    refine same_ok (toeplitzCg_vec hA hB hK hf hg it) ⟨_, rfl, fun m k => ?_⟩
    show FBE.toeplitzCg A.B K (f (k.val :: pos m)) (vec K (g (k.val :: pos m))) it = _
    rw [← hacf, ← hxc]

theorem coherence_holds1 {t : Tensor ℝ} {v : BIdx s × Fin c → Fin K → ℝ} (ht : IsSol1 t v)
    {g : List ℕ → List ℝ} {xc : BIdx s → Fin c → Fin K → ℝ}
    (hxc : ∀ m (k : Fin c), xc m k = vec K (g (k.val :: pos m))) :
    Matches Holds1 (coherence A false (L1 (c :: s.reverse) K g) t)
      (.ok fun m k => ∑ l, xc m k l * v (m, k) l) := by
  obtain ⟨w, rfl, hw⟩ := ht
  refine same_ok coherence_diag ⟨rfl, fun m k => ?_⟩
  refine (tab_get (s := c :: s.reverse) (i := k.val :: pos m) (row_inRange m k)).trans ?_
  show (∑ l, vec K (g (k.val :: pos m)) l * w (k.val :: pos m) l) = ∑ l, xc m k l * v (m, k) l
  rw [hxc, hw]

theorem sdrCohDiagGen_matches (hA : A.Lawful) (hB : Covered A.B) {ref est : Tensor ℝ}
    (href : ref.shape = N :: c :: s.reverse) {b : List ℕ} (hest : est.shape = M :: b)
    (hb : bcShape (c :: s.reverse) b = some (c :: s.reverse)) (hL : 0 < o.filterLength)
    {len : Option ℤ} (hlen : IsLength o N len) :
    Matches Holds1 (sdrLossGen A { o.args with filterLength := len } false ref est)
      (sdrCohDiagGen A.B o (signals ref s.reverse s c N) (channels est b s c M)) := by
  simp only [sdrLossGen, Opts.args]
  rw [prepare_eq hest, ok_bind, prepare_eq href, ok_bind, hlen.stats (L1_shape _ _ _)]
  cases hn : nFft N M with
  | error err =>
    rw [computeStats_error rfl rfl hn]
    unfold sdrCohDiagGen
    rw [hn]
    exact .inr rfl
  | ok n =>
    have hn0 := nFft_pos' hn
    have hK : 0 < min o.filterLength n := by omega
    have hl : ∀ i, (acf1 n o.filterLength (List.ofFn (preprocess o.zeroMean (row ref N i)))).length =
        min o.filterLength n := fun i => length_acf1 _ _ _
    rw [computeStats_diag hA hb (fun i => by simp) (fun i => by simp) hn, ok_bind]
    dsimp only
    rw [loadFirst_eq hK hl, ok_bind, sdrCohDiagGen_unfold hn rfl]
    have hsig : ∀ m (k : Fin c), signals ref s.reverse s c N m k = row ref N (k.val :: pos m) := fun m k => by
      funext t
      show ref.get (t.val :: k.val :: bcIdx s.reverse (pos m)) = ref.get (t.val :: k.val :: pos m)
      rw [bcIdx_self (pos_inRange m)]
    have hxc : ∀ m (k : Fin c),
        vec (min o.filterLength n) (sdrXcorr o n (signals ref s.reverse s c N) (channels est b s c M) m k k) =
        vec (min o.filterLength n) (xcorr1 n o.filterLength
          (List.ofFn (preprocess o.zeroMean (row ref N (bcIdx (c :: s.reverse) (k.val :: pos m)))))
          (List.ofFn (preprocess o.zeroMean (row est M (bcIdx b (k.val :: pos m)))))) := fun m k => by
      rw [bcIdx_self (row_inRange m k)]
      simp only [sdrXcorr, prep, hsig]
      rfl
    have h1 := solveOne_diag (c := c) hA hB hK o.useCgIter
      (f := fun i => addHead o.loadDiag (acf1 n o.filterLength (List.ofFn (preprocess o.zeroMean (row ref N i)))))
      (g := fun i => xcorr1 n o.filterLength
          (List.ofFn (preprocess o.zeroMean (row ref N (bcIdx (c :: s.reverse) i))))
          (List.ofFn (preprocess o.zeroMean (row est M (bcIdx b i)))))
      (fun i => by rw [length_addHead, hl]) (fun i => length_xcorr1 _ _ _ _)
      (acf := sdrAcf o n (signals ref s.reverse s c N))
      (xc := fun m k => vec (min o.filterLength n) (sdrXcorr o n (signals ref s.reverse s c N) (channels est b s c M) m k k))
      (fun m k => by simp only [sdrAcf, prep, hsig]) hxc
    cases hs : solDiag A.B o.useCgIter (min o.filterLength n) (sdrAcf o n (signals ref s.reverse s c N))
      (fun m k => vec (min o.filterLength n)
        (sdrXcorr o n (signals ref s.reverse s c N) (channels est b s c M) m k k)) with
    | error err =>
      rw [hs] at h1
      refine h1.imp id fun h1 => ?_
      rw [h1]
      rfl
    | ok sol =>
      rw [hs] at h1
      obtain ⟨t, ht, hR⟩ := h1
      rw [ht, ok_bind]
      exact coherence_holds1 hR hxc

end Arrays

end FBE
