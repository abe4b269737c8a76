import Verif.Proofs.ArrayPerm
import Verif.Proofs.ArrayBlock

/-!
# `square_cosine_metrics` on arrays
-/

set_option linter.unusedSectionVars false

namespace FBE

open Classical Matrix Spec Tensor

namespace Arrays

variable {A : Api} {s bx by' : List ℕ} {r e c a b n nOut nArgs N M K : ℕ} {o : Opts}

/-! ### index lemmas -/

theorem exists_inRange : ∀ {b : List ℕ}, 0 < b.prod → ∃ i, InRange b i
  | [], _ => ⟨[], trivial⟩
  | n :: b, h => by
    rw [List.prod_cons] at h
    obtain ⟨i, hi⟩ := exists_inRange (Nat.pos_of_mul_pos_left h)
    exact ⟨0 :: i, Nat.pos_of_mul_pos_right h, hi⟩

theorem bcIdx_surj : ∀ {bx b i : List ℕ}, bcShape bx b = some b → 0 < b.prod → InRange bx i →
    ∃ i', InRange b i' ∧ bcIdx bx i' = i
  | [], b, i, _, hb, hi => by
    obtain ⟨i', hi'⟩ := exists_inRange hb
    exact ⟨i', hi', (inRange_nil_inv hi).symm⟩
  | n :: bx, [], i, h, _, _ => by
    rw [bcShape_nil_right] at h
    simp at h
  | n :: bx, m :: b, i, h, hb, hi => by
    obtain ⟨t, i, rfl, ht, hi⟩ := inRange_cons_inv hi
    rw [List.prod_cons] at hb
    have h0 : bcShape bx b = some b ∧ (n = m ∨ n = 1) := by
      simp only [bcShape] at h
      cases hu : bcShape bx b with
      | none => simp [hu] at h
      | some u =>
        simp only [hu] at h
        split_ifs at h with h1 h2 h3
        · exact ⟨by simp at h; rw [h.2], .inl h1⟩
        · exact ⟨by simp at h; rw [h], .inr h2⟩
        · exact ⟨by simp at h; rw [h.2], .inl (by simp at h; exact h.1)⟩
    obtain ⟨i', hi', he⟩ := bcIdx_surj h0.1 (Nat.pos_of_mul_pos_left hb) hi
    obtain rfl | rfl := h0.2
    · exact ⟨t :: i', ⟨ht, hi'⟩, by rw [bcIdx_cons _ _ _ _ ht, he]⟩
    · refine ⟨0 :: i', ⟨Nat.pos_of_mul_pos_right hb, hi'⟩, ?_⟩
      rw [bcIdx_one, he, show t = 0 by omega]

/-! ### the arrays of the single systems -/

theorem addHead_none (l : List ℝ) : addHead none l = l := by cases l <;> rfl

theorem loadDiagonal_eq {f : List ℕ → ℕ → ℕ → List ℝ} (hn : 0 < n) (hf : ∀ i k l, (f i k l).length = n) (d : Option ℝ) :
    loadDiagonal d (L3 s n c c f) =
      .ok (L3 s n c c fun i k l => if k = l then addHead d (f i k l) else f i k l) := by
  cases d with
  | none => simp only [loadDiagonal, addHead_none, ite_self]
  | some d =>
    simp only [loadDiagonal, size_three (L3_shape _ _ _ _ _), ok_bind, if_neg hn.ne', L3_shape]
    refine congrArg _ (tab_congr fun i hi => ?_)
    obtain ⟨j, i, rfl, hj, hi⟩ := inRange_cons_inv hi
    obtain ⟨k, i, rfl, hk, hi⟩ := inRange_cons_inv hi
    obtain ⟨t, i, rfl, ht, hi⟩ := inRange_cons_inv hi
    rw [L3_get hj hk ht hi]
    show (if t = 0 ∧ j = k then _ else _) = (if k = j then addHead (some d) (f i k j) else f i k j).getD t 0
    by_cases h : k = j
    · subst h
      have hne : f i k k ≠ [] := fun h0 => by
        have := hf i k k
        rw [h0] at this
        exact hn.ne this
      rw [if_pos rfl, getD_addHead _ _ hne]
      by_cases h0 : t = 0 <;> simp [h0]
    · rw [if_neg h, if_neg (fun h' => h h'.2.symm)]

theorem acfSdr_eq (hA : A.Lawful) {n' : ℕ} {f : List ℕ → ℕ → ℕ → List ℝ} (hf : ∀ i k l, (f i k l).length = n)
    {len : Option ℤ} (hlen : ∀ l : List ℝ, l.length = n → (pySlice l none len).length = n') :
    (do let a ← A.diag c (L3 s n c c f)
        let a ← a.transpose (-2) (-1)
        a.slice (-1) none len) =
      .ok (L1 (c :: s) n' fun i => pySlice (f (i.drop 1) (i.getD 0 0) (i.getD 0 0)) none len) := by
  rw [hA.diag (L3_shape _ _ _ _ _), ok_bind]
  have h1 : (tab (c :: n :: s) fun i => (L3 s n c c f).get (i.getD 0 0 :: i)) = L2 s n c fun i k => f i k k := by
    refine tab_congr fun i hi => ?_
    obtain ⟨k, i, rfl, hk, hi⟩ := inRange_cons_inv hi
    obtain ⟨t, i, rfl, ht, hi⟩ := inRange_cons_inv hi
    exact L3_get hk hk ht hi
  rw [h1, transpose_L2, ok_bind]
  exact along_L1 hlen fun i => hf _ _ _

theorem xcorrDiag_eq (hA : A.Lawful) {g : List ℕ → ℕ → ℕ → List ℝ} :
    (do let d ← A.diag c (L3 s n c c g)
        d.transpose (-2) (-1)) = .ok (L1 (c :: s) n fun i => g (i.drop 1) (i.getD 0 0) (i.getD 0 0)) := by
  rw [hA.diag (L3_shape _ _ _ _ _), ok_bind]
  have h1 : (tab (c :: n :: s) fun i => (L3 s n c c g).get (i.getD 0 0 :: i)) = L2 s n c fun i k => g i k k := by
    refine tab_congr fun i hi => ?_
    obtain ⟨k, i, rfl, hk, hi⟩ := inRange_cons_inv hi
    obtain ⟨t, i, rfl, ht, hi⟩ := inRange_cons_inv hi
    exact L3_get hk hk ht hi
  rw [h1, transpose_L2]

theorem transpose_L3_32 {g : List ℕ → ℕ → ℕ → List ℝ} :
    (L3 s n r e g).transpose (-3) (-2) = .ok (L2 (r :: s) n e fun i j => g (i.drop 1) (i.getD 0 0) j) := by
  rw [transpose_32 (L3_shape _ _ _ _ _)]
  refine congrArg _ (tab_congr fun i hi => ?_)
  obtain ⟨j, i, rfl, hj, hi⟩ := inRange_cons_inv hi
  obtain ⟨t, i, rfl, ht, hi⟩ := inRange_cons_inv hi
  obtain ⟨k, i, rfl, hk, hi⟩ := inRange_cons_inv hi
  exact L3_get hj hk ht hi

theorem transpose_L2_32 {g : List ℕ → ℕ → List ℝ} :
    (L2 (r :: s) n e g).transpose (-3) (-2) = .ok (L3 s n r e fun i k j => g (k :: i) j) := by
  rw [transpose_32 (L2_shape _ _ _ _)]
  refine congrArg _ (tab_congr fun i hi => ?_)
  obtain ⟨j, i, rfl, hj, hi⟩ := inRange_cons_inv hi
  obtain ⟨k, i, rfl, hk, hi⟩ := inRange_cons_inv hi
  obtain ⟨t, i, rfl, ht, hi⟩ := inRange_cons_inv hi
  exact L2_get (b := r :: s) hj ht ⟨hk, hi⟩

/-! ### systems of the wrong size -/

theorem conjugateGradient_size {F P : Op} {y : Tensor ℝ} {x : Option (Tensor ℝ)} {k m : ℕ} {sb : List ℕ} {it : Option ℤ}
    (hy : y.shape = k :: m :: sb) (h : F.shape.length - 1 ≠ y.shape.length)
    (hF : ¬ (F.shape.length = y.shape.length ∧ F.shape.getD 0 0 = m)) :
    Arrays.conjugateGradient A F P y x it = .error .assertionError := by
  have h' : ¬ F.shape.length = y.shape.length + 1 := by omega
  simp only [Arrays.conjugateGradient, decide_eq_true_eq, if_neg h']
  by_cases h1 : F.shape.length = y.shape.length
  · rw [if_neg (not_not.2 h1), size_two hy, ok_bind, if_pos fun h2 => hF ⟨h1, h2⟩]
  · rw [if_pos h1]

theorem conjugateGradient_size_vec {F P : Op} {y : Tensor ℝ} {x : Option (Tensor ℝ)} {m : ℕ} {sb : List ℕ}
    {it : Option ℤ} (hy : y.shape = m :: sb) (h : F.shape.length - 1 = y.shape.length) (hF : F.shape.getD 0 0 ≠ m) :
    Arrays.conjugateGradient A F P y x it = .error .assertionError := by
  have h' : F.shape.length = y.shape.length + 1 := by rw [hy] at h ⊢; simp at h ⊢; omega
  have hu : (y.unsqueeze 0).shape = 1 :: m :: sb := by rw [unsqueeze_0, tab_shape, hy]
  simp only [Arrays.conjugateGradient, decide_eq_true_eq, if_pos h']
  rw [if_neg (not_not.2 (by rw [hu, h', hy]; rfl)), size_two hu, ok_bind, if_pos hF]

theorem toeplitzCg_error (hA : A.Lawful) (hB : Covered A.B) {n' : ℕ} {ba bl : List ℕ} (hn : 0 < n)
    {f : List ℕ → List ℝ} (hf : ∀ i, (f i).length = n) {y : Tensor ℝ} (hy : y.shape = e :: n' :: bl)
    (hlen : ba.length ≤ bl.length) (h : ba.length ≠ bl.length ∨ n' ≠ n) (it : Option ℤ) :
    Arrays.toeplitzCg A (L1 ba n f) y it = .error .assertionError := by
  obtain ⟨P, hP, -⟩ := circPrecond_eq (ba := ba) hA hn hf
  obtain ⟨F, hF, hFs, -⟩ := symToeplitzOp_eq' (ba := ba) hA hB hn hf
  simp only [Arrays.toeplitzCg]
  rw [hP, ok_bind, hF, ok_bind]
  refine conjugateGradient_size hy ?_ ?_
  · rw [hFs, hy]; simp; omega
  · rw [hFs, hy]; simp; intro h1; omega

theorem toeplitzCg_error_vec (hA : A.Lawful) (hB : Covered A.B) {n' : ℕ} {ba bl : List ℕ} (hn : 0 < n)
    {f : List ℕ → List ℝ} (hf : ∀ i, (f i).length = n) {y : Tensor ℝ} (hy : y.shape = n' :: bl)
    (hlen : ba.length = bl.length) (h : n' ≠ n) (it : Option ℤ) :
    Arrays.toeplitzCg A (L1 ba n f) y it = .error .assertionError := by
  obtain ⟨P, hP, -⟩ := circPrecond_eq (ba := ba) hA hn hf
  obtain ⟨F, hF, hFs, -⟩ := symToeplitzOp_eq' (ba := ba) hA hB hn hf
  simp only [Arrays.toeplitzCg]
  rw [hP, ok_bind, hF, ok_bind]
  refine conjugateGradient_size_vec hy ?_ ?_
  · rw [hFs, hy]; simp [hlen]
  · rw [hFs]; exact fun h' => h h'.symm

theorem solveOne_size_pair (hA : A.Lawful) (hB : Covered A.B) {n' : ℕ} {ba bl : List ℕ} (hn : 0 < n)
    {f : List ℕ → List ℝ} (hf : ∀ i, (f i).length = n) {y : Tensor ℝ} (hy : y.shape = e :: n' :: bl)
    (hlen : ba.length ≤ bl.length) (h : n' ≠ n) (cg : Option ℕ) :
    solveOne A (cg.map fun it : ℕ => (it : ℤ)) (L1 ba n f) y = .error (sizeErr A.B cg) := by
  cases cg with
  | none =>
    simp only [solveOne, Option.map_none, sizeErr]
    rw [toeplitz_eq hB hn hf, ok_bind, hA.solve (by simp [hy]) (by simp [hy, Mx_shape, hlen])]
    exact solveMat_size (Mx_shape _ _ _) hy h
  | some it =>
    simp only [solveOne, Option.map_some, sizeErr]
    exact toeplitzCg_error hA hB hn hf hy hlen (.inr h) _

theorem solveOne_size_diag (hA : A.Lawful) (hB : Covered A.B) {n' : ℕ} {bl : List ℕ} (hn : 0 < n)
    {f : List ℕ → List ℝ} (hf : ∀ i, (f i).length = n) {y : Tensor ℝ} (hy : y.shape = n' :: c :: bl)
    (h : n' ≠ n) (cg : Option ℕ) (hc : cg = none → c ≠ n) :
    solveOne A (cg.map fun it : ℕ => (it : ℤ)) (L1 (c :: bl) n f) y = .error (sizeErr A.B cg) := by
  cases cg with
  | none =>
    simp only [solveOne, Option.map_none, sizeErr]
    rw [toeplitz_eq hB hn hf, ok_bind]
    exact hA.solveErr (Mx_shape _ _ _) hy h (hc rfl)
  | some it =>
    simp only [solveOne, Option.map_some, sizeErr]
    exact toeplitzCg_error_vec hA hB hn hf hy rfl h _

/-! ### all references together -/

theorem vec_ofFn (g : Fin n → ℝ) : vec n (List.ofFn g) = g := by
  funext t
  exact getD_ofFn' g t.isLt

theorem coherence_V {J : Type} [Fintype J] {φ : J ≃ Fin n} (y w : List ℕ → ℕ → J → ℝ) :
    coherence A true (V s e φ y) (V s e φ w) = .ok (S s e fun i j => ∑ p, y i j p * w i j p) := by
  unfold V
  rw [coherence_pair]
  refine congrArg _ (tab_congr fun i hi => ?_)
  rw [vec_ofFn]
  exact Equiv.sum_comp φ.symm fun p => y (i.drop 1) (i.getD 0 0) p * w (i.drop 1) (i.getD 0 0) p

theorem blockSolve_eq (hA : A.Lawful) {J : Type} [Fintype J] [DecidableEq J] {φ : J ≃ Fin n} {sb : List ℕ}
    (hb : bcShape bx sb = some sb) (F : List ℕ → Matrix J J ℝ) (y : List ℕ → ℕ → J → ℝ) :
    A.solve (Mx bx n fun i => (F i).submatrix φ.symm φ.symm) (V sb e φ y) =
      if ∃ i, InRange sb i ∧ (F (bcIdx bx i)).det = 0 then .error .linAlgError
      else .ok (V sb e φ fun i j => (F (bcIdx bx i))⁻¹ *ᵥ y i j) := by
  have hlen := bcShape_length hb
  rw [hA.solve (by simp [V_shape]) (by simp [V_shape, Mx_shape]; omega)]
  unfold V
  rw [solveMat_eq _ hb]
  simp only [det_submatrix_equiv_self]
  refine if_congr Iff.rfl rfl (congrArg _ (L2_congr fun i hi j hj => ?_))
  rw [bcIdx_self hi, vec_ofFn, inv_submatrix_equiv, submatrix_mulVec_equiv]
  congr 1
  funext t
  simp only [Function.comp_def]
  congr 2
  funext p
  simp

theorem cohSar_matches (hA : A.Lawful) (hB : Covered A.B) (hK : 2 ≤ K) (hpos : 0 < e * r * s.reverse.prod)
    (hb : bcShape bx s.reverse = some s.reverse) {cg : Option ℕ} (hcg : cg = none ∨ bx.length = s.length) {pw : Bool}
    {f g : List ℕ → ℕ → ℕ → List ℝ} (hf : ∀ i k l, (f i k l).length = K + K) {sol : Tensor ℝ}
    {v : BIdx s × Fin r → Fin e → Fin K → ℝ} (hsol : pw = true → IsSol2 sol v)
    {acf : BIdx s → Fin r → Fin r → List ℝ} {xc x0 : BIdx s → Fin e → Fin K × Fin r → ℝ}
    (hacf : ∀ m (k l : Fin r), acf m k l = f (bcIdx bx (pos m)) k l)
    (hxc : ∀ m (j : Fin e) (p : Fin K × Fin r), xc m j p = vec K (g (pos m) p.2 j) p.1)
    (hx0 : ∀ m (j : Fin e) (p : Fin K × Fin r), x0 m j p = if pw then v (m, p.2) j p.1 else 0) :
    Matches Holds1 (Arrays.cohSar A (cg.map fun it : ℕ => (it : ℤ)) pw (L3 bx (K + K) r r f) (L3 s.reverse K r e g) sol)
      ((solAll A.B cg K acf xc x0).map fun sol m j => ∑ p, xc m j p * sol m j p) := by
  have hpos' : 0 < e * s.reverse.prod := by
    refine Nat.pos_of_ne_zero fun h => ?_
    rw [mul_right_comm, h, zero_mul] at hpos
    exact lt_irrefl _ hpos
  have hprod : 0 < s.reverse.prod := Nat.pos_of_mul_pos_left hpos'
  -- the last step
  have hfin : ∀ (w : List ℕ → ℕ → Fin K × Fin r → ℝ) (w' : BIdx s → Fin e → Fin K × Fin r → ℝ),
      (∀ m (j : Fin e), w (pos m) j = w' m j) →
      Matches Holds1 (Tensor.einsum A.err ['l', 'c'] ['l', 'c'] ['c'] (V s.reverse e finProdFinEquiv
        fun i j (p : Fin K × Fin r) => vec K (g i p.2 j) p.1) (V s.reverse e finProdFinEquiv w))
        (.ok fun m j => ∑ p, xc m j p * w' m j p) := by
    intro w w' hw
    refine same_ok (coherence_V (A := A) _ w) ⟨rfl, fun m j => ?_⟩
    rw [S_get j.isLt (pos_inRange m), hw]
    exact Finset.sum_congr rfl fun p _ => by rw [hxc]
  have hacf' : ∀ m, acf m = fun k l : Fin r => f (bcIdx bx (pos m)) k l := fun m => by
    funext k l; exact hacf m k l
  simp only [Arrays.cohSar]
  rw [mergeRows_eq A.err hpos', ok_bind]
  cases cg with
  | none =>
    simp only [Option.map_none, solAll]
    have hsolve := blockSolve_eq (e := e) (φ := finProdFinEquiv) hA hb
      (fun i => (fun p q => lagAt (f i p.2 q.2) p.1 q.1 : Matrix (Fin K × Fin r) (Fin K × Fin r) ℝ))
      (fun i j p => vec K (g i p.2 j) p.1)
    rw [blockToeplitz_eq hK hf, ok_bind, blockToeplitz_ok hK acf fun m k l => by rw [hacf, hf]; omega]
    refine Eq.mpr (congrArg (fun x => Matches Holds1 (x >>= _) _) hsolve) ?_
    simp only [solveStack]
    have h1 : (∃ i, InRange s.reverse i ∧ Matrix.det (fun p q : Fin K × Fin r =>
        lagAt (f (bcIdx bx i) p.2 q.2) p.1 q.1) = 0) ↔
        ∃ m, Matrix.det (fun p q : Fin K × Fin r => lagAt (acf m p.2 q.2) p.1 q.1) = 0 := by
      constructor
      · rintro ⟨i, hi, h⟩
        obtain ⟨m, rfl⟩ := exists_pos hi
        exact ⟨m, by simp only [hacf]; exact h⟩
      · rintro ⟨m, h⟩
        exact ⟨pos m, pos_inRange m, by simp only [hacf] at h; exact h⟩
    by_cases h : ∃ m, Matrix.det (fun p q : Fin K × Fin r => lagAt (acf m p.2 q.2) p.1 q.1) = 0
    · rw [if_pos (h1.2 h), if_pos h]
      exact .inr rfl
    · rw [if_neg (fun h' => h (h1.1 h')), if_neg h, ok_bind]
      refine hfin _ _ fun m j => ?_
      simp only [hacf]
      congr 1
      funext p
      exact (hxc m j p).symm
  | some it =>
    have hlen : s.reverse.length = bx.length := by simpa using (hcg.resolve_left (by simp)).symm
    have h1 : (∃ i, InRange bx i ∧ ∃ q ≤ K / 2, (blockPrecondSpec A.B (fun k l : Fin r => f i k l) q).det = 0) ↔
        ∃ m, ∃ q ≤ K / 2, (blockPrecondSpec A.B (acf m) q).det = 0 := by
      constructor
      · rintro ⟨i, hi, q, hq, h⟩
        obtain ⟨i', hi', rfl⟩ := bcIdx_surj hb hprod hi
        obtain ⟨m, rfl⟩ := exists_pos hi'
        exact ⟨m, q, hq, by rw [hacf']; exact h⟩
      · rintro ⟨m, q, hq, h⟩
        exact ⟨_, bcIdx_range_left hb (pos_inRange m), q, hq, by rw [← hacf']; exact h⟩
    simp only [Option.map_some, solAll]
    have hmain : ∀ x : Option (List ℕ → ℕ → Fin K × Fin r → ℝ),
        (∀ m (j : Fin e), x.getD (fun _ _ _ => 0) (pos m) j = x0 m j) →
        Matches Holds1 (Arrays.blockCg A (L3 bx (K + K) r r f) (V s.reverse e finProdFinEquiv
          fun i j (p : Fin K × Fin r) => vec K (g i p.2 j) p.1) (x.map (V s.reverse e finProdFinEquiv)) (some (it : ℤ)) >>=
          fun sol => Tensor.einsum A.err ['l', 'c'] ['l', 'c'] ['c'] (V s.reverse e finProdFinEquiv
            fun i j (p : Fin K × Fin r) => vec K (g i p.2 j) p.1) sol)
        ((FBE.blockCg A.B K acf xc x0 it).map fun sol m j => ∑ p, xc m j p * sol m j p) := by
      intro x hx
      rw [blockCg_eq hA hB hK hf hpos hlen hb, FBE.blockCg]
      by_cases h : ∃ m, ∃ q ≤ K / 2, (blockPrecondSpec A.B (acf m) q).det = 0
      · rw [if_pos (h1.2 h), if_pos h]
        exact .inr rfl
      · rw [if_neg (fun h' => h (h1.1 h')), if_neg h, ok_bind]
        refine hfin _ _ fun m j => ?_
        rw [hacf', hx]
        congr 1
        funext p
        exact (hxc m j p).symm
    cases pw with
    | false =>
      simp only [Bool.false_eq_true, if_false]
      refine hmain none fun m j => ?_
      funext p
      rw [hx0]; rfl
    | true =>
      obtain ⟨w, rfl, hw⟩ := hsol rfl
      simp only [if_true]
      rw [transpose_L2_32, ok_bind, mergeRows_eq A.err hpos', ok_bind]
      refine hmain (some _) fun m j => ?_
      funext p
      rw [hx0, if_pos rfl]
      show vec K (List.ofFn (w (p.2.val :: pos m) j)) p.1 = _
      rw [vec_ofFn, hw]

end Arrays

end FBE
