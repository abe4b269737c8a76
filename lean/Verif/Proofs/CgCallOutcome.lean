import Verif.Proofs.ArrayCgTyped

/-!
# `conjugate_gradient`: starting points, additional outputs, arguments that do not fit
-/

set_option linter.unusedSectionVars false

namespace FBE

open Classical Tensor Matrix Spec

section loop

variable {J : Type} [Fintype J]

/-- Another starting point is another right-hand side. -/
theorem cgRun_shift (A : (J → ℝ) →ₗ[ℝ] (J → ℝ)) (M : (J → ℝ) → (J → ℝ)) (b x0 : J → ℝ) (k : ℕ) :
    cgRun A M b x0 k =
      { cgRun A M (b - A x0) 0 k with x := x0 + (cgRun A M (b - A x0) 0 k).x } := by
  induction k with
  | zero =>
    show FBE.cgInit A M b x0 = { FBE.cgInit A M (b - A x0) 0 with x := x0 + 0 }
    simp only [FBE.cgInit, map_zero, sub_zero, add_zero]
  | succ k ih =>
    rw [cgRun_succ, cgBody_eq, ih, cgRun_succ, cgBody_eq]
    simp only [add_assoc]

/-- At a solution nothing happens. -/
theorem cgRun_solution (A M : (J → ℝ) → (J → ℝ)) (hA : A 0 = 0) (hM : M 0 = 0) {b x0 : J → ℝ} (h : A x0 = b) (k : ℕ) :
    cgRun A M b x0 k = ⟨x0, 0, 0, 0⟩ := by
  induction k with
  | zero =>
    show FBE.cgInit A M b x0 = _
    simp [FBE.cgInit, h, hM, innerProd]
  | succ k ih =>
    rw [cgRun_succ, cgBody_eq, ih]
    simp [hA, hM]

end loop

namespace Arrays

variable {A : Api}

/-! ### additional outputs -/

theorem appendError_none {x : Tensor ℝ} {l : List XR} : appendError A none x l = .ok l := rfl

theorem cgTrace_plain {F P : Op} {b : Tensor ℝ} {xTrue : Option (Tensor ℝ)} {verbose : Bool} (l : List ℕ) {st st' : CgTrace}
    (h : l.foldlM (cgTraceBody A F P b xTrue verbose) st = .ok st') (errs pr : List XR) :
    l.foldlM (cgTraceBody A F P b none false) ⟨st.vars, errs, pr⟩ = .ok ⟨st'.vars, errs, pr⟩ := by
  induction l generalizing st with
  | nil => cases h; rfl
  | cons a l ih =>
    rw [List.foldlM_cons] at h ⊢
    cases h0 : cgTraceBody A F P b xTrue verbose st a with
    | error err => rw [h0] at h; cases h
    | ok s1 =>
      rw [h0, ok_bind] at h
      simp only [cgTraceBody] at h0 ⊢
      cases h1 : cgBody A F P b st.vars a with
      | error err => rw [h1] at h0; cases h0
      | ok v =>
        rw [h1, ok_bind] at h0
        rw [ok_bind, appendError_none, ok_bind]
        cases h2 : appendError A xTrue v.x st.errors with
        | error err => rw [h2] at h0; cases h0
        | ok er =>
          rw [h2, ok_bind] at h0
          cases h0
          exact ih h

/-- The solution does not depend on `verbose` and `x_true`. -/
theorem cgCall_plain {F : Op} {b : Tensor ℝ} {x : Option (Tensor ℝ)} {nIter : Option ℤ} {precond : Option Op}
    {verbose : Bool} {xTrue : Option (Tensor ℝ)} {out : CgOut}
    (h : cgCall A F b x nIter precond verbose xTrue = .ok out) :
    cgCall A F b x nIter precond false none = .ok ⟨out.x, none, []⟩ := by
  unfold cgCall at h ⊢
  dsimp only at h ⊢
  generalize decide (F.shape.length = b.shape.length + 1) = ad at h ⊢
  have hn : (if ad = true then (none : Option (Tensor ℝ)).map (·.unsqueeze 0) else none) = none := by split <;> rfl
  rw [hn]
  generalize (if ad = true then b.unsqueeze 0 else b) = b' at h ⊢
  generalize (if ad = true then xTrue.map (·.unsqueeze 0) else xTrue) = z at h
  by_cases hr : F.shape.length ≠ b'.shape.length
  · rw [if_pos hr] at h; cases h
  rw [if_neg hr] at h ⊢
  cases hm : b'.size (-2) with
  | error err => rw [hm] at h; cases h
  | ok m =>
  rw [hm, ok_bind] at h
  rw [ok_bind]
  by_cases hs : F.shape.getD 0 0 ≠ m
  · rw [if_pos hs] at h; cases h
  rw [if_neg hs] at h ⊢
  cases he : b'.size (-1) with
  | error err => rw [he] at h; cases h
  | ok e =>
  rw [he, ok_bind] at h
  rw [ok_bind]
  cases hi : cgInit A F (precond.getD identityOp) b' (x.getD (b'.map fun _ => 0)) with
  | error err => rw [hi] at h; cases h
  | ok v =>
  rw [hi, ok_bind] at h
  rw [ok_bind, appendError_none, ok_bind]
  cases ha : appendError A z v.x [] with
  | error err => rw [ha] at h; cases h
  | ok er =>
  rw [ha, ok_bind] at h
  cases hf : (List.range (nIter.getD e).toNat).foldlM (cgTraceBody A F (precond.getD identityOp) b' z verbose) ⟨v, er, []⟩ with
  | error err => rw [hf] at h; cases h
  | ok st =>
  rw [hf, ok_bind] at h
  rw [cgTrace_plain _ hf, ok_bind]
  cases ad with
  | false => cases h; rfl
  | true =>
    rw [if_pos rfl] at h ⊢
    show (st.vars.x.select 0 0 >>= fun x => (.ok ⟨x, none, []⟩ : Except PyErr CgOut)) = _
    cases hx : st.vars.x.select 0 0 with
    | error err => rw [hx] at h; cases h
    | ok X => rw [hx, ok_bind] at h; cases h; rfl

/-- The function as the metrics call it. -/
theorem conjugateGradient_of_call {F P : Op} {b : Tensor ℝ} {x : Option (Tensor ℝ)} {nIter : Option ℤ}
    {verbose : Bool} {xTrue : Option (Tensor ℝ)} {out : CgOut}
    (h : cgCall A F b x nIter (some P) verbose xTrue = .ok out) :
    Arrays.conjugateGradient A F P b x nIter = .ok out.x := by
  have hplain := cgCall_plain h
  clear h
  have hfold : ∀ (l : List ℕ) (b : Tensor ℝ) (v : CgVars), l.foldlM (cgTraceBody A F P b none false) ⟨v, [], []⟩ =
      (l.foldlM (Arrays.cgBody A F P b) v).map fun v => ⟨v, [], []⟩ := by
    intro l b
    induction l with
    | nil => intro v; rfl
    | cons a l ih =>
      intro v
      rw [List.foldlM_cons, List.foldlM_cons]
      simp only [cgTraceBody]
      cases Arrays.cgBody A F P b v a with
      | error err => rfl
      | ok v' => rw [ok_bind, appendError_none, ok_bind]; exact ih v'
  unfold cgCall at hplain
  unfold Arrays.conjugateGradient
  dsimp only [Option.getD_some] at hplain ⊢
  generalize decide (F.shape.length = b.shape.length + 1) = ad at hplain ⊢
  have hn : (if ad = true then (none : Option (Tensor ℝ)).map (·.unsqueeze 0) else none) = none := by split <;> rfl
  rw [hn] at hplain
  generalize (if ad = true then b.unsqueeze 0 else b) = b' at hplain ⊢
  by_cases hr : F.shape.length ≠ b'.shape.length
  · rw [if_pos hr] at hplain; cases hplain
  rw [if_neg hr] at hplain ⊢
  cases hm : b'.size (-2) with
  | error err => rw [hm] at hplain; cases hplain
  | ok m =>
  rw [hm, ok_bind] at hplain
  rw [ok_bind]
  by_cases hs : F.shape.getD 0 0 ≠ m
  · rw [if_pos hs] at hplain; cases hplain
  rw [if_neg hs] at hplain ⊢
  cases he : b'.size (-1) with
  | error err => rw [he] at hplain; cases hplain
  | ok e =>
  rw [he, ok_bind] at hplain
  rw [ok_bind]
  cases hi : cgInit A F P b' (x.getD (b'.map fun _ => 0)) with
  | error err => rw [hi] at hplain; cases hplain
  | ok v =>
  rw [hi, ok_bind, appendError_none, ok_bind, hfold] at hplain
  rw [ok_bind]
  cases hf : (List.range (nIter.getD e).toNat).foldlM (Arrays.cgBody A F P b') v with
  | error err => rw [hf] at hplain; cases hplain
  | ok v' =>
  rw [hf] at hplain
  rw [ok_bind]
  cases ad with
  | false =>
    have h' : (Except.ok ⟨v'.x, none, []⟩ : Except PyErr CgOut) = .ok ⟨out.x, none, []⟩ := hplain
    injection h' with h1
    injection h1 with h2
    rw [← h2]; rfl
  | true =>
    have h' : (v'.x.select 0 0 >>= fun x => (.ok ⟨x, none, []⟩ : Except PyErr CgOut)) = .ok ⟨out.x, none, []⟩ := hplain
    cases hx : v'.x.select 0 0 with
    | error err => rw [hx] at h'; cases h'
    | ok X =>
      rw [hx, ok_bind] at h'
      injection h' with h1
      injection h1 with h2
      rw [← h2]; rfl

/-! ### a starting point given as a vector -/

section guess

variable {n : ℕ}

theorem matmul_vec {T x : Tensor ℝ} (hT : T.shape = [n, n]) (hx : x.shape = [n]) :
    matmul A T x = .ok (tab [n] fun i => ∑ t ∈ Finset.range n, T.get [t, i.getD 0 0] * x.get [t]) := by
  simp only [matmul, hT, hx]
  rw [if_pos trivial]
  simp only [einsum, hT, hx, labelBc, labelSize]
  simp [bcShape, List.lookup, sumLabels]
  refine tab_congr fun i hi => ?_
  obtain ⟨j, i, rfl, hj, hi⟩ := inRange_cons_inv hi
  obtain rfl := inRange_nil_inv hi
  refine Finset.sum_congr rfl fun t ht => ?_
  simp [bcIdx_cons, hj, Finset.mem_range.1 ht, show bcIdx [] [] = [] from rfl]

/-- The state of column `j` if the starting point has one axis. -/
noncomputable def guessState (M : Matrix (Fin n) (Fin n) ℝ) (y x : Fin n → ℝ) (j : Fin n) : CgState (Fin n) :=
  ⟨fun _ => x j, fun t => y t - (M *ᵥ x) j, fun t => y t - (M *ᵥ x) j,
    (fun t => y t - (M *ᵥ x) j) ⬝ᵥ fun t => y t - (M *ᵥ x) j⟩

theorem cgCall_guess {T Y x : Tensor ℝ} {M : Matrix (Fin n) (Fin n) ℝ} {y v : Fin n → ℝ} (hn : 0 < n)
    (hT : T.shape = [n, n]) (hTM : ∀ p q : Fin n, T.get [q.val, p.val] = M p q)
    (hY : Y.shape = [n]) (hYy : ∀ t : Fin n, Y.get [t.val] = y t) (hx : x.shape = [n])
    (hxv : ∀ t : Fin n, x.get [t.val] = v t) (k : ℕ) :
    ∃ S : Tensor ℝ, cgCall A (denseOp A T) Y (some x) (some (k + 1 : ℕ)) none false none = .ok ⟨S, none, []⟩ ∧
      S.shape = [n] ∧ ∀ t : Fin n, S.get [t.val] =
        ((List.range (k + 1)).foldl (FBE.cgBody M.mulVecLin id y) (guessState M y v ⟨0, hn⟩)).x t := by
  -- column `j` of all variables
  let st : List ℕ → ℕ → CgState (Fin n) := fun _ j => if h : j < n then guessState M y v ⟨j, h⟩ else ⟨0, 0, 0, 0⟩
  have hF : ∀ f : List ℕ → ℕ → Fin n → ℝ, (denseOp A T).mul (V [] n (Equiv.refl _) f) =
      .ok (V [] n (Equiv.refl _) fun i j => M.mulVecLin (f i j)) := fun f => by
    rw [denseOp_isV hT (isV_V f)]
    refine congrArg _ (V_congr fun i hi j hj => ?_)
    obtain rfl := inRange_nil_inv hi
    have : matrixAt T n [] = M := by funext p q; exact hTM p q
    rw [this]; rfl
  have hP : ∀ f : List ℕ → ℕ → Fin n → ℝ, identityOp.mul (V [] n (Equiv.refl _) f) =
      .ok (V [] n (Equiv.refl _) fun i j => id (f i j)) := fun f => rfl
  have hu : (Y.unsqueeze 0).shape = [1, n] := by rw [unsqueeze_0, hY]; rfl
  have hAx : (denseOp A T).mul x = .ok (tab [n] fun i => ∑ t ∈ Finset.range n, T.get [t, i.getD 0 0] * x.get [t]) :=
    matmul_vec hT hx
  have hb1 : bcShape [1, n] [n] = some [n, n] := by
    by_cases h : 1 = n
    · subst h; rfl
    · simp [bcShape, h]
  have hb2 : bcShape [n] [n, n] = some [n, n] := by simp [bcShape]
  have hr : Tensor.zip A.err (· - ·) (Y.unsqueeze 0)
      (tab [n] fun i => ∑ t ∈ Finset.range n, T.get [t, i.getD 0 0] * x.get [t]) =
      .ok (V [] n (Equiv.refl _) fun i j => (st i j).r) := by
    simp only [Tensor.zip, hu, tab_shape, hb1]
    refine congrArg _ (tab_eq_V fun i hi j hj t ht => ?_)
    obtain rfl := inRange_nil_inv hi
    have hr1 : InRange [1, n] [0, t] := ⟨Nat.one_pos, ht, trivial⟩
    have hi1 : bcIdx [1, n] [j, t] = [0, t] := by
      rw [bcIdx_one, bcIdx_cons _ _ _ _ ht]; rfl
    have hi2 : bcIdx [n] [j, t] = [j] := by
      rw [bcIdx_cons _ _ _ _ hj]; rfl
    have hr2 : InRange [n] [j] := ⟨hj, trivial⟩
    rw [hi1, hi2, unsqueeze_0, hY, tab_get hr1, tab_get hr2, sum_range_fin]
    show Y.get [t] - _ = (st [] j).r ⟨t, ht⟩
    simp only [st, dif_pos hj, guessState]
    refine congrArg₂ (· - ·) (hYy ⟨t, ht⟩) (Finset.sum_congr rfl fun q _ => ?_)
    exact congrArg₂ (· * ·) (hTM ⟨j, hj⟩ q) (hxv q)
  have hinit : Arrays.cgInit A (denseOp A T) identityOp (Y.unsqueeze 0) x =
      .ok { cgVars [] n (Equiv.refl _) st with x := x } := by
    simp only [Arrays.cgInit]
    rw [hAx, ok_bind, hr, ok_bind, hP, ok_bind, innerProd_V]
    have h1 : (V [] n (Equiv.refl (Fin n)) fun i j => id (st i j).r) = V [] n (Equiv.refl _) fun i j => (st i j).p :=
      V_congr fun i hi j hj => by simp only [st, dif_pos hj, guessState, id]
    have h2 : (S [] n fun i j => FBE.innerProd (st i j).r (id (st i j).r)) = S [] n fun i j => (st i j).rsold := by
      refine tab_congr fun i hi => ?_
      obtain ⟨j, i, rfl, hj, hi⟩ := inRange_cons_inv hi
      show FBE.innerProd (st i j).r (st i j).r = (st i j).rsold
      simp only [st, dif_pos hj, guessState]
      rfl
    rw [h1, h2]
    rfl
  have haxpy : ∀ (p : List ℕ → ℕ → Fin n → ℝ) (a : List ℕ → ℕ → ℝ),
      axpy A x (· + ·) (S [] n a) (V [] n (Equiv.refl _) p) =
        .ok (V [] n (Equiv.refl _) fun i j q => (st i j).x q + a i j * p i j q) := fun p a => by
    simp only [axpy]
    rw [scale_V, ok_bind]
    simp only [Tensor.zip, hx, V_shape, hb2]
    refine congrArg _ (tab_eq_V fun i hi j hj t ht => ?_)
    obtain rfl := inRange_nil_inv hi
    have hi2 : bcIdx [n] [j, t] = [j] := by
      rw [bcIdx_cons _ _ _ _ hj]; rfl
    have hr2 : InRange [n, n] [j, t] := ⟨hj, ht, trivial⟩
    rw [hi2, bcIdx_self hr2, V_get hj ht (b := []) (i := []) trivial]
    simp only [st, dif_pos hj, guessState]
    exact congrArg (· + _) (hxv ⟨j, hj⟩)
  have hbody : ∀ epoch, Arrays.cgBody A (denseOp A T) identityOp (Y.unsqueeze 0)
      { cgVars [] n (Equiv.refl _) st with x := x } epoch =
      .ok (cgVars [] n (Equiv.refl _) fun i j => FBE.cgBody M.mulVecLin id y (st i j) epoch) := fun epoch => by
    simp only [Arrays.cgBody, cgVars]
    rw [hF, ok_bind, innerProd_V, ok_bind, map_S, zip_S, ok_bind, haxpy, ok_bind]
    have hne : ¬ (epoch + 1 % 5 = 0) := by omega
    simp only [if_neg hne]
    rw [axpy_V, ok_bind, hP, ok_bind, innerProd_V, ok_bind, map_S, zip_S, ok_bind, axpy_V, ok_bind]
    simp only [FBE.cgBody, if_neg hne]
    rfl
  have hbody' : ∀ (st : List ℕ → ℕ → CgState (Fin n)) epoch, Arrays.cgBody A (denseOp A T) identityOp (Y.unsqueeze 0)
      (cgVars [] n (Equiv.refl _) st) epoch =
      .ok (cgVars [] n (Equiv.refl _) fun i j => FBE.cgBody M.mulVecLin id y (st i j) epoch) := fun st epoch => by
    simp only [Arrays.cgBody, cgVars]
    rw [hF, ok_bind, innerProd_V, ok_bind, map_S, zip_S, ok_bind, axpy_V, ok_bind]
    have hne : ¬ (epoch + 1 % 5 = 0) := by omega
    simp only [if_neg hne]
    rw [axpy_V, ok_bind, hP, ok_bind, innerProd_V, ok_bind, map_S, zip_S, ok_bind, axpy_V, ok_bind]
    simp only [FBE.cgBody, if_neg hne]
    rfl
  have hfold : ∀ k, (List.range (k + 1)).foldlM (cgTraceBody A (denseOp A T) identityOp (Y.unsqueeze 0) none false)
      ⟨{ cgVars [] n (Equiv.refl _) st with x := x }, [], []⟩ = .ok ⟨cgVars [] n (Equiv.refl _) fun i j =>
        (List.range (k + 1)).foldl (FBE.cgBody M.mulVecLin id y) (st i j), [], []⟩ := fun k => by
    induction k with
    | zero =>
      simp only [zero_add, List.range_one, List.foldlM_cons, List.foldl_cons, cgTraceBody]
      rw [hbody, ok_bind]
      rfl
    | succ k ih =>
      rw [List.range_succ, List.foldlM_append, ih, ok_bind, List.foldlM_cons]
      simp only [cgTraceBody]
      rw [hbody', ok_bind]
      simp only [List.foldl_append, List.foldl_cons, List.foldl_nil]
      rfl
  have h1 : (denseOp A T).shape.length = Y.shape.length + 1 := by simp [denseOp, hT, hY]
  have h2 : (denseOp A T).shape.length = (Y.unsqueeze 0).shape.length := by simp [denseOp, hT, hu]
  refine ⟨tab [n] fun i => (V [] n (Equiv.refl (Fin n)) fun i j =>
      ((List.range (k + 1)).foldl (FBE.cgBody M.mulVecLin id y) (st i j)).x).get (0 :: i), ?_, rfl, fun t => ?_⟩
  · simp only [cgCall, h1, decide_true, if_true, Option.getD_some, Option.getD_none, Option.map_none]
    rw [← h1, if_neg (not_not.2 h2), size_two hu, ok_bind, if_neg (not_not.2 (by simp [denseOp, hT])), size_one hu,
      ok_bind, hinit, ok_bind, appendError_none, ok_bind, Int.toNat_natCast, hfold, ok_bind]
    simp only [cgVars]
    rw [select_0 (V_shape _) hn, ok_bind]
  · have hr : InRange [n] [t.val] := ⟨t.isLt, trivial⟩
    rw [tab_get hr, V_get hn t.isLt (b := []) (i := []) trivial]
    simp only [st, dif_pos hn]
    rfl

end guess

end Arrays

end FBE
