import Verif.Model.ArraysCg
import Verif.Spec.CgCall
import Verif.Proofs.ArrayCg
import Verif.Proofs.ArrayIndex
import Verif.Proofs.Pcg

/-!
# `conjugate_gradient` with all its arguments, on arrays
-/

set_option linter.unusedSectionVars false

namespace FBE

open Classical Tensor Matrix Spec

namespace Arrays

variable {A : Api}

/-! ### means -/

theorem indices_length : ∀ s : List ℕ, (indices s).length = s.prod
  | [] => rfl
  | n :: s => by simp [indices, List.length_flatMap, indices_length s, mul_comm]

theorem sum_map_flatMap {α β : Type} (l : List α) (F : α → List β) (g : β → ℝ) :
    ((l.flatMap F).map g).sum = (l.map fun i => ((F i).map g).sum).sum := by
  induction l with
  | nil => rfl
  | cons a l ih => simp [List.flatMap_cons, ih]

theorem sum_range_map (n : ℕ) (g : ℕ → ℝ) : ((List.range n).map g).sum = ∑ t : Fin n, g t.val := by
  induction n with
  | zero => rfl
  | succ n ih => rw [List.range_succ, List.map_append, List.sum_append, ih, Fin.sum_univ_castSucc]; simp

theorem sum_indices : ∀ (s : List ℕ) (g : List ℕ → ℝ), ((indices s.reverse).map g).sum = ∑ m : BIdx s, g (pos m)
  | [], g => by
    simp only [List.reverse_nil, indices, List.map_cons, List.map_nil, List.sum_cons, List.sum_nil, add_zero]
    exact (Fintype.sum_unique (ι := Unit) fun m => g (pos (s := []) m)).symm
  | n :: s, g => by
    rw [List.reverse_cons, indices_append, sum_map_flatMap, sum_range_map]
    refine Eq.trans (Finset.sum_congr rfl fun t _ => ?_)
      (Fintype.sum_prod_type (fun m : Fin n × BIdx s => g (pos (s := n :: s) m))).symm
    rw [List.map_map]
    exact sum_indices s fun i => g (i ++ [t.val])

theorem card_BIdx : ∀ s : List ℕ, Fintype.card (BIdx s) = s.prod
  | [] => rfl
  | n :: s => by
    rw [List.prod_cons, ← card_BIdx s]
    exact (Fintype.card_prod (Fin n) (BIdx s)).trans (by rw [Fintype.card_fin])

/-- The mean of an array with one entry for every column. -/
theorem mean_S {s : List ℕ} {e : ℕ} (f : List ℕ → ℕ → ℝ) :
    mean (S s.reverse e f) = batchMean fun (m : BIdx s) (j : Fin e) => f (pos m) j := by
  have hl : (indices (e :: s.reverse)).length = Fintype.card (BIdx s × Fin e) := by
    rw [indices_length, Fintype.card_prod, card_BIdx, Fintype.card_fin, List.prod_cons, List.prod_reverse, mul_comm]
  have hs : ((indices (e :: s.reverse)).map (S s.reverse e f).get).sum = ∑ p : BIdx s × Fin e, f (pos p.1) p.2 := by
    rw [indices, sum_map_flatMap, sum_indices, Fintype.sum_prod_type]
    refine Finset.sum_congr rfl fun m _ => ?_
    rw [List.map_map, sum_range_map]
    exact Finset.sum_congr rfl fun j _ => S_get j.isLt (pos_inRange m)
  unfold mean batchMean
  show (if (indices (e :: s.reverse)).length = 0 then XR.nan else XR.fin
    (((indices (e :: s.reverse)).map (S s.reverse e f).get).sum / (indices (e :: s.reverse)).length)) = _
  rw [hl, hs]

/-! ### columns -/

/-- An array of columns, whatever it holds outside its shape. -/
def IsV (b : List ℕ) (e : ℕ) {n : ℕ} (X : Tensor ℝ) (f : List ℕ → ℕ → Fin n → ℝ) : Prop :=
  X.shape = e :: n :: b ∧ ∀ i, InRange b i → ∀ j < e, ∀ t : Fin n, X.get (j :: t.val :: i) = f i j t

variable {n e : ℕ} {b : List ℕ}

theorem isV_V (f : List ℕ → ℕ → Fin n → ℝ) : IsV b e (V b e (Equiv.refl _) f) f :=
  ⟨rfl, fun _ hi _ hj t => V_get hj t.isLt hi⟩

theorem zip_isV {X Y : Tensor ℝ} {f g : List ℕ → ℕ → Fin n → ℝ} (hX : IsV b e X f) (hY : IsV b e Y g) (err : PyErr)
    (h : ℝ → ℝ → ℝ) :
    Tensor.zip err h X Y = .ok (V b e (Equiv.refl _) fun i j p => h (f i j p) (g i j p)) := by
  simp only [Tensor.zip, hX.1, hY.1, bcShape_self]
  refine congrArg _ (tab_eq_V fun i hi j hj t ht => ?_)
  have hr : InRange (e :: n :: b) (j :: t :: i) := ⟨hj, ht, hi⟩
  rw [bcIdx_self hr, hX.2 i hi j hj ⟨t, ht⟩, hY.2 i hi j hj ⟨t, ht⟩]
  rfl

theorem axpy_isV {X : Tensor ℝ} {x : List ℕ → ℕ → Fin n → ℝ} (hX : IsV b e X x) (h : ℝ → ℝ → ℝ)
    (p : List ℕ → ℕ → Fin n → ℝ) (a : List ℕ → ℕ → ℝ) :
    axpy A X h (S b e a) (V b e (Equiv.refl _) p) =
      .ok (V b e (Equiv.refl _) fun i j q => h (x i j q) (a i j * p i j q)) := by
  rw [← axpy_V (A := A) (φ := Equiv.refl (Fin n)) h x p a]
  simp only [axpy]
  cases h0 : Tensor.zip A.err (· * ·) ((S b e a).unsqueeze 1) (V b e (Equiv.refl (Fin n)) p) with
  | error err => rfl
  | ok ap =>
    rw [ok_bind, ok_bind]
    simp only [Tensor.zip, hX.1, V_shape]
    cases hb : bcShape (e :: n :: b) ap.shape with
    | none => rfl
    | some u =>
      refine congrArg _ (tab_congr fun i hi => congrArg (h · _) ?_)
      obtain ⟨j, t, i', hj, ht, hi', hidx⟩ : ∃ j t i', j < e ∧ t < n ∧ InRange b i' ∧
          bcIdx (e :: n :: b) i = j :: t :: i' := by
        have hr := bcIdx_range_left hb hi
        obtain ⟨j, i1, h1, hj, hi1⟩ := inRange_cons_inv hr
        obtain ⟨t, i2, h2, ht, hi2⟩ := inRange_cons_inv hi1
        exact ⟨j, t, i2, hj, ht, hi2, by rw [h1, h2]⟩
      rw [hidx, hX.2 i' hi' j hj ⟨t, ht⟩, V_get hj ht hi']
      rfl

theorem meanError_isV {s : List ℕ} {X Z : Tensor ℝ} {f g : List ℕ → ℕ → Fin n → ℝ} (hX : IsV s.reverse e X f)
    (hZ : IsV s.reverse e Z g) :
    meanError A X Z = .ok (batchMean fun (m : BIdx s) (j : Fin e) => Real.sqrt (∑ t, (f (pos m) j t - g (pos m) j t) ^ 2)) := by
  simp only [meanError]
  rw [zip_isV hX hZ, ok_bind, V, along_L2 (n' := 1) (fun _ _ => rfl) (fun _ _ => by simp), ok_bind]
  refine congrArg _ ?_
  rw [← mean_S (e := e) fun i j => Real.sqrt (∑ t, (f i j t - g i j t) ^ 2)]
  have hs : ∀ (h : List ℕ → ℝ), ((indices (e :: 1 :: s.reverse)).map h).sum =
      ((indices (e :: s.reverse)).map fun i => h (i.insertIdx 1 0)).sum := fun h => by
    simp only [indices, List.map_map, List.map_flatMap, List.flatMap_assoc]
    refine congrArg List.sum (List.flatMap_congr fun i _ => ?_)
    simp [List.range_succ, Function.comp_def]
  have hl : (indices (e :: 1 :: s.reverse)).length = (indices (e :: s.reverse)).length := by
    simp [indices_length]
  unfold mean
  show (if (indices (e :: 1 :: s.reverse)).length = 0 then XR.nan else XR.fin
    (((indices (e :: 1 :: s.reverse)).map _).sum / (indices (e :: 1 :: s.reverse)).length)) =
    (if (indices (e :: s.reverse)).length = 0 then XR.nan else XR.fin
    (((indices (e :: s.reverse)).map (S s.reverse e _).get).sum / (indices (e :: s.reverse)).length))
  rw [hl, hs]
  refine congrArg (fun a => if (indices (e :: s.reverse)).length = 0 then XR.nan else XR.fin (a / _)) ?_
  refine congrArg List.sum (List.map_congr_left fun i hi => ?_)
  simp only [indices, List.mem_flatMap, List.mem_map, List.mem_range] at hi
  obtain ⟨i', hi', j, hj, rfl⟩ := hi
  rw [indices_eq] at hi'
  obtain ⟨m, -, rfl⟩ := List.mem_map.1 hi'
  rw [S_get hj (pos_inRange m)]
  refine (L2_get (b := s.reverse) (n := 1) hj Nat.one_pos (pos_inRange m)).trans ?_
  simp [List.sum_ofFn, Function.comp_def]

/-! ### the loop -/

section loop

variable {F P : Op} {Aop Mop : List ℕ → (Fin n → ℝ) → Fin n → ℝ}
  (hF : ∀ X (f : List ℕ → ℕ → Fin n → ℝ), IsV b e X f →
    F.mul X = .ok (V b e (Equiv.refl _) fun i j => Aop i (f i j)))
  (hP : ∀ f : List ℕ → ℕ → Fin n → ℝ, P.mul (V b e (Equiv.refl _) f) =
    .ok (V b e (Equiv.refl _) fun i j => Mop i (f i j)))
include hF hP

theorem cgInit_isV {Y X : Tensor ℝ} {y x : List ℕ → ℕ → Fin n → ℝ} (hY : IsV b e Y y) (hX : IsV b e X x) :
    Arrays.cgInit A F P Y X =
      .ok { cgVars b e (Equiv.refl _) (fun i j => FBE.cgInit (Aop i) (Mop i) (y i j) (x i j)) with x := X } := by
  simp only [Arrays.cgInit]
  rw [hF X x hX, ok_bind, zip_isV hY (isV_V _), ok_bind, hP, ok_bind, innerProd_V]
  rfl

theorem cgBody_isV {Y X : Tensor ℝ} {y : List ℕ → ℕ → Fin n → ℝ} {st : List ℕ → ℕ → CgState (Fin n)}
    (hX : IsV b e X fun i j => (st i j).x) (epoch : ℕ) :
    Arrays.cgBody A F P Y { cgVars b e (Equiv.refl _) st with x := X } epoch =
      .ok (cgVars b e (Equiv.refl _) fun i j => FBE.cgBody (Aop i) (Mop i) (y i j) (st i j) epoch) := by
  simp only [Arrays.cgBody, cgVars]
  rw [hF _ _ (isV_V _), ok_bind, innerProd_V, ok_bind, map_S, zip_S, ok_bind, axpy_isV hX, ok_bind]
  have hne : ¬ (epoch + 1 % 5 = 0) := by omega
  simp only [if_neg hne]
  rw [axpy_V, ok_bind, hP, ok_bind, innerProd_V, ok_bind, map_S, zip_S, ok_bind, axpy_V, ok_bind]
  simp only [FBE.cgBody, if_neg hne]
  rfl

end loop

section call

variable {s : List ℕ} {F P : Op} {Aop Mop : List ℕ → (Fin n → ℝ) → Fin n → ℝ}
  (hF : ∀ X (f : List ℕ → ℕ → Fin n → ℝ), IsV s.reverse e X f →
    F.mul X = .ok (V s.reverse e (Equiv.refl _) fun i j => Aop i (f i j)))
  (hP : ∀ f : List ℕ → ℕ → Fin n → ℝ, P.mul (V s.reverse e (Equiv.refl _) f) =
    .ok (V s.reverse e (Equiv.refl _) fun i j => Mop i (f i j)))

/-- The mean distance after some iterations. -/
noncomputable def errAfter (s : List ℕ) (e : ℕ) (Aop Mop : List ℕ → (Fin n → ℝ) → Fin n → ℝ)
    (y x z : List ℕ → ℕ → Fin n → ℝ) (k : ℕ) : XR :=
  batchMean fun (m : BIdx s) (j : Fin e) => Real.sqrt (∑ t,
    (FBE.conjugateGradient (Aop (pos m)) (Mop (pos m)) (y (pos m) j) (x (pos m) j) k t - z (pos m) j t) ^ 2)

/-- What is printed in an iteration. -/
noncomputable def printAfter (s : List ℕ) (e : ℕ) (Aop Mop : List ℕ → (Fin n → ℝ) → Fin n → ℝ)
    (y x : List ℕ → ℕ → Fin n → ℝ) (k : ℕ) : XR :=
  batchMean fun (m : BIdx s) (j : Fin e) => (cgRun (Aop (pos m)) (Mop (pos m)) (y (pos m) j) (x (pos m) j) (k + 1)).rsold

include hF hP in
theorem cgTrace_isV {Y X : Tensor ℝ} {y x : List ℕ → ℕ → Fin n → ℝ} (hX : IsV s.reverse e X x)
    {xTrue : Option (Tensor ℝ)} {z : List ℕ → ℕ → Fin n → ℝ} (hZ : ∀ Z ∈ xTrue, IsV s.reverse e Z z) (verbose : Bool)
    (k : ℕ) :
    ∃ X', IsV s.reverse e X' (fun i j => FBE.conjugateGradient (Aop i) (Mop i) (y i j) (x i j) k) ∧
      (List.range k).foldlM (cgTraceBody A F P Y xTrue verbose)
        ⟨{ cgVars s.reverse e (Equiv.refl _) (fun i j => FBE.cgInit (Aop i) (Mop i) (y i j) (x i j)) with x := X },
          (xTrue.map fun _ => [errAfter s e Aop Mop y x z 0]).getD [], []⟩ =
      .ok ⟨{ cgVars s.reverse e (Equiv.refl _) (fun i j => cgRun (Aop i) (Mop i) (y i j) (x i j) k) with x := X' },
        (xTrue.map fun _ => (List.range (k + 1)).map (errAfter s e Aop Mop y x z)).getD [],
        if verbose then (List.range k).map (printAfter s e Aop Mop y x) else []⟩ := by
  induction k with
  | zero =>
    refine ⟨X, hX, ?_⟩
    cases xTrue <;> cases verbose <;> rfl
  | succ k ih =>
    obtain ⟨X', hX', ih⟩ := ih
    refine ⟨_, isV_V (fun i j => (cgRun (Aop i) (Mop i) (y i j) (x i j) (k + 1)).x), ?_⟩
    rw [List.range_succ, List.foldlM_append, ih, ok_bind, List.foldlM_cons]
    simp only [cgTraceBody]
    rw [cgBody_isV hF hP (y := y) hX', ok_bind]
    have hst : (fun i j => FBE.cgBody (Aop i) (Mop i) (y i j) (cgRun (Aop i) (Mop i) (y i j) (x i j) k) k) =
        fun i j => cgRun (Aop i) (Mop i) (y i j) (x i j) (k + 1) := by
      funext i j; exact (cgRun_succ _ _ _ _ _).symm
    rw [hst]
    have hp : mean (S s.reverse e fun i j => (cgRun (Aop i) (Mop i) (y i j) (x i j) (k + 1)).rsold) =
        printAfter s e Aop Mop y x k := mean_S _
    have herr : ∀ Z ∈ xTrue, meanError A (V s.reverse e (Equiv.refl _) fun i j =>
        (cgRun (Aop i) (Mop i) (y i j) (x i j) (k + 1)).x) Z = .ok (errAfter s e Aop Mop y x z (k + 1)) :=
      fun Z h => by
        have h1 := meanError_isV (A := A) (s := s) (e := e)
          (isV_V (b := s.reverse) (e := e) fun i j => (cgRun (Aop i) (Mop i) (y i j) (x i j) (k + 1)).x) (hZ Z h)
        rw [h1]
        unfold errAfter FBE.conjugateGradient
        rfl
    have hap : appendError A xTrue (cgVars s.reverse e (Equiv.refl _) fun i j =>
        cgRun (Aop i) (Mop i) (y i j) (x i j) (k + 1)).x
          ((xTrue.map fun _ => (List.range (k + 1)).map (errAfter s e Aop Mop y x z)).getD []) =
        .ok ((xTrue.map fun _ => (List.range (k + 1 + 1)).map (errAfter s e Aop Mop y x z)).getD []) := by
      cases xTrue with
      | none => rfl
      | some Z =>
        have h1 := herr Z rfl
        simp only [appendError, cgVars, h1]
        rw [List.range_succ (n := k + 1), List.map_append]
        rfl
    have hpr : (if verbose = true then (if verbose = true then (List.range k).map (printAfter s e Aop Mop y x) else []) ++
        [mean (cgVars s.reverse e (Equiv.refl _) fun i j => cgRun (Aop i) (Mop i) (y i j) (x i j) (k + 1)).rsold]
          else (if verbose = true then (List.range k).map (printAfter s e Aop Mop y x) else [])) =
        if verbose = true then (List.range k ++ [k]).map (printAfter s e Aop Mop y x) else [] := by
      cases verbose with
      | false => rfl
      | true => rw [if_pos rfl, if_pos rfl, if_pos rfl, List.map_append, List.map_cons, List.map_nil, ← hp]; rfl
    rw [hap, ok_bind, hpr, ok_bind]
    rfl

include hF hP in
/-- The call with an array of columns. -/
theorem cgCall_isV {precond : Option Op} (hPr : precond.getD identityOp = P) (hrank : F.shape.length = s.length + 2)
    (hsize : F.shape.getD 0 0 = n) {Y : Tensor ℝ} {y x : List ℕ → ℕ → Fin n → ℝ} (hY : IsV s.reverse e Y y)
    {X : Option (Tensor ℝ)} (hX : ∀ T ∈ X, IsV s.reverse e T x) (hX0 : X = none → x = fun _ _ _ => 0)
    {xTrue : Option (Tensor ℝ)} {z : List ℕ → ℕ → Fin n → ℝ} (hZ : ∀ Z ∈ xTrue, IsV s.reverse e Z z) (verbose : Bool)
    (nIter : Option ℤ) :
    ∃ X', IsV s.reverse e X' (fun i j =>
        FBE.conjugateGradient (Aop i) (Mop i) (y i j) (x i j) (nIter.getD e).toNat) ∧
      cgCall A F Y X nIter precond verbose xTrue = .ok ⟨X',
        xTrue.map fun _ => (List.range ((nIter.getD e).toNat + 1)).map (errAfter s e Aop Mop y x z),
        if verbose then (List.range (nIter.getD e).toNat).map (printAfter s e Aop Mop y x) else []⟩ := by
  have h1 : ¬ (F.shape.length = Y.shape.length + 1) := by
    rw [hY.1, hrank]; simp
  have h2 : F.shape.length = Y.shape.length := by
    rw [hY.1, hrank]; simp
  have hx : IsV s.reverse e (X.getD (Y.map fun _ => 0)) x := by
    cases X with
    | some T => exact hX T rfl
    | none =>
      rw [hX0 rfl]
      refine ⟨hY.1, fun i hi j hj t => ?_⟩
      have hr : InRange Y.shape (j :: t.val :: i) := by rw [hY.1]; exact ⟨hj, t.isLt, hi⟩
      exact tab_get hr
  simp only [cgCall, h1, decide_false, Bool.false_eq_true, if_false, hPr]
  rw [if_neg (not_not.2 h2), size_two hY.1, ok_bind, if_neg (not_not.2 hsize), size_one hY.1, ok_bind,
    cgInit_isV hF hP hY hx, ok_bind]
  obtain ⟨X', hX', h⟩ := cgTrace_isV (A := A) hF hP (Y := Y) (y := y) hx hZ verbose (nIter.getD e).toNat
  refine ⟨X', hX', ?_⟩
  have he : appendError A xTrue (X.getD (Y.map fun _ => 0)) [] =
      .ok ((xTrue.map fun _ => [errAfter s e Aop Mop y x z 0]).getD []) := by
    cases xTrue with
    | none => rfl
    | some Z =>
      have := meanError_isV (A := A) hx (hZ Z rfl)
      simp only [appendError, this]
      rfl
  rw [he, ok_bind, h, ok_bind]
  cases xTrue <;> rfl

end call

/-- The call with an array of vectors: an axis is added to the right-hand side and to `x_true`, and removed from the
solution. -/
theorem cgCall_vec {s : List ℕ} {F P : Op} {Aop Mop : List ℕ → (Fin n → ℝ) → Fin n → ℝ}
    (hF : ∀ X (f : List ℕ → ℕ → Fin n → ℝ), IsV s.reverse 1 X f →
      F.mul X = .ok (V s.reverse 1 (Equiv.refl _) fun i j => Aop i (f i j)))
    (hP : ∀ f : List ℕ → ℕ → Fin n → ℝ, P.mul (V s.reverse 1 (Equiv.refl _) f) =
      .ok (V s.reverse 1 (Equiv.refl _) fun i j => Mop i (f i j)))
    {precond : Option Op} (hPr : precond.getD identityOp = P) (hrank : F.shape.length = s.length + 2)
    (hsize : F.shape.getD 0 0 = n) {Y : Tensor ℝ} (hYs : Y.shape = n :: s.reverse) {x : List ℕ → ℕ → Fin n → ℝ}
    {X : Option (Tensor ℝ)} (hX : ∀ T ∈ X, IsV s.reverse 1 T x) (hX0 : X = none → x = fun _ _ _ => 0)
    {xTrue : Option (Tensor ℝ)} {z : List ℕ → Fin n → ℝ}
    (hZ : ∀ Z ∈ xTrue, Z.shape = n :: s.reverse ∧ ∀ i, InRange s.reverse i → ∀ t : Fin n, Z.get (t.val :: i) = z i t)
    (verbose : Bool) (nIter : Option ℤ) :
    ∃ X' : Tensor ℝ, X'.shape = n :: s.reverse ∧
      (∀ i, InRange s.reverse i → ∀ t : Fin n, X'.get (t.val :: i) =
        FBE.conjugateGradient (Aop i) (Mop i) (fun t => Y.get (t.val :: i)) (x i 0) (nIter.getD 1).toNat t) ∧
      cgCall A F Y X nIter precond verbose xTrue = .ok ⟨X',
        xTrue.map fun _ => (List.range ((nIter.getD 1).toNat + 1)).map
          (errAfter s 1 Aop Mop (fun i _ t => Y.get (t.val :: i)) x fun i _ => z i),
        if verbose then (List.range (nIter.getD 1).toNat).map
          (printAfter s 1 Aop Mop (fun i _ t => Y.get (t.val :: i)) x) else []⟩ := by
  have hu : ∀ {Z : Tensor ℝ} {z : List ℕ → Fin n → ℝ}, Z.shape = n :: s.reverse →
      (∀ i, InRange s.reverse i → ∀ t : Fin n, Z.get (t.val :: i) = z i t) →
      IsV s.reverse 1 (Z.unsqueeze 0) fun i _ => z i := fun {Z z} h1 h2 => by
    rw [unsqueeze_0, h1]
    refine ⟨rfl, fun i hi j hj t => ?_⟩
    have hr : InRange (1 :: n :: s.reverse) (j :: t.val :: i) := ⟨hj, t.isLt, hi⟩
    exact (tab_get hr).trans (h2 i hi t)
  have hY := hu (z := fun i t => Y.get (t.val :: i)) hYs fun _ _ _ => rfl
  have h1 : F.shape.length = Y.shape.length + 1 := by
    rw [hYs, hrank]; simp
  have h2 : F.shape.length = (Y.unsqueeze 0).shape.length := by
    rw [hY.1, hrank]; simp
  have hx : IsV s.reverse 1 (X.getD ((Y.unsqueeze 0).map fun _ => 0)) x := by
    cases X with
    | some T => exact hX T rfl
    | none =>
      rw [hX0 rfl]
      refine ⟨hY.1, fun i hi j hj t => ?_⟩
      have hr : InRange (Y.unsqueeze 0).shape (j :: t.val :: i) := by rw [hY.1]; exact ⟨hj, t.isLt, hi⟩
      exact tab_get hr
  have hZ' : ∀ Z ∈ xTrue.map (·.unsqueeze 0), IsV s.reverse 1 Z fun i _ => z i := fun Z hZm => by
    obtain ⟨Z', hm, rfl⟩ := Option.mem_map.1 hZm
    exact hu (hZ Z' hm).1 (hZ Z' hm).2
  obtain ⟨X', hX', h⟩ := cgTrace_isV (A := A) hF hP (Y := Y.unsqueeze 0) (y := fun i _ t => Y.get (t.val :: i)) hx hZ'
    verbose (nIter.getD 1).toNat
  have he : appendError A (xTrue.map (·.unsqueeze 0)) (X.getD ((Y.unsqueeze 0).map fun _ => 0)) [] =
      .ok (((xTrue.map (·.unsqueeze 0)).map fun _ =>
        [errAfter s 1 Aop Mop (fun i _ t => Y.get (t.val :: i)) x (fun i _ => z i) 0]).getD []) := by
    cases xTrue with
    | none => rfl
    | some Z =>
      have := meanError_isV (A := A) hx (hZ' _ rfl)
      simp only [Option.map_some, appendError, this]
      rfl
  refine ⟨tab (n :: s.reverse) fun i => X'.get (0 :: i), rfl, fun i hi t => ?_, ?_⟩
  · have hr : InRange (n :: s.reverse) (t.val :: i) := ⟨t.isLt, hi⟩
    rw [tab_get hr, hX'.2 i hi 0 Nat.one_pos t]
  · simp only [cgCall, h1, decide_true, if_true, hPr]
    rw [← h1, if_neg (not_not.2 h2), size_two hY.1, ok_bind, if_neg (not_not.2 hsize), size_one hY.1, ok_bind,
      cgInit_isV hF hP hY hx, ok_bind, he, ok_bind]
    rw [Nat.cast_one, h, ok_bind]
    simp only []
    rw [select_0 hX'.1 Nat.one_pos, ok_bind]
    cases xTrue <;> rfl

/-! ### matrices given as arrays -/

theorem denseOp_isV {T : Tensor ℝ} (hT : T.shape = n :: n :: b) {X : Tensor ℝ} {f : List ℕ → ℕ → Fin n → ℝ}
    (hX : IsV b e X f) :
    (denseOp A T).mul X = .ok (V b e (Equiv.refl _) fun i j => matrixAt T n i *ᵥ f i j) := by
  show matmul A T X = _
  simp only [matmul, hT, hX.1]
  rw [if_pos trivial, einsum_rm _ hT hX.1 (bcShape_self b)]
  refine congrArg _ (tab_eq_V fun i hi j hj t ht => ?_)
  rw [sum_range_fin]
  refine Finset.sum_congr rfl fun q _ => ?_
  show T.get (q.val :: t :: bcIdx b i) * X.get (j :: q.val :: bcIdx b i) = T.get (q.val :: t :: i) * f i j q
  rw [bcIdx_self hi, hX.2 i hi j hj q]

theorem identityOp_V (f : List ℕ → ℕ → Fin n → ℝ) : identityOp.mul (V b e (Equiv.refl (Fin n)) f) =
    .ok (V b e (Equiv.refl _) fun i j => (1 : Matrix (Fin n) (Fin n) ℝ) *ᵥ f i j) := by
  simp [identityOp]

end Arrays

end FBE
