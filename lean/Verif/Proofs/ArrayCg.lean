import Verif.Proofs.ArraySolve
import Verif.Proofs.CgOps

/-!
# The statements of `cgd.py` on arrays: the loop, and the operators for one reference
-/

set_option linter.unusedSectionVars false

namespace FBE

open Classical Tensor Matrix Spec

namespace Arrays

variable {A : Api}

/-! ### columns and numbers -/

/-- Array of columns; the components of a column are the elements of `J` in the order of `φ`. -/
noncomputable def V {J : Type} {n : ℕ} (b : List ℕ) (e : ℕ) (φ : J ≃ Fin n) (f : List ℕ → ℕ → J → ℝ) : Tensor ℝ :=
  L2 b n e fun i j => List.ofFn fun t => f i j (φ.symm t)

/-- Array of numbers, one for every column. -/
noncomputable def S (b : List ℕ) (e : ℕ) (a : List ℕ → ℕ → ℝ) : Tensor ℝ :=
  tab (e :: b) fun i => a (i.drop 1) (i.getD 0 0)

section columns

variable {J : Type} [Fintype J] {n e : ℕ} {b : List ℕ} {φ : J ≃ Fin n}

theorem V_shape (f : List ℕ → ℕ → J → ℝ) : (V b e φ f).shape = e :: n :: b := rfl

theorem V_get {f : List ℕ → ℕ → J → ℝ} {i : List ℕ} {j t : ℕ} (hj : j < e) (ht : t < n) (hi : InRange b i) :
    (V b e φ f).get (j :: t :: i) = f i j (φ.symm ⟨t, ht⟩) :=
  (L2_get hj ht hi).trans (getD_ofFn' _ ht)

theorem S_get {a : List ℕ → ℕ → ℝ} {i : List ℕ} {j : ℕ} (hj : j < e) (hi : InRange b i) :
    (S b e a).get (j :: i) = a i j := tab_get (s := e :: b) (i := j :: i) ⟨hj, hi⟩

/-- An array is an array of columns if its entries are those of the columns. -/
theorem tab_eq_V {x : List ℕ → ℝ} {f : List ℕ → ℕ → J → ℝ}
    (h : ∀ i, InRange b i → ∀ j < e, ∀ t (ht : t < n), x (j :: t :: i) = f i j (φ.symm ⟨t, ht⟩)) :
    tab (e :: n :: b) x = V b e φ f := by
  refine tab_congr fun i hi => ?_
  obtain ⟨j, i, rfl, hj, hi⟩ := inRange_cons_inv hi
  obtain ⟨t, i, rfl, ht, hi⟩ := inRange_cons_inv hi
  exact (h i hi j hj t ht).trans (getD_ofFn' (fun t => f i j (φ.symm t)) ht).symm

theorem V_congr {f g : List ℕ → ℕ → J → ℝ} (h : ∀ i, InRange b i → ∀ j < e, f i j = g i j) :
    V b e φ f = V b e φ g := L2_congr fun i hi j hj => by rw [h i hi j hj]

theorem zip_V (err : PyErr) (h : ℝ → ℝ → ℝ) (f g : List ℕ → ℕ → J → ℝ) :
    Tensor.zip err h (V b e φ f) (V b e φ g) = .ok (V b e φ fun i j p => h (f i j p) (g i j p)) := by
  simp only [Tensor.zip, V_shape, bcShape_self]
  refine congrArg _ (tab_eq_V fun i hi j hj t ht => ?_)
  have hr : InRange (e :: n :: b) (j :: t :: i) := ⟨hj, ht, hi⟩
  rw [bcIdx_self hr, V_get hj ht hi, V_get hj ht hi]

theorem zip_S (err : PyErr) (h : ℝ → ℝ → ℝ) (f g : List ℕ → ℕ → ℝ) :
    Tensor.zip err h (S b e f) (S b e g) = .ok (S b e fun i j => h (f i j) (g i j)) := zip_same err h

theorem map_S (h : ℝ → ℝ) (f : List ℕ → ℕ → ℝ) : (S b e f).map h = S b e fun i j => h (f i j) := map_tab h

theorem innerProd_V (f g : List ℕ → ℕ → J → ℝ) :
    Arrays.innerProd A (V b e φ f) (V b e φ g) = .ok (S b e fun i j => FBE.innerProd (f i j) (g i j)) := by
  unfold Arrays.innerProd
  rw [einsum_cdd _ (V_shape f) (V_shape g) (bcShape_self b)]
  refine congrArg _ (tab_congr fun i hi => ?_)
  obtain ⟨j, i, rfl, hj, hi⟩ := inRange_cons_inv hi
  rw [sum_range_fin]
  show _ = ∑ p, f i j p * g i j p
  rw [← φ.symm.sum_comp]
  refine Finset.sum_congr rfl fun t _ => ?_
  show (V b e φ f).get (j :: t.val :: bcIdx b i) * (V b e φ g).get (j :: t.val :: bcIdx b i) = _
  rw [bcIdx_self hi, V_get hj t.isLt hi, V_get hj t.isLt hi]

theorem scale_V (p : List ℕ → ℕ → J → ℝ) (a : List ℕ → ℕ → ℝ) :
    Tensor.zip A.err (· * ·) ((S b e a).unsqueeze 1) (V b e φ p) = .ok (V b e φ fun i j q => a i j * p i j q) := by
  have hb : bcShape (e :: 1 :: b) (e :: n :: b) = some (e :: n :: b) := by
    refine bcShape_cons_self ?_
    by_cases hn : 1 = n
    · subst hn; exact bcShape_self _
    · simp [bcShape, bcShape_self, hn]
  rw [unsqueeze_1 (x := S b e a) (n := e) (b := b) rfl]
  simp only [Tensor.zip, V_shape, tab_shape, hb]
  refine congrArg _ (tab_eq_V fun i hi j hj t ht => ?_)
  have hr : InRange (e :: n :: b) (j :: t :: i) := ⟨hj, ht, hi⟩
  have hr1 : InRange (e :: 1 :: b) (j :: 0 :: i) := ⟨hj, Nat.one_pos, hi⟩
  rw [bcIdx_self hr, bcIdx_cons _ _ _ _ hj, bcIdx_one, bcIdx_self hi, tab_get hr1, V_get hj ht hi]
  exact congrArg (· * _) (S_get hj hi)

theorem axpy_V (h : ℝ → ℝ → ℝ) (x p : List ℕ → ℕ → J → ℝ) (a : List ℕ → ℕ → ℝ) :
    axpy A (V b e φ x) h (S b e a) (V b e φ p) = .ok (V b e φ fun i j q => h (x i j q) (a i j * p i j q)) := by
  simp only [axpy]
  rw [scale_V, ok_bind, zip_V]

/-! ### the loop -/

/-- The variables of the loop, for the state of every column. -/
noncomputable def cgVars (b : List ℕ) (e : ℕ) (φ : J ≃ Fin n) (st : List ℕ → ℕ → CgState J) : CgVars where
  x := V b e φ fun i j => (st i j).x
  r := V b e φ fun i j => (st i j).r
  p := V b e φ fun i j => (st i j).p
  rsold := S b e fun i j => (st i j).rsold

variable {F P : Op} {Aop Mop : List ℕ → (J → ℝ) → J → ℝ}
  (hF : ∀ f : List ℕ → ℕ → J → ℝ, F.mul (V b e φ f) = .ok (V b e φ fun i j => Aop i (f i j)))
  (hP : ∀ f : List ℕ → ℕ → J → ℝ, P.mul (V b e φ f) = .ok (V b e φ fun i j => Mop i (f i j)))
include hF hP

theorem cgInit_eq (y x : List ℕ → ℕ → J → ℝ) :
    Arrays.cgInit A F P (V b e φ y) (V b e φ x) =
      .ok (cgVars b e φ fun i j => FBE.cgInit (Aop i) (Mop i) (y i j) (x i j)) := by
  simp only [Arrays.cgInit]
  rw [hF, ok_bind, zip_V, ok_bind, hP, ok_bind, innerProd_V]
  rfl

theorem cgBody_eq (y : List ℕ → ℕ → J → ℝ) (st : List ℕ → ℕ → CgState J) (epoch : ℕ) :
    Arrays.cgBody A F P (V b e φ y) (cgVars b e φ st) epoch =
      .ok (cgVars b e φ fun i j => FBE.cgBody (Aop i) (Mop i) (y i j) (st i j) epoch) := by
  simp only [Arrays.cgBody, cgVars]
  rw [hF, ok_bind, innerProd_V, ok_bind, map_S, zip_S, ok_bind, axpy_V, ok_bind]
  have hne : ¬ (epoch + 1 % 5 = 0) := by omega
  simp only [if_neg hne]
  rw [axpy_V, ok_bind, hP, ok_bind, innerProd_V, ok_bind, map_S, zip_S, ok_bind, axpy_V, ok_bind]
  simp only [FBE.cgBody, if_neg hne]
  rfl

theorem cgLoop_eq (y : List ℕ → ℕ → J → ℝ) (l : List ℕ) (st : List ℕ → ℕ → CgState J) :
    l.foldlM (Arrays.cgBody A F P (V b e φ y)) (cgVars b e φ st) =
      .ok (cgVars b e φ fun i j => l.foldl (FBE.cgBody (Aop i) (Mop i) (y i j)) (st i j)) := by
  induction l generalizing st with
  | nil => rfl
  | cons a l ih =>
    rw [List.foldlM_cons, cgBody_eq hF hP, ok_bind, ih]
    rfl

/-- `conjugate_gradient` for a stack of matrices. -/
theorem conjugateGradient_eq (hrank : F.shape.length = b.length + 2) (hsize : F.shape.getD 0 0 = n)
    (y : List ℕ → ℕ → J → ℝ) (x : Option (List ℕ → ℕ → J → ℝ)) (it : ℕ) :
    Arrays.conjugateGradient A F P (V b e φ y) (x.map (V b e φ)) (some (it : ℤ)) =
      .ok (V b e φ fun i j => FBE.conjugateGradient (Aop i) (Mop i) (y i j) (x.getD (fun _ _ _ => 0) i j) it) := by
  have h1 : ¬ (F.shape.length = (V b e φ y).shape.length + 1) := by
    rw [V_shape, hrank]; simp
  have h2 : F.shape.length = (V b e φ y).shape.length := by
    rw [V_shape, hrank]; simp
  have hx : (x.map (V b e φ)).getD ((V b e φ y).map fun _ => (0 : ℝ)) = V b e φ (x.getD fun _ _ _ => 0) := by
    cases x with
    | some x => rfl
    | none =>
      show tab (e :: n :: b) (fun _ => (0 : ℝ)) = V b e φ fun _ _ _ => 0
      exact tab_eq_V fun i hi j hj t ht => rfl
  simp only [Arrays.conjugateGradient, h1, decide_false, Bool.false_eq_true, if_false]
  rw [if_neg (not_not.2 h2), size_two (V_shape y), ok_bind, if_neg (not_not.2 hsize)]
  simp only [size_one (V_shape y), ok_bind, hx]
  rw [cgInit_eq hF hP, ok_bind]
  simp only [Option.getD_some, Int.toNat_natCast]
  rw [cgLoop_eq hF hP, ok_bind]
  rfl

end columns

/-- `conjugate_gradient` for a stack of vectors: an axis is added and removed. -/
theorem conjugateGradient_vec {n : ℕ} {b : List ℕ} {F P : Op} {Aop Mop : List ℕ → (Fin n → ℝ) → Fin n → ℝ}
    (hF : ∀ f : List ℕ → ℕ → Fin n → ℝ, F.mul (V b 1 (Equiv.refl _) f) =
      .ok (V b 1 (Equiv.refl _) fun i j => Aop i (f i j)))
    (hP : ∀ f : List ℕ → ℕ → Fin n → ℝ, P.mul (V b 1 (Equiv.refl _) f) =
      .ok (V b 1 (Equiv.refl _) fun i j => Mop i (f i j)))
    (hrank : F.shape.length = b.length + 2) (hsize : F.shape.getD 0 0 = n) (y : List ℕ → Fin n → ℝ) (it : ℕ) :
    Arrays.conjugateGradient A F P (L1 b n fun i => List.ofFn (y i)) none (some (it : ℤ)) =
      .ok (L1 b n fun i => List.ofFn (FBE.conjugateGradient (Aop i) (Mop i) (y i) (fun _ => 0) it)) := by
  have h1 : F.shape.length = (L1 b n fun i => List.ofFn (y i)).shape.length + 1 := by
    rw [L1_shape, hrank]; simp
  have hu : (L1 b n fun i => List.ofFn (y i)).unsqueeze 0 = V b 1 (Equiv.refl _) fun i _ => y i := unsqueeze_L1
  have h2 : F.shape.length = (V b 1 (Equiv.refl (Fin n)) fun i _ => y i).shape.length := by
    rw [V_shape, hrank]; simp
  have hx : (Option.none (α := Tensor ℝ)).getD ((V b 1 (Equiv.refl (Fin n)) fun i _ => y i).map fun _ => (0 : ℝ)) =
      V b 1 (Equiv.refl (Fin n)) fun _ _ _ => 0 := by
    show tab (1 :: n :: b) (fun _ => (0 : ℝ)) = V b 1 (Equiv.refl (Fin n)) fun _ _ _ => 0
    exact tab_eq_V fun i hi j hj t ht => rfl
  simp only [Arrays.conjugateGradient, h1, decide_true, if_true, hu]
  rw [← h1, if_neg (not_not.2 h2), size_two (V_shape _), ok_bind, if_neg (not_not.2 hsize)]
  simp only [size_one (V_shape _), ok_bind, hx]
  rw [cgInit_eq hF hP, ok_bind]
  simp only [Option.getD_some, Int.toNat_natCast]
  rw [cgLoop_eq hF hP, ok_bind]
  exact select_L2

/-! ### the operators for one reference -/

section ops

variable {ba bl : List ℕ} {n e : ℕ} {f : List ℕ → List ℝ}

theorem ramp_eq (n : ℕ) :
    ramp n = L1 [] (n - 1) fun _ => (List.range (n - 1)).map fun i : ℕ => ((i : ℝ) + 1) / n := by
  refine tab_congr fun i hi => ?_
  obtain ⟨t, i, rfl, ht, hi⟩ := inRange_cons_inv hi
  show _ = (List.map _ (List.range (n - 1))).getD t 0
  rw [map_range_eq_ofFn, getD_ofFn' _ ht]
  rfl

theorem zip_L1_row {b : List ℕ} {n : ℕ} {f : List ℕ → List ℝ} {l : List ℝ} (err : PyErr) (h : ℝ → ℝ → ℝ)
    (hf : ∀ i, (f i).length = n) (hl : l.length = n) :
    Tensor.zip err h (L1 b n f) (L1 [] n fun _ => l) = .ok (L1 b n fun i => List.zipWith h (f i) l) := by
  rw [zip_L1 err h (bcShape_nil_right b) hf (fun _ => hl)]
  refine congrArg _ (L1_congr fun i hi => ?_)
  rw [bcIdx_self hi]

theorem zip_row_L1 {b : List ℕ} {n : ℕ} {f : List ℕ → List ℝ} {l : List ℝ} (err : PyErr) (h : ℝ → ℝ → ℝ)
    (hf : ∀ i, (f i).length = n) (hl : l.length = n) :
    Tensor.zip err h (L1 [] n fun _ => l) (L1 b n f) = .ok (L1 b n fun i => List.zipWith h l (f i)) := by
  rw [zip_L1 err h (bcShape_nil b) (fun _ => hl) hf]
  refine congrArg _ (L1_congr fun i hi => ?_)
  rw [bcIdx_self hi]

theorem symPrecondCol_eq (hn : 0 < n) (hf : ∀ i, (f i).length = n) :
    Arrays.symPrecondCol A (L1 ba n f) = .ok (L1 ba n fun i => FBE.symPrecondCol (f i)) := by
  have hs : ∀ l : List ℝ, l.length = n → (pySlice l (some 1) none).length = n - 1 := by
    intro l hl; rw [pySlice_from_one, List.length_drop, hl]
  have h1 : ∀ l : List ℝ, l.length = n → (pySlice l none (some 1)).length = 1 := by
    intro l hl; rw [pySlice_one, List.length_take, hl]; omega
  simp only [Arrays.symPrecondCol, Tensor.slice]
  rw [size_one (L1_shape _ _ _), ok_bind, ramp_eq, along_L1 (fun l hl => by rw [List.length_reverse, hl]) (fun i => by simp),
    ok_bind, along_L1 hs hf, ok_bind, zip_L1_row _ _ (fun i => hs _ (hf i)) (by simp), ok_bind,
    along_L1 (fun l hl => by rw [List.length_reverse, hl]) (fun i => by simp [hs _ (hf i)]), ok_bind,
    zip_L1_same _ _ (fun i => by simp [hs _ (hf i)]) (fun i => by simp [hs _ (hf i)]), ok_bind, along_L1 h1 hf, ok_bind,
    cat_L1 _ (fun i => h1 _ (hf i))]
  have h2 : 1 + (n - 1) = n := by omega
  rw [h2]
  refine congrArg _ (L1_congr fun i hi => ?_)
  unfold FBE.symPrecondCol
  rw [hf i]

/-- Spectra of the columns times spectra of the arguments. -/
theorem zip_spec_left {F : ℕ} {C : List ℕ → List ℂ} {L : List ℕ → ℕ → List ℂ} (err : PyErr)
    (hb : bcShape ba bl = some bl) (hC : ∀ i, (C i).length = F) (hL : ∀ i j, (L i j).length = F) :
    Tensor.zip err (· * ·) ((L1 ba F C).unsqueeze 0) (L2 bl F e L) =
      .ok (L2 bl F e fun i j => List.zipWith (· * ·) (C (bcIdx ba i)) (L i j)) := by
  have hs : bcShape (1 :: F :: ba) (e :: F :: bl) = some (e :: F :: bl) := by
    by_cases he : 1 = e
    · subst he; exact bcShape_cons_self (bcShape_cons_self hb)
    · simp [bcShape, hb, he]
  have hsh : ((L1 ba F C).unsqueeze 0).shape = 1 :: F :: ba := rfl
  simp only [Tensor.zip, hsh, L2_shape, hs]
  refine congrArg _ (tab_congr fun i hi => ?_)
  have hi' := hi
  obtain ⟨j, i, rfl, hj, hi⟩ := inRange_cons_inv hi
  obtain ⟨t, i, rfl, ht, hi⟩ := inRange_cons_inv hi
  rw [bcIdx_self hi', bcIdx_one, bcIdx_cons _ _ _ _ ht, unsqueeze_0,
    tab_get (s := 1 :: (L1 ba F C).shape) (i := 0 :: t :: bcIdx ba i) (show InRange (1 :: F :: ba) _ from ⟨Nat.one_pos, ht, bcIdx_range_left hb hi⟩), L2_get hj ht hi]
  show (L1 ba F C).get (t :: bcIdx ba i) * _ = (List.zipWith _ _ _).getD t 0
  rw [L1_get ht (bcIdx_range_left hb hi), Tensor.getD_zipWith _ (by rw [hC]; exact ht) (by rw [hL]; exact ht)]
  rfl

theorem zip_spec_right {F : ℕ} {C : List ℕ → List ℂ} {L : List ℕ → ℕ → List ℂ} (err : PyErr)
    (hb : bcShape ba bl = some bl) (hC : ∀ i, (C i).length = F) (hL : ∀ i j, (L i j).length = F) :
    Tensor.zip err (· * ·) (L2 bl F e L) ((L1 ba F C).unsqueeze 0) =
      .ok (L2 bl F e fun i j => List.zipWith (· * ·) (L i j) (C (bcIdx ba i))) := by
  have hs : bcShape (e :: F :: bl) (1 :: F :: ba) = some (e :: F :: bl) := by
    rw [bcShape_comm]
    by_cases he : 1 = e
    · subst he; exact bcShape_cons_self (bcShape_cons_self hb)
    · simp [bcShape, hb, he]
  have hsh : ((L1 ba F C).unsqueeze 0).shape = 1 :: F :: ba := rfl
  simp only [Tensor.zip, hsh, L2_shape, hs]
  refine congrArg _ (tab_congr fun i hi => ?_)
  have hi' := hi
  obtain ⟨j, i, rfl, hj, hi⟩ := inRange_cons_inv hi
  obtain ⟨t, i, rfl, ht, hi⟩ := inRange_cons_inv hi
  rw [bcIdx_self hi', bcIdx_one, bcIdx_cons _ _ _ _ ht, unsqueeze_0,
    tab_get (s := 1 :: (L1 ba F C).shape) (i := 0 :: t :: bcIdx ba i) (show InRange (1 :: F :: ba) _ from ⟨Nat.one_pos, ht, bcIdx_range_left hb hi⟩), L2_get hj ht hi]
  show _ * (L1 ba F C).get (t :: bcIdx ba i) = (List.zipWith _ _ _).getD t 0
  rw [L1_get ht (bcIdx_range_left hb hi), Tensor.getD_zipWith _ (by rw [hL]; exact ht) (by rw [hC]; exact ht)]
  rfl

theorem L2_eq_V {b : List ℕ} {g : List ℕ → ℕ → List ℝ} (hg : ∀ i j, (g i j).length = n) :
    L2 b n e g = V b e (Equiv.refl (Fin n)) fun i j => vec n (g i j) := by
  refine L2_congr fun i _ j _ => ?_
  rw [← list_of_getD (hg i j), map_range_eq_ofFn]
  congr 1

/-- `CirculantPreconditionerOperator`. -/
theorem circPrecond_eq (hA : A.Lawful) (hn : 0 < n) (hf : ∀ i, (f i).length = n) :
    ∃ P, Arrays.circPrecond A (L1 ba n f) = .ok P ∧ ∀ (bl : List ℕ) (e : ℕ), bl.length = ba.length →
      bcShape ba bl = some bl → ∀ v : List ℕ → ℕ → Fin n → ℝ, P.mul (V bl e (Equiv.refl _) v) =
        .ok (V bl e (Equiv.refl _) fun i j => FBE.circPrecond A.B n (f (bcIdx ba i)) (v i j)) := by
  have hc : ∀ i, (FBE.symPrecondCol (f i)).length = n := fun i => length_symPrecondCol (hf i) hn
  refine ⟨?P, ?h1, ?h2⟩
  case h1 =>
    simp only [Arrays.circPrecond]
    rw [symPrecondCol_eq hn hf, ok_bind, hA.rfft1_none hn hc, ok_bind, map_L1 _ (fun i => rfft_length n _),
      size_one (L1_shape _ _ _), ok_bind]
  case h2 =>
    intro bl e hlen hb v
    have hr : (V bl e (Equiv.refl (Fin n)) v).shape.length =
        (n :: n :: (L1 ba n fun i => FBE.symPrecondCol (f i)).shape.drop 1).length := by
      simp [V_shape, L1_shape, hlen]
    simp only [if_pos hr, size_two (V_shape v), ok_bind, ne_eq, not_true_eq_false, if_false]
    unfold V
    rw [hA.rfft2 hn (fun i j => by simp), ok_bind, zip_spec_left _ hb (fun i => by simp) (fun i j => rfft_length n _),
      ok_bind, hA.irfft2 hn (fun i j => by simp)]
    exact congrArg _ (L2_eq_V fun i j => irfft_length n _)

/-- `SymmetricToeplitzOperator`. -/
theorem symToeplitzOp_eq' (hA : A.Lawful) (hB : Covered A.B) (hn : 0 < n) (hf : ∀ i, (f i).length = n) :
    ∃ F, Arrays.symToeplitzOp A (L1 ba n f) = .ok F ∧ F.shape = n :: n :: ba ∧
      ∀ (bl : List ℕ) (e : ℕ), bl.length = ba.length → bcShape ba bl = some bl →
      ∀ v : List ℕ → ℕ → Fin n → ℝ, F.mul (V bl e (Equiv.refl _) v) =
        .ok (V bl e (Equiv.refl _) fun i j => FBE.symToeplitzOp A.B n (f (bcIdx ba i)) (v i j)) := by
  have hr : ∀ l : List ℝ, l.length = n → (A.B.revTail l).length = n - 1 := by
    intro l hl
    rw [hB.revTail, List.length_reverse, List.length_drop, hl]
  have hc : ∀ i, (symCircCol A.B n (f i)).length = 2 * n := fun i => length_symCircCol hB (hf i) hn
  have hcirc : n + (2 * n - 2 * n + 1) + (n - 1) = 2 * n := by omega
  refine ⟨?F, ?h1, ?h3, ?h2⟩
  case h1 =>
    simp only [Arrays.symToeplitzOp]
    rw [size_one (L1_shape _ _ _), ok_bind, zeros_L1, ok_bind, cat_L1 _ hf, ok_bind, along_L1 hr hf, ok_bind,
      cat_L1 _ (fun i => by simp [hf i]), ok_bind, hcirc]
    change (A.rfft (L1 ba (2 * n) fun i => symCircCol A.B n (f i)) none (-1) >>= _) = _
    rw [hA.rfft1_none (f := fun i => symCircCol A.B n (f i)) (by omega) hc, ok_bind]
  case h3 => rfl
  case h2 =>
    intro bl e hlen hb v
    have hrk : (V bl e (Equiv.refl (Fin n)) v).shape.length = (n :: (L1 ba n f).shape).length := by
      simp [V_shape, L1_shape, hlen]
    simp only [if_pos hrk, size_two (V_shape v), ok_bind, ne_eq, not_true_eq_false, if_false]
    unfold V
    rw [hA.rfft2 (n := 2 * n) (by omega) (fun i j => by simp), ok_bind,
      zip_spec_right _ hb (fun i => rfft_length (2 * n) _) (fun i j => rfft_length (2 * n) _),
      ok_bind, hA.irfft2 (by omega) (fun i j => by simp), ok_bind, slice_L2 (fun i j => irfft_length _ _)]
    have h2 : min n (2 * n) = n := by omega
    rw [h2]
    refine congrArg _ ((L2_eq_V fun i j => ?_).trans ?_)
    · rw [pySlice_take, List.length_take, irfft_length]; omega
    · refine V_congr fun i hi j hj => ?_
      simp only [FBE.symToeplitzOp, hc]
      rfl

/-- `toeplitz_conjugate_gradient` for a stack of matrices of right-hand sides. -/
theorem toeplitzCg_pair (hA : A.Lawful) (hB : Covered A.B) (hn : 0 < n) (hf : ∀ i, (f i).length = n)
    (hlen : bl.length = ba.length) (hb : bcShape ba bl = some bl) {g : List ℕ → ℕ → List ℝ}
    (hg : ∀ i j, (g i j).length = n) (it : ℕ) :
    Arrays.toeplitzCg A (L1 ba n f) (L2 bl n e g) (some (it : ℤ)) =
      .ok (L2 bl n e fun i j => List.ofFn (FBE.toeplitzCg A.B n (f (bcIdx ba i)) (vec n (g i j)) it)) := by
  obtain ⟨P, hP, hPm⟩ := circPrecond_eq (ba := ba) hA hn hf
  obtain ⟨F, hF, hFs, hFm⟩ := symToeplitzOp_eq' (ba := ba) hA hB hn hf
  simp only [Arrays.toeplitzCg]
  rw [hP, ok_bind, hF, ok_bind, L2_eq_V hg]
  exact conjugateGradient_eq (x := none) (hFm _ _ hlen hb) (hPm _ _ hlen hb) (by rw [hFs]; simp [hlen]) (by rw [hFs]; rfl) _ it

/-- `toeplitz_conjugate_gradient` for a stack of vectors. -/
theorem toeplitzCg_vec (hA : A.Lawful) (hB : Covered A.B) (hn : 0 < n) (hf : ∀ i, (f i).length = n)
    {g : List ℕ → List ℝ} (hg : ∀ i, (g i).length = n) (it : ℕ) :
    Arrays.toeplitzCg A (L1 ba n f) (L1 ba n g) (some (it : ℤ)) =
      .ok (L1 ba n fun i => List.ofFn (FBE.toeplitzCg A.B n (f i) (vec n (g i)) it)) := by
  obtain ⟨P, hP, hPm⟩ := circPrecond_eq (ba := ba) hA hn hf
  obtain ⟨F, hF, hFs, hFm⟩ := symToeplitzOp_eq' (ba := ba) hA hB hn hf
  have hL : L1 ba n g = L1 ba n fun i => List.ofFn (vec n (g i)) := by
    refine L1_congr fun i _ => ?_
    rw [← list_of_getD (hg i), map_range_eq_ofFn]
    congr 1
    funext t
    show _ = (List.ofFn _).getD t.val 0
    rw [getD_ofFn' _ t.isLt]
  simp only [Arrays.toeplitzCg]
  rw [hP, ok_bind, hF, ok_bind, hL, conjugateGradient_vec (hFm _ _ rfl (bcShape_self ba)) (hPm _ _ rfl (bcShape_self ba))
    (by rw [hFs]; simp) (by rw [hFs]; rfl)]
  refine congrArg _ (L1_congr fun i hi => ?_)
  rw [bcIdx_self hi]; rfl

end ops

end Arrays

end FBE
