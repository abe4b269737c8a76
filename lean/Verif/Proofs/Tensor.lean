import Verif.Model.Arrays
import Verif.Proofs.Slice
import Mathlib.Algebra.BigOperators.Fin

/-!
# Lemmas about arrays with axes

`L1`, `L2`, `L3` are the arrays whose last, second to last, third to last axis is given by lists (the axis of
samples, lags or frequencies); the lemmas say what the operations do to them.
-/

set_option linter.unusedSectionVars false

namespace FBE

open Classical

theorem ok_bind {ε α β : Type} (a : α) (f : α → Except ε β) : (Except.ok a >>= f) = f a := rfl

theorem error_bind {ε α β : Type} (e : ε) (f : α → Except ε β) : ((Except.error e : Except ε α) >>= f) = .error e := rfl

namespace Tensor

variable {α β γ : Type} [Zero α] [Zero β] [Zero γ]

theorem inRange_cons {n t : ℕ} {s i : List ℕ} : InRange (n :: s) (t :: i) ↔ t < n ∧ InRange s i := Iff.rfl

theorem inRange_cons_inv {n : ℕ} {s i : List ℕ} (h : InRange (n :: s) i) :
    ∃ t j, i = t :: j ∧ t < n ∧ InRange s j := by
  cases i with
  | nil => exact h.elim
  | cons t j => exact ⟨t, j, rfl, h.1, h.2⟩

theorem inRange_nil_inv {i : List ℕ} (h : InRange [] i) : i = [] := by
  cases i with
  | nil => rfl
  | cons t j => exact h.elim

theorem tab_congr {s : List ℕ} {f g : List ℕ → α} (h : ∀ i, InRange s i → f i = g i) : tab s f = tab s g := by
  unfold tab
  congr 1
  funext i
  by_cases hi : InRange s i
  · rw [if_pos hi, if_pos hi, h i hi]
  · rw [if_neg hi, if_neg hi]

theorem tab_get {s i : List ℕ} {f : List ℕ → α} (h : InRange s i) : (tab s f).get i = f i := if_pos h

theorem tab_shape (s : List ℕ) (f : List ℕ → α) : (tab s f).shape = s := rfl

/-! ### broadcasting of shapes -/

theorem bcShape_nil (s : List ℕ) : bcShape [] s = some s := by cases s <;> rfl

theorem bcShape_nil_right (s : List ℕ) : bcShape s [] = some s := by cases s <;> rfl

theorem bcShape_self (s : List ℕ) : bcShape s s = some s := by
  induction s with
  | nil => rfl
  | cons n s ih => simp [bcShape, ih]

theorem bcShape_cons_self {n : ℕ} {s t u : List ℕ} (h : bcShape s t = some u) :
    bcShape (n :: s) (n :: t) = some (n :: u) := by
  simp [bcShape, h]

theorem bcShape_cons_self_none {n : ℕ} {s t : List ℕ} (h : bcShape s t = none) :
    bcShape (n :: s) (n :: t) = none := by
  simp [bcShape, h]

theorem bcIdx_self {s i : List ℕ} (h : InRange s i) : bcIdx s i = i := by
  induction s generalizing i with
  | nil => rw [inRange_nil_inv h]; rfl
  | cons n s ih =>
    obtain ⟨t, j, rfl, ht, hj⟩ := inRange_cons_inv h
    have : (if n = 1 then 0 else t) = t := by split_ifs <;> omega
    simp [bcIdx, ih hj, this]

theorem bcIdx_cons (n t : ℕ) (s i : List ℕ) (ht : t < n) : bcIdx (n :: s) (t :: i) = t :: bcIdx s i := by
  have : (if n = 1 then 0 else t) = t := by split_ifs <;> omega
  simp [bcIdx, this]

theorem bcIdx_one (t : ℕ) (s i : List ℕ) : bcIdx (1 :: s) (t :: i) = 0 :: bcIdx s i := by
  simp [bcIdx]

theorem bcIdx_range_left {s t u i : List ℕ} (h : bcShape s t = some u) (hi : InRange u i) :
    InRange s (bcIdx s i) := by
  induction s generalizing t u i with
  | nil => trivial
  | cons n s ih =>
    cases t with
    | nil =>
      rw [bcShape_nil_right] at h
      obtain rfl := Option.some.inj h
      rw [bcIdx_self hi]; exact hi
    | cons m t =>
      simp only [bcShape] at h
      split at h
      · cases h
      · rename_i u' hu
        split_ifs at h with h1 h2 h3 <;> (obtain rfl := Option.some.inj h) <;>
          obtain ⟨a, j, rfl, ha, hj⟩ := inRange_cons_inv hi <;>
          refine ⟨?_, ih hu hj⟩ <;> simp <;> split_ifs <;> omega

theorem bcShape_comm (s t : List ℕ) : bcShape s t = bcShape t s := by
  induction s generalizing t with
  | nil => rw [bcShape_nil, bcShape_nil_right]
  | cons n s ih =>
    cases t with
    | nil => rfl
    | cons m t =>
      simp only [bcShape, ih t]
      split
      · rfl
      · split_ifs <;> simp_all

theorem bcIdx_range_right {s t u i : List ℕ} (h : bcShape s t = some u) (hi : InRange u i) :
    InRange t (bcIdx t i) := bcIdx_range_left ((bcShape_comm t s).trans h) hi

theorem bcShape_absorb {s t u : List ℕ} (h : bcShape s t = some u) : bcShape s u = some u := by
  induction s generalizing t u with
  | nil => exact bcShape_nil u
  | cons n s ih =>
    cases t with
    | nil => rw [bcShape_nil_right] at h; obtain rfl := Option.some.inj h; exact bcShape_self _
    | cons m t =>
      simp only [bcShape] at h
      split at h
      · cases h
      · rename_i u' hu
        split_ifs at h with h1 h2 h3 <;> obtain rfl := Option.some.inj h <;> simp [bcShape, ih hu, *]

/-! ### axes -/

theorem axisPos_one (r : ℕ) : axisPos (r + 1) (-1) = .ok 0 := by
  have : -((r + 1 : ℕ) : ℤ) ≤ -1 ∧ (-1 : ℤ) < 0 := by omega
  simp only [axisPos, if_pos this]; rfl

theorem axisPos_two (r : ℕ) : axisPos (r + 1 + 1) (-2) = .ok 1 := by
  have : -((r + 1 + 1 : ℕ) : ℤ) ≤ -2 ∧ (-2 : ℤ) < 0 := by omega
  simp only [axisPos, if_pos this]; rfl

theorem axisPos_three (r : ℕ) : axisPos (r + 1 + 1 + 1) (-3) = .ok 2 := by
  have : -((r + 1 + 1 + 1 : ℕ) : ℤ) ≤ -3 ∧ (-3 : ℤ) < 0 := by omega
  simp only [axisPos, if_pos this]; rfl

theorem size_one {x : Tensor α} {n : ℕ} {s : List ℕ} (h : x.shape = n :: s) : x.size (-1) = .ok n := by
  simp only [size, h, List.length_cons, axisPos_one]; rfl

theorem size_two {x : Tensor α} {n m : ℕ} {s : List ℕ} (h : x.shape = n :: m :: s) : x.size (-2) = .ok m := by
  simp only [size, h, List.length_cons, axisPos_two]; rfl

theorem size_three {x : Tensor α} {n m k : ℕ} {s : List ℕ} (h : x.shape = n :: m :: k :: s) :
    x.size (-3) = .ok k := by
  simp only [size, h, List.length_cons, axisPos_three]; rfl

/-! ### the normal forms -/

/-- Array of shape `(b, n)` with the last axis given by lists. -/
noncomputable def L1 (b : List ℕ) (n : ℕ) (f : List ℕ → List α) : Tensor α :=
  tab (n :: b) fun i => (f (i.drop 1)).getD (i.getD 0 0) 0

/-- Array of shape `(b, n, d)` with the axis of size `n` given by lists. -/
noncomputable def L2 (b : List ℕ) (n d : ℕ) (f : List ℕ → ℕ → List α) : Tensor α :=
  tab (d :: n :: b) fun i => (f (i.drop 2) (i.getD 0 0)).getD (i.getD 1 0) 0

/-- Array of shape `(b, n, c, d)` with the axis of size `n` given by lists. -/
noncomputable def L3 (b : List ℕ) (n c d : ℕ) (f : List ℕ → ℕ → ℕ → List α) : Tensor α :=
  tab (d :: c :: n :: b) fun i => (f (i.drop 3) (i.getD 1 0) (i.getD 0 0)).getD (i.getD 2 0) 0

theorem L1_shape (b : List ℕ) (n : ℕ) (f : List ℕ → List α) : (L1 b n f).shape = n :: b := rfl

theorem L2_shape (b : List ℕ) (n d : ℕ) (f : List ℕ → ℕ → List α) : (L2 b n d f).shape = d :: n :: b := rfl

theorem L3_shape (b : List ℕ) (n c d : ℕ) (f : List ℕ → ℕ → ℕ → List α) :
    (L3 b n c d f).shape = d :: c :: n :: b := rfl

theorem L1_get {b i : List ℕ} {n t : ℕ} {f : List ℕ → List α} (ht : t < n) (hi : InRange b i) :
    (L1 b n f).get (t :: i) = (f i).getD t 0 := tab_get (i := t :: i) ⟨ht, hi⟩

theorem L2_get {b i : List ℕ} {n d t j : ℕ} {f : List ℕ → ℕ → List α} (hj : j < d) (ht : t < n) (hi : InRange b i) :
    (L2 b n d f).get (j :: t :: i) = (f i j).getD t 0 := tab_get (i := j :: t :: i) ⟨hj, ht, hi⟩

theorem L3_get {b i : List ℕ} {n c d t k j : ℕ} {f : List ℕ → ℕ → ℕ → List α} (hj : j < d) (hk : k < c) (ht : t < n)
    (hi : InRange b i) : (L3 b n c d f).get (j :: k :: t :: i) = (f i k j).getD t 0 :=
  tab_get (i := j :: k :: t :: i) ⟨hj, hk, ht, hi⟩

theorem L1_congr {b : List ℕ} {n : ℕ} {f g : List ℕ → List α} (h : ∀ i, InRange b i → f i = g i) :
    L1 b n f = L1 b n g := by
  refine tab_congr fun i hi => ?_
  obtain ⟨t, j, rfl, ht, hj⟩ := inRange_cons_inv hi
  show (f j).getD _ _ = _
  rw [h j hj]; rfl

theorem L2_congr {b : List ℕ} {n d : ℕ} {f g : List ℕ → ℕ → List α}
    (h : ∀ i, InRange b i → ∀ j < d, f i j = g i j) : L2 b n d f = L2 b n d g := by
  refine tab_congr fun i hi => ?_
  obtain ⟨j, i, rfl, hj, hi⟩ := inRange_cons_inv hi
  obtain ⟨t, i, rfl, ht, hi⟩ := inRange_cons_inv hi
  show (f i j).getD _ _ = _
  rw [h i hi j hj]; rfl

theorem L3_congr {b : List ℕ} {n c d : ℕ} {f g : List ℕ → ℕ → ℕ → List α}
    (h : ∀ i, InRange b i → ∀ k < c, ∀ j < d, f i k j = g i k j) : L3 b n c d f = L3 b n c d g := by
  refine tab_congr fun i hi => ?_
  obtain ⟨j, i, rfl, hj, hi⟩ := inRange_cons_inv hi
  obtain ⟨k, i, rfl, hk, hi⟩ := inRange_cons_inv hi
  obtain ⟨t, i, rfl, ht, hi⟩ := inRange_cons_inv hi
  show (f i k j).getD _ _ = _
  rw [h i hi k hk j hj]; rfl

theorem list_of_getD {l : List α} {n : ℕ} (h : l.length = n) :
    ((List.range n).map fun t => l.getD t 0) = l := by
  subst h
  refine List.ext_getElem (by simp) fun t h1 h2 => ?_
  simp [List.getElem?_eq_getElem h2]

theorem fibre_L1 {b i : List ℕ} {n : ℕ} {f : List ℕ → List α} (hf : ∀ i, (f i).length = n) (t : ℕ)
    (hi : InRange b i) : (L1 b n f).fibre 0 (t :: i) = f i := by
  rw [← list_of_getD (hf i)]
  refine List.map_congr_left fun u hu => ?_
  exact L1_get (List.mem_range.1 hu) hi

theorem fibre_L2 {b i : List ℕ} {n d : ℕ} {f : List ℕ → ℕ → List α} (hf : ∀ i j, (f i j).length = n) {j : ℕ} (t : ℕ)
    (hj : j < d) (hi : InRange b i) : (L2 b n d f).fibre 1 (j :: t :: i) = f i j := by
  rw [← list_of_getD (hf i j)]
  refine List.map_congr_left fun u hu => ?_
  exact L2_get hj (List.mem_range.1 hu) hi

theorem fibre_L3 {b i : List ℕ} {n c d : ℕ} {f : List ℕ → ℕ → ℕ → List α} (hf : ∀ i k j, (f i k j).length = n)
    {k j : ℕ} (t : ℕ) (hj : j < d) (hk : k < c) (hi : InRange b i) :
    (L3 b n c d f).fibre 2 (j :: k :: t :: i) = f i k j := by
  rw [← list_of_getD (hf i k j)]
  refine List.map_congr_left fun u hu => ?_
  exact L3_get hj hk (List.mem_range.1 hu) hi

theorem fibre_length (x : Tensor α) (p : ℕ) (i : List ℕ) : (x.fibre p i).length = x.shape.getD p 0 := by
  simp [fibre]

/-! ### operations along an axis -/

theorem along_L1 {b : List ℕ} {n n' : ℕ} {f : List ℕ → List α} {F : List α → List β}
    (hF : ∀ l, l.length = n → (F l).length = n') (hf : ∀ i, (f i).length = n) :
    (L1 b n f).along F (-1) = .ok (L1 b n' fun i => F (f i)) := by
  simp only [along, L1_shape, List.length_cons, axisPos_one]
  rw [hF _ (fibre_length _ _ _)]
  refine congrArg _ (tab_congr fun i hi => ?_)
  obtain ⟨t, j, rfl, ht, hj⟩ := inRange_cons_inv hi
  rw [fibre_L1 hf t hj]; rfl

theorem along_L2 {b : List ℕ} {n n' d : ℕ} {f : List ℕ → ℕ → List α} {F : List α → List β}
    (hF : ∀ l, l.length = n → (F l).length = n') (hf : ∀ i j, (f i j).length = n) :
    (L2 b n d f).along F (-2) = .ok (L2 b n' d fun i j => F (f i j)) := by
  simp only [along, L2_shape, List.length_cons, axisPos_two]
  rw [hF _ (fibre_length _ _ _)]
  refine congrArg _ (tab_congr fun i hi => ?_)
  obtain ⟨j, i, rfl, hj, hi⟩ := inRange_cons_inv hi
  obtain ⟨t, i, rfl, ht, hi⟩ := inRange_cons_inv hi
  rw [fibre_L2 hf t hj hi]; rfl

theorem along_L3 {b : List ℕ} {n n' c d : ℕ} {f : List ℕ → ℕ → ℕ → List α} {F : List α → List β}
    (hF : ∀ l, l.length = n → (F l).length = n') (hf : ∀ i k j, (f i k j).length = n) :
    (L3 b n c d f).along F (-3) = .ok (L3 b n' c d fun i k j => F (f i k j)) := by
  simp only [along, L3_shape, List.length_cons, axisPos_three]
  rw [hF _ (fibre_length _ _ _)]
  refine congrArg _ (tab_congr fun i hi => ?_)
  obtain ⟨j, i, rfl, hj, hi⟩ := inRange_cons_inv hi
  obtain ⟨k, i, rfl, hk, hi⟩ := inRange_cons_inv hi
  obtain ⟨t, i, rfl, ht, hi⟩ := inRange_cons_inv hi
  rw [fibre_L3 hf t hj hk hi]; rfl

/-- An operation along the last axis of any array. -/
theorem along_last {x : Tensor α} {n n' : ℕ} {b : List ℕ} (hx : x.shape = n :: b) {F : List α → List β}
    (hF : ∀ l, l.length = n → (F l).length = n') :
    x.along F (-1) = .ok (L1 b n' fun i => F ((List.range n).map fun t => x.get (t :: i))) := by
  simp only [along, hx, List.length_cons, axisPos_one]
  rw [hF _ ((fibre_length _ _ _).trans (by rw [hx]; rfl))]
  refine congrArg _ (tab_congr fun i hi => ?_)
  obtain ⟨t, j, rfl, ht, hj⟩ := inRange_cons_inv hi
  simp only [fibre, hx]; rfl

theorem slice_length (l : List α) (start stop : Option ℤ) (n : ℕ) (h : l.length = n) :
    (pySlice l start stop).length = (pySlice (List.replicate n ()) start stop).length := by
  simp only [pySlice, List.length_drop, List.length_take, h, List.length_replicate]

/-! ### `cat`, `zeros` -/

theorem set_zero_cons (n m : ℕ) (s : List ℕ) : (n :: s).set 0 m = m :: s := rfl

theorem cat_L1 {b : List ℕ} {n m : ℕ} {f g : List ℕ → List α} (err : PyErr) (hf : ∀ i, (f i).length = n) :
    cat err (L1 b n f) (L1 b m g) (-1) = .ok (L1 b (n + m) fun i => f i ++ g i) := by
  simp only [cat, L1_shape, List.length_cons, axisPos_one, set_zero_cons, if_true]
  refine congrArg _ (tab_congr fun i hi => ?_)
  obtain ⟨t, j, rfl, ht, hj⟩ := inRange_cons_inv hi
  show (if t < n then (L1 b n f).get (t :: j) else (L1 b m g).get ((t - n) :: j)) = (f j ++ g j).getD t 0
  replace ht : t < n + m := ht
  split_ifs with h
  · rw [L1_get h hj, getD_append_left (by rw [hf]; exact h)]
  · rw [L1_get (by omega) hj, getD_append_right (by rw [hf]; omega), hf]

theorem cat_L3 {b : List ℕ} {n m c d : ℕ} {f g : List ℕ → ℕ → ℕ → List α} (err : PyErr)
    (hf : ∀ i k j, (f i k j).length = n) :
    cat err (L3 b n c d f) (L3 b m c d g) (-3) = .ok (L3 b (n + m) c d fun i k j => f i k j ++ g i k j) := by
  simp only [cat, L3_shape, List.length_cons, axisPos_three, List.set_cons_succ, set_zero_cons, if_true]
  refine congrArg _ (tab_congr fun i hi => ?_)
  obtain ⟨j, i, rfl, hj, hi⟩ := inRange_cons_inv hi
  obtain ⟨k, i, rfl, hk, hi⟩ := inRange_cons_inv hi
  obtain ⟨t, i, rfl, ht, hi⟩ := inRange_cons_inv hi
  show (if t < n then (L3 b n c d f).get (j :: k :: t :: i) else (L3 b m c d g).get (j :: k :: (t - n) :: i))
    = (f i k j ++ g i k j).getD t 0
  replace ht : t < n + m := ht
  split_ifs with h
  · rw [L3_get hj hk h hi, getD_append_left (by rw [hf]; exact h)]
  · rw [L3_get hj hk (by omega) hi, getD_append_right (by rw [hf]; omega), hf]

theorem zeros_L1 {b : List ℕ} {n k : ℕ} {f : List ℕ → List α} :
    (L1 b n f).zeros (-1) k = .ok (L1 b k fun _ => List.replicate k 0) := by
  simp only [zeros, L1_shape, List.length_cons, axisPos_one, set_zero_cons]
  refine congrArg _ (tab_congr fun i hi => ?_)
  obtain ⟨t, j, rfl, ht, hj⟩ := inRange_cons_inv hi
  show (0 : α) = (List.replicate k 0).getD t 0
  simp [ht]

theorem zeros_L3 {b : List ℕ} {n k c d : ℕ} {f : List ℕ → ℕ → ℕ → List α} :
    (L3 b n c d f).zeros (-3) k = .ok (L3 b k c d fun _ _ _ => List.replicate k 0) := by
  simp only [zeros, L3_shape, List.length_cons, axisPos_three, List.set_cons_succ, set_zero_cons]
  refine congrArg _ (tab_congr fun i hi => ?_)
  obtain ⟨j, i, rfl, hj, hi⟩ := inRange_cons_inv hi
  obtain ⟨k', i, rfl, hk, hi⟩ := inRange_cons_inv hi
  obtain ⟨t, i, rfl, ht, hi⟩ := inRange_cons_inv hi
  show (0 : α) = (List.replicate k 0).getD t 0
  simp [ht]

/-! ### elementwise operations -/

theorem map_L1 {b : List ℕ} {n : ℕ} {f : List ℕ → List α} (h : α → β) (hf : ∀ i, (f i).length = n) :
    (L1 b n f).map h = L1 b n fun i => (f i).map h := by
  refine tab_congr fun i hi => ?_
  obtain ⟨t, j, rfl, ht, hj⟩ := inRange_cons_inv hi
  rw [L1_get ht hj]
  have h1 : t < (f j).length := by rw [hf]; exact ht
  simp [List.getElem?_eq_getElem h1]

theorem map_L2 {b : List ℕ} {n d : ℕ} {f : List ℕ → ℕ → List α} (h : α → β) (hf : ∀ i j, (f i j).length = n) :
    (L2 b n d f).map h = L2 b n d fun i j => (f i j).map h := by
  refine tab_congr fun i hi => ?_
  obtain ⟨j, i, rfl, hj, hi⟩ := inRange_cons_inv hi
  obtain ⟨t, i, rfl, ht, hi⟩ := inRange_cons_inv hi
  rw [L2_get hj ht hi]
  have h1 : t < (f i j).length := by rw [hf]; exact ht
  simp [List.getElem?_eq_getElem h1]

theorem map_tab {s : List ℕ} {f : List ℕ → α} (h : α → β) : (tab s f).map h = tab s fun i => h (f i) := by
  exact tab_congr (s := s) fun i hi => congrArg h (tab_get hi)

theorem getD_zipWith {l : List α} {l' : List β} (h : α → β → γ) {t : ℕ} (h1 : t < l.length) (h2 : t < l'.length) :
    (List.zipWith h l l').getD t 0 = h (l.getD t 0) (l'.getD t 0) := by
  simp [List.getElem?_zipWith, List.getElem?_eq_getElem h1, List.getElem?_eq_getElem h2]

theorem zip_L1 {bx by' b : List ℕ} {n : ℕ} {f : List ℕ → List α} {g : List ℕ → List β} (err : PyErr)
    (h : α → β → γ) (hb : bcShape bx by' = some b) (hf : ∀ i, (f i).length = n) (hg : ∀ i, (g i).length = n) :
    zip err h (L1 bx n f) (L1 by' n g) =
      .ok (L1 b n fun i => List.zipWith h (f (bcIdx bx i)) (g (bcIdx by' i))) := by
  simp only [zip, L1_shape, bcShape_cons_self hb]
  refine congrArg _ (tab_congr fun i hi => ?_)
  obtain ⟨t, j, rfl, ht, hj⟩ := inRange_cons_inv hi
  rw [bcIdx_cons _ _ _ _ ht, bcIdx_cons _ _ _ _ ht, L1_get ht (bcIdx_range_left hb hj),
    L1_get ht (bcIdx_range_right hb hj)]
  exact (getD_zipWith h (by rw [hf]; exact ht) (by rw [hg]; exact ht)).symm

theorem zip_L1_same {b : List ℕ} {n : ℕ} {f : List ℕ → List α} {g : List ℕ → List β} (err : PyErr)
    (h : α → β → γ) (hf : ∀ i, (f i).length = n) (hg : ∀ i, (g i).length = n) :
    zip err h (L1 b n f) (L1 b n g) = .ok (L1 b n fun i => List.zipWith h (f i) (g i)) := by
  rw [zip_L1 err h (bcShape_self b) hf hg]
  refine congrArg _ (L1_congr fun i hi => ?_)
  rw [bcIdx_self hi]

/-- Two arrays of the same shape. -/
theorem zip_same {s : List ℕ} {f : List ℕ → α} {g : List ℕ → β} (err : PyErr) (h : α → β → γ) :
    zip err h (tab s f) (tab s g) = .ok (tab s fun i => h (f i) (g i)) := by
  simp only [zip, tab_shape, bcShape_self]
  refine congrArg _ (tab_congr fun i hi => ?_)
  rw [bcIdx_self hi, tab_get hi, tab_get hi]

/-- Rows combined with one number each. -/
theorem zip_row {x : Tensor α} {n : ℕ} {b : List ℕ} (hx : x.shape = n :: b) {g : List ℕ → List β} (err : PyErr)
    (h : α → β → γ) :
    zip err h x (L1 b 1 g) = .ok (tab (n :: b) fun i => h (x.get i) ((g (i.drop 1)).getD 0 0)) := by
  have hb : bcShape (n :: b) (1 :: b) = some (n :: b) := by
    by_cases hn : n = 1 <;> simp [bcShape, bcShape_self, hn]
  simp only [zip, hx, L1_shape, hb]
  refine congrArg _ (tab_congr fun i hi => ?_)
  obtain ⟨t, j, rfl, ht, hj⟩ := inRange_cons_inv hi
  rw [bcIdx_one, bcIdx_self hj, L1_get Nat.one_pos hj, bcIdx_self (inRange_cons.2 ⟨ht, hj⟩)]; rfl

end Tensor

end FBE
