import Verif.Proofs.ArraySdrLoss
import Verif.Proofs.ArrayPerm
import Verif.Proofs.ArrayCosine
import Verif.Proofs.ArrayLength
import Mathlib.LinearAlgebra.Matrix.Determinant.Basic
import Verif.Proofs.Ratio
import Verif.Spec.OneSample

/-!
# Signals of one sample against longer ones
-/

set_option linter.unusedSectionVars false

namespace FBE

open Classical Matrix Spec

namespace Tensor

variable {α : Type} [CommSemiring α] (err : PyErr) {x y : Tensor α} {n c d : ℕ} {bx by' b : List ℕ}

theorem einsum_cd_left (hx : x.shape = 1 :: c :: bx) (hy : y.shape = n :: d :: by') (hb : bcShape bx by' = some b) :
    einsum err ['c', 'n'] ['d', 'n'] ['c', 'd'] x y = .ok (tab (d :: c :: b) fun i =>
      ∑ t ∈ Finset.range n, x.get (0 :: i.getD 1 0 :: bcIdx bx (i.drop 2)) *
        y.get (t :: i.getD 0 0 :: bcIdx by' (i.drop 2))) := by
  have h1 : (if 1 = n then some 1 else some n) = some n := by split_ifs with h <;> simp [h]
  simp only [einsum, hx, hy, labelBc, labelSize]
  simp [hb, List.lookup, sumLabels, h1]
  refine tab_congr fun i hi => ?_
  obtain ⟨j, i, rfl, hj, hi⟩ := inRange_cons_inv hi
  obtain ⟨k, i, rfl, hk, hi⟩ := inRange_cons_inv hi
  refine Finset.sum_congr rfl fun t ht => ?_
  simp [bcIdx_one, bcIdx_cons, hj, Finset.mem_range.1 ht, hk]

theorem einsum_cd_right (hx : x.shape = n :: c :: bx) (hy : y.shape = 1 :: d :: by') (hb : bcShape bx by' = some b) :
    einsum err ['c', 'n'] ['d', 'n'] ['c', 'd'] x y = .ok (tab (d :: c :: b) fun i =>
      ∑ t ∈ Finset.range n, x.get (t :: i.getD 1 0 :: bcIdx bx (i.drop 2)) *
        y.get (0 :: i.getD 0 0 :: bcIdx by' (i.drop 2))) := by
  have h1 : (if n = 1 then some n else if n = 1 then some 1 else some n) = some n := by split_ifs with h <;> simp [h]
  simp only [einsum, hx, hy, labelBc, labelSize]
  simp [hb, List.lookup, sumLabels, h1]
  refine tab_congr fun i hi => ?_
  obtain ⟨j, i, rfl, hj, hi⟩ := inRange_cons_inv hi
  obtain ⟨k, i, rfl, hk, hi⟩ := inRange_cons_inv hi
  refine Finset.sum_congr rfl fun t ht => ?_
  simp [bcIdx_one, bcIdx_cons, hj, Finset.mem_range.1 ht, hk]

theorem einsum_n_left (hx : x.shape = 1 :: bx) (hy : y.shape = n :: by') (hb : bcShape bx by' = some b) :
    einsum err ['n'] ['n'] [] x y = .ok (tab b fun i =>
      ∑ t ∈ Finset.range n, x.get (0 :: bcIdx bx i) * y.get (t :: bcIdx by' i)) := by
  have h1 : (if 1 = n then some 1 else some n) = some n := by split_ifs with h <;> simp [h]
  simp only [einsum, hx, hy, labelBc, labelSize]
  simp [hb, List.lookup, sumLabels, h1]
  refine tab_congr fun i hi => ?_
  refine Finset.sum_congr rfl fun t ht => ?_
  simp [bcIdx_one, bcIdx_cons, Finset.mem_range.1 ht]

theorem einsum_n_right (hx : x.shape = n :: bx) (hy : y.shape = 1 :: by') (hb : bcShape bx by' = some b) :
    einsum err ['n'] ['n'] [] x y = .ok (tab b fun i =>
      ∑ t ∈ Finset.range n, x.get (t :: bcIdx bx i) * y.get (0 :: bcIdx by' i)) := by
  have h1 : (if n = 1 then some n else if n = 1 then some 1 else some n) = some n := by split_ifs with h <;> simp [h]
  simp only [einsum, hx, hy, labelBc, labelSize]
  simp [hb, List.lookup, sumLabels, h1]
  refine tab_congr fun i hi => ?_
  refine Finset.sum_congr rfl fun t ht => ?_
  simp [bcIdx_one, bcIdx_cons, Finset.mem_range.1 ht]

end Tensor

open Tensor

namespace Arrays

variable {A : Api} {s bx by' b : List ℕ} {r e c n : ℕ} {o : Opts} {ref est : Tensor ℝ}

theorem L1_get_one {b i : List ℕ} {f : List ℕ → Fin 1 → ℝ} (hi : InRange b i) :
    (L1 b 1 fun i => List.ofFn (f i)).get (0 :: i) = f i 0 := L1_row_get 0 hi

/-- `sdr_loss(filter_length=1, pairwise=True)` with references of one sample. -/
theorem one_ref_pair (hL : o.filterLength = 1) (href : ref.shape = 1 :: r :: bx) (hest : est.shape = n :: e :: by')
    (hb : bcShape bx by' = some s.reverse) :
    Agrees Holds2 (Arrays.sdrLoss A o.args true est ref) (.ok fun m k j => coherenceToNegSdr o.clampDb
      (.fin (dot (stretched n (prep o (signals ref bx s r 1) m k)) (prep o (signals est by' s e n) m j) ^ 2))) := by
  rw [sdrLoss_one A (by simp [Opts.args, hL]), prepare_eq href, ok_bind, prepare_eq hest, ok_bind]
  simp only [lengthOneSdr, if_true]
  rw [einsum_cd_left _ rfl rfl hb, ok_bind, ok_bind]
  refine ⟨_, rfl, holds2_map (holds2_map (s := s) (r := r) (e := e)
    (v := fun m k j => dot (stretched n (prep o (signals ref bx s r 1) m k)) (prep o (signals est by' s e n) m j))
    ⟨rfl, fun m k j => ?_⟩ (· ^ 2)) fun c => coherenceToNegSdr o.clampDb (.fin c)⟩
  rw [tab_get (show InRange (e :: r :: s.reverse) (j.val :: k.val :: pos m) from ⟨j.isLt, row_inRange m k⟩),
    sum_range_fin]
  refine Finset.sum_congr rfl fun t _ => ?_
  show (L1 (r :: bx) 1 _).get (0 :: k.val :: bcIdx bx (pos m)) *
    (L1 (e :: by') n _).get (t.val :: j.val :: bcIdx by' (pos m)) = _
  rw [L1_get_one (inRange_cons.2 ⟨k.isLt, bcIdx_range_left hb (pos_inRange m)⟩),
    L1_row_get t (inRange_cons.2 ⟨j.isLt, bcIdx_range_right hb (pos_inRange m)⟩)]
  rfl

/-- ... with estimates of one sample. -/
theorem one_est_pair (hL : o.filterLength = 1) (href : ref.shape = n :: r :: bx) (hest : est.shape = 1 :: e :: by')
    (hb : bcShape bx by' = some s.reverse) :
    Agrees Holds2 (Arrays.sdrLoss A o.args true est ref) (.ok fun m k j => coherenceToNegSdr o.clampDb
      (.fin (dot (prep o (signals ref bx s r n) m k) (stretched n (prep o (signals est by' s e 1) m j)) ^ 2))) := by
  rw [sdrLoss_one A (by simp [Opts.args, hL]), prepare_eq href, ok_bind, prepare_eq hest, ok_bind]
  simp only [lengthOneSdr, if_true]
  rw [einsum_cd_right _ rfl rfl hb, ok_bind, ok_bind]
  refine ⟨_, rfl, holds2_map (holds2_map (s := s) (r := r) (e := e)
    (v := fun m k j => dot (prep o (signals ref bx s r n) m k) (stretched n (prep o (signals est by' s e 1) m j)))
    ⟨rfl, fun m k j => ?_⟩ (· ^ 2)) fun c => coherenceToNegSdr o.clampDb (.fin c)⟩
  rw [tab_get (show InRange (e :: r :: s.reverse) (j.val :: k.val :: pos m) from ⟨j.isLt, row_inRange m k⟩),
    sum_range_fin]
  refine Finset.sum_congr rfl fun t _ => ?_
  show (L1 (r :: bx) n _).get (t.val :: k.val :: bcIdx bx (pos m)) *
    (L1 (e :: by') 1 _).get (0 :: j.val :: bcIdx by' (pos m)) = _
  rw [L1_row_get t (inRange_cons.2 ⟨k.isLt, bcIdx_range_left hb (pos_inRange m)⟩),
    L1_get_one (inRange_cons.2 ⟨j.isLt, bcIdx_range_right hb (pos_inRange m)⟩)]
  rfl

/-- `sdr_loss(filter_length=1, pairwise=False)` with references of one sample. -/
theorem one_ref_diag (hL : o.filterLength = 1) (href : ref.shape = 1 :: c :: s.reverse) (hest : est.shape = n :: b)
    (hb : bcShape (c :: s.reverse) b = some (c :: s.reverse)) :
    Agrees Holds1 (Arrays.sdrLoss A o.args false est ref) (.ok fun m k => coherenceToNegSdr o.clampDb
      (.fin (dot (stretched n (prep o (signals ref s.reverse s c 1) m k)) (prep o (channels est b s c n) m k) ^ 2))) := by
  rw [sdrLoss_one A (by simp [Opts.args, hL]), prepare_eq href, ok_bind, prepare_eq hest, ok_bind]
  simp only [lengthOneSdr, Bool.false_eq_true, if_false]
  rw [einsum_n_left _ rfl rfl hb, ok_bind, ok_bind]
  refine ⟨_, rfl, holds1_map (holds1_map (s := s) (c := c)
    (v := fun m k => dot (stretched n (prep o (signals ref s.reverse s c 1) m k)) (prep o (channels est b s c n) m k))
    ⟨rfl, fun m k => ?_⟩ (· ^ 2)) fun c => coherenceToNegSdr o.clampDb (.fin c)⟩
  rw [tab_get (row_inRange m k), sum_range_fin]
  refine Finset.sum_congr rfl fun t _ => ?_
  rw [L1_get_one (bcIdx_range_left hb (row_inRange m k)), L1_row_get t (bcIdx_range_right hb (row_inRange m k)),
    bcIdx_self (row_inRange m k), stretched, row_signals, bcIdx_self (pos_inRange m)]
  rfl

/-- ... with estimates of one sample. -/
theorem one_est_diag (hL : o.filterLength = 1) (href : ref.shape = n :: c :: s.reverse) (hest : est.shape = 1 :: b)
    (hb : bcShape (c :: s.reverse) b = some (c :: s.reverse)) :
    Agrees Holds1 (Arrays.sdrLoss A o.args false est ref) (.ok fun m k => coherenceToNegSdr o.clampDb
      (.fin (dot (prep o (signals ref s.reverse s c n) m k) (stretched n (prep o (channels est b s c 1) m k)) ^ 2))) := by
  rw [sdrLoss_one A (by simp [Opts.args, hL]), prepare_eq href, ok_bind, prepare_eq hest, ok_bind]
  simp only [lengthOneSdr, Bool.false_eq_true, if_false]
  rw [einsum_n_right _ rfl rfl hb, ok_bind, ok_bind]
  refine ⟨_, rfl, holds1_map (holds1_map (s := s) (c := c)
    (v := fun m k => dot (prep o (signals ref s.reverse s c n) m k) (stretched n (prep o (channels est b s c 1) m k)))
    ⟨rfl, fun m k => ?_⟩ (· ^ 2)) fun c => coherenceToNegSdr o.clampDb (.fin c)⟩
  rw [tab_get (row_inRange m k), sum_range_fin]
  refine Finset.sum_congr rfl fun t _ => ?_
  rw [L1_row_get t (bcIdx_range_left hb (row_inRange m k)), L1_get_one (bcIdx_range_right hb (row_inRange m k)),
    bcIdx_self (row_inRange m k), row_signals, bcIdx_self (pos_inRange m)]
  rfl

end Arrays

/-! ### values -/

theorem centred_one (x : Fin 1 → ℝ) : centred true x = 0 := by
  funext t
  obtain rfl : t = 0 := Subsingleton.elim _ _
  simp [centred]

theorem preprocess_one {x : Fin 1 → ℝ} (hx : 1e-6 ≤ |x 0|) : preprocess false x 0 ^ 2 = 1 := by
  have h : max (√(∑ u : Fin 1, x u ^ 2)) 1e-6 = |x 0| := by
    rw [Fin.sum_univ_one, Real.sqrt_sq_eq_abs]
    exact max_eq_left hx
  have h0 : |x 0| ≠ 0 := (lt_of_lt_of_le (by norm_num) hx).ne'
  show (x 0 / max (√(∑ u : Fin 1, x u ^ 2)) 1e-6) ^ 2 = 1
  rw [h, div_pow, sq_abs, div_self (by simpa using h0)]

theorem preprocess_one_centred (x : Fin 1 → ℝ) : preprocess true x = 0 := by
  rw [preprocess_eq, centred_one]
  funext t
  simp

theorem cclamp_ge_one {cl : Option ℝ} {v : ℝ} (h : 1 ≤ v) : cclamp cl v = cclamp cl 1 := by
  have h1 : 1 - epsOf cl ≤ 1 := by have := epsOf_nonneg cl; linarith
  unfold cclamp
  rw [min_eq_right (h1.trans (h.trans (le_max_left _ _))), min_eq_right (h1.trans (le_max_left _ _))]

variable {n : ℕ} {cl : Option ℝ}

/-- The coherence of an estimate and a constant. -/
theorem loss_sumRatio (hcl : ∀ d, cl = some d → 0 ≤ d) {a : ℝ} (ha : a ^ 2 = 1) {y : Fin n → ℝ} (hy : Audible y) :
    coherenceToNegSdr cl (.fin ((∑ t, a * preprocess false y t) ^ 2)) = (report cl (sumRatio y)).neg := by
  have hp : 0 < sigNorm y := lt_of_lt_of_le (by norm_num) hy
  have hE : 0 < ∑ t, y t ^ 2 := by rw [← sigNorm_sq]; positivity
  have hc : (∑ t, a * preprocess false y t) ^ 2 = (∑ t, y t) ^ 2 / ∑ t, y t ^ 2 := by
    rw [← Finset.mul_sum, mul_pow, ha, one_mul, preprocess_eq]
    show (∑ t, gain y * y t) ^ 2 = _
    rw [← Finset.mul_sum, mul_pow, gain_eq hy, ← sigNorm_sq]
    field_simp
  rw [hc, sumRatio]
  by_cases h : (∑ t, y t) ^ 2 ≤ ∑ t, y t ^ 2
  · refine loss_eq hcl hE (by positivity) ((div_le_one hE).2 h) ?_ ?_
    · field_simp
    · rw [max_eq_right (by linarith)]
      field_simp
  · push Not at h
    have h1 : coherenceToNegSdr cl (.fin ((∑ t, y t) ^ 2 / ∑ t, y t ^ 2)) = coherenceToNegSdr cl (.fin 1) := by
      rw [coherenceToNegSdr_fin, coherenceToNegSdr_fin, cclamp_ge_one ((one_le_div hE).2 h.le)]
    rw [h1, max_eq_left (by linarith)]
    exact loss_eq hcl (hE.trans h) zero_le_one le_rfl (by ring) (by ring)

namespace Arrays

variable {A : Api} {s bx by' b : List ℕ} {r e c n : ℕ} {o : Opts} {ref est : Tensor ℝ}

theorem gram_one_det {f : List ℕ → Fin 1 → ℝ} (i : List ℕ) (h : 2 ≤ r ∨ 1 ≤ r ∧ ∀ j, f j = 0) :
    (gramAt r f i).det = 0 := by
  have h1 : gramAt r f i = vecMulVec (fun k : Fin r => f (k.val :: i) 0) fun k : Fin r => f (k.val :: i) 0 := by
    funext k l
    show dot _ _ = _
    unfold dot
    rw [Fin.sum_univ_one]
    rfl
  rcases h with h | ⟨h, h0⟩
  · have : Nontrivial (Fin r) := Fin.nontrivial_iff_two_le.2 h
    rw [h1, det_vecMulVec]
  · have : Nonempty (Fin r) := ⟨⟨0, h⟩⟩
    rw [h1]
    simp only [h0]
    rw [show (vecMulVec (fun _ : Fin r => (0 : Fin 1 → ℝ) 0) fun _ : Fin r => (0 : Fin 1 → ℝ) 0) = 0 from by
      funext k l
      show (0 : ℝ) * 0 = 0
      simp]
    exact det_zero

theorem einsum_stretched (hb : bcShape bx by' = some b) (f : List ℕ → Fin 1 → ℝ) (g : List ℕ → Fin n → ℝ) (err : PyErr) :
    Tensor.einsum err ['c', 'n'] ['d', 'n'] ['c', 'd'] (L1 (r :: bx) 1 fun i => List.ofFn (f i))
      (L1 (e :: by') n fun i => List.ofFn (g i)) = .ok (L2 b r e fun i j => List.ofFn fun k : Fin r =>
        dot (stretched n (f (k.val :: bcIdx bx i))) (g (j :: bcIdx by' i))) := by
  rw [einsum_cd_left _ (L1_shape _ _ _) (L1_shape _ _ _) hb]
  refine congrArg _ (tab_congr fun i hi => ?_)
  obtain ⟨j, i, rfl, hj, hi⟩ := inRange_cons_inv hi
  obtain ⟨k, i, rfl, hk, hi⟩ := inRange_cons_inv hi
  rw [sum_range_fin]
  refine Eq.trans ?_ (getD_ofFn' (fun k : Fin r => dot (stretched n (f (k.val :: bcIdx bx i))) (g (j :: bcIdx by' i))) hk).symm
  refine Finset.sum_congr rfl fun t _ => ?_
  show (L1 (r :: bx) 1 _).get (0 :: k :: bcIdx bx i) * (L1 (e :: by') n _).get (t.val :: j :: bcIdx by' i) = _
  rw [L1_get_one (inRange_cons.2 ⟨hk, bcIdx_range_left hb hi⟩),
    L1_row_get t (inRange_cons.2 ⟨hj, bcIdx_range_right hb hi⟩)]
  rfl

/-- The Gram matrices of references of one sample are singular. -/
theorem squareCosine_one (hA : A.Lawful) (hL : o.filterLength = 1) (hload : o.load = 0) (href : ref.shape = 1 :: r :: bx)
    (hest : est.shape = n :: e :: by') (hb : bcShape bx by' = some b) (hpos : 0 < b.prod)
    (hr : 2 ≤ r ∨ 1 ≤ r ∧ o.zeroMean = true) (pw : Bool) (hpw : pw = false → r = e) :
    squareCosine A o.args pw ref est = .error .linAlgError := by
  have hb' := bcShape_absorb hb
  have hlen := bcShape_length hb'
  have hsdr : ∃ T, lengthOneSdr A pw (L1 (r :: bx) 1 fun i => List.ofFn (preprocess o.zeroMean (row ref 1 i)))
      (L1 (e :: by') n fun i => List.ofFn (preprocess o.zeroMean (row est n i))) = .ok T := by
    cases pw with
    | true =>
      simp only [lengthOneSdr, if_true]
      rw [einsum_cd_left _ rfl rfl hb, ok_bind]
      exact ⟨_, rfl⟩
    | false =>
      obtain rfl := hpw rfl
      have h2 : bcShape (r :: bx) (r :: by') = some (r :: b) := by simp [bcShape, hb]
      simp only [lengthOneSdr, Bool.false_eq_true, if_false]
      rw [einsum_n_left _ rfl rfl h2, ok_bind]
      exact ⟨_, rfl⟩
  obtain ⟨T, hT⟩ := hsdr
  simp only [squareCosine, Opts.args, hL, Nat.cast_one, if_true]
  rw [prepare_eq href, ok_bind, prepare_eq hest, ok_bind, lengthOneBoth_eq, einsum_stretched hb, ok_bind, hT, ok_bind]
  have hdet : ∀ i, (loadMat o.loadDiag (gramAt r (fun i => preprocess o.zeroMean (row ref 1 i)) i)).det = 0 := by
    intro i
    have hg : (gramAt r (fun i => preprocess o.zeroMean (row ref 1 i)) i).det = 0 := by
      refine gram_one_det i (hr.imp id fun h => ⟨h.1, fun j => ?_⟩)
      rw [h.2, preprocess_one_centred]
    unfold loadMat
    cases hd : o.loadDiag with
    | none => exact hg
    | some d =>
      have : d = 0 := by simpa [Opts.load, hd] using hload
      subst this
      simpa using hg
  have hsar : ∀ g : List ℕ → ℕ → List ℝ, oneSar A o.loadDiag
      (L1 (r :: bx) 1 fun i => List.ofFn (preprocess o.zeroMean (row ref 1 i))) (L2 b r e g) = .error .linAlgError := by
    intro g
    have hmx : oneSar A o.loadDiag (L1 (r :: bx) 1 fun i => List.ofFn (preprocess o.zeroMean (row ref 1 i))) (L2 b r e g) =
        (A.solve (Mx bx r fun i => loadMat o.loadDiag (gramAt r (fun i => preprocess o.zeroMean (row ref 1 i)) i))
          (L2 b r e g) >>= fun sol => coherence A true (L2 b r e g) sol) := by
      unfold oneSar
      rw [einsum_dots (bcShape_self bx), ok_bind, dots_Mx]
      unfold loadMat
      cases o.loadDiag with
      | none => rfl
      | some d =>
        dsimp only
        rw [size_one (Mx_shape _ _ _), ok_bind, loadMx, ok_bind]
    obtain ⟨m⟩ := nonempty_of_prod (s := b.reverse) (by simpa using hpos)
    have hm := pos_inRange m
    rw [List.reverse_reverse] at hm
    rw [hmx, hA.solve (by simp [L2_shape]) (by simp [L2_shape, Mx_shape]; omega), solveMat_eq _ hb',
      if_pos ⟨_, hm, hdet _⟩]
    rfl
  rw [hsar]
  rfl

end Arrays

end FBE
