import Verif.Proofs.ArraySdr
import Verif.Model.NoLength

/-!
# `sdr_loss` on arrays: all cases
-/

set_option linter.unusedSectionVars false

namespace FBE

open Classical Matrix Spec

namespace Tensor

variable {α : Type} [CommSemiring α] (err : PyErr) {x y : Tensor α} {n m c d : ℕ} {bx by' : List ℕ}

theorem einsum_cd_err (hx : x.shape = n :: c :: bx) (hy : y.shape = m :: d :: by') (h : n ≠ m) (h1 : n ≠ 1) (h2 : m ≠ 1) :
    einsum err ['c', 'n'] ['d', 'n'] ['c', 'd'] x y = .error err := by
  simp only [einsum, hx, hy, labelBc, labelSize]
  simp [List.lookup, h, h1, h2]

theorem einsum_n_err (hx : x.shape = n :: bx) (hy : y.shape = m :: by') (h : n ≠ m) (h1 : n ≠ 1) (h2 : m ≠ 1) :
    einsum err ['n'] ['n'] [] x y = .error err := by
  simp only [einsum, hx, hy, labelBc, labelSize]
  simp [List.lookup, h, h1, h2]

theorem einsum_cd_bc (hx : x.shape = n :: c :: bx) (hy : y.shape = n :: d :: by') (h : bcShape bx by' = none) :
    einsum err ['c', 'n'] ['d', 'n'] ['c', 'd'] x y = .error err := by
  simp only [einsum, hx, hy, labelBc, labelSize]
  simp [List.lookup, h]

theorem einsum_cnd_bc (hx : x.shape = n :: c :: bx) (hy : y.shape = n :: d :: by') (h : bcShape bx by' = none) :
    einsum err ['c', 'n'] ['d', 'n'] ['c', 'n', 'd'] x y = .error err := by
  simp only [einsum, hx, hy, labelBc, labelSize]
  simp [List.lookup, h]

end Tensor

open Tensor

namespace Arrays

variable {A : Api} {s bx by' : List ℕ} {r e c N M K : ℕ} {o : Opts}

theorem holds2_map {α β : Type} [Zero α] [Zero β] {t : Tensor α} {v : BIdx s → Fin r → Fin e → α} (h : Holds2 t v)
    (f : α → β) : Holds2 (t.map f) fun m k j => f (v m k j) := by
  obtain ⟨hs, hv⟩ := h
  refine ⟨hs, fun m k j => ?_⟩
  show (tab t.shape fun i => f (t.get i)).get _ = _
  rw [hs, tab_get (show InRange (e :: r :: s.reverse) (j.val :: k.val :: pos m) from ⟨j.isLt, row_inRange m k⟩), hv]

theorem holds1_map {α β : Type} [Zero α] [Zero β] {t : Tensor α} {v : BIdx s → Fin c → α} (h : Holds1 t v) (f : α → β) :
    Holds1 (t.map f) fun m k => f (v m k) := by
  obtain ⟨hs, hv⟩ := h
  refine ⟨hs, fun m k => ?_⟩
  show (tab t.shape fun i => f (t.get i)).get _ = _
  rw [hs, tab_get (row_inRange m k), hv]

theorem row_signals {x : Tensor ℝ} {b : List ℕ} (m : BIdx s) (k : Fin c) :
    prep o (signals x b s c N) m k = preprocess o.zeroMean (row x N (k.val :: bcIdx b (pos m))) := rfl

theorem L1_row_get {b i : List ℕ} {n : ℕ} {f : List ℕ → Fin n → ℝ} (t : Fin n) (hi : InRange b i) :
    (L1 b n fun i => List.ofFn (f i)).get (t.val :: i) = f i t := by
  rw [L1_get t.isLt hi, getD_ofFn' (f i) t.isLt]

/-- The pairwise length one coherence. -/
theorem lengthOneSdr_pair {ref est : Tensor ℝ} (href : ref.shape = N :: r :: bx) (hest : est.shape = M :: e :: by')
    (hb : bcShape bx by' = some s.reverse) :
    Matches Holds2 (do
      let ref ← prepare A o.zeroMean ref
      let est ← prepare A o.zeroMean est
      lengthOneSdr A true ref est)
      ((sameLength A.B N (signals est by' s e M)).map (cohSdrOnePair o (signals ref bx s r N))) := by
  rw [prepare_eq href, ok_bind, prepare_eq hest, ok_bind]
  unfold sameLength
  split_ifs with h h1
  · subst h
    simp only [lengthOneSdr, if_true]
    rw [einsum_cd _ rfl rfl hb, ok_bind]
    refine same_ok rfl (holds2_map (s := s) (r := r) (e := e)
      (v := fun m k j => dot (prep o (signals ref bx s r M) m k) (prep o (signals est by' s e M) m j))
      ⟨rfl, fun m k j => ?_⟩ (· ^ 2))
    rw [tab_get (show InRange (e :: r :: s.reverse) (j.val :: k.val :: pos m) from ⟨j.isLt, row_inRange m k⟩),
      sum_range_fin]
    refine Finset.sum_congr rfl fun t _ => ?_
    show (L1 (r :: bx) M _).get (t.val :: k.val :: bcIdx bx (pos m)) *
      (L1 (e :: by') M _).get (t.val :: j.val :: bcIdx by' (pos m)) = _
    rw [L1_row_get t (inRange_cons.2 ⟨k.isLt, bcIdx_range_left hb (pos_inRange m)⟩),
      L1_row_get t (inRange_cons.2 ⟨j.isLt, bcIdx_range_right hb (pos_inRange m)⟩)]
    rfl
  · exact .inl rfl
  · refine .inr ?_
    simp only [lengthOneSdr, if_true]
    rw [einsum_cd_err A.err rfl rfl (fun h' => h h'.symm) (fun h' => h1 (.inr h')) (fun h' => h1 (.inl h'))]
    rfl

/-- The length one coherence channel by channel. -/
theorem lengthOneSdr_diag {ref est : Tensor ℝ} {b : List ℕ} (href : ref.shape = N :: c :: s.reverse)
    (hest : est.shape = M :: b) (hb : bcShape (c :: s.reverse) b = some (c :: s.reverse)) :
    Matches Holds1 (do
      let ref ← prepare A o.zeroMean ref
      let est ← prepare A o.zeroMean est
      lengthOneSdr A false ref est)
      ((sameLength A.B N (channels est b s c M)).map (cohSdrOneDiag o (signals ref s.reverse s c N))) := by
  rw [prepare_eq href, ok_bind, prepare_eq hest, ok_bind]
  unfold sameLength
  split_ifs with h h1
  · subst h
    simp only [lengthOneSdr, Bool.false_eq_true, if_false]
    rw [einsum_n _ rfl rfl hb, ok_bind]
    refine same_ok rfl (holds1_map (s := s) (c := c)
      (v := fun m k => dot (prep o (signals ref s.reverse s c M) m k) (prep o (channels est b s c M) m k))
      ⟨rfl, fun m k => ?_⟩ (· ^ 2))
    rw [tab_get (row_inRange m k), sum_range_fin]
    refine Finset.sum_congr rfl fun t _ => ?_
    rw [L1_row_get t (bcIdx_range_left hb (row_inRange m k)), L1_row_get t (bcIdx_range_right hb (row_inRange m k)),
      bcIdx_self (row_inRange m k), row_signals, bcIdx_self (pos_inRange m)]
    rfl
  · exact .inl rfl
  · refine .inr ?_
    simp only [lengthOneSdr, Bool.false_eq_true, if_false]
    rw [einsum_n_err A.err rfl rfl (fun h' => h h'.symm) (fun h' => h1 (.inr h')) (fun h' => h1 (.inl h'))]
    rfl

/-- `sdr_loss` of arrays in terms of the code after the shortcut. -/
theorem sdrLoss_gen (A : Api) {o : AOpts} (h : o.filterLength ≠ some 1) (pw : Bool) (est ref : Tensor ℝ) :
    sdrLoss A o pw est ref = (sdrLossGen A o pw ref est >>= fun coh =>
      .ok (coh.map fun c => coherenceToNegSdr o.clampDb (.fin c))) := by
  simp only [sdrLoss, if_neg h, sdrLossGen, bind_assoc]

theorem sdrLoss_one (A : Api) {o : AOpts} (h : o.filterLength = some 1) (pw : Bool) (est ref : Tensor ℝ) :
    sdrLoss A o pw est ref = ((do
      let ref ← prepare A o.zeroMean ref
      let est ← prepare A o.zeroMean est
      lengthOneSdr A pw ref est) >>= fun coh =>
      .ok (coh.map fun c => coherenceToNegSdr o.clampDb (.fin c))) := by
  simp only [sdrLoss, if_pos h, bind_assoc]

theorem matches_map2 {clampDb : Option ℝ} {x : Except PyErr (Tensor ℝ)} {v : Except PyErr (BIdx s → Fin r → Fin e → ℝ)}
    (h : Matches Holds2 x v) :
    Matches Holds2 (x >>= fun coh => .ok (coh.map fun c => coherenceToNegSdr clampDb (.fin c)))
      (v.map fun coh m k j => coherenceToNegSdr clampDb (.fin (coh m k j))) := by
  cases v with
  | error err => exact h.imp id fun h => by rw [h]; rfl
  | ok v =>
    obtain ⟨t, rfl, hR⟩ := h
    exact same_ok rfl (holds2_map hR fun c => coherenceToNegSdr clampDb (.fin c))

theorem matches_map1 {clampDb : Option ℝ} {x : Except PyErr (Tensor ℝ)} {v : Except PyErr (BIdx s → Fin c → ℝ)}
    (h : Matches Holds1 x v) :
    Matches Holds1 (x >>= fun coh => .ok (coh.map fun c => coherenceToNegSdr clampDb (.fin c)))
      (v.map fun coh m k => coherenceToNegSdr clampDb (.fin (coh m k))) := by
  cases v with
  | error err => exact h.imp id fun h => by rw [h]; rfl
  | ok v =>
    obtain ⟨t, rfl, hR⟩ := h
    exact same_ok rfl (holds1_map hR fun c => coherenceToNegSdr clampDb (.fin c))

theorem sdrLossPair_eq_map (B : Backend) (o : Opts) (est : Sig s e M) (ref : Sig s r N) :
    sdrLossPair B o est ref = (sdrCohPair B o ref est).map fun coh m k j => coherenceToNegSdr o.clampDb (.fin (coh m k j)) := by
  unfold sdrLossPair
  cases sdrCohPair B o ref est <;> rfl

theorem sdrLossDiag_eq_map (B : Backend) (o : Opts) (est : Sig s c M) (ref : Sig s c N) :
    sdrLossDiag B o est ref = (sdrCohDiag B o ref est).map fun coh m k => coherenceToNegSdr o.clampDb (.fin (coh m k)) := by
  unfold sdrLossDiag
  cases sdrCohDiag B o ref est <;> rfl

theorem sdrLoss_pair (hA : A.Lawful) (hB : Covered A.B) {ref est : Tensor ℝ} (href : ref.shape = N :: r :: bx)
    (hest : est.shape = M :: e :: by') (hb : bcShape bx by' = some s.reverse)
    (hcg : o.useCgIter = none ∨ o.filterLength = 1 ∨ bx.length = s.length) :
    Matches Holds2 (Arrays.sdrLoss A o.args true est ref)
      (FBE.sdrLossPair A.B o (signals est by' s e M) (signals ref bx s r N)) := by
  rw [sdrLossPair_eq_map]
  unfold sdrCohPair
  split_ifs with h0 h1
  · exact .inl rfl
  · rw [sdrLoss_one A (by simp [Opts.args, h1])]
    exact matches_map2 (lengthOneSdr_pair href hest hb)
  · rw [sdrLoss_gen A (by simpa [Opts.args] using h1)]
    exact matches_map2 (sdrCohPairGen_matches hA hB href hest hb (by omega) (.inl rfl) (by simpa [h1] using hcg))

theorem sdrLoss_pair_none (hA : A.Lawful) (hB : Covered A.B) {ref est : Tensor ℝ} (href : ref.shape = N :: r :: bx)
    (hest : est.shape = M :: e :: by') (hb : bcShape bx by' = some s.reverse) (hN : 0 < N)
    (hcg : o.useCgIter = none ∨ bx.length = s.length) :
    Matches Holds2 (Arrays.sdrLoss A { o.args with filterLength := none } true est ref)
      (FBE.sdrLossPairNone A.B o (signals est by' s e M) (signals ref bx s r N)) := by
  have h1 : FBE.sdrLossPairNone A.B o (signals est by' s e M) (signals ref bx s r N) =
      (sdrCohPairGen A.B (o.atLength N) (signals ref bx s r N) (signals est by' s e M)).map
        fun coh m k j => coherenceToNegSdr o.clampDb (.fin (coh m k j)) := by
    unfold FBE.sdrLossPairNone
    cases sdrCohPairGen A.B (o.atLength N) (signals ref bx s r N) (signals est by' s e M) <;> rfl
  rw [h1, sdrLoss_gen A (by simp)]
  exact matches_map2 (sdrCohPairGen_matches (o := o.atLength N) hA hB href hest hb hN (.inr ⟨rfl, rfl⟩) hcg)

theorem sdrLoss_diag (hA : A.Lawful) (hB : Covered A.B) {ref est : Tensor ℝ} {b : List ℕ}
    (href : ref.shape = N :: c :: s.reverse) (hest : est.shape = M :: b)
    (hb : bcShape (c :: s.reverse) b = some (c :: s.reverse)) :
    Matches Holds1 (Arrays.sdrLoss A o.args false est ref)
      (FBE.sdrLossDiag A.B o (channels est b s c M) (signals ref s.reverse s c N)) := by
  rw [sdrLossDiag_eq_map]
  unfold sdrCohDiag
  split_ifs with h0 h1
  · exact .inl rfl
  · rw [sdrLoss_one A (by simp [Opts.args, h1])]
    exact matches_map1 (lengthOneSdr_diag href hest hb)
  · rw [sdrLoss_gen A (by simpa [Opts.args] using h1)]
    exact matches_map1 (sdrCohDiagGen_matches hA hB href hest hb (by omega) (.inl rfl))

theorem sdrLoss_diag_none (hA : A.Lawful) (hB : Covered A.B) {ref est : Tensor ℝ} {b : List ℕ}
    (href : ref.shape = N :: c :: s.reverse) (hest : est.shape = M :: b)
    (hb : bcShape (c :: s.reverse) b = some (c :: s.reverse)) (hN : 0 < N) :
    Matches Holds1 (Arrays.sdrLoss A { o.args with filterLength := none } false est ref)
      (FBE.sdrLossDiagNone A.B o (channels est b s c M) (signals ref s.reverse s c N)) := by
  have h1 : FBE.sdrLossDiagNone A.B o (channels est b s c M) (signals ref s.reverse s c N) =
      (sdrCohDiagGen A.B (o.atLength N) (signals ref s.reverse s c N) (channels est b s c M)).map
        fun coh m k => coherenceToNegSdr o.clampDb (.fin (coh m k)) := by
    unfold FBE.sdrLossDiagNone
    cases sdrCohDiagGen A.B (o.atLength N) (signals ref s.reverse s c N) (channels est b s c M) <;> rfl
  rw [h1, sdrLoss_gen A (by simp)]
  exact matches_map1 (sdrCohDiagGen_matches (o := o.atLength N) hA hB href hest hb hN (.inr ⟨rfl, rfl⟩))

end Arrays

end FBE
