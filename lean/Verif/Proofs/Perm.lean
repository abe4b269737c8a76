import Verif.Proofs.LsaInf
import Mathlib.Data.List.Sort
import Mathlib.Data.EReal.Operations

/-! `_solve_permutation`: from assignments (lists) to pairings, and the loop over the batch. -/

set_option linter.unusedSectionVars false

namespace FBE

open Classical XR Spec

variable {r e : ℕ}

/-! ### lists and pairings -/

/-- The pairing described by an assignment. -/
def pairingOfList (l : List (Fin r × Fin e)) (h : IsAssignment l) : Pairing r e where
  ref k := (l[k.val]'(by rw [h.length_eq]; exact k.isLt)).1
  est k := (l[k.val]'(by rw [h.length_eq]; exact k.isLt)).2
  ref_inj := by
    intro a b hab
    have hn : (l.map Prod.fst).Nodup := h.rows_sorted.imp fun h => ne_of_lt h
    have := List.Nodup.getElem_inj_iff hn (i := a.val) (j := b.val)
      (hi := by rw [List.length_map, h.length_eq]; exact a.isLt)
      (hj := by rw [List.length_map, h.length_eq]; exact b.isLt)
    exact Fin.ext (this.1 (by simpa using hab))
  est_inj := by
    intro a b hab
    have := List.Nodup.getElem_inj_iff h.cols_nodup (i := a.val) (j := b.val)
      (hi := by rw [List.length_map, h.length_eq]; exact a.isLt)
      (hj := by rw [List.length_map, h.length_eq]; exact b.isLt)
    exact Fin.ext (this.1 (by simpa using hab))

/-- The pairs of a pairing. -/
def Spec.Pairing.pairs (P : Pairing r e) : List (Fin r × Fin e) :=
  List.ofFn fun k => (P.ref k, P.est k)

/-- The pairs sorted by row. -/
def Spec.Pairing.sorted (P : Pairing r e) : List (Fin r × Fin e) :=
  P.pairs.insertionSort fun a b => a.1 ≤ b.1

theorem Spec.Pairing.sorted_perm (P : Pairing r e) : P.sorted.Perm P.pairs :=
  List.perm_insertionSort _ _

theorem Spec.Pairing.sorted_isAssignment (P : Pairing r e) : IsAssignment P.sorted := by
  have hp := P.sorted_perm
  refine ⟨by rw [hp.length_eq]; simp [Pairing.pairs], ?_, ?_⟩
  · have h1 : P.sorted.Pairwise (fun a b => a.1 ≤ b.1) :=
      haveI : Std.Total (fun a b : Fin r × Fin e => a.1 ≤ b.1) := ⟨fun a b => le_total _ _⟩
      haveI : IsTrans (Fin r × Fin e) (fun a b => a.1 ≤ b.1) := ⟨fun a b c => le_trans⟩
      List.pairwise_insertionSort _ _
    have h2 : (P.sorted.map Prod.fst).Nodup := by
      rw [(hp.map Prod.fst).nodup_iff]
      simp only [Pairing.pairs, List.map_ofFn]
      exact List.nodup_ofFn.2 P.ref_inj
    have h3 : (P.sorted.map Prod.fst).Pairwise (· ≤ ·) := List.pairwise_map.2 h1
    exact (h3.and h2).imp fun h => lt_of_le_of_ne h.1 h.2
  · rw [(hp.map Prod.snd).nodup_iff]
    simp only [Pairing.pairs, List.map_ofFn]
    exact List.nodup_ofFn.2 P.est_inj

theorem pairingOfList_pairs (l : List (Fin r × Fin e)) (h : IsAssignment l) :
    (pairingOfList l h).pairs = l := by
  apply List.ext_getElem
  · simp [Pairing.pairs, h.length_eq]
  · intro i h1 h2
    simp [Pairing.pairs, pairingOfList]

theorem countP_ofFn {n : ℕ} {β : Type*} (f : Fin n → β) (p : β → Bool) :
    (List.ofFn f).countP p = (Finset.univ.filter fun k => p (f k) = true).card := by
  rw [List.ofFn_eq_map, List.countP_map]
  rw [List.countP_eq_length_filter]
  have : (Finset.univ.filter fun k => p (f k) = true) =
    ((List.finRange n).filter (fun k => p (f k))).toFinset := by
    ext k; simp
  rw [this, List.toFinset_card_of_nodup ((List.nodup_finRange n).filter _)]
  rfl

theorem countPos_pairs (M : Fin r → Fin e → XR) (P : Pairing r e) :
    countPos M P.pairs = nPos (P.values M) := by
  unfold countPos nPos Pairing.pairs Pairing.values
  rw [countP_ofFn]

theorem countNeg_pairs (M : Fin r → Fin e → XR) (P : Pairing r e) :
    countNeg M P.pairs = nNeg (P.values M) := by
  unfold countNeg nNeg Pairing.pairs Pairing.values
  rw [countP_ofFn]

theorem finTotal_pairs (M : Fin r → Fin e → XR) (P : Pairing r e) :
    finTotal M P.pairs = finSum (P.values M) := by
  unfold finTotal finSum Pairing.pairs Pairing.values
  rw [List.map_ofFn, List.sum_ofFn]
  rfl

theorem bestPairing_of_list {M : Fin r → Fin e → XR} {l : List (Fin r × Fin e)}
    (h : IsBest M l) : BestPairing M (pairingOfList l h.isAssignment) := by
  have e1 : countPos M l = nPos ((pairingOfList l h.isAssignment).values M) := by
    rw [← countPos_pairs, pairingOfList_pairs]
  have e2 : countNeg M l = nNeg ((pairingOfList l h.isAssignment).values M) := by
    rw [← countNeg_pairs, pairingOfList_pairs]
  have e3 : finTotal M l = finSum ((pairingOfList l h.isAssignment).values M) := by
    rw [← finTotal_pairs, pairingOfList_pairs]
  have f1 : ∀ P' : Pairing r e, countPos M P'.sorted = nPos (P'.values M) := fun P' => by
    rw [← countPos_pairs]; exact P'.sorted_perm.countP_eq _
  have f2 : ∀ P' : Pairing r e, countNeg M P'.sorted = nNeg (P'.values M) := fun P' => by
    rw [← countNeg_pairs]; exact P'.sorted_perm.countP_eq _
  have f3 : ∀ P' : Pairing r e, finTotal M P'.sorted = finSum (P'.values M) := fun P' => by
    rw [← finTotal_pairs]; exact (P'.sorted_perm.map _).sum_eq
  refine ⟨?_, ?_, ?_⟩
  · intro P'
    rw [← e1, ← f1]
    exact h.pos _ P'.sorted_isAssignment
  · intro P'
    rw [← e2, ← f2]
    exact h.neg _ P'.sorted_isAssignment
  · intro P'
    rw [← e1, ← f1, ← e2, ← f2, ← e3, ← f3]
    exact h.fin _ P'.sorted_isAssignment

/-- When there are no more rows than columns, row `k` is in position `k`. -/
theorem pairingOfList_ref (l : List (Fin r × Fin e)) (h : IsAssignment l) (hre : r ≤ e)
    (k : Fin (min r e)) : ((pairingOfList l h).ref k).val = k.val := by
  have hl : l.map Prod.fst = List.finRange r := by
    have hn : (l.map Prod.fst).Nodup := h.rows_sorted.imp fun h => ne_of_lt h
    have hp : (l.map Prod.fst).Perm (List.finRange r) := by
      refine List.Subperm.perm_of_length_le
        (hn.subperm fun x _ => List.mem_finRange x) ?_
      rw [List.length_map, h.length_eq, List.length_finRange, min_eq_left hre]
    refine hp.eq_of_pairwise (le := (· ≤ ·)) ?_ (h.rows_sorted.imp le_of_lt) ?_
    · intro a b _ _ h1 h2; exact le_antisymm h1 h2
    · exact (List.pairwise_lt_finRange r).imp le_of_lt
  have hk : k.val < (l.map Prod.fst).length := by
    rw [List.length_map, h.length_eq]; exact k.isLt
  have h2 : (l.map Prod.fst)[k.val]'hk = (pairingOfList l h).ref k := by
    simp [pairingOfList]
  rw [← h2]
  simp [hl]

/-- Exchange the roles of references and estimates. -/
def Spec.Pairing.swap (P : Pairing r e) : Pairing e r where
  ref k := P.est (k.cast (min_comm e r))
  est k := P.ref (k.cast (min_comm e r))
  ref_inj := fun _ _ h => Fin.cast_injective _ (P.est_inj h)
  est_inj := fun _ _ h => Fin.cast_injective _ (P.ref_inj h)

theorem values_swap {β : Type*} (M : Fin r → Fin e → β) (P : Pairing r e) (k : Fin (min e r)) :
    P.swap.values (fun j i => M i j) k = P.values M (k.cast (min_comm e r)) := rfl

theorem nPos_cast {n n' : ℕ} (h : n' = n) (v : Fin n → XR) :
    nPos (fun k : Fin n' => v (k.cast h)) = nPos v := by subst h; rfl
theorem nNeg_cast {n n' : ℕ} (h : n' = n) (v : Fin n → XR) :
    nNeg (fun k : Fin n' => v (k.cast h)) = nNeg v := by subst h; rfl
theorem finSum_cast {n n' : ℕ} (h : n' = n) (v : Fin n → XR) :
    finSum (fun k : Fin n' => v (k.cast h)) = finSum v := by subst h; rfl

theorem bestPairing_swap {M : Fin r → Fin e → XR} {P : Pairing e r}
    (h : BestPairing (fun j i => M i j) P) : BestPairing M P.swap := by
  have a1 : ∀ P : Pairing e r, nPos (P.swap.values M) = nPos (P.values fun j i => M i j) :=
    fun P => nPos_cast (min_comm r e) (P.values fun j i => M i j)
  have a2 : ∀ P : Pairing e r, nNeg (P.swap.values M) = nNeg (P.values fun j i => M i j) :=
    fun P => nNeg_cast (min_comm r e) (P.values fun j i => M i j)
  have a3 : ∀ P : Pairing e r, finSum (P.swap.values M) = finSum (P.values fun j i => M i j) :=
    fun P => finSum_cast (min_comm r e) (P.values fun j i => M i j)
  have b1 : ∀ P : Pairing r e, nPos (P.swap.values fun j i => M i j) = nPos (P.values M) :=
    fun P => nPos_cast (min_comm e r) (P.values M)
  have b2 : ∀ P : Pairing r e, nNeg (P.swap.values fun j i => M i j) = nNeg (P.values M) :=
    fun P => nNeg_cast (min_comm e r) (P.values M)
  have b3 : ∀ P : Pairing r e, finSum (P.swap.values fun j i => M i j) = finSum (P.values M) :=
    fun P => finSum_cast (min_comm e r) (P.values M)
  refine ⟨fun P' => ?_, fun P' => ?_, fun P' => ?_⟩
  · rw [a1, ← b1]; exact h.pos _
  · rw [a2, ← b2]; exact h.neg _
  · rw [a1, a2, a3, ← b1, ← b2, ← b3]; exact h.fin _

theorem solvable_swap {M : Fin r → Fin e → XR} :
    Solvable (fun j i => M i j) ↔ Solvable M := by
  constructor
  · intro h
    exact ⟨fun i j => h.no_nan j i,
      fun ⟨⟨i, j, a⟩, i', j', b⟩ => h.one_sign ⟨⟨j, i, a⟩, j', i', b⟩,
      fun ⟨i, j, a⟩ => by obtain ⟨x, y, z, w⟩ := h.some_finite ⟨j, i, a⟩; exact ⟨y, x, z, w⟩⟩
  · intro h
    exact ⟨fun i j => h.no_nan j i,
      fun ⟨⟨i, j, a⟩, i', j', b⟩ => h.one_sign ⟨⟨j, i, a⟩, j', i', b⟩,
      fun ⟨i, j, a⟩ => by obtain ⟨x, y, z, w⟩ := h.some_finite ⟨j, i, a⟩; exact ⟨y, x, z, w⟩⟩

/-! ### the loop -/

section loop
variable {s : List ℕ} {nArgs a b nOut : ℕ}

theorem permFold_ok (B : Backend) (loss : BIdx s → Fin a → Fin b → XR)
    (args : Fin nArgs → BIdx s → Fin a → Fin b → XR) (L : List (BIdx s))
    (hok : ∀ m ∈ L, ∃ l, lsaWithInf B (loss m) = .ok l ∧ l.length = nOut)
    (out0 : PermOut s nArgs nOut) :
    ∃ out, L.foldlM (permBody B loss args) out0 = .ok out ∧
      (∀ m ∈ L, ∀ l, lsaWithInf B (loss m) = .ok l → ∃ hl : l.length = nOut,
        out.loss m = gather l hl (loss m) ∧ (∀ i, out.args i m = gather l hl (args i m)) ∧
        out.perm m = gather l hl (fun _ j => j.val)) ∧
      (∀ m, m ∉ L → out.loss m = out0.loss m ∧ (∀ i, out.args i m = out0.args i m) ∧
        out.perm m = out0.perm m) := by
  induction L generalizing out0 with
  | nil => exact ⟨out0, rfl, by simp, fun _ _ => ⟨rfl, fun _ => rfl, rfl⟩⟩
  | cons m0 L ih =>
    obtain ⟨l0, h0, hl0⟩ := hok m0 List.mem_cons_self
    have hb : permBody B loss args out0 m0 = .ok
        { loss := Function.update out0.loss m0 (gather l0 hl0 (loss m0))
          args := fun i => Function.update (out0.args i) m0 (gather l0 hl0 (args i m0))
          perm := Function.update out0.perm m0 (gather l0 hl0 fun _ j => j.val) } := by
      unfold permBody
      rw [h0]
      simp only [dif_pos hl0]
    obtain ⟨out, h1, h2, h3⟩ := ih (fun m hm => hok m (List.mem_cons_of_mem _ hm))
      { loss := Function.update out0.loss m0 (gather l0 hl0 (loss m0))
        args := fun i => Function.update (out0.args i) m0 (gather l0 hl0 (args i m0))
        perm := Function.update out0.perm m0 (gather l0 hl0 fun _ j => j.val) }
    refine ⟨out, ?_, ?_, ?_⟩
    · rw [List.foldlM_cons, hb]
      exact h1
    · intro m hm l hl
      by_cases hmL : m ∈ L
      · exact h2 m hmL l hl
      · have hmm : m = m0 := by
          rcases List.mem_cons.1 hm with h | h
          · exact h
          · exact absurd h hmL
        subst hmm
        rw [h0] at hl
        cases hl
        obtain ⟨c1, c2, c3⟩ := h3 m hmL
        refine ⟨hl0, ?_, ?_, ?_⟩
        · rw [c1]; exact Function.update_self ..
        · intro i; rw [c2]; exact Function.update_self ..
        · rw [c3]; exact Function.update_self ..
    · intro m hm
      rw [List.mem_cons, not_or] at hm
      obtain ⟨c1, c2, c3⟩ := h3 m hm.2
      refine ⟨?_, ?_, ?_⟩
      · rw [c1]; exact Function.update_of_ne hm.1 ..
      · intro i; rw [c2]; exact Function.update_of_ne hm.1 ..
      · rw [c3]; exact Function.update_of_ne hm.1 ..

theorem permFold_err (B : Backend) (loss : BIdx s → Fin a → Fin b → XR)
    (args : Fin nArgs → BIdx s → Fin a → Fin b → XR) (pre : List (BIdx s)) (m : BIdx s)
    (post : List (BIdx s)) (err : PyErr)
    (hok : ∀ m ∈ pre, ∃ l, lsaWithInf B (loss m) = .ok l ∧ l.length = nOut)
    (herr : lsaWithInf B (loss m) = .error err)
    (out0 : PermOut s nArgs nOut) :
    (pre ++ m :: post).foldlM (permBody B loss args) out0 = .error err := by
  obtain ⟨out, h1, -, -⟩ := permFold_ok B loss args pre hok out0
  rw [List.foldlM_append, h1]
  show (m :: post).foldlM (permBody B loss args) out = _
  rw [List.foldlM_cons]
  have : permBody B loss args out m = .error err := by
    unfold permBody; rw [herr]
  rw [this]
  rfl

end loop

/-! ### the specification of `_solve_permutation` -/

/-- What one batch item of the output means. -/
structure ItemSpec {nArgs : ℕ} (M : Fin r → Fin e → XR) (A : Fin nArgs → Fin r → Fin e → XR)
    (loss : Fin (min r e) → XR) (args : Fin nArgs → Fin (min r e) → XR)
    (perm : Fin (min r e) → ℕ) (P : Pairing r e) : Prop where
  best : BestPairing M P
  loss_eq : ∀ k, loss k = M (P.ref k) (P.est k)
  args_eq : ∀ i k, args i k = A i (P.ref k) (P.est k)
  perm_est : r ≤ e → ∀ k, (P.ref k).val = k.val ∧ perm k = (P.est k).val
  perm_ref : e < r → ∀ k, (P.est k).val = k.val ∧ perm k = (P.ref k).val

variable {s : List ℕ} {nArgs : ℕ}

/-- The error raised for an unsolvable matrix. -/
noncomputable def itemErr (B : Backend) (M : Fin r → Fin e → XR) : PyErr :=
  if (∀ i j, M i j = pinf) ∨ (∀ i j, M i j = ninf) then B.shapeErr else .valueError

theorem itemErr_swap (B : Backend) (M : Fin r → Fin e → XR) :
    itemErr B (fun j i => M i j) = itemErr B M := by
  unfold itemErr
  have : ((∀ j i, M i j = pinf) ∨ (∀ j i, M i j = ninf)) ↔
      ((∀ i j, M i j = pinf) ∨ (∀ i j, M i j = ninf)) := by
    constructor
    · rintro (h | h)
      · exact Or.inl fun i j => h j i
      · exact Or.inr fun i j => h j i
    · rintro (h | h)
      · exact Or.inl fun i j => h j i
      · exact Or.inr fun i j => h j i
  simp only [this]

theorem solvePermutation_ok (B : Backend) (hB : LsaCorrect @B.lsa)
    (loss : BIdx s → Fin r → Fin e → XR) (args : Fin nArgs → BIdx s → Fin r → Fin e → XR)
    (hsol : ∀ m, Solvable (loss m)) :
    ∃ out, solvePermutation B loss args = .ok out ∧ ∀ m, ∃ P : Pairing r e,
      ItemSpec (loss m) (fun i => args i m) (out.loss m) (fun i => out.args i m) (out.perm m) P := by
  unfold solvePermutation
  by_cases her : e < r
  · rw [if_pos her]
    have hall : ∀ m, ∃ l, lsaWithInf B (fun j i => loss m i j) = .ok l ∧
        IsBest (fun j i => loss m i j) l :=
      fun m => lsaWithInf_ok B hB _ (solvable_swap.2 (hsol m))
    obtain ⟨out, h1, h2, -⟩ := permFold_ok (nOut := min r e) B (fun m j i => loss m i j)
      (fun k m j i => args k m i j) (ndindex s)
      (fun m _ => by
        obtain ⟨l, h1, h2⟩ := hall m
        exact ⟨l, h1, by rw [h2.isAssignment.length_eq, min_comm]⟩)
      { loss := fun _ _ => 0, args := fun _ _ _ => 0, perm := fun _ _ => 0 }
    refine ⟨out, h1, fun m => ?_⟩
    obtain ⟨l, hl1, hl2⟩ := hall m
    obtain ⟨hlen, c1, c2, c3⟩ := h2 m (mem_ndindex m) l hl1
    refine ⟨(pairingOfList l hl2.isAssignment).swap, bestPairing_swap (bestPairing_of_list hl2),
      ?_, ?_, fun h => absurd her (not_lt.2 h), ?_⟩
    · intro k; rw [c1]; rfl
    · intro i k; rw [c2]; rfl
    · intro _ k
      refine ⟨?_, ?_⟩
      · exact pairingOfList_ref l hl2.isAssignment her.le (k.cast (min_comm r e))
      · rw [c3]; rfl
  · rw [if_neg her]
    have hre : r ≤ e := not_lt.1 her
    have hall : ∀ m, ∃ l, lsaWithInf B (loss m) = .ok l ∧ IsBest (loss m) l :=
      fun m => lsaWithInf_ok B hB _ (hsol m)
    obtain ⟨out, h1, h2, -⟩ := permFold_ok (nOut := min r e) B loss args (ndindex s)
      (fun m _ => by
        obtain ⟨l, h1, h2⟩ := hall m
        exact ⟨l, h1, by rw [h2.isAssignment.length_eq]⟩)
      { loss := fun _ _ => 0, args := fun _ _ _ => 0, perm := fun _ _ => 0 }
    refine ⟨out, h1, fun m => ?_⟩
    obtain ⟨l, hl1, hl2⟩ := hall m
    obtain ⟨hlen, c1, c2, c3⟩ := h2 m (mem_ndindex m) l hl1
    refine ⟨pairingOfList l hl2.isAssignment, bestPairing_of_list hl2,
      ?_, ?_, ?_, fun h => absurd h her⟩
    · intro k; rw [c1]; rfl
    · intro i k; rw [c2]; rfl
    · intro _ k
      refine ⟨pairingOfList_ref l hl2.isAssignment hre k, ?_⟩
      rw [c3]; rfl

/-- The first unsolvable item in row-major order decides the exception. -/
theorem solvePermutation_err (B : Backend) (hB : LsaCorrect @B.lsa)
    (loss : BIdx s → Fin r → Fin e → XR) (args : Fin nArgs → BIdx s → Fin r → Fin e → XR)
    (pre : List (BIdx s)) (m : BIdx s) (post : List (BIdx s)) (hsplit : ndindex s = pre ++ m :: post)
    (hpre : ∀ m ∈ pre, Solvable (loss m)) (hm : ¬ Solvable (loss m)) :
    solvePermutation B loss args = .error (itemErr B (loss m)) := by
  unfold solvePermutation permLoop
  rw [hsplit]
  by_cases her : e < r
  · rw [if_pos her]
    refine permFold_err B _ _ pre m post _ ?_ ?_ _
    · intro m' hm'
      obtain ⟨l, h1, h2⟩ := lsaWithInf_ok B hB _ (solvable_swap.2 (hpre m' hm'))
      exact ⟨l, h1, by rw [h2.isAssignment.length_eq, min_comm]⟩
    · rw [lsaWithInf_err B hB _ (fun h => hm (solvable_swap.1 h))]
      rw [← itemErr_swap]
      rfl
  · rw [if_neg her]
    refine permFold_err B _ _ pre m post _ ?_ ?_ _
    · intro m' hm'
      obtain ⟨l, h1, h2⟩ := lsaWithInf_ok B hB _ (hpre m' hm')
      exact ⟨l, h1, by rw [h2.isAssignment.length_eq]⟩
    · rw [lsaWithInf_err B hB _ hm]
      rfl

theorem exists_first {β : Type*} (p : β → Prop) (L : List β) (h : ∃ m ∈ L, ¬ p m) :
    ∃ pre m post, L = pre ++ m :: post ∧ (∀ m ∈ pre, p m) ∧ ¬ p m := by
  induction L with
  | nil => obtain ⟨m, hm, _⟩ := h; simp at hm
  | cons a L ih =>
    by_cases ha : p a
    · have : ∃ m ∈ L, ¬ p m := by
        obtain ⟨m, hm, hpm⟩ := h
        rcases List.mem_cons.1 hm with rfl | hm
        · exact absurd ha hpm
        · exact ⟨m, hm, hpm⟩
      obtain ⟨pre, m, post, h1, h2, h3⟩ := ih this
      refine ⟨a :: pre, m, post, by rw [h1]; rfl, ?_, h3⟩
      intro x hx
      rcases List.mem_cons.1 hx with rfl | hx
      · exact ha
      · exact h2 x hx
    · exact ⟨[], a, L, rfl, by simp, ha⟩

theorem solvePermutation_ok_iff (B : Backend) (hB : LsaCorrect @B.lsa)
    (loss : BIdx s → Fin r → Fin e → XR) (args : Fin nArgs → BIdx s → Fin r → Fin e → XR) :
    (∃ out, solvePermutation B loss args = .ok out) ↔ ∀ m, Solvable (loss m) := by
  constructor
  · rintro ⟨out, hout⟩
    by_contra hcon
    push Not at hcon
    obtain ⟨m, hm⟩ := hcon
    obtain ⟨pre, m', post, h1, h2, h3⟩ := exists_first (fun m => Solvable (loss m)) (ndindex s)
      ⟨m, mem_ndindex m, hm⟩
    rw [solvePermutation_err B hB loss args pre m' post h1 h2 h3] at hout
    exact absurd hout (by simp)
  · intro h
    obtain ⟨out, h1, -⟩ := solvePermutation_ok B hB loss args h
    exact ⟨out, h1⟩

/-- Everything about a returned value. -/
theorem solvePermutation_spec (B : Backend) (hB : LsaCorrect @B.lsa)
    (loss : BIdx s → Fin r → Fin e → XR) (args : Fin nArgs → BIdx s → Fin r → Fin e → XR)
    {out} (hout : solvePermutation B loss args = .ok out) (m : BIdx s) :
    Solvable (loss m) ∧ ∃ P : Pairing r e,
      ItemSpec (loss m) (fun i => args i m) (out.loss m) (fun i => out.args i m) (out.perm m) P := by
  have hsol := (solvePermutation_ok_iff B hB loss args).1 ⟨out, hout⟩
  obtain ⟨out', h1, h2⟩ := solvePermutation_ok B hB loss args hsol
  rw [hout] at h1
  cases h1
  exact ⟨hsol m, h2 m⟩

/-! ### extended-real totals -/

theorem toEReal_ne_top {x : XR} (h : x ≠ pinf) : toEReal x ≠ ⊤ := by
  cases x <;> simp_all [toEReal]
theorem toEReal_ne_bot {x : XR} (h : x ≠ ninf) : toEReal x ≠ ⊥ := by
  cases x <;> simp_all [toEReal]

theorem nPos_eq_zero_iff {n : ℕ} {v : Fin n → XR} : nPos v = 0 ↔ ∀ k, v k ≠ pinf := by
  unfold nPos
  rw [Finset.card_eq_zero, Finset.filter_eq_empty_iff]
  simp

theorem nNeg_eq_zero_iff {n : ℕ} {v : Fin n → XR} : nNeg v = 0 ↔ ∀ k, v k ≠ ninf := by
  unfold nNeg
  rw [Finset.card_eq_zero, Finset.filter_eq_empty_iff]
  simp

theorem eTotal_eq_finSum {n : ℕ} {v : Fin n → XR} (hn : ∀ k, v k ≠ nan) (h1 : nPos v = 0)
    (h2 : nNeg v = 0) : eTotal v = ((finSum v : ℝ) : EReal) := by
  rw [nPos_eq_zero_iff] at h1
  rw [nNeg_eq_zero_iff] at h2
  unfold eTotal finSum
  rw [show ((∑ k, ((v k).toReal?).getD 0 : ℝ) : EReal) = ∑ k, (((v k).toReal?).getD 0 : EReal)
    from map_sum (⟨⟨Real.toEReal, rfl⟩, EReal.coe_add⟩ : ℝ →+ EReal) _ _]
  refine Finset.sum_congr rfl fun k _ => ?_
  have a := hn k
  have b := h1 k
  have c := h2 k
  cases hx : v k <;> simp_all [toEReal, toReal?]

theorem eTotal_bot {n : ℕ} {v : Fin n → XR} (h2 : nNeg v ≠ 0) : eTotal v = ⊥ := by
  have : ∃ k, v k = ninf := by
    by_contra hcon
    push Not at hcon
    exact h2 (nNeg_eq_zero_iff.2 hcon)
  obtain ⟨k, hk⟩ := this
  unfold eTotal
  rw [← Finset.add_sum_erase _ _ (Finset.mem_univ k), hk]
  simp [toEReal]

theorem eTotal_top {n : ℕ} {v : Fin n → XR} (hn : ∀ k, v k ≠ ninf) (h1 : nPos v ≠ 0) :
    eTotal v = ⊤ := by
  have : ∃ k, v k = pinf := by
    by_contra hcon
    push Not at hcon
    exact h1 (nPos_eq_zero_iff.2 hcon)
  obtain ⟨k, hk⟩ := this
  unfold eTotal
  rw [← Finset.add_sum_erase _ _ (Finset.mem_univ k), hk]
  have : ∀ S : Finset (Fin n), ∑ x ∈ S, toEReal (v x) ≠ ⊥ := by
    intro S
    induction S using Finset.induction_on with
    | empty => simp
    | insert a S ha ih =>
      rw [Finset.sum_insert ha]
      exact (EReal.add_ne_bot_iff).2 ⟨toEReal_ne_bot (hn a), ih⟩
  simp only [toEReal]
  exact EReal.top_add_of_ne_bot (this _)

/-- A best pairing has the least total in the extended reals. -/
theorem Spec.BestPairing.eTotal_le {M : Fin r → Fin e → XR} {P : Pairing r e} (hM : Solvable M)
    (h : BestPairing M P) (P' : Pairing r e) : eTotal (P.values M) ≤ eTotal (P'.values M) := by
  have hnan : ∀ (P : Pairing r e) k, P.values M k ≠ nan := fun P k => hM.no_nan _ _
  by_cases hneg : ∃ i j, M i j = ninf
  · have hnp : ∀ P : Pairing r e, nPos (P.values M) = 0 := fun P =>
      nPos_eq_zero_iff.2 fun k hk => hM.one_sign ⟨⟨_, _, hk⟩, hneg⟩
    by_cases h0 : nNeg (P.values M) = 0
    · have h0' : nNeg (P'.values M) = 0 := Nat.le_zero.1 (h0 ▸ h.neg P')
      rw [eTotal_eq_finSum (hnan _) (hnp _) h0, eTotal_eq_finSum (hnan _) (hnp _) h0']
      exact EReal.coe_le_coe_iff.2 (h.fin P' (by rw [hnp, hnp]) (by rw [h0, h0']))
    · rw [eTotal_bot h0]; exact bot_le
  · have hnn : ∀ P : Pairing r e, ∀ k, P.values M k ≠ ninf := fun P k hk => hneg ⟨_, _, hk⟩
    have hnn0 : ∀ P : Pairing r e, nNeg (P.values M) = 0 := fun P => nNeg_eq_zero_iff.2 (hnn P)
    by_cases h0 : nPos (P'.values M) = 0
    · have h0' : nPos (P.values M) = 0 := Nat.le_zero.1 (h0 ▸ h.pos P')
      rw [eTotal_eq_finSum (hnan _) h0' (hnn0 _), eTotal_eq_finSum (hnan _) h0 (hnn0 _)]
      exact EReal.coe_le_coe_iff.2 (h.fin P' (by rw [h0, h0']) (by rw [hnn0, hnn0]))
    · rw [eTotal_top (hnn P') h0]; exact le_top

end FBE
