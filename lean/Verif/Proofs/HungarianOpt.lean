import Verif.Proofs.HungarianRun
import Mathlib.Algebra.BigOperators.Group.Finset.Basic
import Mathlib.Algebra.Order.BigOperators.Group.Finset
import Mathlib.Algebra.Order.Group.Basic
import Mathlib.Tactic.Abel

/-! Optimality of the Hungarian machine: dual potentials as an invariant. -/

set_option linter.unusedSectionVars false

namespace FBE.Hungarian

section valid
variable {α : Type*} [LinearOrder α] [Zero α] [Add α] [Sub α] {n m : ℕ}

theorem nonzero2_transpose_perm (p : Fin n → Fin m → Bool) :
    (nonzero2 fun j i => p i j).Perm ((nonzero2 p).map Prod.swap) := by
  rw [List.perm_ext_iff_of_nodup (nonzero2_nodup _)]
  · rintro ⟨a, b⟩
    rw [mem_nonzero2, List.mem_map]
    constructor
    · intro h
      exact ⟨(b, a), by rw [mem_nonzero2]; exact h, rfl⟩
    · rintro ⟨⟨c, d⟩, h, heq⟩
      simp only [Prod.swap_prod_mk, Prod.mk.injEq] at heq
      rw [mem_nonzero2] at h
      obtain ⟨rfl, rfl⟩ := heq
      exact h
  · exact (nonzero2_nodup p).map Prod.swap_injective

theorem stars_length {mk : Fin n → Fin m → ℕ} (hM : Matching mk) (hall : ∀ i, ∃ j, mk i j = 1) :
    (nonzero2 fun i j => mk i j == 1).length = n := by
  have h1 := length_stars hM
  have h2 : U mk = 0 := by
    by_contra hc
    obtain ⟨i, hi⟩ := U_pos_iff.1 (Nat.pos_of_ne_zero hc)
    obtain ⟨j, hj⟩ := hall i
    exact hi j hj
  omega

theorem stars_assignment {mk : Fin n → Fin m → ℕ} (hM : Matching mk)
    (hall : ∀ i, ∃ j, mk i j = 1) (hnm : n ≤ m) :
    Spec.IsAssignment (nonzero2 fun i j => mk i j == 1) := by
  refine ⟨?_, ?_, ?_⟩
  · rw [stars_length hM hall]; omega
  · refine nonzero2_rows_sorted _ fun i j j' h1 h2 => hM.row (by simpa using h1) (by simpa using h2)
  · refine nonzero2_cols_nodup _ fun i i' j h1 h2 => hM.col (by simpa using h1) (by simpa using h2)

theorem stars_assignment_T {mk : Fin n → Fin m → ℕ} (hM : Matching mk)
    (hall : ∀ i, ∃ j, mk i j = 1) (hnm : n ≤ m) :
    Spec.IsAssignment (nonzero2 fun j i => mk i j == 1) := by
  refine ⟨?_, ?_, ?_⟩
  · rw [(nonzero2_transpose_perm fun i j => mk i j == 1).length_eq, List.length_map,
      stars_length hM hall]
    omega
  · refine nonzero2_rows_sorted _ fun i j j' h1 h2 => hM.col (by simpa using h1) (by simpa using h2)
  · refine nonzero2_cols_nodup _ fun i i' j h1 h2 => hM.row (by simpa using h1) (by simpa using h2)

/-- Termination and validity, any arithmetic with `a - a = 0`. -/
theorem lsa_valid {r c : ℕ} (hsub : ∀ a : α, a - a = 0) (cost : Fin r → Fin c → α)
    (fuel : ℕ) (hf : fuelBound (min r c) ≤ fuel) :
    ∃ l, linearSumAssignment fuel cost = .ok l ∧ Spec.IsAssignment l := by
  unfold linearSumAssignment
  split
  · rename_i hlt
    rw [min_eq_right hlt.le] at hf
    obtain ⟨mk, h1, h2, h3⟩ := solveMarked_ok hsub hlt.le (fun j i => cost i j) fuel hf
    rw [h1]
    exact ⟨_, rfl, stars_assignment_T h2 h3 hlt.le⟩
  · rename_i hlt
    rw [min_eq_left (by omega)] at hf
    obtain ⟨mk, h1, h2, h3⟩ := solveMarked_ok hsub (by omega) cost fuel hf
    rw [h1]
    exact ⟨_, rfl, stars_assignment h2 h3 (by omega)⟩

end valid

section num
variable {α : Type*} [AddCommGroup α] [LinearOrder α] [IsOrderedAddMonoid α] {n m : ℕ}

/-- Dual potentials certifying the current state. -/
def Num (cost : Fin n → Fin m → α) (st : State α n m) : Prop :=
  ∃ (u : Fin n → α) (v : Fin m → α),
    (∀ i j, st.C i j = cost i j - u i - v j) ∧
    (∀ i j, 0 ≤ st.C i j) ∧
    (∀ j, v j ≤ 0) ∧
    (∀ j, v j < 0 → ∃ i, st.marked i j = 1) ∧
    (∀ i j, st.marked i j = 1 → st.C i j = 0) ∧
    (∀ i j, st.marked i j = 2 → st.C i j = 0)

theorem rowMin_le (C : Fin n → Fin m → α) (i j) : rowMin C i ≤ C i j := by
  unfold rowMin
  cases hm : ((List.finRange m).map (C i)).min? with
  | none =>
    rw [List.min?_eq_none_iff, List.map_eq_nil_iff] at hm
    have := List.mem_finRange j
    rw [hm] at this
    simp at this
  | some a =>
    rw [List.min?_eq_some_iff] at hm
    exact hm.2 _ (List.mem_map.2 ⟨j, List.mem_finRange j, rfl⟩)

theorem num_step1 {cost : Fin n → Fin m → α} : Num cost (step1 (initState cost)).1 := by
  refine ⟨fun i => rowMin cost i, fun _ => 0, ?_, ?_, fun _ => le_rfl, ?_, ?_, ?_⟩
  · intro i j
    simp only [step1, clearCovers, foldl_starZero_C, initState, sub_zero]
  · intro i j
    simp only [step1, clearCovers, foldl_starZero_C, initState]
    exact sub_nonneg.2 (rowMin_le cost i j)
  · intro j hj
    exact absurd hj (lt_irrefl _)
  · intro i j hij
    simp only [step1, clearCovers, foldl_starZero_C] at hij ⊢
    rcases foldl_starZero_mem _ _ hij with h | h
    · simp [initState] at h
    · rw [mem_nonzero2] at h
      simpa using h
  · intro i j hij
    have := (step1_inv (α := α) (st := initState cost)
      ⟨fun _ _ => rfl, fun _ => rfl, fun _ => rfl, Nat.pos_of_ne_zero (by rintro rfl; exact j.elim0)⟩).no_prime i j
    exact absurd hij this

theorem num_step {cost : Fin n → Fin m → α} {fuel nx} {st : State α n m} (hnx : nx ≠ .done)
    (hnx1 : nx ≠ .step1) (hI : Inv nx st) (h : Num cost st) (hnm : n ≤ m) (hf : n < fuel)
    {res} (hres : stepFn fuel nx st = .ok res) : Num cost res.1 := by
  obtain ⟨u, v, hC, hnn, hv, hvs, hs, hp⟩ := h
  cases nx with
  | done => exact absurd rfl hnx
  | step1 => exact absurd rfl hnx1
  | step3 =>
    obtain ⟨_, _, h1, h2, _⟩ := step3_inv hI
    simp only [stepFn, Except.ok.injEq] at hres
    subst hres
    exact ⟨u, v, by rw [h1]; exact hC, by rw [h1]; exact hnn, hv, by rw [h2]; exact hvs,
      by rw [h1, h2]; exact hs, by rw [h1, h2]; exact hp⟩
  | step4 =>
    obtain ⟨res', hres', hP⟩ := step4_spec fuel st hI hf
    simp only [stepFn] at hres
    rw [hres'] at hres
    simp only [Except.ok.injEq] at hres
    subst hres
    refine ⟨u, v, by rw [hP.C_eq]; exact hC, by rw [hP.C_eq]; exact hnn, hv, ?_, ?_, ?_⟩
    · intro j hj
      obtain ⟨i, hi⟩ := hvs j hj
      exact ⟨i, (hP.stars i j).2 hi⟩
    · intro i j hij
      rw [hP.C_eq]
      exact hs i j ((hP.stars i j).1 hij)
    · intro i j hij
      rw [hP.C_eq]
      rcases hP.primes i j hij with h | h
      · exact hp i j h
      · exact h
  | step5 =>
    obtain ⟨res', hres', hP⟩ := step5_spec st hI
    simp only [stepFn] at hres
    rw [hres'] at hres
    simp only [Except.ok.injEq] at hres
    subst hres
    refine ⟨u, v, by rw [hP.C_eq]; exact hC, by rw [hP.C_eq]; exact hnn, hv, ?_, ?_, ?_⟩
    · intro j hj
      obtain ⟨i, hi⟩ := hvs j hj
      exact hP.star_col i j hi
    · intro i j hij
      rw [hP.C_eq]
      rcases hP.star_of i j hij with h | h
      · exact hs i j h
      · exact hp i j h
    · intro i j hij
      exact absurd hij (hP.inv.no_prime i j)
  | step6 =>
    obtain ⟨res', mv, hres', hP⟩ := step6_spec st hI hnm
    simp only [stepFn] at hres
    rw [hres'] at hres
    simp only [Except.ok.injEq] at hres
    subst hres
    have hI4 : Inv4 st := hI
    have hmv : 0 ≤ mv := by
      obtain ⟨i, j, _, _, h3⟩ := hP.attained
      rw [← h3]; exact hnn i j
    have hprimecol : ∀ i c, st.marked i c = 2 → st.colUncovered c = true := by
      intro i c hic
      by_cases hstar : ∃ k, st.marked k c = 1
      · obtain ⟨k, hk⟩ := hstar
        obtain ⟨rk, hrk⟩ := hI4.rank
        have := hI4.star_cov hk
        rw [(hrk i c k hic hk).1] at this
        simpa using this
      · exact hI4.free_col (by simpa using hstar)
    refine ⟨fun i => if st.rowUncovered i then u i + mv else u i,
      fun j => if st.colUncovered j then v j else v j - mv, ?_, ?_, ?_, ?_, ?_, ?_⟩
    · intro i j
      rw [hP.C_eq, hC]
      dsimp only
      cases st.rowUncovered i <;> cases st.colUncovered j <;> simp <;> abel
    · intro i j
      rw [hP.C_eq]
      have h1 := hnn i j
      have h2 := hP.lower i j
      cases hr : st.rowUncovered i <;> cases hc : st.colUncovered j <;> simp
      · exact add_nonneg h1 hmv
      · exact h1
      · exact h1
      · exact h2 hr hc
    · intro j
      dsimp only
      split
      · exact hv j
      · exact sub_nonpos.2 ((hv j).trans hmv)
    · intro j hj
      rw [hP.marked]
      dsimp only at hj
      split at hj
      · exact hvs j hj
      · rename_i hc
        by_contra hcon
        exact hc (hI4.free_col (by simpa using hcon))
    · intro i j hij
      rw [hP.marked] at hij
      rw [hP.C_eq]
      have h1 := hI4.star_cov hij
      have h2 := hs i j hij
      cases hr : st.rowUncovered i <;> simp [hr] at h1 <;> simp [h1, h2]
    · intro i j hij
      rw [hP.marked] at hij
      rw [hP.C_eq]
      have h1 := hprimecol i j hij
      have h2 := hp i j hij
      have h3 : st.rowUncovered i = false := by
        by_contra hc
        exact hI4.unc_prime (by simpa using hc) j hij
      simp [h1, h2, h3]

theorem run_num {cost : Fin n → Fin m → α} (inner : ℕ) (hnm : n ≤ m) (hf : n < inner)
    (fuel : ℕ) (nx : Next) (st : State α n m) (h : Inv nx st) (hnx : nx ≠ .step1)
    (hN : Num cost st) {st'} (hr : run inner fuel nx st = .ok st') : Num cost st' := by
  induction fuel generalizing nx st with
  | zero =>
    cases nx <;> simp [run] at hr
    subst hr; exact hN
  | succ fuel ih =>
    by_cases hd : nx = .done
    · subst hd
      simp only [run, Except.ok.injEq] at hr
      subst hr; exact hN
    · obtain ⟨res, h1, h2, h3⟩ := stepFn_ok (fun a : α => sub_self a) inner nx st hd h hnm hf
      have hrr : run inner (fuel + 1) nx st = run inner fuel res.2 res.1 := by
        cases nx <;> first | exact absurd rfl hd | (simp only [run]; rw [h1])
      rw [hrr] at hr
      refine ih _ _ h2 ?_ (num_step hd hnx h hN hnm hf h1) hr
      -- no step returns to step 1
      intro hcon
      cases nx with
      | step1 => exact hnx rfl
      | done => exact hd rfl
      | step3 =>
        simp only [stepFn, Except.ok.injEq] at h1
        subst h1
        have := (step3_inv h).2.2.2.2
        rw [hcon] at this
        simp at this
      | step4 =>
        obtain ⟨res', hres', hP⟩ := step4_spec inner st h hf
        simp only [stepFn] at h1
        rw [hres'] at h1
        simp only [Except.ok.injEq] at h1
        subst h1
        have := hP.next
        rw [hcon] at this
        simp at this
      | step5 =>
        obtain ⟨res', hres', hP⟩ := step5_spec st h
        simp only [stepFn] at h1
        rw [hres'] at h1
        simp only [Except.ok.injEq] at h1
        subst h1
        have := hP.next
        rw [hcon] at this
        simp at this
      | step6 =>
        obtain ⟨res', mv, hres', hP⟩ := step6_spec st h hnm
        simp only [stepFn] at h1
        rw [hres'] at h1
        simp only [Except.ok.injEq] at h1
        subst h1
        have := hP.next
        rw [hcon] at this
        simp at this

/-- Duality certificate delivered by the solver. -/
theorem solveMarked_num (hnm : n ≤ m) (cost : Fin n → Fin m → α)
    (fuel : ℕ) (hf : fuelBound n ≤ fuel) :
    ∃ mk, solveMarked fuel cost = .ok mk ∧ Matching mk ∧ (∀ i, ∃ j, mk i j = 1) ∧
      ∃ (u : Fin n → α) (v : Fin m → α), (∀ i j, u i + v j ≤ cost i j) ∧ (∀ j, v j ≤ 0) ∧
        (∀ j, v j < 0 → ∃ i, mk i j = 1) ∧ (∀ i j, mk i j = 1 → cost i j = u i + v j) := by
  obtain ⟨mk, h1, h2, h3⟩ := solveMarked_ok (fun a : α => sub_self a) hnm cost fuel hf
  refine ⟨mk, h1, h2, h3, ?_⟩
  by_cases h0 : n = 0 ∨ m = 0
  · have hn : n = 0 := by omega
    subst hn
    exact ⟨fun _ => 0, fun _ => 0, fun i => i.elim0, fun _ => le_rfl,
      fun j hj => absurd hj (lt_irrefl _), fun i => i.elim0⟩
  · have hrun : ∃ st', run fuel fuel .step1 (initState cost) = .ok st' ∧ st'.marked = mk := by
      unfold solveMarked at h1
      rw [if_neg h0] at h1
      dsimp only at h1
      cases hr : run fuel fuel .step1 (initState cost) with
      | error e => rw [hr] at h1; simp at h1
      | ok st' => rw [hr] at h1; simp only [Except.ok.injEq] at h1; exact ⟨st', rfl, h1⟩
    obtain ⟨st', hrun, hmk⟩ := hrun
    have hI : Inv .step1 (initState cost) :=
      ⟨fun _ _ => rfl, fun _ => rfl, fun _ => rfl, by omega⟩
    have hfn : n < fuel := by unfold fuelBound at hf; omega
    have hN : Num cost st' := by
      cases fuel with
      | zero => omega
      | succ f =>
        simp only [run, stepFn] at hrun
        exact run_num (f + 1) hnm hfn f (step1 (initState cost)).2 _ (step1_inv hI)
          (by simp [step1]) num_step1 hrun
    obtain ⟨u, v, hC, hnn, hv, hvs, hs, _⟩ := hN
    subst hmk
    refine ⟨u, v, ?_, hv, hvs, ?_⟩
    · intro i j
      have := hnn i j
      rw [hC, sub_sub, sub_nonneg] at this
      exact this
    · intro i j hij
      have := hs i j hij
      rw [hC, sub_sub, sub_eq_zero] at this
      exact this

/-! ### duality on lists -/

theorem sum_map_nodup_le (v : Fin m → α) (hv : ∀ j, v j ≤ 0) (l : List (Fin m)) (hl : l.Nodup) :
    ∑ j, v j ≤ (l.map v).sum := by
  rw [← List.sum_toFinset v hl]
  exact Finset.sum_le_sum_of_subset_of_nonpos' (Finset.subset_univ _) fun j _ _ => hv j

theorem sum_map_full (u : Fin n → α) (l : List (Fin n)) (hl : l.Nodup) (hlen : l.length = n) :
    (l.map u).sum = ∑ i, u i := by
  rw [← List.sum_toFinset u hl]
  congr 1
  rw [← Finset.card_eq_iff_eq_univ, List.toFinset_card_of_nodup hl, hlen, Fintype.card_fin]

theorem sum_map_pair (u : Fin n → α) (v : Fin m → α) (l : List (Fin n × Fin m)) :
    (l.map fun p => u p.1 + v p.2).sum =
      ((l.map Prod.fst).map u).sum + ((l.map Prod.snd).map v).sum := by
  induction l with
  | nil => simp
  | cons a l ih => simp only [List.map_cons, List.sum_cons, ih]; abel

theorem dual_lower {cost : Fin n → Fin m → α} {u : Fin n → α} {v : Fin m → α}
    (h : ∀ i j, u i + v j ≤ cost i j) (hv : ∀ j, v j ≤ 0) (l : List (Fin n × Fin m))
    (h1 : (l.map Prod.fst).Nodup) (h2 : (l.map Prod.snd).Nodup) (hlen : l.length = n) :
    ∑ i, u i + ∑ j, v j ≤ Spec.total cost l := by
  have hle : (l.map fun p => u p.1 + v p.2).sum ≤ Spec.total cost l :=
    List.sum_le_sum fun p _ => h p.1 p.2
  refine le_trans ?_ hle
  rw [sum_map_pair, sum_map_full u _ h1 (by simpa using hlen)]
  exact add_le_add le_rfl (sum_map_nodup_le v hv _ h2)

theorem dual_attained {cost : Fin n → Fin m → α} {mk : Fin n → Fin m → ℕ} {u : Fin n → α}
    {v : Fin m → α} (hv : ∀ j, v j ≤ 0) (hvs : ∀ j, v j < 0 → ∃ i, mk i j = 1)
    (hs : ∀ i j, mk i j = 1 → cost i j = u i + v j) (l : List (Fin n × Fin m))
    (h1 : (l.map Prod.fst).Nodup) (h2 : (l.map Prod.snd).Nodup) (hlen : l.length = n)
    (hmem : ∀ i j, (i, j) ∈ l ↔ mk i j = 1) :
    Spec.total cost l = ∑ i, u i + ∑ j, v j := by
  have heq : Spec.total cost l = (l.map fun p => u p.1 + v p.2).sum := by
    unfold Spec.total
    congr 1
    refine List.map_congr_left ?_
    rintro ⟨i, j⟩ hp
    exact hs i j ((hmem i j).1 hp)
  rw [heq, sum_map_pair, sum_map_full u _ h1 (by simpa using hlen)]
  congr 1
  rw [← List.sum_toFinset v h2]
  refine Finset.sum_subset (Finset.subset_univ _) fun j _ hj => ?_
  rcases (hv j).lt_or_eq with h | h
  · obtain ⟨i, hi⟩ := hvs j h
    exfalso
    apply hj
    rw [List.mem_toFinset, List.mem_map]
    exact ⟨(i, j), (hmem i j).2 hi, rfl⟩
  · exact h

theorem total_swap (cost : Fin n → Fin m → α) (l : List (Fin n × Fin m)) :
    Spec.total (fun j i => cost i j) (l.map Prod.swap) = Spec.total cost l := by
  unfold Spec.total
  rw [List.map_map]
  rfl

theorem IsAssignment.fst_nodup {r c : ℕ} {l : List (Fin r × Fin c)} (h : Spec.IsAssignment l) :
    (l.map Prod.fst).Nodup :=
  h.rows_sorted.imp fun h => ne_of_lt h

/-- Optimality in exact arithmetic. -/
theorem lsa_optimal {r c : ℕ} (cost : Fin r → Fin c → α)
    (fuel : ℕ) (hf : fuelBound (min r c) ≤ fuel) :
    ∃ l, linearSumAssignment fuel cost = .ok l ∧ Spec.IsOptimal cost l := by
  unfold linearSumAssignment
  split
  · rename_i hlt
    rw [min_eq_right hlt.le] at hf
    obtain ⟨mk, h1, h2, h3, u, v, h4, h5, h6, h7⟩ :=
      solveMarked_num hlt.le (fun j i => cost i j) fuel hf
    rw [h1]
    have hA := stars_assignment_T h2 h3 hlt.le
    refine ⟨_, rfl, hA, fun l' hl' => ?_⟩
    have e1 := dual_attained (cost := fun j i => cost i j) h5 h6 h7
      ((nonzero2 fun i j => mk j i == 1).map Prod.swap)
      (by rw [List.map_map]; exact hA.cols_nodup) (by rw [List.map_map]; exact IsAssignment.fst_nodup hA)
      (by rw [List.length_map, hA.length_eq]; omega)
      (by
        intro i j
        rw [List.mem_map]
        constructor
        · rintro ⟨⟨a, b⟩, hm, heq⟩
          simp only [Prod.swap_prod_mk, Prod.mk.injEq] at heq
          obtain ⟨rfl, rfl⟩ := heq
          simpa using hm
        · intro hm
          exact ⟨(j, i), by simpa using hm, rfl⟩)
    have e2 := dual_lower (cost := fun j i => cost i j) h4 h5 (l'.map Prod.swap)
      (by rw [List.map_map]; exact hl'.cols_nodup) (by rw [List.map_map]; exact IsAssignment.fst_nodup hl')
      (by rw [List.length_map, hl'.length_eq]; omega)
    rw [total_swap cost] at e1 e2
    rw [e1]
    exact e2
  · rename_i hlt
    rw [min_eq_left (by omega)] at hf
    obtain ⟨mk, h1, h2, h3, u, v, h4, h5, h6, h7⟩ := solveMarked_num (by omega) cost fuel hf
    rw [h1]
    have hA := stars_assignment h2 h3 (by omega)
    refine ⟨_, rfl, hA, fun l' hl' => ?_⟩
    rw [dual_attained h5 h6 h7 _ (IsAssignment.fst_nodup hA) hA.cols_nodup
      (by rw [hA.length_eq]; omega) (by intro i j; simp)]
    exact dual_lower h4 h5 l' (IsAssignment.fst_nodup hl') hl'.cols_nodup
      (by rw [hl'.length_eq]; omega)

end num

end FBE.Hungarian
