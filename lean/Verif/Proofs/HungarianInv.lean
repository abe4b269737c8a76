import Verif.Model.Hungarian
import Verif.Proofs.Nonzero
import Mathlib.Tactic.Ring
import Mathlib.Data.Finset.Lattice.Fold
import Mathlib.Tactic.Linarith

/-! Structural invariants of the Hungarian state machine (no arithmetic law used except
`a - a = 0` in `_step6`). -/

set_option linter.unusedSectionVars false

namespace FBE.Hungarian

variable {α : Type*} [LinearOrder α] [Zero α] [Add α] [Sub α] {n m : ℕ}

/-- Stars form a partial matching. -/
structure Matching (mk : Fin n → Fin m → ℕ) : Prop where
  row : ∀ {i j j'}, mk i j = 1 → mk i j' = 1 → j = j'
  col : ∀ {i i' j}, mk i j = 1 → mk i' j = 1 → i = i'

/-- Number of rows without a star. -/
def U (mk : Fin n → Fin m → ℕ) : ℕ :=
  (Finset.univ.filter fun i => ∀ j, mk i j ≠ 1).card

/-- Number of uncovered rows. -/
def V (st : State α n m) : ℕ :=
  (Finset.univ.filter fun i => st.rowUncovered i = true).card

def HasZero (st : State α n m) : Prop :=
  ∃ i j, st.rowUncovered i = true ∧ st.colUncovered j = true ∧ st.C i j = 0

/-- Invariant at the head of `_step4` (and its loop) and `_step6`. -/
structure Inv4 (st : State α n m) : Prop where
  matching : Matching st.marked
  free : ∃ i, ∀ j, st.marked i j ≠ 1
  star_cov : ∀ {i j}, st.marked i j = 1 → st.colUncovered j = !st.rowUncovered i
  free_col : ∀ {j}, (∀ i, st.marked i j ≠ 1) → st.colUncovered j = true
  cov_star : ∀ {i}, st.rowUncovered i = false → ∃ j, st.marked i j = 1
  cov_prime : ∀ {i}, st.rowUncovered i = false → ∃ j, st.marked i j = 2
  unc_prime : ∀ {i}, st.rowUncovered i = true → ∀ j, st.marked i j ≠ 2
  prime_unique : ∀ {i j j'}, st.marked i j = 2 → st.marked i j' = 2 → j = j'
  rank : ∃ rk : Fin n → ℕ, ∀ i c k, st.marked i c = 2 → st.marked k c = 1 →
    st.rowUncovered k = false ∧ rk k < rk i

/-- Invariant at the head of `_step5`. -/
structure Inv5 (st : State α n m) : Prop where
  matching : Matching st.marked
  prime_unique : ∀ {i j j'}, st.marked i j = 2 → st.marked i j' = 2 → j = j'
  z0 : ∃ r0 c0, st.z0 = some (r0, c0) ∧ st.marked r0 c0 = 2 ∧ ∀ j, st.marked r0 j ≠ 1
  rank : ∃ rk : Fin n → ℕ, ∀ i c k, st.marked i c = 2 → st.marked k c = 1 →
    (∃ c', st.marked k c' = 2) ∧ rk k < rk i

/-- Invariant at the head of `_step3`. -/
structure Inv3 (st : State α n m) : Prop where
  matching : Matching st.marked
  no_prime : ∀ i j, st.marked i j ≠ 2
  row_unc : ∀ i, st.rowUncovered i = true
  col_unc : ∀ j, st.colUncovered j = true

def Inv (nx : Next) (st : State α n m) : Prop :=
  match nx with
  | .step1 => (∀ i j, st.marked i j = 0) ∧ (∀ i, st.rowUncovered i = true) ∧
      (∀ j, st.colUncovered j = true) ∧ 0 < m
  | .step3 => Inv3 st
  | .step4 => Inv4 st
  | .step5 => Inv5 st
  | .step6 => Inv4 st
  | .done => Matching st.marked ∧ ∀ i, ∃ j, st.marked i j = 1

open Classical in
/-- Termination measure. -/
noncomputable def μ (nx : Next) (st : State α n m) : ℕ :=
  match nx with
  | .step1 => n * (3 * n + 5) + 3 * n + 5
  | .step3 => U st.marked * (3 * n + 5) + 3 * n + 4
  | .step4 => U st.marked * (3 * n + 5) + 3 * V st + if HasZero st then 1 else 3
  | .step5 => U st.marked * (3 * n + 5)
  | .step6 => U st.marked * (3 * n + 5) + 3 * V st + 2
  | .done => 0

theorem U_le (mk : Fin n → Fin m → ℕ) : U mk ≤ n := by
  unfold U
  exact (Finset.card_le_univ _).trans (by simp)

theorem V_le (st : State α n m) : V st ≤ n := by
  unfold V
  exact (Finset.card_le_univ _).trans (by simp)

/-! ### step 1 -/

/-- Loop invariant of the greedy starring loop in `_step1`. -/
structure InvG (st : State α n m) : Prop where
  matching : Matching st.marked
  no_prime : ∀ i j, st.marked i j ≠ 2
  row : ∀ i j, st.marked i j = 1 → st.rowUncovered i = false
  col : ∀ i j, st.marked i j = 1 → st.colUncovered j = false

theorem starZero_inv {st : State α n m} (h : InvG st) (ij) : InvG (starZero st ij) := by
  obtain ⟨i, j⟩ := ij
  unfold starZero
  split
  · rename_i hc
    simp only [Bool.and_eq_true] at hc
    obtain ⟨hM, hp, hr, hcol⟩ := h
    obtain ⟨hMr, hMc⟩ := hM
    constructor
    · constructor <;> simp only [set2] <;> grind
    · simp only [set2]; grind
    · simp only [set2, set1]; grind
    · simp only [set2, set1]; grind
  · exact h

theorem foldl_starZero_inv (l : List (Fin n × Fin m)) {st : State α n m} (h : InvG st) :
    InvG (l.foldl starZero st) := by
  induction l generalizing st with
  | nil => exact h
  | cons x l ih => exact ih (starZero_inv h x)

theorem starZero_C (st : State α n m) (ij) : (starZero st ij).C = st.C := by
  unfold starZero; split <;> rfl

theorem foldl_starZero_C (l : List (Fin n × Fin m)) (st : State α n m) : (l.foldl starZero st).C = st.C := by
  induction l generalizing st with
  | nil => rfl
  | cons x l ih => rw [List.foldl_cons, ih, starZero_C]

/-- every star set by the greedy loop is at an element of the list (or was there before) -/
theorem foldl_starZero_mem (l : List (Fin n × Fin m)) (st : State α n m) {i j}
    (h : (l.foldl starZero st).marked i j = 1) : st.marked i j = 1 ∨ (i, j) ∈ l := by
  induction l generalizing st with
  | nil => exact Or.inl h
  | cons x l ih =>
    rcases ih _ h with h | h
    · unfold starZero at h
      split at h
      · simp only [set2] at h
        split at h
        · rename_i hx
          right
          obtain ⟨h1, h2⟩ := hx
          simp [h1, h2]
        · exact Or.inl h
      · exact Or.inl h
    · exact Or.inr (List.mem_cons_of_mem _ h)

theorem step1_inv {st : State α n m} (h : Inv .step1 st) :
    Inv3 (step1 st).1 := by
  obtain ⟨h1, h2, h3, h4⟩ := h
  have hG : InvG ({ st with C := fun i j => st.C i j - rowMin st.C i } : State α n m) := by
    constructor
    · constructor <;> simp [h1]
    · simp [h1]
    · simp [h1]
    · simp [h1]
  have := foldl_starZero_inv
    (nonzero2 fun i j => decide (st.C i j - rowMin st.C i = 0)) hG
  unfold step1
  exact ⟨this.matching, this.no_prime, fun _ => rfl, fun _ => rfl⟩

/-! ### step 3 -/

theorem length_stars {mk : Fin n → Fin m → ℕ} (h : Matching mk) :
    (nonzero2 fun i j => mk i j == 1).length + U mk = n := by
  rw [nonzero2_length]
  · unfold U
    have := Finset.card_filter_add_card_filter_not (s := (Finset.univ : Finset (Fin n)))
      (fun i => ∃ j, (mk i j == 1) = true)
    simp only [Finset.card_univ, Fintype.card_fin] at this
    convert this using 2
    congr 1
    ext i
    simp
  · intro i j j' h1 h2
    exact h.row (by simpa using h1) (by simpa using h2)

theorem U_pos_iff {mk : Fin n → Fin m → ℕ} : 0 < U mk ↔ ∃ i, ∀ j, mk i j ≠ 1 := by
  unfold U
  rw [Finset.card_pos]
  constructor
  · rintro ⟨i, hi⟩
    exact ⟨i, by simpa using hi⟩
  · rintro ⟨i, hi⟩
    exact ⟨i, by simpa using hi⟩

theorem step3_inv {st : State α n m} (h : Inv3 st) :
    Inv (step3 st).2 (step3 st).1 ∧ μ (step3 st).2 (step3 st).1 < μ .step3 st ∧
      (step3 st).1.C = st.C ∧ (step3 st).1.marked = st.marked ∧
      ((step3 st).2 = .step4 ∨ (step3 st).2 = .done) := by
  obtain ⟨hM, hp, hr, hc⟩ := h
  have hlen := length_stars hM
  unfold step3
  dsimp only
  split
  · rename_i hlt
    have hU : 0 < U st.marked := by omega
    refine ⟨?_, ?_, rfl, rfl, Or.inl rfl⟩
    · refine ⟨hM, U_pos_iff.1 hU, ?_, ?_, ?_, ?_, ?_, ?_, ?_⟩
      · intro i j hij
        dsimp only at hij ⊢
        rw [if_pos]
        · simp [hr i]
        · simp only [List.any_eq_true, List.mem_finRange, true_and]
          exact ⟨i, by simpa using hij⟩
      · intro j hj
        dsimp only at hj ⊢
        rw [if_neg, hc]
        simp only [List.any_eq_true, List.mem_finRange, true_and]
        rintro ⟨i, hi⟩
        exact hj i (by simpa using hi)
      · intro i hi; simp [hr i] at hi
      · intro i hi; simp [hr i] at hi
      · intro i _ j; exact hp i j
      · intro i j j' h1 _; exact absurd h1 (hp i j)
      · exact ⟨fun _ => 0, fun i c k h1 _ => absurd h1 (hp i c)⟩
    · unfold μ
      dsimp only
      generalize hst : State.mk st.C st.rowUncovered _ st.z0 st.marked = st'
      have := V_le st'
      split <;> omega
  · rename_i hlt
    have hU : U st.marked = 0 := by omega
    refine ⟨⟨hM, ?_⟩, ?_, rfl, rfl, Or.inr rfl⟩
    · intro i
      by_contra hcon
      have : 0 < U st.marked := U_pos_iff.2 ⟨i, by simpa using hcon⟩
      omega
    · unfold μ
      dsimp only
      omega

/-! ### step 4 -/

/-- What `_step4` guarantees. -/
structure Post4 (st : State α n m) (res : State α n m × Next) : Prop where
  C_eq : res.1.C = st.C
  stars : ∀ i j, res.1.marked i j = 1 ↔ st.marked i j = 1
  primes : ∀ i j, res.1.marked i j = 2 → st.marked i j = 2 ∨ st.C i j = 0
  next : (res.2 = .step6 ∧ Inv4 res.1 ∧ V res.1 ≤ V st ∧ (HasZero st → V res.1 < V st)) ∨
    (res.2 = .step5 ∧ Inv5 res.1)

theorem U_congr {mk mk' : Fin n → Fin m → ℕ} (h : ∀ i j, mk i j = 1 ↔ mk' i j = 1) :
    U mk = U mk' := by
  unfold U
  congr 1
  ext i
  simp [h]

theorem Post4.trans {st st' : State α n m} {res} (hC : st'.C = st.C)
    (hs : ∀ i j, st'.marked i j = 1 ↔ st.marked i j = 1)
    (hp : ∀ i j, st'.marked i j = 2 → st.marked i j = 2 ∨ st.C i j = 0)
    (hV : V st' < V st) (h : Post4 st' res) : Post4 st res := by
  refine ⟨h.C_eq.trans hC, fun i j => (h.stars i j).trans (hs i j), ?_, ?_⟩
  · intro i j hij
    rcases h.primes i j hij with h1 | h1
    · exact hp i j h1
    · right; rw [← hC]; exact h1
  · rcases h.next with ⟨h1, h2, h3, _⟩ | h1
    · exact Or.inl ⟨h1, h2, by omega, fun _ => by omega⟩
    · exact Or.inr h1

theorem step4Loop_spec (fuel : ℕ) (st : State α n m) (cov : Fin n → Fin m → Bool)
    (h : Inv4 st) (hcov : ∀ i j, cov i j =
      (decide (st.C i j = 0) && st.rowUncovered i && st.colUncovered j))
    (hf : V st < fuel) :
    ∃ res, step4Loop (fun i j => decide (st.C i j = 0)) fuel st cov = .ok res ∧ Post4 st res := by
  induction fuel generalizing st cov with
  | zero => omega
  | succ fuel ih =>
    unfold step4Loop
    split
    · -- no uncovered zero
      rename_i hnz
      refine ⟨_, rfl, rfl, fun _ _ => Iff.rfl, fun _ _ h => Or.inl h, Or.inl ⟨rfl, h, le_rfl, ?_⟩⟩
      rintro ⟨i, j, h1, h2, h3⟩
      have := nonzero2_head?_none hnz i j
      rw [hcov] at this
      simp [h1, h2, h3] at this
    · rename_i row col hnz
      have hc := nonzero2_head?_some hnz
      rw [hcov] at hc
      simp only [Bool.and_eq_true, decide_eq_true_eq] at hc
      obtain ⟨⟨hC0, hrow⟩, hcol⟩ := hc
      -- (row, col) is not starred
      have hns : st.marked row col ≠ 1 := by
        intro hs
        have := h.star_cov hs
        rw [hrow, hcol] at this
        simp at this
      have hstar : ∀ i j, set2 st.marked row col 2 i j = 1 ↔ st.marked i j = 1 := by
        intro i j
        simp only [set2]
        split
        · rename_i hij; obtain ⟨rfl, rfl⟩ := hij; simp [hns]
        · rfl
      have hprime : ∀ i j, set2 st.marked row col 2 i j = 2 ↔
          (i = row ∧ j = col) ∨ st.marked i j = 2 := by
        intro i j
        simp only [set2]
        split
        · rename_i hij; simp [hij]
        · rename_i hij; simp [hij]
      have hrowp := h.unc_prime hrow
      obtain ⟨rk, hrk⟩ := h.rank
      -- rows with a star in column `col` are covered
      have hcolstar : ∀ k, st.marked k col = 1 → st.rowUncovered k = false := by
        intro k hk
        have := h.star_cov hk
        rw [hcol] at this
        simpa using this.symm
      dsimp only
      split
      · -- go to step 5
        rename_i hnz1
        have hnostar : ∀ j, st.marked row j ≠ 1 := by
          intro j hj
          have := nonzero1_head?_none hnz1 j
          rw [beq_eq_false_iff_ne] at this
          exact this ((hstar _ _).2 hj)
        refine ⟨_, rfl, rfl, hstar, ?_, Or.inr ⟨rfl, ?_⟩⟩
        · intro i j hij
          rcases (hprime i j).1 hij with ⟨rfl, rfl⟩ | hij
          · exact Or.inr hC0
          · exact Or.inl hij
        · refine ⟨?_, ?_, ?_, ?_⟩
          · refine ⟨fun {i j j'} h1 h2 => ?_, fun {i i' j} h1 h2 => ?_⟩
            · exact h.matching.row ((hstar _ _).1 h1) ((hstar _ _).1 h2)
            · exact h.matching.col ((hstar _ _).1 h1) ((hstar _ _).1 h2)
          · intro i j j' h1 h2
            dsimp only at h1 h2
            rw [hprime] at h1 h2
            have hpu : st.marked i j = 2 → st.marked i j' = 2 → j = j' := fun a b => h.prime_unique a b
            grind
          · exact ⟨row, col, rfl, by simp [set2], fun j hj => hnostar j ((hstar _ _).1 hj)⟩
          · refine ⟨fun i => if i = row then (Finset.univ.sup rk) + 1 else rk i, ?_⟩
            intro i c k h1 h2
            dsimp only at h1 h2 ⊢
            rw [hstar] at h2
            have hkrow : k ≠ row := by rintro rfl; exact hnostar _ h2
            have hle : rk k ≤ Finset.univ.sup rk := Finset.le_sup (Finset.mem_univ k)
            rw [if_neg hkrow]
            rcases (hprime i c).1 h1 with ⟨rfl, rfl⟩ | h1
            · obtain ⟨c', hc'⟩ := h.cov_prime (hcolstar k h2)
              refine ⟨⟨c', (hprime _ _).2 (Or.inr hc')⟩, ?_⟩
              rw [if_pos rfl]; omega
            · obtain ⟨h3, h4⟩ := hrk i c k h1 h2
              obtain ⟨c', hc'⟩ := h.cov_prime h3
              refine ⟨⟨c', (hprime _ _).2 (Or.inr hc')⟩, ?_⟩
              split <;> omega
      · -- cover the row, uncover the column of its star
        rename_i col' hnz1
        have hstar' : st.marked row col' = 1 := by
          have := nonzero1_head?_some hnz1
          exact (hstar _ _).1 (by simpa using this)
        set st' : State α n m := { st with
            marked := set2 st.marked row col 2
            rowUncovered := set1 st.rowUncovered row false
            colUncovered := set1 st.colUncovered col' true } with hst'
        have hInv : Inv4 st' := by
          refine ⟨?_, ?_, ?_, ?_, ?_, ?_, ?_, ?_, ?_⟩
          · refine ⟨fun {i j j'} h1 h2 => ?_, fun {i i' j} h1 h2 => ?_⟩
            · exact h.matching.row ((hstar _ _).1 h1) ((hstar _ _).1 h2)
            · exact h.matching.col ((hstar _ _).1 h1) ((hstar _ _).1 h2)
          · obtain ⟨i, hi⟩ := h.free
            exact ⟨i, fun j hj => hi j ((hstar _ _).1 hj)⟩
          · intro i j hij
            have hij := (hstar _ _).1 hij
            have h1 := h.star_cov hij
            have h2 := @Matching.row _ _ _ h.matching row col' j
            have h3 := @Matching.col _ _ _ h.matching row i col'
            simp only [hst', set1]
            grind
          · intro j hj
            have : ∀ i, st.marked i j ≠ 1 := fun i hi => hj i ((hstar _ _).2 hi)
            have := h.free_col this
            simp only [hst', set1]
            grind
          · intro i hi
            simp only [hst', set1] at hi
            split at hi
            · rename_i hir; subst hir
              exact ⟨col', (hstar _ _).2 hstar'⟩
            · obtain ⟨j, hj⟩ := h.cov_star hi
              exact ⟨j, (hstar _ _).2 hj⟩
          · intro i hi
            simp only [hst', set1] at hi
            split at hi
            · rename_i hir; subst hir
              exact ⟨col, (hprime _ _).2 (Or.inl ⟨rfl, rfl⟩)⟩
            · obtain ⟨j, hj⟩ := h.cov_prime hi
              exact ⟨j, (hprime _ _).2 (Or.inr hj)⟩
          · intro i hi j hj
            simp only [hst', set1] at hi
            split at hi
            · simp at hi
            · rename_i hir
              rcases (hprime _ _).1 hj with ⟨h1, _⟩ | h1
              · exact hir h1
              · exact h.unc_prime hi j h1
          · intro i j j' h1 h2
            simp only [hst'] at h1 h2
            rw [hprime] at h1 h2
            have hpu : st.marked i j = 2 → st.marked i j' = 2 → j = j' := fun a b => h.prime_unique a b
            grind
          · refine ⟨fun i => if i = row then (Finset.univ.sup rk) + 1 else rk i, ?_⟩
            intro i c k h1 h2
            replace h2 := (hstar _ _).1 h2
            have hle : rk k ≤ Finset.univ.sup rk := Finset.le_sup (Finset.mem_univ k)
            -- row itself was uncovered
            rcases (hprime i c).1 h1 with ⟨rfl, rfl⟩ | h1
            · have h3 := hcolstar k h2
              have hki : k ≠ i := by rintro rfl; rw [hrow] at h3; simp at h3
              refine ⟨?_, ?_⟩
              · simp only [hst', set1]; grind
              · dsimp only; rw [if_neg hki, if_pos rfl]; omega
            · obtain ⟨h3, h4⟩ := hrk i c k h1 h2
              have hki : k ≠ row := by rintro rfl; rw [hrow] at h3; simp at h3
              refine ⟨?_, ?_⟩
              · simp only [hst', set1]; grind
              · dsimp only; rw [if_neg hki]; split <;> omega
        have hV : V st' < V st := by
          unfold V
          apply Finset.card_lt_card
          rw [Finset.ssubset_iff_of_subset]
          · exact ⟨row, by simp [hrow], by simp [hst', set1]⟩
          · intro i hi
            simp only [hst', set1, Finset.mem_filter, Finset.mem_univ, true_and] at hi ⊢
            grind
        have := ih st' (fun i j => if i = row then false else if j = col' then
            decide (st.C i j = 0) && st'.rowUncovered i else cov i j) hInv ?_ (by omega)
        · obtain ⟨res, hres, hpost⟩ := this
          refine ⟨res, hres, Post4.trans (st' := st') rfl hstar ?_ hV hpost⟩
          intro i j hij
          rcases (hprime i j).1 hij with ⟨rfl, rfl⟩ | hij
          · exact Or.inr hC0
          · exact Or.inl hij
        · intro i j
          simp only [hst', set1, hcov]
          grind

theorem step4_spec (fuel : ℕ) (st : State α n m) (h : Inv4 st) (hf : n < fuel) :
    ∃ res, step4 fuel st = .ok res ∧ Post4 st res := by
  unfold step4
  exact step4Loop_spec fuel st _ h (fun _ _ => rfl) (by have := V_le st; omega)

end FBE.Hungarian
