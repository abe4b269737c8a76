import Verif.Proofs.HungarianOpt
import Mathlib.Algebra.Order.Ring.Abs
import Mathlib.Data.Real.Basic
import Mathlib.Tactic.Linarith
import Mathlib.Tactic.Positivity
import Mathlib.Tactic.Ring

/-! The Hungarian machine with rounded operations: approximate dual potentials as an invariant. -/

set_option linter.unusedSectionVars false

namespace FBE.Hungarian

variable {α : Type*} [LinearOrder α] [Zero α] [Add α] [Sub α] {n m : ℕ}

/-- Numbers with a rounded addition and subtraction: relative error at most `u`, and the result never jumps over
another number. -/
structure Rnd (val : α → ℝ) (u : ℝ) : Prop where
  u_nonneg : 0 ≤ u
  le_iff : ∀ {a b}, a ≤ b ↔ val a ≤ val b
  zero : val 0 = 0
  add_err : ∀ a b, |val (a + b) - (val a + val b)| ≤ u * |val a + val b|
  sub_err : ∀ a b, |val (a - b) - (val a - val b)| ≤ u * |val a - val b|
  add_ge : ∀ {a b c}, val c ≤ val a + val b → val c ≤ val (a + b)
  add_le : ∀ {a b c}, val a + val b ≤ val c → val (a + b) ≤ val c
  sub_ge : ∀ {a b c}, val c ≤ val a - val b → val c ≤ val (a - b)
  sub_le : ∀ {a b c}, val a - val b ≤ val c → val (a - b) ≤ val c

namespace Rnd

variable {val : α → ℝ} {u : ℝ}

theorem inj (h : Rnd val u) {a b : α} (hab : val a = val b) : a = b :=
  le_antisymm (h.le_iff.2 hab.le) (h.le_iff.2 hab.ge)

theorem sub_self (h : Rnd val u) (a : α) : a - a = 0 := by
  refine h.inj ?_
  have := h.sub_err a a
  rw [_root_.sub_self, abs_zero, mul_zero, sub_zero] at this
  rw [h.zero]
  exact abs_eq_zero.1 (le_antisymm this (abs_nonneg _))

theorem zero_add (h : Rnd val u) (a : α) : 0 + a = a := by
  refine h.inj (le_antisymm (h.add_le ?_) (h.add_ge ?_)) <;> rw [h.zero, _root_.zero_add]

end Rnd

/-! ### the bounds after `t` calls of `_step6` -/

/-- Growth of one call. -/
def qf (u : ℝ) : ℝ := (1 + 2 * u) * (1 + u)

/-- Entries of the columns without a star. -/
noncomputable def Rt (u D : ℝ) (t : ℕ) : ℝ := D * qf u ^ t

/-- All entries. -/
noncomputable def Mt (u D : ℝ) (t : ℕ) : ℝ := (t + 1) * (D * qf u ^ t)

/-- Accumulated error. -/
noncomputable def Et (u D : ℝ) (t : ℕ) : ℝ := u * (t + 1) ^ 2 * (D * qf u ^ t)

theorem qf_ge {u : ℝ} (hu : 0 ≤ u) : 1 + u ≤ qf u := by unfold qf; nlinarith

theorem Rt_nonneg {u D : ℝ} (hu : 0 ≤ u) (hD : 0 ≤ D) (t : ℕ) : 0 ≤ Rt u D t := by
  unfold Rt qf; positivity

theorem Mt_eq {u D : ℝ} (t : ℕ) : Mt u D t = (t + 1) * Rt u D t := rfl

theorem Rt_le_Mt {u D : ℝ} (hu : 0 ≤ u) (hD : 0 ≤ D) (t : ℕ) : Rt u D t ≤ Mt u D t := by
  rw [Mt_eq]
  have := Rt_nonneg hu hD t
  have h2 : (0 : ℝ) ≤ t := Nat.cast_nonneg t
  nlinarith

theorem Rt_succ {u D : ℝ} (t : ℕ) : Rt u D (t + 1) = qf u * Rt u D t := by
  unfold Rt; rw [pow_succ]; ring

theorem Mt_succ {u D : ℝ} (t : ℕ) : Mt u D (t + 1) = qf u * (Mt u D t + Rt u D t) := by
  rw [Mt_eq, Mt_eq, Rt_succ]; push_cast; ring

theorem Et_succ {u D : ℝ} (hu : 0 ≤ u) (hD : 0 ≤ D) (t : ℕ) :
    Et u D t + u * (2 * Mt u D t + Rt u D t) * (1 + u) ≤ Et u D (t + 1) := by
  have h0 := Rt_nonneg hu hD t
  have hq := qf_ge hu
  have e1 : Et u D t = u * (t + 1) ^ 2 * Rt u D t := rfl
  have e2 : Et u D (t + 1) = u * (t + 2) ^ 2 * (qf u * Rt u D t) := by
    show u * ((t + 1 : ℕ) + 1) ^ 2 * Rt u D (t + 1) = _
    rw [Rt_succ]; push_cast; ring
  rw [e1, e2, Mt_eq]
  have h1 : 0 ≤ u * (t + 1) ^ 2 * Rt u D t := by positivity
  have h2 : 0 ≤ u * (2 * t + 3) * Rt u D t := by positivity
  have h3 : u * (t + 1) ^ 2 * Rt u D t ≤ qf u * (u * (t + 1) ^ 2 * Rt u D t) := by nlinarith
  have h4 : (1 + u) * (u * (2 * t + 3) * Rt u D t) ≤ qf u * (u * (2 * t + 3) * Rt u D t) := by nlinarith
  nlinarith

theorem Et_mono {u D : ℝ} (hu : 0 ≤ u) (hD : 0 ≤ D) : Monotone (Et u D) := by
  refine monotone_nat_of_le_succ fun t => ?_
  have := Et_succ hu hD t
  have h1 := Rt_nonneg hu hD t
  have h2 := h1.trans (Rt_le_Mt hu hD t)
  have : 0 ≤ u * (2 * Mt u D t + Rt u D t) * (1 + u) := by positivity
  linarith

/-! ### the invariant -/

/-- Dual potentials certifying the current state up to the error. -/
structure NumR (val : α → ℝ) (u D : ℝ) (cost : Fin n → Fin m → α) (t : ℕ) (st : State α n m)
    (y : Fin n → ℝ) (v : Fin m → ℝ) : Prop where
  close : ∀ i j, |val (st.C i j) - (val (cost i j) - y i - v j)| ≤ Et u D t
  nonneg : ∀ i j, 0 ≤ val (st.C i j)
  v_nonpos : ∀ j, v j ≤ 0
  v_star : ∀ j, v j < 0 → ∃ i, st.marked i j = 1
  star : ∀ i j, st.marked i j = 1 → st.C i j = 0
  prime : ∀ i j, st.marked i j = 2 → st.C i j = 0
  free : ∀ i j, (∀ k, st.marked k j ≠ 1) → val (st.C i j) ≤ Rt u D t
  all : ∀ i j, val (st.C i j) ≤ Mt u D t

variable {val : α → ℝ} {u D : ℝ}

theorem rowMin_mem (C : Fin n → Fin m → α) (i) (j : Fin m) : ∃ k, rowMin C i = C i k := by
  unfold rowMin
  cases hm : ((List.finRange m).map (C i)).min? with
  | none =>
    rw [List.min?_eq_none_iff, List.map_eq_nil_iff] at hm
    have := List.mem_finRange j
    rw [hm] at this
    simp at this
  | some a =>
    rw [List.min?_eq_some_iff] at hm
    obtain ⟨k, _, hk⟩ := List.mem_map.1 hm.1
    exact ⟨k, hk.symm⟩

theorem rowMin_le' (C : Fin n → Fin m → α) (i j) : rowMin C i ≤ C i j := by
  unfold rowMin
  cases hm : ((List.finRange m).map (C i)).min? with
  | none =>
    rw [List.min?_eq_none_iff, List.map_eq_nil_iff] at hm
    have := List.mem_finRange j
    rw [hm] at this
    simp at this
  | some a =>
    rw [List.min?_eq_some_iff] at hm
    exact hm.2 _ (List.mem_map.2 ⟨j, List.mem_finRange j, rfl⟩)

theorem numR_step1 (h : Rnd val u) {cost : Fin n → Fin m → α}
    (hD : ∀ i j k, val (cost i j) - val (cost i k) ≤ D) :
    ∃ y v, NumR val u (D * (1 + u)) cost 0 (step1 (initState cost)).1 y v := by
  have hu := h.u_nonneg
  have hC : ∀ i j, (step1 (initState cost)).1.C i j = cost i j - rowMin cost i := fun i j => by
    simp only [step1, clearCovers, foldl_starZero_C, initState]
  have hb : ∀ i j, 0 ≤ val (cost i j) - val (rowMin cost i) ∧ val (cost i j) - val (rowMin cost i) ≤ D := by
    intro i j
    obtain ⟨k, hk⟩ := rowMin_mem cost i j
    refine ⟨sub_nonneg.2 (h.le_iff.1 (rowMin_le' cost i j)), ?_⟩
    rw [hk]; exact hD i j k
  have herr : ∀ i j, |val (cost i j - rowMin cost i) - (val (cost i j) - val (rowMin cost i))| ≤ u * D := by
    intro i j
    refine (h.sub_err _ _).trans (mul_le_mul_of_nonneg_left ?_ hu)
    rw [abs_of_nonneg (hb i j).1]; exact (hb i j).2
  have hall : ∀ i j, val (cost i j - rowMin cost i) ≤ D * (1 + u) := by
    intro i j
    have := (abs_le.1 (herr i j)).2
    have := (hb i j).2
    linarith
  refine ⟨fun i => val (rowMin cost i), fun _ => 0, ?_, ?_, fun _ => le_rfl, ?_, ?_, ?_, ?_, ?_⟩
  · intro i j
    rw [hC, sub_zero]
    refine (herr i j).trans ?_
    have : 0 ≤ D := (hb i j).1.trans (hb i j).2
    unfold Et
    simp only [Nat.cast_zero, _root_.zero_add, one_pow, mul_one, pow_zero]
    nlinarith [mul_nonneg hu (mul_nonneg this hu)]
  · intro i j
    rw [hC]
    have := h.sub_ge (a := cost i j) (b := rowMin cost i) (c := 0) (by rw [h.zero]; exact (hb i j).1)
    rwa [h.zero] at this
  · intro j hj
    exact absurd hj (lt_irrefl _)
  · intro i j hij
    simp only [step1, clearCovers, foldl_starZero_C] at hij ⊢
    rcases foldl_starZero_mem _ _ hij with h | h
    · simp [initState] at h
    · rw [mem_nonzero2] at h
      simpa using h
  · intro i j hij
    have := (step1_inv (α := α) (st := initState cost)
      ⟨fun _ _ => rfl, fun _ => rfl, fun _ => rfl, Nat.pos_of_ne_zero (by rintro rfl; exact j.elim0)⟩).no_prime i j
    exact absurd hij this
  · intro i j _
    rw [hC]
    simpa [Rt] using hall i j
  · intro i j
    rw [hC]
    simpa [Mt] using hall i j

/-- One addition followed by one subtraction of the same number. -/
theorem Rnd.add_sub (h : Rnd val u) {c v : α} {M R : ℝ} (hc0 : 0 ≤ val c) (hv0 : 0 ≤ val v) (hc : val c ≤ M)
    (hv : val v ≤ R) :
    |val (c + v - v) - val c| ≤ u * (2 * M + R) * (1 + u) ∧ 0 ≤ val (c + v - v) ∧
      val (c + v - v) ≤ (M + u * (M + R)) * (1 + u) := by
  have hu := h.u_nonneg
  have e1 := h.add_err c v
  rw [abs_of_nonneg (by linarith : 0 ≤ val c + val v)] at e1
  have e1' : u * (val c + val v) ≤ u * (M + R) := mul_le_mul_of_nonneg_left (by linarith) hu
  have hge : val v ≤ val (c + v) := h.add_ge (by linarith)
  have e2 := h.sub_err (c + v) v
  rw [abs_of_nonneg (by linarith : 0 ≤ val (c + v) - val v)] at e2
  have hup : val (c + v) - val v ≤ M + u * (M + R) := by linarith [(abs_le.1 e1).2]
  have e2' : u * (val (c + v) - val v) ≤ u * (M + u * (M + R)) := mul_le_mul_of_nonneg_left hup hu
  have hM : 0 ≤ M := hc0.trans hc
  have hR : 0 ≤ R := hv0.trans hv
  refine ⟨?_, ?_, ?_⟩
  · have := abs_le.1 e1
    have := abs_le.1 e2
    have hx : u * (M + R) + u * (M + u * (M + R)) ≤ u * (2 * M + R) * (1 + u) := by
      nlinarith [mul_nonneg (mul_nonneg hu hu) hM]
    rw [abs_le]
    constructor <;> linarith
  · have := h.sub_ge (a := c + v) (b := v) (c := 0) (by rw [h.zero]; linarith)
    rwa [h.zero] at this
  · have := (abs_le.1 e2).2
    linarith

theorem numR_step6 (h : Rnd val u) (hD0 : 0 ≤ D) {cost : Fin n → Fin m → α} {t : ℕ} {st : State α n m} (hI : Inv4 st)
    (hnm : n ≤ m) {y v} (hN : NumR val u D cost t st y v) {res mv} (hP : Post6 st res mv) :
    ∃ y v, NumR val u D cost (t + 1) res.1 y v := by
  have hu := h.u_nonneg
  obtain ⟨hC, hnn, hv, hvs, hs, hp, hfree, hall⟩ := hN
  have hmv : 0 ≤ val mv := by
    obtain ⟨i, j, _, _, h3⟩ := hP.attained
    rw [← h3]; exact hnn i j
  have hRn := Rt_nonneg hu hD0 t
  have hRM := Rt_le_Mt hu hD0 t
  have hMn := hRn.trans hRM
  have hmvR : val mv ≤ Rt u D t := by
    -- a column without a star is uncovered, and so is a row
    obtain ⟨⟨i, hi⟩, -⟩ := hI.uncovered hnm
    have : ∃ j, ∀ k, st.marked k j ≠ 1 := by
      by_contra hcon
      push Not at hcon
      choose f hf using hcon
      have hinj : Function.Injective f := by
        intro a b hab
        have h1 := hf a
        have h2 := hf b
        rw [hab] at h1
        exact hI.matching.row h1 h2
      have hcard := Fintype.card_le_of_injective f hinj
      simp only [Fintype.card_fin] at hcard
      obtain rfl : n = m := by omega
      obtain ⟨k, hk⟩ := hI.free
      obtain ⟨j, hj⟩ := Finite.injective_iff_surjective.1 hinj k
      exact hk j (hj ▸ hf j)
    obtain ⟨j, hj⟩ := this
    exact (h.le_iff.1 (hP.lower i j hi (hI.free_col hj))).trans (hfree i j hj)
  have hprimecol : ∀ i c, st.marked i c = 2 → st.colUncovered c = true := by
    intro i c hic
    by_cases hstar : ∃ k, st.marked k c = 1
    · obtain ⟨k, hk⟩ := hstar
      obtain ⟨rk, hrk⟩ := hI.rank
      have := hI.star_cov hk
      rw [(hrk i c k hic hk).1] at this
      simpa using this
    · exact hI.free_col (by simpa using hstar)
  have hE := Et_succ hu hD0 t
  have hEpos : 0 ≤ u * (2 * Mt u D t + Rt u D t) * (1 + u) := by positivity
  have hq := qf_ge hu
  have hMsucc : Mt u D t ≤ Mt u D (t + 1) := by
    rw [Mt_succ]; nlinarith
  have hsmall : u * (Mt u D t + Rt u D t) ≤ u * (2 * Mt u D t + Rt u D t) * (1 + u) := by
    have : u * (Mt u D t + Rt u D t) ≤ u * (2 * Mt u D t + Rt u D t) :=
      mul_le_mul_of_nonneg_left (by linarith) hu
    have h0 : 0 ≤ u * (2 * Mt u D t + Rt u D t) := by positivity
    nlinarith
  -- the four kinds of cells
  have hcell : ∀ i j, |val (res.1.C i j) - (val (st.C i j)
        - (if st.rowUncovered i then val mv else 0) + (if st.colUncovered j then 0 else val mv))|
          ≤ u * (2 * Mt u D t + Rt u D t) * (1 + u) ∧ 0 ≤ val (res.1.C i j) ∧
      val (res.1.C i j) ≤ Mt u D (t + 1) ∧
      ((∀ k, st.marked k j ≠ 1) → val (res.1.C i j) ≤ Rt u D (t + 1)) := by
    intro i j
    rw [hP.C_eq]
    have h1 := hnn i j
    have h2 := hall i j
    have h3 : (∀ k, st.marked k j ≠ 1) → st.colUncovered j = true := hI.free_col
    cases hr : st.rowUncovered i <;> cases hc : st.colUncovered j
    · -- covered row, covered column
      simp only [Bool.false_eq_true, if_false, sub_zero]
      have e := h.add_err (st.C i j) mv
      rw [abs_of_nonneg (by linarith : 0 ≤ val (st.C i j) + val mv)] at e
      have e' : u * (val (st.C i j) + val mv) ≤ u * (Mt u D t + Rt u D t) :=
        mul_le_mul_of_nonneg_left (by linarith) hu
      refine ⟨by linarith, ?_, ?_, fun hcon => ?_⟩
      · have := h.add_ge (a := st.C i j) (b := mv) (c := 0) (by rw [h.zero]; linarith)
        rwa [h.zero] at this
      · rw [Mt_succ]
        have := (abs_le.1 e).2
        nlinarith
      · rw [h3 hcon] at hc; simp at hc
    · -- covered row, uncovered column
      simp only [Bool.false_eq_true, if_false, if_true, sub_zero, add_zero]
      obtain ⟨a1, a2, a3⟩ := h.add_sub h1 hmv h2 hmvR
      refine ⟨a1, a2, a3.trans ?_, fun hcon => ?_⟩
      · rw [Mt_succ]; unfold qf
        nlinarith [mul_nonneg hu hMn, mul_nonneg hu hRn, mul_nonneg (mul_nonneg hu hu) hMn,
          mul_nonneg (mul_nonneg hu hu) hRn]
      · obtain ⟨-, -, b3⟩ := h.add_sub h1 hmv (hfree i j hcon) hmvR
        refine b3.trans (le_of_eq ?_)
        rw [Rt_succ]; unfold qf; ring
    · -- uncovered row, covered column
      simp only [Bool.false_eq_true, if_false, if_true]
      refine ⟨by rw [show val (st.C i j) - (val (st.C i j) - val mv + val mv) = 0 by ring, abs_zero]; exact hEpos,
        h1, h2.trans hMsucc, fun hcon => ?_⟩
      rw [h3 hcon] at hc; simp at hc
    · -- uncovered row, uncovered column
      simp only [if_true, add_zero]
      have hle := h.le_iff.1 (hP.lower i j hr hc)
      have e := h.sub_err (st.C i j) mv
      rw [abs_of_nonneg (by linarith : 0 ≤ val (st.C i j) - val mv)] at e
      have e' : u * (val (st.C i j) - val mv) ≤ u * (Mt u D t + Rt u D t) :=
        mul_le_mul_of_nonneg_left (by linarith) hu
      have hdec : val (st.C i j - mv) ≤ val (st.C i j) := h.sub_le (by linarith)
      refine ⟨by linarith, ?_, hdec.trans (h2.trans hMsucc), fun hcon => hdec.trans ((hfree i j hcon).trans ?_)⟩
      · have := h.sub_ge (a := st.C i j) (b := mv) (c := 0) (by rw [h.zero]; linarith)
        rwa [h.zero] at this
      · rw [Rt_succ]; nlinarith
  refine ⟨fun i => if st.rowUncovered i then y i + val mv else y i,
    fun j => if st.colUncovered j then v j else v j - val mv, ?_, ?_, ?_, ?_, ?_, ?_, ?_, ?_⟩
  · intro i j
    have e1 := (hcell i j).1
    have e2 := hC i j
    rw [abs_le] at e1 e2 ⊢
    cases hr : st.rowUncovered i <;> cases hc : st.colUncovered j <;>
      simp only [hr, hc, Bool.false_eq_true, if_false, if_true] at e1 ⊢ <;> constructor <;> linarith
  · exact fun i j => (hcell i j).2.1
  · intro j
    split
    · exact hv j
    · exact sub_nonpos.2 ((hv j).trans hmv)
  · intro j hj
    rw [hP.marked]
    split at hj
    · exact hvs j hj
    · rename_i hc
      by_contra hcon
      exact hc (hI.free_col (by simpa using hcon))
  · intro i j hij
    rw [hP.marked] at hij
    rw [hP.C_eq]
    have h1 := hI.star_cov hij
    have h2 := hs i j hij
    cases hr : st.rowUncovered i <;> simp [hr] at h1 <;> simp [h1, h2, h.zero_add, h.sub_self]
  · intro i j hij
    rw [hP.marked] at hij
    rw [hP.C_eq]
    have h1 := hprimecol i j hij
    have h2 := hp i j hij
    have h3 : st.rowUncovered i = false := by
      by_contra hc
      exact hI.unc_prime (by simpa using hc) j hij
    simp [h1, h2, h3, h.zero_add, h.sub_self]
  · intro i j hj
    rw [hP.marked] at hj
    exact (hcell i j).2.2.2 hj
  · exact fun i j => (hcell i j).2.2.1

/-! ### at most `n * n` calls of `_step6` -/

open Classical in
/-- A bound on the number of calls of `_step6` that are still to come. -/
noncomputable def κ (nx : Next) (st : State α n m) : ℕ :=
  match nx with
  | .step1 => n * n
  | .step3 => U st.marked * n
  | .step4 => (U st.marked - 1) * n + if HasZero st then V st - 1 else V st
  | .step5 => (U st.marked - 1) * n
  | .step6 => (U st.marked - 1) * n + V st
  | .done => 0

theorem Inv4.U_pos {st : State α n m} (h : Inv4 st) : 0 < U st.marked := U_pos_iff.2 h.free

theorem Inv4.V_pos {st : State α n m} (h : Inv4 st) (hnm : n ≤ m) : 0 < V st := by
  obtain ⟨⟨i, hi⟩, -⟩ := h.uncovered hnm
  unfold V
  exact Finset.card_pos.2 ⟨i, by simpa using hi⟩

theorem numR_step (h : Rnd val u) (hD0 : 0 ≤ D) {cost : Fin n → Fin m → α} {fuel nx} {st : State α n m}
    (hnx : nx ≠ .done) (hnx1 : nx ≠ .step1) (hI : Inv nx st) {t : ℕ} {y v} (hN : NumR val u D cost t st y v)
    (hnm : n ≤ m) (hf : n < fuel) {res} (hres : stepFn fuel nx st = .ok res) :
    res.2 ≠ .step1 ∧ ∃ t' y v, t' + κ res.2 res.1 ≤ t + κ nx st ∧ NumR val u D cost t' res.1 y v := by
  have hN' := hN
  obtain ⟨hC, hnn, hv, hvs, hs, hp, hfree, hall⟩ := hN
  cases nx with
  | done => exact absurd rfl hnx
  | step1 => exact absurd rfl hnx1
  | step3 =>
    obtain ⟨hI', _, h1, h2, h3⟩ := step3_inv hI
    simp only [stepFn, Except.ok.injEq] at hres
    subst hres
    refine ⟨by rcases h3 with h3 | h3 <;> rw [h3] <;> simp, t, y, v, ?_, by rw [h1]; exact hC,
      by rw [h1]; exact hnn, hv, by rw [h2]; exact hvs, by rw [h1, h2]; exact hs, by rw [h1, h2]; exact hp,
      by rw [h1, h2]; exact hfree, by rw [h1]; exact hall⟩
    rcases h3 with h3 | h3
    · rw [h3] at hI' ⊢
      have hU := Inv4.U_pos hI'
      rw [h2] at hU
      have hV := V_le (step3 st).1
      simp only [κ, h2]
      have : (U st.marked - 1) * n + n = U st.marked * n := by
        rw [← Nat.succ_mul]; congr 1; omega
      split <;> omega
    · rw [h3]; simp [κ]
  | step4 =>
    obtain ⟨res', hres', hP⟩ := step4_spec fuel st hI hf
    simp only [stepFn] at hres
    rw [hres'] at hres
    simp only [Except.ok.injEq] at hres
    subst hres
    have hU := U_congr hP.stars
    refine ⟨?_, t, y, v, ?_, by rw [hP.C_eq]; exact hC, by rw [hP.C_eq]; exact hnn, hv, ?_, ?_, ?_, ?_,
      by rw [hP.C_eq]; exact hall⟩
    · rcases hP.next with h3 | h3 <;> rw [h3.1] <;> simp
    · rcases hP.next with ⟨h1, h2, h3, h4⟩ | ⟨h1, h2⟩
      · rw [h1]
        simp only [κ, hU]
        split
        · rename_i hz; have := h4 hz; omega
        · omega
      · rw [h1]
        simp only [κ, hU]
        omega
    · intro j hj
      obtain ⟨i, hi⟩ := hvs j hj
      exact ⟨i, (hP.stars i j).2 hi⟩
    · intro i j hij
      rw [hP.C_eq]
      exact hs i j ((hP.stars i j).1 hij)
    · intro i j hij
      rw [hP.C_eq]
      rcases hP.primes i j hij with h | h
      · exact hp i j h
      · exact h
    · intro i j hj
      rw [hP.C_eq]
      exact hfree i j fun k hk => hj k ((hP.stars k j).2 hk)
  | step5 =>
    obtain ⟨res', hres', hP⟩ := step5_spec st hI
    simp only [stepFn] at hres
    rw [hres'] at hres
    simp only [Except.ok.injEq] at hres
    subst hres
    refine ⟨by rw [hP.next]; simp, t, y, v, ?_, by rw [hP.C_eq]; exact hC, by rw [hP.C_eq]; exact hnn, hv, ?_, ?_,
      ?_, ?_, by rw [hP.C_eq]; exact hall⟩
    · rw [hP.next]
      simp only [κ]
      have := hP.U_lt
      have : U res'.1.marked * n ≤ (U st.marked - 1) * n := Nat.mul_le_mul_right _ (by omega)
      omega
    · intro j hj
      obtain ⟨i, hi⟩ := hvs j hj
      exact hP.star_col i j hi
    · intro i j hij
      rw [hP.C_eq]
      rcases hP.star_of i j hij with h | h
      · exact hs i j h
      · exact hp i j h
    · intro i j hij
      exact absurd hij (hP.inv.no_prime i j)
    · intro i j hj
      rw [hP.C_eq]
      refine hfree i j fun k hk => ?_
      obtain ⟨i', hi'⟩ := hP.star_col k j hk
      exact hj i' hi'
  | step6 =>
    obtain ⟨res', mv, hres', hP⟩ := step6_spec st hI hnm
    simp only [stepFn] at hres
    rw [hres'] at hres
    simp only [Except.ok.injEq] at hres
    subst hres
    obtain ⟨y', v', hN1⟩ := numR_step6 h hD0 hI hnm hN' hP
    refine ⟨by rw [hP.next]; simp, t + 1, y', v', ?_, hN1⟩
    rw [hP.next]
    have hz : HasZero res'.1 := by
      obtain ⟨i, j, h1, h2, h3⟩ := hP.attained
      refine ⟨i, j, by rw [hP.row]; exact h1, by rw [hP.col]; exact h2, ?_⟩
      rw [hP.C_eq, if_pos h2, if_pos h1, h3, h.sub_self]
    have hV : V res'.1 = V st := by unfold V; rw [hP.row]
    have hVp := Inv4.V_pos hI hnm
    simp only [κ, hP.marked, hz, if_true, hV]
    omega

theorem run_numR (h : Rnd val u) (hD0 : 0 ≤ D) {cost : Fin n → Fin m → α} (inner : ℕ) (hnm : n ≤ m) (hf : n < inner)
    (fuel : ℕ) (nx : Next) (st : State α n m) (hI : Inv nx st) (hnx : nx ≠ .step1) {t : ℕ} {y v}
    (hN : NumR val u D cost t st y v) {st'} (hr : run inner fuel nx st = .ok st') :
    ∃ t' y v, t' ≤ t + κ nx st ∧ NumR val u D cost t' st' y v := by
  induction fuel generalizing nx st t y v with
  | zero =>
    cases nx <;> simp [run] at hr
    subst hr; exact ⟨t, y, v, Nat.le_add_right _ _, hN⟩
  | succ fuel ih =>
    by_cases hd : nx = .done
    · subst hd
      simp only [run, Except.ok.injEq] at hr
      subst hr; exact ⟨t, y, v, Nat.le_add_right _ _, hN⟩
    · obtain ⟨res, h1, h2, h3⟩ := stepFn_ok h.sub_self inner nx st hd hI hnm hf
      have hrr : run inner (fuel + 1) nx st = run inner fuel res.2 res.1 := by
        cases nx <;> first | exact absurd rfl hd | (simp only [run]; rw [h1])
      rw [hrr] at hr
      obtain ⟨hx, t1, y1, v1, hk, hN1⟩ := numR_step h hD0 hd hnx hI hN hnm hf h1
      obtain ⟨t2, y2, v2, hk2, hN2⟩ := ih _ _ h2 hx hN1 hr
      exact ⟨t2, y2, v2, by omega, hN2⟩

/-- Approximate duality certificate delivered by the solver: a matrix close to the cost matrix for which the result
is certified. -/
theorem solveMarked_numR (h : Rnd val u) (hnm : n ≤ m) (cost : Fin n → Fin m → α) (hD0 : 0 ≤ D)
    (hD : ∀ i j k, val (cost i j) - val (cost i k) ≤ D) (fuel : ℕ) (hf : fuelBound n ≤ fuel) :
    ∃ mk, solveMarked fuel cost = .ok mk ∧ Matching mk ∧ (∀ i, ∃ j, mk i j = 1) ∧
      ∃ (x : Fin n → Fin m → ℝ) (y : Fin n → ℝ) (v : Fin m → ℝ),
        (∀ i j, |x i j - val (cost i j)| ≤ Et u (D * (1 + u)) (n * n)) ∧
        (∀ i j, y i + v j ≤ x i j) ∧ (∀ j, v j ≤ 0) ∧
        (∀ j, v j < 0 → ∃ i, mk i j = 1) ∧ (∀ i j, mk i j = 1 → x i j = y i + v j) := by
  obtain ⟨mk, h1, h2, h3⟩ := solveMarked_ok h.sub_self hnm cost fuel hf
  refine ⟨mk, h1, h2, h3, ?_⟩
  by_cases h0 : n = 0 ∨ m = 0
  · have hn : n = 0 := by omega
    subst hn
    exact ⟨fun _ _ => 0, fun _ => 0, fun _ => 0, fun i => i.elim0, fun i => i.elim0, fun _ => le_rfl,
      fun j hj => absurd hj (lt_irrefl _), fun i => i.elim0⟩
  · have hrun : ∃ st', run fuel fuel .step1 (initState cost) = .ok st' ∧ st'.marked = mk := by
      unfold solveMarked at h1
      rw [if_neg h0] at h1
      dsimp only at h1
      cases hr : run fuel fuel .step1 (initState cost) with
      | error e => rw [hr] at h1; simp at h1
      | ok st' => rw [hr] at h1; simp only [Except.ok.injEq] at h1; exact ⟨st', rfl, h1⟩
    obtain ⟨st', hrun, hmk⟩ := hrun
    have hI : Inv .step1 (initState cost) :=
      ⟨fun _ _ => rfl, fun _ => rfl, fun _ => rfl, by omega⟩
    have hfn : n < fuel := by unfold fuelBound at hf; omega
    have hu := h.u_nonneg
    have hD1 : 0 ≤ D * (1 + u) := by positivity
    obtain ⟨y0, v0, hN0⟩ := numR_step1 h hD
    have hN : ∃ t y v, t ≤ n * n ∧ NumR val u (D * (1 + u)) cost t st' y v := by
      cases fuel with
      | zero => omega
      | succ f =>
        simp only [run, stepFn] at hrun
        obtain ⟨t, y, v, ht, hN⟩ := run_numR h hD1 (f + 1) hnm hfn f (step1 (initState cost)).2 _ (step1_inv hI)
          (by simp [step1]) hN0 hrun
        refine ⟨t, y, v, ht.trans ?_, hN⟩
        show 0 + U (step1 (initState cost)).1.marked * n ≤ n * n
        rw [Nat.zero_add]
        exact Nat.mul_le_mul_right _ (U_le _)
    obtain ⟨t, y, v, ht, hC, hnn, hv, hvs, hs, -, -, -⟩ := hN
    subst hmk
    refine ⟨fun i j => val (st'.C i j) + y i + v j, y, v, ?_, ?_, hv, hvs, ?_⟩
    · intro i j
      have := (hC i j).trans (Et_mono hu hD1 ht)
      rw [abs_le] at this ⊢
      constructor <;> linarith
    · intro i j
      have := hnn i j
      linarith
    · intro i j hij
      dsimp only
      rw [hs i j hij, h.zero]
      ring

/-! ### from the certificate to the total cost -/

theorem total_close {r c : ℕ} {x z : Fin r → Fin c → ℝ} {e : ℝ} (h : ∀ i j, |x i j - z i j| ≤ e)
    (l : List (Fin r × Fin c)) : |Spec.total x l - Spec.total z l| ≤ l.length * e := by
  induction l with
  | nil => simp [Spec.total]
  | cons a l ih =>
    have e1 : Spec.total x (a :: l) = x a.1 a.2 + Spec.total x l := by simp [Spec.total]
    have e2 : Spec.total z (a :: l) = z a.1 a.2 + Spec.total z l := by simp [Spec.total]
    have h3 := h a.1 a.2
    rw [e1, e2, List.length_cons]
    push_cast
    rw [abs_le] at ih h3 ⊢
    constructor <;> linarith

/-- The assignment of the rounded machine is optimal for a matrix close to the cost matrix. -/
theorem lsa_optimal_near (h : Rnd val u) {r c : ℕ} (cost : Fin r → Fin c → α) (hD0 : 0 ≤ D)
    (hD : ∀ i j i' j', val (cost i j) - val (cost i' j') ≤ D) (fuel : ℕ) (hf : fuelBound (min r c) ≤ fuel) :
    ∃ l, linearSumAssignment fuel cost = .ok l ∧ ∃ x : Fin r → Fin c → ℝ,
      (∀ i j, |x i j - val (cost i j)| ≤ Et u (D * (1 + u)) (min r c * min r c)) ∧ Spec.IsOptimal x l := by
  unfold linearSumAssignment
  split
  · rename_i hlt
    rw [min_eq_right hlt.le] at hf ⊢
    obtain ⟨mk, h1, h2, h3, x, y, v, hx, h4, h5, h6, h7⟩ :=
      solveMarked_numR h hlt.le (fun j i => cost i j) hD0 (fun i j k => hD _ _ _ _) fuel hf
    rw [h1]
    have hA := stars_assignment_T h2 h3 hlt.le
    refine ⟨_, rfl, fun i j => x j i, fun i j => hx j i, hA, fun l' hl' => ?_⟩
    have e1 := dual_attained (cost := x) h5 h6 h7
      ((nonzero2 fun i j => mk j i == 1).map Prod.swap)
      (by rw [List.map_map]; exact hA.cols_nodup) (by rw [List.map_map]; exact IsAssignment.fst_nodup hA)
      (by rw [List.length_map, hA.length_eq]; omega)
      (by
        intro i j
        rw [List.mem_map]
        constructor
        · rintro ⟨⟨a, b⟩, hm, heq⟩
          simp only [Prod.swap_prod_mk, Prod.mk.injEq] at heq
          obtain ⟨rfl, rfl⟩ := heq
          simpa using hm
        · intro hm
          exact ⟨(j, i), by simpa using hm, rfl⟩)
    have e2 := dual_lower (cost := x) h4 h5 (l'.map Prod.swap)
      (by rw [List.map_map]; exact hl'.cols_nodup) (by rw [List.map_map]; exact IsAssignment.fst_nodup hl')
      (by rw [List.length_map, hl'.length_eq]; omega)
    rw [total_swap fun i j => x j i] at e1 e2
    rw [e1]
    exact e2
  · rename_i hlt
    rw [min_eq_left (by omega)] at hf ⊢
    obtain ⟨mk, h1, h2, h3, x, y, v, hx, h4, h5, h6, h7⟩ :=
      solveMarked_numR h (by omega) cost hD0 (fun i j k => hD _ _ _ _) fuel hf
    rw [h1]
    have hA := stars_assignment h2 h3 (by omega)
    refine ⟨_, rfl, x, hx, hA, fun l' hl' => ?_⟩
    rw [dual_attained h5 h6 h7 _ (IsAssignment.fst_nodup hA) hA.cols_nodup
      (by rw [hA.length_eq]; omega) (by intro i j; simp)]
    exact dual_lower h4 h5 l' (IsAssignment.fst_nodup hl') hl'.cols_nodup
      (by rw [hl'.length_eq]; omega)

end FBE.Hungarian
