import Verif.Model.Helpers
import Verif.Spec.Perm
import Verif.Proofs.HungarianFuel
import Mathlib.Tactic.LinearCombination
import Mathlib.Tactic.Positivity
import Mathlib.Tactic.FieldSimp

/-! `_linear_sum_assignment_with_inf`: the place-holder arithmetic. -/

namespace FBE

open Classical XR Spec

variable {r c : ℕ}

@[simp] theorem anyEntry_iff {β : Type*} (p : β → Bool) (x : Fin r → Fin c → β) :
    anyEntry p x = true ↔ ∃ i j, p (x i j) = true := by
  simp [anyEntry, List.any_eq_true]

@[simp] theorem isNegInf_iff {x : XR} : x.isNegInf = true ↔ x = ninf := by
  cases x <;> simp [isNegInf]
@[simp] theorem isPosInf_iff {x : XR} : x.isPosInf = true ↔ x = pinf := by
  cases x <;> simp [isPosInf]
@[simp] theorem isNan_iff {x : XR} : x.isNan = true ↔ x = nan := by
  cases x <;> simp [isNan]
@[simp] theorem isInf_iff {x : XR} : x.isInf = true ↔ x = pinf ∨ x = ninf := by
  cases x <;> simp [isInf]

theorem mem_nonInfValues {cost : Fin r → Fin c → XR} {x : XR} :
    x ∈ nonInfValues cost ↔ (∃ i j, cost i j = x) ∧ x.isInf = false := by
  unfold nonInfValues
  rw [List.mem_map]
  constructor
  · rintro ⟨⟨i, j⟩, h, rfl⟩
    rw [mem_nonzero2] at h
    exact ⟨⟨i, j, rfl⟩, by simpa using h⟩
  · rintro ⟨⟨i, j, rfl⟩, h⟩
    exact ⟨(i, j), by simpa using h, rfl⟩

theorem exists_map_fin (l : List XR) (h : ∀ x ∈ l, ∃ a, x = fin a) :
    ∃ l' : List ℝ, l = l'.map fin := by
  induction l with
  | nil => exact ⟨[], rfl⟩
  | cons a l ih =>
    obtain ⟨l', hl'⟩ := ih fun x hx => h x (List.mem_cons_of_mem _ hx)
    obtain ⟨b, rfl⟩ := h a List.mem_cons_self
    exact ⟨b :: l', by simp [hl']⟩

theorem foldl_min2_fin (l : List ℝ) (a : ℝ) :
    ∃ m, (l.map fin).foldl min2 (fin a) = fin m ∧ m ≤ a ∧ ∀ x ∈ l, m ≤ x := by
  induction l generalizing a with
  | nil => exact ⟨a, rfl, le_rfl, by simp⟩
  | cons b l ih =>
    obtain ⟨m, h1, h2, h3⟩ := ih (min a b)
    refine ⟨m, h1, h2.trans (min_le_left _ _), ?_⟩
    intro x hx
    rcases List.mem_cons.1 hx with rfl | hx
    · exact h2.trans (min_le_right _ _)
    · exact h3 x hx

theorem foldl_max2_fin (l : List ℝ) (a : ℝ) :
    ∃ m, (l.map fin).foldl max2 (fin a) = fin m ∧ a ≤ m ∧ ∀ x ∈ l, x ≤ m := by
  induction l generalizing a with
  | nil => exact ⟨a, rfl, le_rfl, by simp⟩
  | cons b l ih =>
    obtain ⟨m, h1, h2, h3⟩ := ih (max a b)
    refine ⟨m, h1, (le_max_left _ _).trans h2, ?_⟩
    intro x hx
    rcases List.mem_cons.1 hx with rfl | hx
    · exact (le_max_right _ _).trans h2
    · exact h3 x hx

theorem xMin_fin (e : PyErr) (l : List ℝ) (h : l ≠ []) :
    ∃ m, xMin e (l.map fin) = .ok (fin m) ∧ ∀ x ∈ l, m ≤ x := by
  cases l with
  | nil => exact absurd rfl h
  | cons a l =>
    obtain ⟨m, h1, h2, h3⟩ := foldl_min2_fin l a
    refine ⟨m, by simp only [List.map_cons, xMin, h1], ?_⟩
    intro x hx
    rcases List.mem_cons.1 hx with rfl | hx
    · exact h2
    · exact h3 x hx

theorem xMax_fin (e : PyErr) (l : List ℝ) (h : l ≠ []) :
    ∃ m, xMax e (l.map fin) = .ok (fin m) ∧ ∀ x ∈ l, x ≤ m := by
  cases l with
  | nil => exact absurd rfl h
  | cons a l =>
    obtain ⟨m, h1, h2, h3⟩ := foldl_max2_fin l a
    refine ⟨m, by simp only [List.map_cons, xMax, h1], ?_⟩
    intro x hx
    rcases List.mem_cons.1 hx with rfl | hx
    · exact h2
    · exact h3 x hx

/-- Bounds of the sum of finite entries of an assignment. -/
theorem finTotal_bounds {cost : Fin r → Fin c → XR} {m M : ℝ}
    (hv : ∀ i j x, cost i j = fin x → m ≤ x ∧ x ≤ M)
    (hfi : ∀ i j, (∃ x, cost i j = fin x) ∨ (cost i j).isInf = true) (l : List (Fin r × Fin c)) :
    ((l.length : ℝ) - (l.countP fun p => (cost p.1 p.2).isInf)) * m ≤ finTotal cost l ∧
    finTotal cost l ≤ ((l.length : ℝ) - (l.countP fun p => (cost p.1 p.2).isInf)) * M := by
  induction l with
  | nil => simp [finTotal]
  | cons p l ih =>
    have e1 : finTotal cost (p :: l) = ((cost p.1 p.2).toReal?).getD 0 + finTotal cost l := by
      simp [finTotal]
    rw [e1, List.length_cons, List.countP_cons]
    rcases hfi p.1 p.2 with ⟨x, hx⟩ | hx
    · obtain ⟨h1, h2⟩ := hv _ _ _ hx
      have hni : (cost p.1 p.2).isInf = false := by rw [hx]; rfl
      have hv0 : ((cost p.1 p.2).toReal?).getD 0 = x := by rw [hx]; rfl
      rw [hv0, hni]
      simp only [Bool.false_eq_true, if_false, Nat.add_zero]
      push_cast
      constructor <;> linarith [ih.1, ih.2]
    · have h0 : ((cost p.1 p.2).toReal?).getD 0 = 0 := by
        rcases isInf_iff.1 hx with h | h <;> simp [h, toReal?]
      rw [h0, if_pos hx]
      push_cast
      constructor <;> linarith [ih.1, ih.2]

/-- Total after replacing the infinities by `ph`. -/
theorem total_replaced (cost : Fin r → Fin c → XR) (ph : ℝ)
    (hfi : ∀ i j, (∃ x, cost i j = fin x) ∨ (cost i j).isInf = true) (l : List (Fin r × Fin c)) :
    total (fun i j => if (cost i j).isInf then ph else ((cost i j).toReal?).getD 0) l =
      (l.countP fun p => (cost p.1 p.2).isInf) * ph + finTotal cost l := by
  induction l with
  | nil => simp [total, finTotal]
  | cons p l ih =>
    have e1 : finTotal cost (p :: l) = ((cost p.1 p.2).toReal?).getD 0 + finTotal cost l := by
      simp [finTotal]
    have e2 : total (fun i j => if (cost i j).isInf then ph else ((cost i j).toReal?).getD 0) (p :: l)
      = (if (cost p.1 p.2).isInf then ph else ((cost p.1 p.2).toReal?).getD 0) +
        total (fun i j => if (cost i j).isInf then ph else ((cost i j).toReal?).getD 0) l := by
      simp [total]
    rw [e1, e2, ih, List.countP_cons]
    rcases hfi p.1 p.2 with ⟨x, hx⟩ | hx
    · have hni : (cost p.1 p.2).isInf = false := by rw [hx]; rfl
      rw [hni]
      simp only [Bool.false_eq_true, if_false, Nat.add_zero]
      ring
    · have h0 : ((cost p.1 p.2).toReal?).getD 0 = 0 := by
        rcases isInf_iff.1 hx with h | h <;> simp [h, toReal?]
      rw [h0, if_pos hx, if_pos hx]
      push_cast
      ring

/-- Core inequality: selecting more place-holders always costs more. -/
theorem placeholder_pos {n K K' : ℕ} {m M S S' ph : ℝ} (hn : K ≤ n) (hmM : m ≤ M)
    (hS : ((n : ℝ) - K) * m ≤ S) (hS' : S' ≤ ((n : ℝ) - K') * M)
    (hph : ph = (M + ((n : ℝ) - 1) * (M - m)) + n * (M - m + |M| + |m| + 1)) (hlt : K' < K) :
    K' * ph + S' < K * ph + S := by
  have h1 : (K' : ℝ) + 1 ≤ K := by exact_mod_cast hlt
  have h2 : (K : ℝ) ≤ n := by exact_mod_cast hn
  have hK0 : (0 : ℝ) ≤ K' := by positivity
  have hn1 : (1 : ℝ) ≤ n := by linarith
  have hd : 0 ≤ M - m := by linarith
  have hpos : 0 < (n : ℝ) * (M - m + |M| + |m| + 1) := by positivity
  -- ph - M > (n-1)(M-m) ≥ 0
  have hphM : (n - 1) * (M - m) < ph - M := by rw [hph]; linarith
  have h3 : 0 ≤ (n - 1 : ℝ) * (M - m) := mul_nonneg (by linarith) hd
  have h4 : ph - M ≤ (K - K' : ℝ) * (ph - M) := by nlinarith
  have h5 : ((n : ℝ) - K) * (M - m) ≤ (n - 1) * (M - m) := by nlinarith
  nlinarith

theorem placeholder_neg {n K K' : ℕ} {m M S S' ph : ℝ} (hn : K' ≤ n) (hmM : m ≤ M)
    (hS : ((n : ℝ) - K) * m ≤ S) (hS' : S' ≤ ((n : ℝ) - K') * M)
    (hph : ph = (m + ((n : ℝ) - 1) * (m - M)) - n * (M - m + |M| + |m| + 1)) (hlt : K < K') :
    K' * ph + S' < K * ph + S := by
  have h1 : (K : ℝ) + 1 ≤ K' := by exact_mod_cast hlt
  have h2 : (K' : ℝ) ≤ n := by exact_mod_cast hn
  have hK0 : (0 : ℝ) ≤ K := by positivity
  have hn1 : (1 : ℝ) ≤ n := by linarith
  have hd : 0 ≤ M - m := by linarith
  have hpos : 0 < (n : ℝ) * (M - m + |M| + |m| + 1) := by positivity
  have hphM : (n - 1) * (M - m) < m - ph := by rw [hph]; linarith
  have h3 : 0 ≤ (n - 1 : ℝ) * (M - m) := mul_nonneg (by linarith) hd
  have h4 : m - ph ≤ (K' - K : ℝ) * (m - ph) := by nlinarith
  have h5 : ((n : ℝ) - K') * (M - m) ≤ (n - 1) * (M - m) := by nlinarith
  nlinarith

/-! ### the four outcomes -/

theorem countP_isInf_pos {cost : Fin r → Fin c → XR} (h : ∀ i j, cost i j ≠ ninf)
    (l : List (Fin r × Fin c)) :
    (l.countP fun p => (cost p.1 p.2).isInf) = countPos cost l := by
  unfold countPos
  congr 1
  funext p
  have := h p.1 p.2
  cases hx : cost p.1 p.2 <;> simp_all [isInf, isPosInf]

theorem countP_isInf_neg {cost : Fin r → Fin c → XR} (h : ∀ i j, cost i j ≠ pinf)
    (l : List (Fin r × Fin c)) :
    (l.countP fun p => (cost p.1 p.2).isInf) = countNeg cost l := by
  unfold countNeg
  congr 1
  funext p
  have := h p.1 p.2
  cases hx : cost p.1 p.2 <;> simp_all [isInf, isNegInf]

theorem countPos_eq_zero {cost : Fin r → Fin c → XR} (h : ∀ i j, cost i j ≠ pinf)
    (l : List (Fin r × Fin c)) : countPos cost l = 0 := by
  unfold countPos
  rw [List.countP_eq_zero]
  intro p _ hp
  exact h _ _ (isPosInf_iff.1 hp)

theorem countNeg_eq_zero {cost : Fin r → Fin c → XR} (h : ∀ i j, cost i j ≠ ninf)
    (l : List (Fin r × Fin c)) : countNeg cost l = 0 := by
  unfold countNeg
  rw [List.countP_eq_zero]
  intro p _ hp
  exact h _ _ (isNegInf_iff.1 hp)

/-- Finite matrix: handed over unchanged. -/
theorem lsaWithInf_of_finite (B : Backend) (hB : LsaCorrect @B.lsa) (x : Fin r → Fin c → ℝ) :
    ∃ l, lsaWithInf B (fun i j => fin (x i j)) = .ok l ∧ IsBest (fun i j => fin (x i j)) l := by
  have hbest : ∀ l, IsOptimal x l → IsBest (fun i j => fin (x i j)) l := by
    intro l hl
    refine ⟨hl.isAssignment, ?_, ?_, ?_⟩
    · intro l' _; rw [countPos_eq_zero (by simp), countPos_eq_zero (by simp)]
    · intro l' _; rw [countNeg_eq_zero (by simp), countNeg_eq_zero (by simp)]
    · intro l' hl' _ _; simpa [finTotal, total, toReal?] using hl.le l' hl'
  unfold lsaWithInf
  split
  · rename_i h
    refine ⟨[], rfl, ?_⟩
    have h0 : min r c = 0 := by
      simp only [Bool.and_eq_true, Bool.or_eq_true, beq_iff_eq] at h
      omega
    have hnil : ∀ l : List (Fin r × Fin c), IsAssignment l → l = [] := by
      intro l hl
      exact List.length_eq_zero_iff.1 (by rw [hl.length_eq, h0])
    refine ⟨⟨by simp [h0], by simp, by simp⟩, ?_, ?_, ?_⟩
    · intro l' hl'; rw [hnil l' hl']
    · intro l' hl'; rw [hnil l' hl']
    · intro l' hl' _ _; rw [hnil l' hl']
  · have h1 : anyEntry isNegInf (fun i j => fin (x i j)) = false := by
      rw [Bool.eq_false_iff]; simp
    have h2 : anyEntry isPosInf (fun i j => fin (x i j)) = false := by
      rw [Bool.eq_false_iff]; simp
    simp only [h1, h2, Bool.and_self, Bool.or_self, Bool.false_eq_true, if_false]
    obtain ⟨l, h3, h4⟩ := hB.finite x
    exact ⟨l, h3, hbest l h4⟩

/-- One NaN anywhere: `ValueError`. -/
theorem lsaWithInf_of_nan (B : Backend) (hB : LsaCorrect @B.lsa) (cost : Fin r → Fin c → XR)
    (h : ∃ i j, cost i j = nan) : lsaWithInf B cost = .error .valueError := by
  obtain ⟨i, j, hij⟩ := h
  unfold lsaWithInf
  rw [if_neg]
  · dsimp only
    split
    · rfl
    · split
      · have hmem : nan ∈ nonInfValues cost := mem_nonInfValues.2 ⟨⟨i, j, hij⟩, rfl⟩
        obtain ⟨m, hm⟩ : ∃ m, xMin B.shapeErr (nonInfValues cost) = .ok m := by
          cases hl : nonInfValues cost with
          | nil => rw [hl] at hmem; simp at hmem
          | cons a l => exact ⟨_, rfl⟩
        obtain ⟨M, hM⟩ : ∃ m, xMax B.shapeErr (nonInfValues cost) = .ok m := by
          cases hl : nonInfValues cost with
          | nil => rw [hl] at hmem; simp at hmem
          | cons a l => exact ⟨_, rfl⟩
        rw [hm, hM]
        dsimp only
        exact hB.nan _ ⟨i, j, by rw [hij]; rfl⟩
      · exact hB.nan _ ⟨i, j, hij⟩
  · simp only [Bool.and_eq_true, Bool.or_eq_true, beq_iff_eq, not_and, not_or]
    intro _
    have := i.isLt
    have := j.isLt
    omega

/-- Both infinities: `ValueError`. -/
theorem lsaWithInf_of_both (B : Backend) (cost : Fin r → Fin c → XR)
    (h1 : ∃ i j, cost i j = pinf) (h2 : ∃ i j, cost i j = ninf) :
    lsaWithInf B cost = .error .valueError := by
  obtain ⟨i, j, hij⟩ := h1
  unfold lsaWithInf
  rw [if_neg]
  · dsimp only
    rw [if_pos]
    rw [Bool.and_eq_true, anyEntry_iff, anyEntry_iff]
    exact ⟨by simpa using h2, ⟨i, j, by simpa using hij⟩⟩
  · simp only [Bool.and_eq_true, Bool.or_eq_true, beq_iff_eq, not_and, not_or]
    intro _
    have := i.isLt
    have := j.isLt
    omega

/-- Only infinities of one sign: the exception of `min()` of an empty array. -/
theorem lsaWithInf_of_only_inf (B : Backend) (cost : Fin r → Fin c → XR)
    (hall : ∀ i j, (cost i j).isInf = true) (hex : ∃ i j, (cost i j).isInf = true)
    (h : ¬ ((∃ i j, cost i j = pinf) ∧ ∃ i j, cost i j = ninf)) :
    lsaWithInf B cost = .error B.shapeErr := by
  obtain ⟨i, j, hij⟩ := hex
  unfold lsaWithInf
  rw [if_neg]
  · dsimp only
    rw [if_neg]
    · rw [if_pos]
      · have : nonInfValues cost = [] := by
          rw [List.eq_nil_iff_forall_not_mem]
          intro x hx
          obtain ⟨⟨a, b, rfl⟩, h2⟩ := mem_nonInfValues.1 hx
          rw [hall] at h2
          simp at h2
        rw [this]
        rfl
      · rw [Bool.or_eq_true, anyEntry_iff, anyEntry_iff]
        rcases isInf_iff.1 hij with h' | h'
        · exact Or.inr ⟨i, j, by simpa using h'⟩
        · exact Or.inl ⟨i, j, by simpa using h'⟩
    · rw [Bool.and_eq_true, anyEntry_iff, anyEntry_iff]
      rintro ⟨ha, hb⟩
      exact h ⟨by simpa using hb, by simpa using ha⟩
  · simp only [Bool.and_eq_true, Bool.or_eq_true, beq_iff_eq, not_and, not_or]
    intro _
    have := i.isLt
    have := j.isLt
    omega

/-- Some infinities of one sign and at least one finite entry. -/
theorem lsaWithInf_of_mixed (B : Backend) (hB : LsaCorrect @B.lsa) (cost : Fin r → Fin c → XR)
    (hsol : Solvable cost) (hinf : ∃ i j, (cost i j).isInf = true) :
    ∃ l, lsaWithInf B cost = .ok l ∧ IsBest cost l := by
  obtain ⟨i0, j0, hij0⟩ := hinf
  have hfi : ∀ i j, (∃ x, cost i j = fin x) ∨ (cost i j).isInf = true := by
    intro i j
    have := hsol.no_nan i j
    cases hx : cost i j with
    | fin x => exact Or.inl ⟨x, rfl⟩
    | pinf => exact Or.inr rfl
    | ninf => exact Or.inr rfl
    | nan => exact absurd hx this
  obtain ⟨i1, j1, x1, hx1⟩ := hsol.some_finite ⟨i0, j0, isInf_iff.1 hij0⟩
  -- finite values
  obtain ⟨vals, hvals⟩ := exists_map_fin (nonInfValues cost) (by
    intro x hx
    obtain ⟨⟨a, b, rfl⟩, h2⟩ := mem_nonInfValues.1 hx
    rcases hfi a b with h | h
    · exact h
    · rw [h] at h2; simp at h2)
  have hmemv : ∀ i j x, cost i j = fin x → x ∈ vals := by
    intro i j x hx
    have : fin x ∈ nonInfValues cost := mem_nonInfValues.2 ⟨⟨i, j, hx⟩, rfl⟩
    rw [hvals, List.mem_map] at this
    obtain ⟨y, hy, hyx⟩ := this
    cases hyx
    exact hy
  have hne : vals ≠ [] := List.ne_nil_of_mem (hmemv _ _ _ hx1)
  obtain ⟨m, hm, hml⟩ := xMin_fin B.shapeErr vals hne
  obtain ⟨M, hM, hMl⟩ := xMax_fin B.shapeErr vals hne
  have hmM : m ≤ M := (hml _ (hmemv _ _ _ hx1)).trans (hMl _ (hmemv _ _ _ hx1))
  have hv : ∀ i j x, cost i j = fin x → m ≤ x ∧ x ≤ M := fun i j x hx =>
    ⟨hml _ (hmemv i j x hx), hMl _ (hmemv i j x hx)⟩
  set n := min r c with hn
  have hguard : ¬ ((B.emptyShortcut && (r == 0 || c == 0)) = true) := by
    simp only [Bool.and_eq_true, Bool.or_eq_true, beq_iff_eq, not_and, not_or]
    intro _
    have := i0.isLt
    have := j0.isLt
    omega
  have hlen : ∀ l : List (Fin r × Fin c), IsAssignment l → l.length = n := fun l hl => hl.length_eq
  have hrepl : ∀ ph : ℝ, (fun i j => if (cost i j).isInf then fin ph else cost i j) =
      fun i j => fin (if (cost i j).isInf then ph else ((cost i j).toReal?).getD 0) := by
    intro ph
    funext i j
    rcases hfi i j with ⟨x, hx⟩ | hx
    · rw [hx]; simp [isInf, toReal?]
    · simp [hx]
  by_cases hpos : ∃ i j, cost i j = pinf
  · -- +inf present
    have hnn : ∀ i j, cost i j ≠ ninf := fun i j hij => hsol.one_sign ⟨hpos, i, j, hij⟩
    have e1 : anyEntry isNegInf cost = false := by
      rw [Bool.eq_false_iff, ne_eq, anyEntry_iff]; simpa using hnn
    have e2 : anyEntry isPosInf cost = true := by rw [anyEntry_iff]; simpa using hpos
    have hrun : lsaWithInf B cost = B.lsa fun i j => fin (if (cost i j).isInf then
        ((M + ((n : ℝ) - 1) * (M - m)) + n * (M - m + |M| + |m| + 1))
        else ((cost i j).toReal?).getD 0) := by
      unfold lsaWithInf
      rw [if_neg hguard]
      simp only [e1, e2, hvals, hm, hM, Bool.false_and, Bool.false_or, Bool.false_eq_true, if_false,
        if_true]
      rw [← hrepl]
      simp only [XR.add, XR.mul, XR.sub, XR.neg, XR.abs, sub_eq_add_neg]
      rfl
    obtain ⟨l, h1, h2⟩ := hB.finite (fun i j => if (cost i j).isInf then
        ((M + ((n : ℝ) - 1) * (M - m)) + n * (M - m + |M| + |m| + 1))
        else ((cost i j).toReal?).getD 0)
    have hkey : ∀ l', IsAssignment l' → countPos cost l ≤ countPos cost l' := by
      intro l' hl'
      by_contra hlt
      push Not at hlt
      have h3 := h2.le l' hl'
      rw [total_replaced cost _ hfi, total_replaced cost _ hfi, countP_isInf_pos hnn,
        countP_isInf_pos hnn] at h3
      have b1 := (finTotal_bounds hv hfi l).1
      have b2 := (finTotal_bounds hv hfi l').2
      rw [countP_isInf_pos hnn, hlen _ h2.isAssignment] at b1
      rw [countP_isInf_pos hnn, hlen _ hl'] at b2
      have hle : countPos cost l ≤ n := by
        rw [← hlen _ h2.isAssignment]; exact List.countP_le_length
      have := placeholder_pos hle hmM b1 b2 rfl hlt
      linarith
    refine ⟨l, by rw [hrun, h1], h2.isAssignment, hkey, ?_, ?_⟩
    · intro l' _; rw [countNeg_eq_zero hnn, countNeg_eq_zero hnn]
    · intro l' hl' heq _
      have h3 := h2.le l' hl'
      rw [total_replaced cost _ hfi, total_replaced cost _ hfi, countP_isInf_pos hnn,
        countP_isInf_pos hnn, heq] at h3
      linarith
  · -- -inf present
    have hnp : ∀ i j, cost i j ≠ pinf := fun i j hij => hpos ⟨i, j, hij⟩
    have hneg : ∃ i j, cost i j = ninf := by
      rcases isInf_iff.1 hij0 with h | h
      · exact absurd h (hnp _ _)
      · exact ⟨i0, j0, h⟩
    have e1 : anyEntry isNegInf cost = true := by rw [anyEntry_iff]; simpa using hneg
    have e2 : anyEntry isPosInf cost = false := by
      rw [Bool.eq_false_iff, ne_eq, anyEntry_iff]; simpa using hnp
    have hrun : lsaWithInf B cost = B.lsa fun i j => fin (if (cost i j).isInf then
        ((m + ((n : ℝ) - 1) * (m - M)) - n * (M - m + |M| + |m| + 1))
        else ((cost i j).toReal?).getD 0) := by
      unfold lsaWithInf
      rw [if_neg hguard]
      simp only [e1, e2, hvals, hm, hM, Bool.and_false, Bool.or_false, Bool.false_eq_true, if_false,
        if_true]
      rw [← hrepl]
      simp only [XR.add, XR.mul, XR.sub, XR.neg, XR.abs, sub_eq_add_neg]
      rfl
    obtain ⟨l, h1, h2⟩ := hB.finite (fun i j => if (cost i j).isInf then
        ((m + ((n : ℝ) - 1) * (m - M)) - n * (M - m + |M| + |m| + 1))
        else ((cost i j).toReal?).getD 0)
    have hkey : ∀ l', IsAssignment l' → countNeg cost l' ≤ countNeg cost l := by
      intro l' hl'
      by_contra hlt
      push Not at hlt
      have h3 := h2.le l' hl'
      rw [total_replaced cost _ hfi, total_replaced cost _ hfi, countP_isInf_neg hnp,
        countP_isInf_neg hnp] at h3
      have b1 := (finTotal_bounds hv hfi l).1
      have b2 := (finTotal_bounds hv hfi l').2
      rw [countP_isInf_neg hnp, hlen _ h2.isAssignment] at b1
      rw [countP_isInf_neg hnp, hlen _ hl'] at b2
      have hle : countNeg cost l' ≤ n := by
        rw [← hlen _ hl']; exact List.countP_le_length
      have := placeholder_neg hle hmM b1 b2 rfl hlt
      linarith
    refine ⟨l, by rw [hrun, h1], h2.isAssignment, ?_, hkey, ?_⟩
    · intro l' _; rw [countPos_eq_zero hnp, countPos_eq_zero hnp]
    · intro l' hl' _ heq
      have h3 := h2.le l' hl'
      rw [total_replaced cost _ hfi, total_replaced cost _ hfi, countP_isInf_neg hnp,
        countP_isInf_neg hnp, heq] at h3
      linarith

/-- Success on every solvable matrix. -/
theorem lsaWithInf_ok (B : Backend) (hB : LsaCorrect @B.lsa) (cost : Fin r → Fin c → XR)
    (hsol : Solvable cost) : ∃ l, lsaWithInf B cost = .ok l ∧ IsBest cost l := by
  by_cases hinf : ∃ i j, (cost i j).isInf = true
  · exact lsaWithInf_of_mixed B hB cost hsol hinf
  · have : cost = fun i j => fin (((cost i j).toReal?).getD 0) := by
      funext i j
      have h1 := hsol.no_nan i j
      have h2 : ¬ ((cost i j).isInf = true) := fun h => hinf ⟨i, j, h⟩
      cases hx : cost i j <;> simp_all [isInf, toReal?]
    rw [this]
    exact lsaWithInf_of_finite B hB _

/-- Failure on every other matrix. -/
theorem lsaWithInf_err (B : Backend) (hB : LsaCorrect @B.lsa) (cost : Fin r → Fin c → XR)
    (hsol : ¬ Solvable cost) :
    lsaWithInf B cost = .error (if (∀ i j, cost i j = pinf) ∨ (∀ i j, cost i j = ninf)
      then B.shapeErr else .valueError) := by
  by_cases hnan : ∃ i j, cost i j = nan
  · rw [lsaWithInf_of_nan B hB cost hnan, if_neg]
    obtain ⟨i, j, h⟩ := hnan
    rintro (h' | h') <;> simp [h' i j] at h
  · push Not at hnan
    by_cases hboth : (∃ i j, cost i j = pinf) ∧ ∃ i j, cost i j = ninf
    · rw [lsaWithInf_of_both B cost hboth.1 hboth.2, if_neg]
      obtain ⟨⟨i, j, h1⟩, i', j', h2⟩ := hboth
      rintro (h' | h')
      · simp [h' i' j'] at h2
      · simp [h' i j] at h1
    · have hno : (∃ i j, (cost i j).isInf = true) ∧ ∀ i j, (cost i j).isInf = true := by
        by_contra hcon
        apply hsol
        refine ⟨hnan, hboth, ?_⟩
        rintro ⟨i, j, hij⟩
        by_contra hfin
        push Not at hfin
        apply hcon
        refine ⟨⟨i, j, isInf_iff.2 hij⟩, ?_⟩
        intro a b
        have h1 := hnan a b
        have h2 := hfin a b
        cases hx : cost a b <;> simp_all [isInf]
      rw [lsaWithInf_of_only_inf B cost hno.2 hno.1 hboth, if_pos]
      by_cases hp : ∃ i j, cost i j = pinf
      · left
        intro i j
        rcases isInf_iff.1 (hno.2 i j) with h | h
        · exact h
        · exact absurd ⟨hp, i, j, h⟩ hboth
      · right
        intro i j
        rcases isInf_iff.1 (hno.2 i j) with h | h
        · exact absurd ⟨i, j, h⟩ hp
        · exact h

/-- The torch solver satisfies the contract assumed of scipy. -/
theorem torchLsa_correct : LsaCorrect @torchLsa := by
  constructor
  · intro r c cost h
    unfold torchLsa
    rw [if_pos]
    rw [anyEntry_iff]
    simpa using h
  · intro r c x
    unfold torchLsa
    rw [if_neg, if_neg]
    · simp only [toReal?, Option.getD_some]
      refine Hungarian.lsa_optimal x _ ?_
      unfold Hungarian.fuelBound
      generalize min r c = n
      have : 3 * (n + 2) ^ 2 = n * (3 * n + 5) + 3 * n + 5 + (4 * n + 7) := by ring
      omega
    · rw [anyEntry_iff]; simp
    · rw [anyEntry_iff]; simp

end FBE
