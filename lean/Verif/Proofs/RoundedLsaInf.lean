import Verif.Proofs.RoundedLsa
import Verif.Spec.NearBest

/-! `_linear_sum_assignment_with_inf` in floating point arithmetic. -/

namespace FBE.Rounded

open Classical Spec XR

variable {p : ℕ} {fl : ℝ → ℝ} {r c : ℕ}

/-- Tolerance of the solver for `k` pairs and entries of size at most `A`. -/
noncomputable def lsaTol (p k : ℕ) (A : ℝ) : ℝ := 36 * (k : ℝ) ^ 2 * ((k : ℝ) ^ 2 + 1) ^ 2 * 2 ^ (-p : ℤ) * (A + 1)

theorem lsaTol_nonneg (p k : ℕ) {A : ℝ} (hA : 0 ≤ A) : 0 ≤ lsaTol p k A := by unfold lsaTol; positivity

/-- What the number of bits has to be for `k` pairs. -/
theorem bits_small {k : ℕ} (hk : 100 * (k : ℝ) * ((k : ℝ) ^ 2 + 1) ^ 2 * 2 ^ (-p : ℤ) ≤ 1) (hk1 : 1 ≤ k) :
    400 * (k : ℝ) * 2 ^ (-p : ℤ) ≤ 1 ∧ 6 * ((k : ℝ) ^ 2 + 1) * 2 ^ (-p : ℤ) ≤ 1 := by
  have hu : (0 : ℝ) < 2 ^ (-p : ℤ) := by positivity
  have hkr : (1 : ℝ) ≤ k := by exact_mod_cast hk1
  have h2 : (2 : ℝ) ≤ (k : ℝ) ^ 2 + 1 := by nlinarith
  constructor
  · refine le_trans (mul_le_mul_of_nonneg_right ?_ hu.le) hk
    nlinarith
  · refine le_trans (mul_le_mul_of_nonneg_right ?_ hu.le) hk
    have : (2 : ℝ) ^ 2 ≤ ((k : ℝ) ^ 2 + 1) ^ 2 := pow_le_pow_left₀ (by norm_num) h2 2
    have h3 : (k : ℝ) ^ 2 + 1 ≤ ((k : ℝ) ^ 2 + 1) ^ 2 := by nlinarith
    nlinarith

/-- The arithmetic of the place-holder `+inf`: selecting more of them costs more than the errors of the solver. -/
theorem gap_pos {n K K' : ℕ} {m M S S' ph L e B : ℝ} (hn : K ≤ n) (hmM : m ≤ M)
    (hS : ((n : ℝ) - K) * m ≤ S) (hS' : S' ≤ ((n : ℝ) - K') * M)
    (hph : |ph - ((M + ((n : ℝ) - 1) * (M - m)) + n * L)| ≤ e) (heB : e + B < n * L) (hB : 0 ≤ B)
    (hlt : K' < K) : K' * ph + S' + B < K * ph + S := by
  have h1 : (K' : ℝ) + 1 ≤ K := by exact_mod_cast hlt
  have h2 : (K : ℝ) ≤ n := by exact_mod_cast hn
  have hK0 : (0 : ℝ) ≤ K' := by positivity
  have hn1 : (1 : ℝ) ≤ n := by linarith
  have hd : 0 ≤ M - m := by linarith
  have hphM : (n - 1) * (M - m) + B < ph - M := by linarith [(abs_le.1 hph).1]
  have h3 : 0 ≤ (n - 1 : ℝ) * (M - m) := mul_nonneg (by linarith) hd
  have h4 : ph - M ≤ (K - K' : ℝ) * (ph - M) := by nlinarith
  have h5 : ((n : ℝ) - K) * (M - m) ≤ (n - 1) * (M - m) := by nlinarith
  nlinarith

theorem gap_neg {n K K' : ℕ} {m M S S' ph L e B : ℝ} (hn : K' ≤ n) (hmM : m ≤ M)
    (hS : ((n : ℝ) - K) * m ≤ S) (hS' : S' ≤ ((n : ℝ) - K') * M)
    (hph : |ph - ((m + ((n : ℝ) - 1) * (m - M)) - n * L)| ≤ e) (heB : e + B < n * L) (hB : 0 ≤ B)
    (hlt : K < K') : K' * ph + S' + B < K * ph + S := by
  have h1 : (K : ℝ) + 1 ≤ K' := by exact_mod_cast hlt
  have h2 : (K' : ℝ) ≤ n := by exact_mod_cast hn
  have hK0 : (0 : ℝ) ≤ K := by positivity
  have hn1 : (1 : ℝ) ≤ n := by linarith
  have hd : 0 ≤ M - m := by linarith
  have hphM : (n - 1) * (M - m) + B < m - ph := by linarith [(abs_le.1 hph).2]
  have h3 : 0 ≤ (n - 1 : ℝ) * (M - m) := mul_nonneg (by linarith) hd
  have h4 : m - ph ≤ (K' - K : ℝ) * (m - ph) := by nlinarith
  have h5 : ((n : ℝ) - K') * (M - m) ≤ (n - 1) * (M - m) := by nlinarith
  nlinarith

/-- Spread of the entries once the place-holder is in, and the tolerance it leads to. -/
theorem spread_tol {k : ℕ} (hk1 : 1 ≤ k) (hk : 100 * (k : ℝ) * ((k : ℝ) ^ 2 + 1) ^ 2 * 2 ^ (-p : ℤ) ≤ 1)
    {m M A L : ℝ} (hmM : m ≤ M) (hm : -A ≤ m) (hM : M ≤ A) (hL : L = M - m + |M| + |m| + 1) :
    (20 * 2 ^ (-p : ℤ) * (k * L) + 4 * k * ((k : ℝ) ^ 2 + 1) ^ 2 * 2 ^ (-p : ℤ) * (2.05 * (k * L)) < k * L) ∧
    4 * k * ((k : ℝ) ^ 2 + 1) ^ 2 * 2 ^ (-p : ℤ) * (2.05 * (k * L)) ≤ lsaTol p k A ∧
    20 * 2 ^ (-p : ℤ) * (k * L) ≤ 0.05 * (k * L) ∧ k * (M - m) ≤ k * L ∧ 0 < k * L ∧ 0 < L := by
  obtain ⟨hs, -⟩ := bits_small hk hk1
  have hu : (0 : ℝ) < 2 ^ (-p : ℤ) := by positivity
  unfold lsaTol
  generalize (2 : ℝ) ^ (-p : ℤ) = u at *
  have hkr : (1 : ℝ) ≤ k := by exact_mod_cast hk1
  have hM0 := abs_nonneg M
  have hm0 := abs_nonneg m
  have hLpos : 0 < L := by rw [hL]; linarith
  have hkL : 0 < k * L := by positivity
  have hu400 : 400 * u ≤ 1 := by nlinarith
  have e1 : 4 * k * ((k : ℝ) ^ 2 + 1) ^ 2 * u * (2.05 * (k * L))
      = 0.082 * (100 * (k : ℝ) * ((k : ℝ) ^ 2 + 1) ^ 2 * u) * (k * L) := by ring
  refine ⟨?_, ?_, by nlinarith, ?_, hkL, hLpos⟩
  · rw [e1]
    nlinarith
  · have hA : |M| ≤ A ∧ |m| ≤ A := ⟨abs_le.2 ⟨by linarith, hM⟩, abs_le.2 ⟨hm, by linarith⟩⟩
    have hL4 : L ≤ 4 * A + 1 := by rw [hL]; linarith [hA.1, hA.2]
    have h9 : 2.05 * L ≤ 9 * (A + 1) := by linarith
    have h10 : 0 ≤ 4 * (k : ℝ) ^ 2 * ((k : ℝ) ^ 2 + 1) ^ 2 * u := by positivity
    calc 4 * k * ((k : ℝ) ^ 2 + 1) ^ 2 * u * (2.05 * (k * L))
        = 4 * (k : ℝ) ^ 2 * ((k : ℝ) ^ 2 + 1) ^ 2 * u * (2.05 * L) := by ring
      _ ≤ 4 * (k : ℝ) ^ 2 * ((k : ℝ) ^ 2 + 1) ^ 2 * u * (9 * (A + 1)) := mul_le_mul_of_nonneg_left h9 h10
      _ = _ := by ring
  · exact mul_le_mul_of_nonneg_left (by rw [hL]; linarith) (by linarith)

theorem foldl_min2_mem (l : List ℝ) (a : ℝ) :
    ∃ m, (l.map fin).foldl min2 (fin a) = fin m ∧ m ∈ a :: l := by
  induction l generalizing a with
  | nil => exact ⟨a, rfl, by simp⟩
  | cons b l ih =>
    obtain ⟨m, h1, h2⟩ := ih (min a b)
    refine ⟨m, h1, ?_⟩
    rcases List.mem_cons.1 h2 with h | h
    · rcases min_choice a b with e | e <;> rw [h, e] <;> simp
    · simp [h]

theorem foldl_max2_mem (l : List ℝ) (a : ℝ) :
    ∃ m, (l.map fin).foldl max2 (fin a) = fin m ∧ m ∈ a :: l := by
  induction l generalizing a with
  | nil => exact ⟨a, rfl, by simp⟩
  | cons b l ih =>
    obtain ⟨m, h1, h2⟩ := ih (max a b)
    refine ⟨m, h1, ?_⟩
    rcases List.mem_cons.1 h2 with h | h
    · rcases max_choice a b with e | e <;> rw [h, e] <;> simp
    · simp [h]

theorem xMin_mem (e : PyErr) {l : List ℝ} {m : ℝ} (h : xMin e (l.map fin) = .ok (fin m)) : m ∈ l := by
  cases l with
  | nil => simp [xMin] at h
  | cons a l =>
    obtain ⟨m', h1, h2⟩ := foldl_min2_mem l a
    simp only [List.map_cons, xMin, h1, Except.ok.injEq, XR.fin.injEq] at h
    rwa [← h]

theorem xMax_mem (e : PyErr) {l : List ℝ} {m : ℝ} (h : xMax e (l.map fin) = .ok (fin m)) : m ∈ l := by
  cases l with
  | nil => simp [xMax] at h
  | cons a l =>
    obtain ⟨m', h1, h2⟩ := foldl_max2_mem l a
    simp only [List.map_cons, xMax, h1, Except.ok.injEq, XR.fin.injEq] at h
    rwa [← h]

/-- Some infinities of one sign and at least one finite entry. -/
theorem flLsaWithInf_of_mixed (h : IsNearest p fl)
    (hk : 100 * (min r c : ℕ) * ((min r c : ℕ) ^ 2 + 1 : ℝ) ^ 2 * 2 ^ (-p : ℤ) ≤ 1) (cost : Fin r → Fin c → XR)
    (hrep : ∀ i j x, cost i j = fin x → Representable p x) {A : ℝ} (hA : ∀ i j x, cost i j = fin x → |x| ≤ A)
    (hsol : Solvable cost) (hinf : ∃ i j, (cost i j).isInf = true) :
    ∃ l, flLsaWithInf h cost = .ok l ∧ IsNearBest (lsaTol p (min r c) A) cost l := by
  obtain ⟨i0, j0, hij0⟩ := hinf
  have hfi : ∀ i j, (∃ x, cost i j = fin x) ∨ (cost i j).isInf = true := by
    intro i j
    have := hsol.no_nan i j
    cases hx : cost i j with
    | fin x => exact Or.inl ⟨x, rfl⟩
    | pinf => exact Or.inr rfl
    | ninf => exact Or.inr rfl
    | nan => exact absurd hx this
  obtain ⟨i1, j1, x1, hx1⟩ := hsol.some_finite ⟨i0, j0, isInf_iff.1 hij0⟩
  obtain ⟨vals, hvals⟩ := exists_map_fin (nonInfValues cost) (by
    intro x hx
    obtain ⟨⟨a, b, rfl⟩, h2⟩ := mem_nonInfValues.1 hx
    rcases hfi a b with h | h
    · exact h
    · rw [h] at h2; simp at h2)
  have hmemv : ∀ x, x ∈ vals ↔ ∃ i j, cost i j = fin x := by
    intro x
    have e : x ∈ vals ↔ fin x ∈ nonInfValues cost := by
      rw [hvals, List.mem_map]
      exact ⟨fun h => ⟨x, h, rfl⟩, fun ⟨y, hy, hyx⟩ => by cases hyx; exact hy⟩
    rw [e, mem_nonInfValues]
    exact ⟨fun h => h.1, fun h => ⟨h, rfl⟩⟩
  have hne : vals ≠ [] := List.ne_nil_of_mem ((hmemv _).2 ⟨_, _, hx1⟩)
  obtain ⟨m, hm, hml⟩ := xMin_fin .runtimeError vals hne
  obtain ⟨M, hM, hMl⟩ := xMax_fin .runtimeError vals hne
  have hmA : -A ≤ m := by
    obtain ⟨i, j, hij⟩ := (hmemv m).1 (xMin_mem _ hm)
    exact (abs_le.1 (hA i j m hij)).1
  have hMA : M ≤ A := by
    obtain ⟨i, j, hij⟩ := (hmemv M).1 (xMax_mem _ hM)
    exact (abs_le.1 (hA i j M hij)).2
  have hv : ∀ i j x, cost i j = fin x → m ≤ x ∧ x ≤ M := fun i j x hx =>
    ⟨hml _ ((hmemv x).2 ⟨i, j, hx⟩), hMl _ ((hmemv x).2 ⟨i, j, hx⟩)⟩
  have hmM : m ≤ M := (hv _ _ _ hx1).1.trans (hv _ _ _ hx1).2
  have hk1 : 1 ≤ min r c := by
    have := i0.isLt
    have := j0.isLt
    omega
  obtain ⟨hk400, hk6⟩ := bits_small hk hk1
  obtain ⟨hph1, hph2⟩ := placeholder_close h hk1 hk400 hmM
  obtain ⟨hgap, htol, hsmall, hkd, hkL, hLpos⟩ := spread_tol (p := p) hk1 hk hmM hmA hMA rfl
  have hguard : ¬ ((r == 0 || c == 0) = true) := by
    simp only [Bool.or_eq_true, beq_iff_eq, not_or]
    omega
  set n := min r c with hn
  set L : ℝ := M - m + |M| + |m| + 1 with hL
  have hlen : ∀ l : List (Fin r × Fin c), IsAssignment l → l.length = n := fun l hl => hl.length_eq
  have hrepl : ∀ ph : ℝ, (fun i j => if (cost i j).isInf then fin ph else cost i j) =
      fun i j => fin (if (cost i j).isInf then ph else ((cost i j).toReal?).getD 0) := by
    intro ph
    funext i j
    rcases hfi i j with ⟨x, hx⟩ | hx
    · rw [hx]; simp [isInf, toReal?]
    · simp [hx]
  have hn1 : (1 : ℝ) ≤ n := by exact_mod_cast hk1
  -- the solver on the matrix with the place-holder
  have hsolve : ∀ ph : ℝ, Representable p ph → (∀ x, m ≤ x → x ≤ M → |ph - x| ≤ 2.05 * (n * L)) →
      ∃ l, flLsa h (fun i j => if (cost i j).isInf then fin ph else cost i j) = .ok l ∧ IsAssignment l ∧
        ∀ l', IsAssignment l' → (l.countP fun p => (cost p.1 p.2).isInf) * ph + finTotal cost l ≤
          (l'.countP fun p => (cost p.1 p.2).isInf) * ph + finTotal cost l' +
          4 * n * ((n : ℝ) ^ 2 + 1) ^ 2 * 2 ^ (-p : ℤ) * (2.05 * (n * L)) := by
    intro ph hrp hph
    rw [hrepl]
    have hD0 : 0 ≤ 2.05 * (n * L) := by positivity
    obtain ⟨l, h1, h2, h3⟩ := flLsa_near h
      (fun i j => if (cost i j).isInf then ph else ((cost i j).toReal?).getD 0) (by
        intro i j
        rcases hfi i j with ⟨x, hx⟩ | hx
        · rw [hx]; simpa [isInf, toReal?] using hrep i j x hx
        · simpa [hx] using hrp) hD0 (by
        have hdiff : ∀ x y, m ≤ x → x ≤ M → m ≤ y → y ≤ M → x - y ≤ 2.05 * (n * L) := by
          intro x y _ h2 h3 _
          have : M - m ≤ n * (M - m) := by nlinarith
          linarith
        intro i j i' j'
        rcases hfi i j with ⟨x, hx⟩ | hx <;> rcases hfi i' j' with ⟨y, hy⟩ | hy
        · rw [hx, hy]
          simpa [isInf, toReal?] using hdiff x y (hv _ _ _ hx).1 (hv _ _ _ hx).2 (hv _ _ _ hy).1 (hv _ _ _ hy).2
        · rw [if_pos hy, hx]
          have := (abs_le.1 (hph x (hv _ _ _ hx).1 (hv _ _ _ hx).2)).1
          simp only [isInf, toReal?, Bool.false_eq_true, if_false, Option.getD_some]
          linarith
        · rw [if_pos hx, hy]
          have := (abs_le.1 (hph y (hv _ _ _ hy).1 (hv _ _ _ hy).2)).2
          simp only [isInf, toReal?, Bool.false_eq_true, if_false, Option.getD_some]
          linarith
        · rw [if_pos hx, if_pos hy, sub_self]; exact hD0) hk6
    refine ⟨l, h1, h2, fun l' hl' => ?_⟩
    have := h3 l' hl'
    rwa [total_replaced cost _ hfi, total_replaced cost _ hfi] at this
  set B : ℝ := 4 * n * ((n : ℝ) ^ 2 + 1) ^ 2 * 2 ^ (-p : ℤ) * (2.05 * (n * L)) with hB
  have hB0 : 0 ≤ B := by rw [hB]; positivity
  by_cases hpos : ∃ i j, cost i j = pinf
  · have hnn : ∀ i j, cost i j ≠ ninf := fun i j hij => hsol.one_sign ⟨hpos, i, j, hij⟩
    have e1 : anyEntry isNegInf cost = false := by
      rw [Bool.eq_false_iff, ne_eq, anyEntry_iff]; simpa using hnn
    have e2 : anyEntry isPosInf cost = true := by rw [anyEntry_iff]; simpa using hpos
    set ph : ℝ := fl (fl (M + fl (fl ((n : ℝ) - 1) * fl (M - m))) +
        fl (fl (n : ℝ) * fl (fl (fl (fl (M - m) + |M|) + |m|) + 1))) with hphdef
    have hrun : flLsaWithInf h cost = flLsa h fun i j => if (cost i j).isInf then fin ph else cost i j := by
      unfold flLsaWithInf
      rw [if_neg hguard]
      simp only [e1, e2, hvals, hm, hM, Bool.false_and, Bool.false_or, Bool.false_eq_true, if_false, if_true]
      simp only [rnd, XR.add, XR.mul, XR.sub, XR.neg, XR.abs, ← sub_eq_add_neg]
      rfl
    obtain ⟨l, h1, h2, h3⟩ := hsolve ph (h _).1 (by
      intro x hx1 hx2
      obtain ⟨ha, hb⟩ := abs_le.1 hph1
      have hd0 : 0 ≤ ((n : ℝ) - 1) * (M - m) := mul_nonneg (by linarith) (by linarith)
      have hlin : ((n : ℝ) - 1) * (M - m) = n * (M - m) - (M - m) := by ring
      rw [abs_le]
      constructor <;> linarith)
    have hkey : ∀ l', IsAssignment l' → countPos cost l ≤ countPos cost l' := by
      intro l' hl'
      by_contra hlt
      push Not at hlt
      have h4 := h3 l' hl'
      rw [countP_isInf_pos hnn, countP_isInf_pos hnn] at h4
      have b1 := (finTotal_bounds hv hfi l).1
      have b2 := (finTotal_bounds hv hfi l').2
      rw [countP_isInf_pos hnn, hlen _ h2] at b1
      rw [countP_isInf_pos hnn, hlen _ hl'] at b2
      have hle : countPos cost l ≤ n := by
        rw [← hlen _ h2]; exact List.countP_le_length
      have := gap_pos hle hmM b1 b2 hph1 hgap hB0 hlt
      linarith
    refine ⟨l, by rw [hrun, h1], h2, hkey, ?_, ?_⟩
    · intro l' _; rw [countNeg_eq_zero hnn, countNeg_eq_zero hnn]
    · intro l' hl' heq _
      have h4 := h3 l' hl'
      rw [countP_isInf_pos hnn, countP_isInf_pos hnn, heq] at h4
      linarith
  · have hnp : ∀ i j, cost i j ≠ pinf := fun i j hij => hpos ⟨i, j, hij⟩
    have hneg : ∃ i j, cost i j = ninf := by
      rcases isInf_iff.1 hij0 with h | h
      · exact absurd h (hnp _ _)
      · exact ⟨_, _, h⟩
    have e1 : anyEntry isNegInf cost = true := by rw [anyEntry_iff]; simpa using hneg
    have e2 : anyEntry isPosInf cost = false := by
      rw [Bool.eq_false_iff, ne_eq, anyEntry_iff]; simpa using hnp
    set ph : ℝ := fl (fl (m + fl (fl ((n : ℝ) - 1) * fl (m - M))) -
        fl (fl (n : ℝ) * fl (fl (fl (fl (M - m) + |M|) + |m|) + 1))) with hphdef
    have hrun : flLsaWithInf h cost = flLsa h fun i j => if (cost i j).isInf then fin ph else cost i j := by
      unfold flLsaWithInf
      rw [if_neg hguard]
      simp only [e1, e2, hvals, hm, hM, Bool.and_false, Bool.or_false, Bool.false_eq_true, if_false, if_true]
      simp only [rnd, XR.add, XR.mul, XR.sub, XR.neg, XR.abs, ← sub_eq_add_neg]
      rfl
    obtain ⟨l, h1, h2, h3⟩ := hsolve ph (h _).1 (by
      intro x hx1 hx2
      obtain ⟨ha, hb⟩ := abs_le.1 hph2
      have hd0 : 0 ≤ ((n : ℝ) - 1) * (M - m) := mul_nonneg (by linarith) (by linarith)
      have hlin : ((n : ℝ) - 1) * (m - M) = -(((n : ℝ) - 1) * (M - m)) := by ring
      have hlin' : ((n : ℝ) - 1) * (M - m) = n * (M - m) - (M - m) := by ring
      rw [abs_le]
      constructor <;> linarith)
    have hkey : ∀ l', IsAssignment l' → countNeg cost l' ≤ countNeg cost l := by
      intro l' hl'
      by_contra hlt
      push Not at hlt
      have h4 := h3 l' hl'
      rw [countP_isInf_neg hnp, countP_isInf_neg hnp] at h4
      have b1 := (finTotal_bounds hv hfi l).1
      have b2 := (finTotal_bounds hv hfi l').2
      rw [countP_isInf_neg hnp, hlen _ h2] at b1
      rw [countP_isInf_neg hnp, hlen _ hl'] at b2
      have hle : countNeg cost l' ≤ n := by
        rw [← hlen _ hl']; exact List.countP_le_length
      have := gap_neg hle hmM b1 b2 hph2 hgap hB0 hlt
      linarith
    refine ⟨l, by rw [hrun, h1], h2, ?_, hkey, ?_⟩
    · intro l' _; rw [countPos_eq_zero hnp, countPos_eq_zero hnp]
    · intro l' hl' _ heq
      have h4 := h3 l' hl'
      rw [countP_isInf_neg hnp, countP_isInf_neg hnp, heq] at h4
      linarith

/-- Every matrix the caller can be asked to solve. -/
theorem flLsaWithInf_near (h : IsNearest p fl)
    (hk : 100 * (min r c : ℕ) * ((min r c : ℕ) ^ 2 + 1 : ℝ) ^ 2 * 2 ^ (-p : ℤ) ≤ 1) (cost : Fin r → Fin c → XR)
    (hrep : ∀ i j x, cost i j = fin x → Representable p x) {A : ℝ} (hA0 : 0 ≤ A)
    (hA : ∀ i j x, cost i j = fin x → |x| ≤ A) (hsol : Solvable cost) :
    ∃ l, flLsaWithInf h cost = .ok l ∧ IsNearBest (lsaTol p (min r c) A) cost l := by
  by_cases h0 : (r == 0 || c == 0) = true
  · refine ⟨[], by unfold flLsaWithInf; rw [if_pos h0], ?_⟩
    have h0 : min r c = 0 := by
      simp only [Bool.or_eq_true, beq_iff_eq] at h0
      omega
    have hnil : ∀ l : List (Fin r × Fin c), IsAssignment l → l = [] := by
      intro l hl
      exact List.length_eq_zero_iff.1 (by rw [hl.length_eq, h0])
    refine ⟨⟨by simp [h0], by simp, by simp⟩, ?_, ?_, ?_⟩
    · intro l' hl'; rw [hnil l' hl']
    · intro l' hl'; rw [hnil l' hl']
    · intro l' hl' _ _; rw [hnil l' hl']; linarith [lsaTol_nonneg p (min r c) hA0]
  by_cases hinf : ∃ i j, (cost i j).isInf = true
  · exact flLsaWithInf_of_mixed h hk cost hrep hA hsol hinf
  -- finite
  have hfin : ∀ i j, ∃ x, cost i j = fin x := by
    intro i j
    have h1 := hsol.no_nan i j
    have h2 : ¬ (cost i j).isInf = true := fun h => hinf ⟨i, j, h⟩
    cases hx : cost i j with
    | fin x => exact ⟨x, rfl⟩
    | pinf => rw [hx] at h2; exact absurd rfl h2
    | ninf => rw [hx] at h2; exact absurd rfl h2
    | nan => exact absurd hx h1
  choose x hx using hfin
  obtain rfl : cost = fun i j => fin (x i j) := by funext i j; exact hx i j
  have hk1 : 1 ≤ min r c := by
    simp only [Bool.or_eq_true, beq_iff_eq, not_or] at h0
    omega
  obtain ⟨l, h1, h2, h3⟩ := flLsa_near h x (fun i j => hrep i j _ rfl) (D := 2 * A) (by linarith) (by
    intro i j i' j'
    have e1 := abs_le.1 (hA i j _ rfl)
    have e2 := abs_le.1 (hA i' j' _ rfl)
    linarith) (bits_small hk hk1).2
  have e1 : anyEntry isNegInf (fun i j => fin (x i j)) = false := by
    rw [Bool.eq_false_iff]; simp
  have e2 : anyEntry isPosInf (fun i j => fin (x i j)) = false := by
    rw [Bool.eq_false_iff]; simp
  refine ⟨l, ?_, h2, ?_, ?_, ?_⟩
  · unfold flLsaWithInf
    rw [if_neg h0]
    simp only [e1, e2, Bool.and_self, Bool.or_self, Bool.false_eq_true, if_false]
    exact h1
  · intro l' _; rw [countPos_eq_zero (by simp), countPos_eq_zero (by simp)]
  · intro l' _; rw [countNeg_eq_zero (by simp), countNeg_eq_zero (by simp)]
  · intro l' hl' _ _
    have h4 := h3 l' hl'
    have h5 : 4 * (min r c : ℕ) * ((min r c : ℕ) ^ 2 + 1 : ℝ) ^ 2 * 2 ^ (-p : ℤ) * (2 * A) ≤ lsaTol p (min r c) A := by
      unfold lsaTol
      have hkr : (1 : ℝ) ≤ (min r c : ℕ) := by exact_mod_cast hk1
      generalize ((min r c : ℕ) : ℝ) = k at hkr ⊢
      have h6 : 0 ≤ k * (k ^ 2 + 1) ^ 2 * 2 ^ (-p : ℤ) := by positivity
      have h7 : 8 * A ≤ 36 * k * (A + 1) := by nlinarith
      have := mul_le_mul_of_nonneg_left h7 h6
      nlinarith
    have h6 : ∀ l, finTotal (fun i j => fin (x i j)) l = total x l := fun l => by simp [finTotal, total, toReal?]
    rw [h6, h6]
    linarith

end FBE.Rounded
