import Verif.Proofs.RoundedLsaInf

/-!
# C76 — the assignment solver of the torch back end in floating point arithmetic

`Model/RoundedLsa.lean`: every `+` and `-` of `torch/hungarian.py` and of the place-holder of
`_linear_sum_assignment_with_inf` is rounded to `p` bits.  The specification (`Spec/Assignment.lean`,
`Spec/NearBest.lean`) is about exact sums of the entries and knows nothing about the machine.
-/

namespace FBE.Props

open Spec XR Rounded

variable {p : ℕ} {fl : ℝ → ℝ} {r c : ℕ}

/-- **C76.**  Finite matrix of floating point numbers, `k = min(r, c)`, all entries within `D` of each other.  The solver
returns a complete assignment and its exact total is at most `4 k (k² + 1)² 2^-p D` above the optimum. -/
theorem C76_near_optimal (h : IsNearest p fl) (x : Fin r → Fin c → ℝ) (hx : ∀ i j, Representable p (x i j)) {D : ℝ}
    (hD0 : 0 ≤ D) (hD : ∀ i j i' j', x i j - x i' j' ≤ D)
    (hk : 6 * ((min r c : ℕ) ^ 2 + 1 : ℝ) * 2 ^ (-p : ℤ) ≤ 1) :
    ∃ l, flLsa h (fun i j => fin (x i j)) = .ok l ∧ IsAssignment l ∧ ∀ l', IsAssignment l' →
      total x l ≤ total x l' + 4 * (min r c : ℕ) * ((min r c : ℕ) ^ 2 + 1 : ℝ) ^ 2 * 2 ^ (-p : ℤ) * D :=
  flLsa_near h x hx hD0 hD hk

/-- **C76.**  An assignment that is better than every other one by more than this bound is the one returned. -/
theorem C76_unique (h : IsNearest p fl) (x : Fin r → Fin c → ℝ) (hx : ∀ i j, Representable p (x i j)) {D : ℝ}
    (hD0 : 0 ≤ D) (hD : ∀ i j i' j', x i j - x i' j' ≤ D)
    (hk : 6 * ((min r c : ℕ) ^ 2 + 1 : ℝ) * 2 ^ (-p : ℤ) ≤ 1) {best : List (Fin r × Fin c)} (hb : IsAssignment best)
    (hmargin : ∀ l', IsAssignment l' → l' ≠ best →
      total x best + 4 * (min r c : ℕ) * ((min r c : ℕ) ^ 2 + 1 : ℝ) ^ 2 * 2 ^ (-p : ℤ) * D < total x l') :
    flLsa h (fun i j => fin (x i j)) = .ok best := by
  obtain ⟨l, h1, h2, h3⟩ := C76_near_optimal h x hx hD0 hD hk
  by_cases hl : l = best
  · rw [← hl]; exact h1
  · have := hmargin l h2 hl
    have := h3 best hb
    linarith

/-- **C76.**  When the entries carry an error of their own: `x` are the computed losses, `y` the true ones, at most `ε`
apart.  The assignment found for `x` is optimal for `y` up to `2 k ε` and the error of the solver. -/
theorem C76_perturbed (h : IsNearest p fl) (x y : Fin r → Fin c → ℝ) (hx : ∀ i j, Representable p (x i j)) {D ε : ℝ}
    (hD0 : 0 ≤ D) (hD : ∀ i j i' j', x i j - x i' j' ≤ D) (hε : ∀ i j, |x i j - y i j| ≤ ε)
    (hk : 6 * ((min r c : ℕ) ^ 2 + 1 : ℝ) * 2 ^ (-p : ℤ) ≤ 1) :
    ∃ l, flLsa h (fun i j => fin (x i j)) = .ok l ∧ IsAssignment l ∧ ∀ l', IsAssignment l' →
      total y l ≤ total y l' + 2 * (min r c : ℕ) * ε +
        4 * (min r c : ℕ) * ((min r c : ℕ) ^ 2 + 1 : ℝ) ^ 2 * 2 ^ (-p : ℤ) * D := by
  obtain ⟨l, h1, h2, h3⟩ := C76_near_optimal h x hx hD0 hD hk
  refine ⟨l, h1, h2, fun l' hl' => ?_⟩
  have e1 := Hungarian.total_close hε l
  have e2 := Hungarian.total_close hε l'
  rw [h2.length_eq] at e1
  rw [hl'.length_eq] at e2
  have := h3 l' hl'
  rw [abs_le] at e1 e2
  linarith [e1.1, e2.2]

theorem total_grid {x : Fin r → Fin c → ℝ} {g : ℝ} (hg : ∀ i j, ∃ z : ℤ, x i j = z * g) (l : List (Fin r × Fin c)) :
    ∃ z : ℤ, total x l = z * g := by
  induction l with
  | nil => exact ⟨0, by simp [total]⟩
  | cons a l ih =>
    obtain ⟨z1, h1⟩ := hg a.1 a.2
    obtain ⟨z2, h2⟩ := ih
    refine ⟨z1 + z2, ?_⟩
    have e : total x (a :: l) = x a.1 a.2 + total x l := by simp [total]
    rw [e, h1, h2]
    push_cast
    ring

/-- **C76.**  No error at all: if the entries are multiples of a step `g` that is larger than the bound (integers, or
losses rounded to a fixed number of digits), the assignment is optimal. -/
theorem C76_grid (h : IsNearest p fl) (x : Fin r → Fin c → ℝ) (hx : ∀ i j, Representable p (x i j)) {D g : ℝ}
    (hD0 : 0 ≤ D) (hD : ∀ i j i' j', x i j - x i' j' ≤ D) (hg : ∀ i j, ∃ z : ℤ, x i j = z * g)
    (hk : 6 * ((min r c : ℕ) ^ 2 + 1 : ℝ) * 2 ^ (-p : ℤ) ≤ 1)
    (hbound : 4 * (min r c : ℕ) * ((min r c : ℕ) ^ 2 + 1 : ℝ) ^ 2 * 2 ^ (-p : ℤ) * D < g) :
    ∃ l, flLsa h (fun i j => fin (x i j)) = .ok l ∧ IsOptimal x l := by
  obtain ⟨l, h1, h2, h3⟩ := C76_near_optimal h x hx hD0 hD hk
  refine ⟨l, h1, h2, fun l' hl' => ?_⟩
  obtain ⟨z1, e1⟩ := total_grid hg l
  obtain ⟨z2, e2⟩ := total_grid hg l'
  have h4 := h3 l' hl'
  have hg0 : 0 < g := lt_of_le_of_lt (by positivity) hbound
  rw [e1, e2] at h4 ⊢
  have h5 : ((z1 : ℝ) - z2) * g < 1 * g := by linarith
  have h6 : (z1 : ℝ) - z2 < 1 := lt_of_mul_lt_mul_right h5 hg0.le
  have h7 : z1 ≤ z2 := by
    have : ((z1 - z2 : ℤ) : ℝ) < ((1 : ℤ) : ℝ) := by push_cast; exact h6
    have := Int.cast_lt.1 this
    omega
  exact mul_le_mul_of_nonneg_right (by exact_mod_cast h7) hg0.le

/-- **C76.**  With infinite entries, as produced by a perfect or a silent estimate when `clamp_db=None`.  The number of `+inf`
selected is exactly the least possible, the number of `-inf` exactly the largest, and the finite rest is within
`36 k² (k² + 1)² 2^-p (A + 1)` of the best, for entries of size at most `A`.  For `float32` this covers up to 11
sources. -/
theorem C76_with_inf (h : IsNearest p fl)
    (hk : 100 * (min r c : ℕ) * ((min r c : ℕ) ^ 2 + 1 : ℝ) ^ 2 * 2 ^ (-p : ℤ) ≤ 1) (cost : Fin r → Fin c → XR)
    (hrep : ∀ i j x, cost i j = fin x → Representable p x) {A : ℝ} (hA0 : 0 ≤ A)
    (hA : ∀ i j x, cost i j = fin x → |x| ≤ A) (hsol : Solvable cost) :
    ∃ l, flLsaWithInf h cost = .ok l ∧
      IsNearBest (36 * ((min r c : ℕ) : ℝ) ^ 2 * (((min r c : ℕ) : ℝ) ^ 2 + 1) ^ 2 * 2 ^ (-p : ℤ) * (A + 1)) cost l :=
  flLsaWithInf_near h hk cost hrep hA0 hA hsol

/-- **C76.**  A matrix with a NaN and a matrix with both infinities raise `ValueError`; a non-empty matrix with nothing but
infinities of one sign raises `RuntimeError`. -/
theorem C76_rejects (h : IsNearest p fl) (cost : Fin r → Fin c → XR) :
    ((∃ i j, cost i j = pinf) → (∃ i j, cost i j = ninf) → flLsaWithInf h cost = .error .valueError) ∧
    ((∃ i j, cost i j = nan) → flLsaWithInf h cost = .error .valueError) ∧
    (0 < r → 0 < c → ((∀ i j, cost i j = pinf) ∨ ∀ i j, cost i j = ninf) →
      flLsaWithInf h cost = .error .runtimeError) := by
  have hguard : ∀ (i : Fin r) (j : Fin c), ¬ ((r == 0 || c == 0) = true) := by
    intro i j
    have := i.isLt
    have := j.isLt
    simp only [Bool.or_eq_true, beq_iff_eq, not_or]
    omega
  refine ⟨?_, ?_, ?_⟩
  · rintro ⟨i, j, hij⟩ ⟨i', j', hij'⟩
    unfold flLsaWithInf
    rw [if_neg (hguard i j)]
    dsimp only
    rw [if_pos]
    rw [Bool.and_eq_true, anyEntry_iff, anyEntry_iff]
    exact ⟨⟨i', j', by simpa using hij'⟩, ⟨i, j, by simpa using hij⟩⟩
  · rintro ⟨i, j, hij⟩
    have hnan : ∀ x : Fin r → Fin c → XR, x i j = nan → flLsa h x = .error .valueError := by
      intro x hx
      unfold flLsa
      rw [if_pos]
      rw [anyEntry_iff]
      exact ⟨i, j, by simp [hx]⟩
    unfold flLsaWithInf
    rw [if_neg (hguard i j)]
    dsimp only
    split
    · rfl
    split
    · have hmem : nan ∈ nonInfValues cost := mem_nonInfValues.2 ⟨⟨i, j, hij⟩, rfl⟩
      obtain ⟨a, l, hl⟩ : ∃ a l, nonInfValues cost = a :: l := List.exists_cons_of_ne_nil (List.ne_nil_of_mem hmem)
      rw [hl]
      exact hnan _ (by rw [hij]; rfl)
    · exact hnan _ hij
  · intro hr hc hall
    have hinf : ∀ i j, (cost i j).isInf = true := by
      intro i j
      rcases hall with h | h <;> rw [h i j] <;> rfl
    have hnil : nonInfValues cost = [] := by
      rw [List.eq_nil_iff_forall_not_mem]
      intro x hx
      obtain ⟨⟨a, b, rfl⟩, h2⟩ := mem_nonInfValues.1 hx
      rw [hinf] at h2
      simp at h2
    unfold flLsaWithInf
    rw [if_neg (hguard ⟨0, hr⟩ ⟨0, hc⟩)]
    dsimp only
    rw [if_neg, if_pos]
    · rw [hnil]; rfl
    · rw [Bool.or_eq_true, anyEntry_iff, anyEntry_iff]
      rcases hall with h | h
      · exact Or.inr ⟨⟨0, hr⟩, ⟨0, hc⟩, by simp [h]⟩
      · exact Or.inl ⟨⟨0, hr⟩, ⟨0, hc⟩, by simp [h]⟩
    · rw [Bool.and_eq_true, anyEntry_iff, anyEntry_iff]
      rintro ⟨⟨i, j, h1⟩, ⟨i', j', h2⟩⟩
      rw [isNegInf_iff] at h1
      rw [isPosInf_iff] at h2
      rcases hall with h | h
      · rw [h] at h1; simp at h1
      · rw [h] at h2; simp at h2

/-! ### the hypotheses are satisfiable, and the bounds mean something -/

theorem rep_int (z : ℤ) (hz : |z| ≤ 2 ^ p) : Representable p (z : ℝ) := ⟨z, 0, hz, by simp⟩

/-- `float32`: a matrix in tenths of a decibel (scaled by ten) is solved exactly. -/
example : ∃ fl : ℝ → ℝ, ∃ h : IsNearest 24 fl, ∃ l,
    flLsa h (fun i j => fin ((![![-253, 17, 40], ![31, -112, -110]] i j : ℤ) : ℝ) : Fin 2 → Fin 3 → XR) = .ok l ∧
    IsOptimal (fun i j => ((![![-253, 17, 40], ![31, -112, -110]] i j : ℤ) : ℝ) : Fin 2 → Fin 3 → ℝ) l := by
  obtain ⟨fl, h⟩ := exists_nearest (p := 24) (by norm_num)
  refine ⟨fl, h, C76_grid h _ (fun i j => rep_int _ ?_) (D := 300) (g := 1) (by norm_num) ?_ (fun i j => ⟨_, (mul_one _).symm⟩)
    (by norm_num) (by norm_num)⟩
  · fin_cases i <;> fin_cases j <;> norm_num
  · intro i j i' j'
    fin_cases i <;> fin_cases j <;> fin_cases i' <;> fin_cases j' <;> norm_num

theorem two_by_two {l : List (Fin 2 × Fin 2)} (h : IsAssignment l) : l = [(0, 0), (1, 1)] ∨ l = [(0, 1), (1, 0)] := by
  obtain ⟨h1, h2, h3⟩ := h
  obtain ⟨⟨a, b⟩, ⟨a', b'⟩, rfl⟩ := List.length_eq_two.1 h1
  fin_cases a <;> fin_cases b <;> fin_cases a' <;> fin_cases b' <;> simp at h2 h3 ⊢

/-- `float32`: two talkers, the crossed pairing is better by more than the bound, hence found. -/
example : ∃ fl : ℝ → ℝ, ∃ h : IsNearest 24 fl,
    flLsa h (fun i j => fin ((![![-2, -9], ![-8, 1]] i j : ℤ) : ℝ) : Fin 2 → Fin 2 → XR) = .ok [(0, 1), (1, 0)] := by
  obtain ⟨fl, h⟩ := exists_nearest (p := 24) (by norm_num)
  refine ⟨fl, h, C76_unique h _ (fun i j => rep_int _ ?_) (D := 10) (by norm_num) ?_ (by norm_num)
    ⟨by decide, by decide, by decide⟩ ?_⟩
  · fin_cases i <;> fin_cases j <;> norm_num
  · intro i j i' j'
    fin_cases i <;> fin_cases j <;> fin_cases i' <;> fin_cases j' <;> norm_num
  · intro l' hl' hne
    rcases two_by_two hl' with rfl | rfl
    · norm_num [total]
    · exact absurd rfl hne

/-- Losses known to one decibel. -/
example : ∃ fl : ℝ → ℝ, ∃ h : IsNearest 24 fl, ∃ l,
    flLsa h (fun i j => fin ((![![-2, -9], ![-8, 1]] i j : ℤ) : ℝ) : Fin 2 → Fin 2 → XR) = .ok l ∧ IsAssignment l ∧
    ∀ l', IsAssignment l' → total (![![-1.5, -9.5], ![-8.5, 0.2]] : Fin 2 → Fin 2 → ℝ) l ≤
      total (![![-1.5, -9.5], ![-8.5, 0.2]] : Fin 2 → Fin 2 → ℝ) l' + 5 := by
  obtain ⟨fl, h⟩ := exists_nearest (p := 24) (by norm_num)
  obtain ⟨l, h1, h2, h3⟩ := C76_perturbed h (fun i j => ((![![-2, -9], ![-8, 1]] i j : ℤ) : ℝ) : Fin 2 → Fin 2 → ℝ)
    (![![-1.5, -9.5], ![-8.5, 0.2]] : Fin 2 → Fin 2 → ℝ) (fun i j => rep_int _ (by
      fin_cases i <;> fin_cases j <;> norm_num)) (D := 10) (ε := 1) (by norm_num) (by
      intro i j i' j'
      fin_cases i <;> fin_cases j <;> fin_cases i' <;> fin_cases j' <;> norm_num) (by
      intro i j
      fin_cases i <;> fin_cases j <;> norm_num [abs_le]) (by norm_num)
  refine ⟨fl, h, l, h1, h2, fun l' hl' => (h3 l' hl').trans ?_⟩
  rw [add_assoc]
  gcongr
  norm_num

/-- `float32`, eleven sources: the bound on the number of pairs of `C76_with_inf`. -/
example : 100 * ((11 : ℕ) : ℝ) * (((11 : ℕ) : ℝ) ^ 2 + 1) ^ 2 * 2 ^ (-(24 : ℕ) : ℤ) ≤ 1 := by norm_num

/-- `float32`, three sources, losses up to 60 dB: the tolerance is below a tenth of a decibel. -/
example : 36 * ((3 : ℕ) : ℝ) ^ 2 * (((3 : ℕ) : ℝ) ^ 2 + 1) ^ 2 * 2 ^ (-(24 : ℕ) : ℤ) * (60 + 1) ≤ 0.12 := by norm_num

/-- A perfectly separated source: its `-inf` is selected in spite of the rounded place-holder. -/
example : ∃ fl : ℝ → ℝ, ∃ h : IsNearest 24 fl, ∃ l,
    flLsaWithInf h (![![ninf, fin 3], ![fin 1, fin (-7)]] : Fin 2 → Fin 2 → XR) = .ok l ∧
    1 ≤ countNeg (![![ninf, fin 3], ![fin 1, fin (-7)]] : Fin 2 → Fin 2 → XR) l := by
  obtain ⟨fl, h⟩ := exists_nearest (p := 24) (by norm_num)
  have hval : ∀ i j x, (![![ninf, fin 3], ![fin 1, fin (-7)]] : Fin 2 → Fin 2 → XR) i j = fin x →
      x = 3 ∨ x = 1 ∨ x = -7 := by
    intro i j x hx
    fin_cases i <;> fin_cases j <;> simp at hx <;> subst hx <;> simp
  obtain ⟨l, h1, h2⟩ := C76_with_inf h (by norm_num) (![![ninf, fin 3], ![fin 1, fin (-7)]] : Fin 2 → Fin 2 → XR)
    (fun i j x hx => by
      rcases hval i j x hx with rfl | rfl | rfl
      · exact_mod_cast rep_int (p := 24) 3 (by norm_num)
      · exact_mod_cast rep_int (p := 24) 1 (by norm_num)
      · exact_mod_cast rep_int (p := 24) (-7) (by norm_num))
    (A := 7) (by norm_num)
    (fun i j x hx => by rcases hval i j x hx with rfl | rfl | rfl <;> norm_num [abs_le])
    ⟨fun i j => by fin_cases i <;> fin_cases j <;> simp,
      fun hc => by
        obtain ⟨⟨i, j, hij⟩, -⟩ := hc
        fin_cases i <;> fin_cases j <;> simp at hij,
      fun _ => ⟨1, 0, 1, rfl⟩⟩
  refine ⟨fl, h, l, h1, ?_⟩
  have := h2.neg [(0, 0), (1, 1)] ⟨by decide, by decide, by decide⟩
  exact this

end FBE.Props
