import Verif.Model.RoundedLsa
import Verif.Proofs.HungarianRounded
import Verif.Proofs.Rounded
import Verif.Proofs.LsaInf
import Mathlib.Analysis.SpecialFunctions.Exp

/-! Floating point numbers as the entries of the Hungarian machine. -/

namespace FBE.Rounded

variable {p : ℕ} {fl : ℝ → ℝ}

theorem FlNum.rnd (h : IsNearest p fl) : Hungarian.Rnd (FlNum.val : FlNum h → ℝ) (2 ^ (-p : ℤ)) where
  u_nonneg := by positivity
  le_iff := Iff.rfl
  zero := rfl
  add_err a b := h.rel _
  sub_err a b := h.rel _
  add_ge {a b c} hle := by have := h.mono hle; rwa [h.fix c.rep] at this
  add_le {a b c} hle := by have := h.mono hle; rwa [h.fix c.rep] at this
  sub_ge {a b c} hle := by have := h.mono hle; rwa [h.fix c.rep] at this
  sub_le {a b c} hle := by have := h.mono hle; rwa [h.fix c.rep] at this

theorem Et_le {u D : ℝ} (hu : 0 ≤ u) (hD : 0 ≤ D) {k : ℕ} (hk : 6 * ((k : ℝ) ^ 2 + 1) * u ≤ 1) :
    Hungarian.Et u (D * (1 + u)) (k * k) ≤ 2 * (((k : ℝ) ^ 2 + 1) ^ 2 * u * D) := by
  have h1 : 1 + u ≤ Real.exp u := by linarith [Real.add_one_le_exp u]
  have h2 : Hungarian.qf u ≤ Real.exp (3 * u) := by
    have e1 := Real.add_one_le_exp (2 * u)
    have e2 := Real.add_one_le_exp u
    rw [show 3 * u = 2 * u + u by ring, Real.exp_add]
    unfold Hungarian.qf
    exact mul_le_mul (by linarith) (by linarith) (by linarith) (Real.exp_pos _).le
  have hq0 : 0 ≤ Hungarian.qf u := by unfold Hungarian.qf; positivity
  have h3 : (1 + u) * Hungarian.qf u ^ (k * k) ≤ Real.exp (3 * ((k : ℝ) ^ 2 + 1) * u) := by
    calc (1 + u) * Hungarian.qf u ^ (k * k) ≤ Real.exp u * Real.exp (3 * u) ^ (k * k) :=
          mul_le_mul h1 (pow_le_pow_left₀ hq0 h2 _) (pow_nonneg hq0 _) (Real.exp_pos _).le
      _ = Real.exp (u + (k * k : ℕ) * (3 * u)) := by rw [Real.exp_add, Real.exp_nat_mul]
      _ ≤ _ := by
        rw [Real.exp_le_exp]
        push_cast
        nlinarith
  have h4 : Real.exp (3 * ((k : ℝ) ^ 2 + 1) * u) ≤ 2 := by
    have : Real.exp (3 * ((k : ℝ) ^ 2 + 1) * u) ≤ Real.exp (1 / 2) := Real.exp_le_exp.2 (by linarith)
    refine this.trans ?_
    have h5 : Real.exp (1 / 2) * Real.exp (1 / 2) = Real.exp 1 := by rw [← Real.exp_add]; norm_num
    have h6 := Real.exp_one_lt_d9
    have h7 := Real.exp_pos (1 / 2)
    nlinarith
  have h8 : Hungarian.Et u (D * (1 + u)) (k * k)
      = (((k : ℝ) ^ 2 + 1) ^ 2 * u * D) * ((1 + u) * Hungarian.qf u ^ (k * k)) := by
    unfold Hungarian.Et
    push_cast
    ring
  rw [h8, mul_comm 2]
  exact mul_le_mul_of_nonneg_left (h3.trans h4) (by positivity)

/-! ### the solver on a finite matrix -/

open Spec XR

theorem lsa_near (h : IsNearest p fl) {r c : ℕ} (cost : Fin r → Fin c → FlNum h) {D : ℝ} (hD0 : 0 ≤ D)
    (hD : ∀ i j i' j', (cost i j).val - (cost i' j').val ≤ D)
    (hk : 6 * ((min r c : ℕ) ^ 2 + 1 : ℝ) * 2 ^ (-p : ℤ) ≤ 1) (fuel : ℕ)
    (hf : Hungarian.fuelBound (min r c) ≤ fuel) :
    ∃ l, Hungarian.linearSumAssignment fuel cost = .ok l ∧ IsAssignment l ∧ ∀ l', IsAssignment l' →
      total (fun i j => (cost i j).val) l ≤ total (fun i j => (cost i j).val) l' +
        4 * (min r c : ℕ) * ((min r c : ℕ) ^ 2 + 1 : ℝ) ^ 2 * 2 ^ (-p : ℤ) * D := by
  have hu : (0 : ℝ) ≤ 2 ^ (-p : ℤ) := by positivity
  obtain ⟨l, h1, x, hx, hopt⟩ := Hungarian.lsa_optimal_near (FlNum.rnd h) cost hD0 hD fuel hf
  refine ⟨l, h1, hopt.isAssignment, fun l' hl' => ?_⟩
  have hE := Et_le hu hD0 hk
  have e1 := Hungarian.total_close hx l
  have e2 := Hungarian.total_close hx l'
  rw [hopt.isAssignment.length_eq] at e1
  rw [hl'.length_eq] at e2
  have hle := hopt.le l' hl'
  have h3 : ((min r c : ℕ) : ℝ) * Hungarian.Et (2 ^ (-p : ℤ)) (D * (1 + 2 ^ (-p : ℤ))) (min r c * min r c)
      ≤ ((min r c : ℕ) : ℝ) * (2 * ((((min r c : ℕ) : ℝ) ^ 2 + 1) ^ 2 * 2 ^ (-p : ℤ) * D)) :=
    mul_le_mul_of_nonneg_left hE (Nat.cast_nonneg _)
  rw [abs_le] at e1 e2
  nlinarith [e1.1, e2.2]

theorem flLsa_near (h : IsNearest p fl) {r c : ℕ} (x : Fin r → Fin c → ℝ) (hx : ∀ i j, Representable p (x i j))
    {D : ℝ} (hD0 : 0 ≤ D) (hD : ∀ i j i' j', x i j - x i' j' ≤ D)
    (hk : 6 * ((min r c : ℕ) ^ 2 + 1 : ℝ) * 2 ^ (-p : ℤ) ≤ 1) :
    ∃ l, flLsa h (fun i j => fin (x i j)) = .ok l ∧ IsAssignment l ∧ ∀ l', IsAssignment l' →
      total x l ≤ total x l' + 4 * (min r c : ℕ) * ((min r c : ℕ) ^ 2 + 1 : ℝ) ^ 2 * 2 ^ (-p : ℤ) * D := by
  have e : (fun i j => (⟨fl (((fin (x i j)).toReal?).getD 0), (h _).1⟩ : FlNum h)) =
      fun i j => (⟨x i j, hx i j⟩ : FlNum h) := by
    funext i j
    exact FlNum.val_injective (h.fix (hx i j))
  have e1 : anyEntry isNan (fun i j => fin (x i j)) = false := by rw [Bool.eq_false_iff]; simp
  have e2 : anyEntry isInf (fun i j => fin (x i j)) = false := by rw [Bool.eq_false_iff]; simp
  unfold flLsa
  rw [e1, e2, e]
  exact lsa_near h (fun i j => ⟨x i j, hx i j⟩) hD0 hD hk _ (by
    unfold Hungarian.fuelBound
    generalize min r c = k
    nlinarith)

/-! ### the place-holder -/

/-- One more rounding: from `c` units of error to `c + 2`. -/
theorem IsNearest.step (h : IsNearest p fl) {x y c B : ℝ} (hxy : |x - y| ≤ c * 2 ^ (-p : ℤ) * B) (hy : |y| ≤ B)
    (hc : c * 2 ^ (-p : ℤ) ≤ 1) : |fl x - y| ≤ (c + 2) * 2 ^ (-p : ℤ) * B := by
  have hu : (0 : ℝ) ≤ 2 ^ (-p : ℤ) := by positivity
  have hB : 0 ≤ B := (abs_nonneg _).trans hy
  have h1 := h.rel x
  have h2 : |x| ≤ B + B := by
    have : |x| ≤ |y| + |x - y| := by
      have := abs_add_le y (x - y)
      rwa [add_sub_cancel] at this
    nlinarith
  have h3 : 2 ^ (-p : ℤ) * |x| ≤ 2 ^ (-p : ℤ) * (B + B) := mul_le_mul_of_nonneg_left h2 hu
  have h4 : |fl x - y| ≤ |fl x - x| + |x - y| := by
    have := abs_add_le (fl x - x) (x - y)
    rwa [sub_add_sub_cancel] at this
  nlinarith

/-- The place-holder in floating point arithmetic.  `P = 1` for `+inf`; `-inf` follows by symmetry. -/
theorem placeholder_close (h : IsNearest p fl) {k : ℕ} (hk1 : 1 ≤ k) (hkp : 400 * (k : ℝ) * 2 ^ (-p : ℤ) ≤ 1)
    {m M : ℝ} (hmM : m ≤ M) :
    |fl (fl (M + fl (fl ((k : ℝ) - 1) * fl (M - m))) +
        fl (fl (k : ℝ) * fl (fl (fl (fl (M - m) + |M|) + |m|) + 1)))
      - ((M + ((k : ℝ) - 1) * (M - m)) + k * (M - m + |M| + |m| + 1))|
      ≤ 20 * 2 ^ (-p : ℤ) * (k * (M - m + |M| + |m| + 1)) ∧
    |fl (fl (m + fl (fl ((k : ℝ) - 1) * fl (m - M))) -
        fl (fl (k : ℝ) * fl (fl (fl (fl (M - m) + |M|) + |m|) + 1)))
      - ((m + ((k : ℝ) - 1) * (m - M)) - k * (M - m + |M| + |m| + 1))|
      ≤ 20 * 2 ^ (-p : ℤ) * (k * (M - m + |M| + |m| + 1)) := by
  set u : ℝ := 2 ^ (-p : ℤ) with hudef
  have hu : (0 : ℝ) < u := by rw [hudef]; positivity
  have hkr : (1 : ℝ) ≤ k := by exact_mod_cast hk1
  have hu400 : 400 * u ≤ 1 := by nlinarith
  set L : ℝ := M - m + |M| + |m| + 1 with hL
  have hd : 0 ≤ M - m := by linarith
  have hM0 := abs_nonneg M
  have hm0 := abs_nonneg m
  have hLpos : 0 < L := by rw [hL]; linarith
  have hkL : L ≤ k * L := by nlinarith
  have step : ∀ {x y B : ℝ} (c c' : ℝ), |x - y| ≤ c * u * B → |y| ≤ B → c * u ≤ 1 → c + 2 = c' →
      |fl x - y| ≤ c' * u * B := by
    intro x y B c c' h1 h2 h3 h4
    rw [← h4]
    exact h.step h1 h2 h3
  -- the integers are exact
  have hp2 : (k : ℝ) ≤ 2 ^ p := by
    have : (k : ℝ) * u ≤ 1 := by nlinarith
    rw [hudef, zpow_neg, zpow_natCast, ← div_eq_mul_inv, div_le_one (by positivity)] at this
    exact this
  have hkfl : fl (k : ℝ) = k := h.fix (representable_of_le (m := k) (e := 0) (by simp) (by
    rw [Int.cast_natCast, abs_of_nonneg (Nat.cast_nonneg _)]; exact hp2))
  have hk1fl : fl ((k : ℝ) - 1) = k - 1 := h.fix (representable_of_le (m := (k : ℤ) - 1) (e := 0) (by simp) (by
    push_cast
    rw [abs_of_nonneg (by linarith)]; linarith))
  rw [hkfl, hk1fl]
  -- the factor
  have s1 : |fl (M - m) - (M - m)| ≤ 2 * u * L :=
    step 0 2 (by simp) (by rw [abs_of_nonneg hd]; linarith) (by simp) (by norm_num)
  have s2 : |fl (fl (M - m) + |M|) - (M - m + |M|)| ≤ 4 * u * L :=
    step 2 4 (by rw [add_sub_add_right_eq_sub]; exact s1)
      (by rw [abs_of_nonneg (by linarith)]; linarith) (by linarith) (by norm_num)
  have s3 : |fl (fl (fl (M - m) + |M|) + |m|) - (M - m + |M| + |m|)| ≤ 6 * u * L :=
    step 4 6 (by rw [add_sub_add_right_eq_sub]; exact s2)
      (by rw [abs_of_nonneg (by linarith)]; linarith) (by linarith) (by norm_num)
  have s4 : |fl (fl (fl (fl (M - m) + |M|) + |m|) + 1) - L| ≤ 8 * u * L :=
    step 6 8 (by
        have e : ∀ z, z + 1 - L = z - (M - m + |M| + |m|) := fun z => by rw [hL]; ring
        rw [e]; exact s3)
      (by rw [abs_of_nonneg hLpos.le]) (by linarith) (by norm_num)
  set Lf := fl (fl (fl (fl (M - m) + |M|) + |m|) + 1)
  have s5 : |fl (k * Lf) - k * L| ≤ 10 * u * (k * L) := by
    refine step 8 10 ?_ (by rw [abs_of_nonneg (by positivity)]) (by linarith) (by norm_num)
    rw [← mul_sub, abs_mul, abs_of_nonneg (by linarith : (0 : ℝ) ≤ k)]
    have := mul_le_mul_of_nonneg_left s4 (by linarith : (0 : ℝ) ≤ k)
    rw [show (8 : ℝ) * u * (k * L) = k * (8 * u * L) by ring]
    exact this
  have hbound : |M| + ((k : ℝ) - 1) * (M - m) ≤ k * L ∧ |m| + ((k : ℝ) - 1) * (M - m) ≤ k * L := by
    have : ((k : ℝ) - 1) * (M - m) ≤ (k - 1) * L := mul_le_mul_of_nonneg_left (by linarith) (by linarith)
    constructor <;> nlinarith
  have hk0 : 0 ≤ ((k : ℝ) - 1) * (M - m) := mul_nonneg (by linarith) hd
  have s6 : ∀ z zf : ℝ, |z| = M - m → |zf - z| ≤ 2 * u * L →
      |fl (((k : ℝ) - 1) * zf) - ((k : ℝ) - 1) * z| ≤ 4 * u * (k * L) := by
    intro z zf hz hzf
    refine step 2 4 ?_ ?_ (by linarith) (by norm_num)
    · rw [← mul_sub, abs_mul, abs_of_nonneg (by linarith : (0 : ℝ) ≤ k - 1)]
      have h1 := mul_le_mul_of_nonneg_left hzf (by linarith : (0 : ℝ) ≤ k - 1)
      have h2 : 0 ≤ 2 * u * L := by positivity
      nlinarith
    · rw [abs_mul, abs_of_nonneg (by linarith : (0 : ℝ) ≤ k - 1), hz]
      linarith [hbound.1]
  have s7 : ∀ z zf w : ℝ, |z| = M - m → |zf - z| ≤ 2 * u * L → |w| + ((k : ℝ) - 1) * (M - m) ≤ k * L →
      |fl (w + fl (((k : ℝ) - 1) * zf)) - (w + ((k : ℝ) - 1) * z)| ≤ 6 * u * (k * L) := by
    intro z zf w hz hzf hw
    refine step 4 6 ?_ ?_ (by linarith) (by norm_num)
    · rw [add_sub_add_left_eq_sub]
      exact s6 z zf hz hzf
    · refine (abs_add_le _ _).trans ?_
      rw [abs_mul, abs_of_nonneg (by linarith : (0 : ℝ) ≤ k - 1), hz]
      exact hw
  have t1 := s7 (M - m) (fl (M - m)) M (abs_of_nonneg hd) s1 hbound.1
  have t2 := s7 (m - M) (fl (m - M)) m (by rw [abs_sub_comm, abs_of_nonneg hd])
    (step 0 2 (by simp) (by rw [abs_sub_comm, abs_of_nonneg hd]; linarith) (by simp) (by norm_num)) hbound.2
  have hM1 : |M + ((k : ℝ) - 1) * (M - m)| ≤ k * L := by
    refine (abs_add_le _ _).trans ?_
    rw [abs_of_nonneg hk0]; exact hbound.1
  have hm1 : |m + ((k : ℝ) - 1) * (m - M)| ≤ k * L := by
    refine (abs_add_le _ _).trans ?_
    rw [show ((k : ℝ) - 1) * (m - M) = -(((k : ℝ) - 1) * (M - m)) by ring, abs_neg, abs_of_nonneg hk0]
    exact hbound.2
  have hkLpos : 0 < k * L := by positivity
  constructor
  · have hy : |(M + ((k : ℝ) - 1) * (M - m)) + k * L| ≤ 2 * (k * L) := by
      refine (abs_add_le _ _).trans ?_
      rw [abs_of_pos hkLpos]; linarith
    refine (step (B := 2 * (k * L)) 8 10 ?_ hy (by linarith) (by norm_num)).trans (le_of_eq (by ring))
    rw [add_sub_add_comm]
    refine (abs_add_le _ _).trans ((add_le_add t1 s5).trans (le_of_eq (by ring)))
  · have hy : |(m + ((k : ℝ) - 1) * (m - M)) - k * L| ≤ 2 * (k * L) := by
      rw [sub_eq_add_neg]
      refine (abs_add_le _ _).trans ?_
      rw [abs_neg, abs_of_pos hkLpos]; linarith
    refine (step (B := 2 * (k * L)) 8 10 ?_ hy (by linarith) (by norm_num)).trans (le_of_eq (by ring))
    rw [sub_sub_sub_comm, sub_eq_add_neg]
    refine (abs_add_le _ _).trans ?_
    rw [abs_neg]
    exact (add_le_add t2 s5).trans (le_of_eq (by ring))

end FBE.Rounded
