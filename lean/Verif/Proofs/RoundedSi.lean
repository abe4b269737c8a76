import Verif.Model.RoundedSi
import Verif.Proofs.RoundedClamp
import Verif.Spec.Signal

/-!
# Rounding errors of inner products, norms and the coherence
-/

namespace FBE.Rounded

open Spec

variable {p n : ℕ}

/-! ### inner products -/

theorem IsDot.err {u : ℝ} (hu : 0 ≤ u) {x y : Fin n → ℝ} {k : ℕ} {A : Finset (Fin n)} {a : ℝ}
    (h : IsDot u x y k A a) :
    |a - ∑ t ∈ A, x t * y t| ≤ ((1 + u) ^ k - 1) * ∑ t ∈ A, |x t * y t| := by
  have pow_ge : ∀ k : ℕ, 1 ≤ (1 + u) ^ k := fun k => one_le_pow₀ (by linarith)
  have pow_mono : ∀ {k l : ℕ}, k ≤ l → (1 + u) ^ k ≤ (1 + u) ^ l := fun h =>
    pow_le_pow_right₀ (by linarith) h
  -- one rounded addition
  have step : ∀ {g b S T e s : ℝ}, 0 ≤ g → |b - S| ≤ g * T → |S| ≤ T → |e - b| ≤ u * |b| → s = (1 + u) * (1 + g) - 1 →
      |e - S| ≤ s * T := by
    intro g b S T e s hg h1 h2 h3 hs
    have h4 : |e - S| ≤ |e - b| + |b - S| := abs_sub_le _ _ _
    have h5 : |b| ≤ |b - S| + |S| := by
      have := abs_add_le (b - S) S
      rwa [sub_add_cancel] at this
    have h6 : u * |b| ≤ u * (g * T + T) := mul_le_mul_of_nonneg_left (by linarith) hu
    calc |e - S| ≤ u * (g * T + T) + g * T := by linarith
      _ = s * T := by rw [hs]; ring
  induction h with
  | prod t a h => simpa using h
  | @fma k A b t a ht hb h ih =>
    rw [Finset.sum_insert ht, Finset.sum_insert ht]
    refine step (g := (1 + u) ^ k - 1) (b := x t * y t + b) (by linarith [pow_ge k]) ?_ ?_ h (by ring)
    · rw [add_sub_add_left_eq_sub]
      refine ih.trans (mul_le_mul_of_nonneg_left ?_ (by linarith [pow_ge k]))
      linarith [abs_nonneg (x t * y t)]
    · exact (abs_add_le _ _).trans (by gcongr; exact Finset.abs_sum_le_sum_abs _ _)
  | @add k l A B b c a hAB hb hc h ihb ihc =>
    rw [Finset.sum_union hAB, Finset.sum_union hAB]
    refine step (g := (1 + u) ^ max k l - 1) (b := b + c) (by linarith [pow_ge (max k l)]) ?_ ?_ h (by ring)
    · rw [add_sub_add_comm, mul_add]
      refine (abs_add_le _ _).trans (add_le_add (ihb.trans ?_) (ihc.trans ?_))
      · exact mul_le_mul_of_nonneg_right (by linarith [pow_mono (le_max_left k l)])
          (Finset.sum_nonneg fun _ _ => abs_nonneg _)
      · exact mul_le_mul_of_nonneg_right (by linarith [pow_mono (le_max_right k l)])
          (Finset.sum_nonneg fun _ _ => abs_nonneg _)
    · exact (abs_add_le _ _).trans (add_le_add (Finset.abs_sum_le_sum_abs _ _) (Finset.abs_sum_le_sum_abs _ _))
  | mono hkl ha ih =>
    exact ih.trans (mul_le_mul_of_nonneg_right (by linarith [pow_mono hkl])
      (Finset.sum_nonneg fun _ _ => abs_nonneg _))

theorem growth {u : ℝ} (hu : 0 ≤ u) {k : ℕ} (hk : k * u ≤ 1 / 100) : (1 + u) ^ k - 1 ≤ 1.01 * (k * u) := by
  have h1 : (1 + u) ^ k ≤ Real.exp (k * u) := by
    rw [Real.exp_nat_mul]
    exact pow_le_pow_left₀ (by linarith) (by linarith [Real.add_one_le_exp u]) _
  have h0 : 0 ≤ (k : ℝ) * u := by positivity
  have h2 := Real.abs_exp_sub_one_sub_id_le (x := k * u) (by rw [abs_of_nonneg h0]; linarith)
  have h3 := (abs_le.1 h2).2
  nlinarith

theorem IsDot.err' {u : ℝ} (hu : 0 ≤ u) {x y : Fin n → ℝ} {k : ℕ} (hk : k * u ≤ 1 / 100) {A : Finset (Fin n)} {a : ℝ}
    (h : IsDot u x y k A a) :
    |a - ∑ t ∈ A, x t * y t| ≤ 1.01 * (k * u) * ∑ t ∈ A, |x t * y t| :=
  (h.err hu).trans (mul_le_mul_of_nonneg_right (growth hu hk) (Finset.sum_nonneg fun _ _ => abs_nonneg _))

/-- Summing from the first to the last sample. -/
theorem exists_isDot {u : ℝ} (hu : 0 ≤ u) (x y : Fin n → ℝ) (A : Finset (Fin n)) (hA : A.Nonempty) :
    ∃ a, IsDot u x y A.card A a := by
  induction hA using Finset.Nonempty.cons_induction with
  | singleton t => exact ⟨x t * y t, .prod t _ (by rw [sub_self, abs_zero]; positivity)⟩
  | cons t A ht hA ih =>
    obtain ⟨b, hb⟩ := ih
    refine ⟨x t * y t + b, ?_⟩
    rw [Finset.card_cons, Finset.cons_eq_insert]
    exact .fma t _ ht hb (by rw [sub_self, abs_zero]; positivity)

/-! ### normalisation -/

theorem norm_close {g u S q v : ℝ} (hg : 0 ≤ g) (hg1 : g ≤ 0.0101) (hu : 0 ≤ u) (hS : 0 ≤ S)
    (hq : |q - S ^ 2| ≤ g * S ^ 2) (hv : |v - √q| ≤ u * √q) : |v - S| ≤ (0.51 * g + 1.01 * u) * S := by
  obtain ⟨q1, q2⟩ := abs_le.1 hq
  have h1 : √q ≤ (1 + g / 2) * S := by
    rw [show (1 + g / 2) * S = √(((1 + g / 2) * S) ^ 2) from (Real.sqrt_sq (by positivity)).symm]
    refine Real.sqrt_le_sqrt ?_
    have : 0 ≤ g ^ 2 / 4 * S ^ 2 := by positivity
    nlinarith
  have hc : 0 ≤ 1 - 0.506 * g := by linarith
  have h2 : (1 - 0.506 * g) * S ≤ √q := by
    refine Real.le_sqrt_of_sq_le ?_
    have h3 : (1 - 0.506 * g) ^ 2 ≤ 1 - g := by nlinarith
    have h4 := mul_le_mul_of_nonneg_right h3 (sq_nonneg S)
    nlinarith
  have h3 := (abs_le.1 hv).1
  have h4 := (abs_le.1 hv).2
  have h5 : u * √q ≤ u * ((1 + g / 2) * S) := mul_le_mul_of_nonneg_left h1 hu
  have h6 : u * g ≤ u * 0.0101 := mul_le_mul_of_nonneg_left hg1 hu
  have h7 : u * g * S ≤ u * 0.0101 * S := mul_le_mul_of_nonneg_right h6 hS
  have h8 : 0 ≤ g * S := by positivity
  have h9 : 0 ≤ u * S := by positivity
  rw [abs_le]
  constructor <;> nlinarith

theorem quot_close {α u S v z w : ℝ} (hα : 0 ≤ α) (hα1 : α ≤ 0.0103) (hu : 0 ≤ u) (hS : 0 < S)
    (hv : |v - S| ≤ α * S) (hw : |w - z / v| ≤ u * |z / v|) : |w - z / S| ≤ 1.03 * (α + u) * |z / S| := by
  obtain ⟨v1, v2⟩ := abs_le.1 hv
  have hv0 : 0 < v := by nlinarith
  set r := z / S with hr
  have hz : z / v = r * (S / v) := by rw [hr]; field_simp
  have hq : |S / v - 1| ≤ 1.0105 * α := by
    rw [div_sub_one hv0.ne', abs_div, abs_of_pos hv0, div_le_iff₀ hv0, abs_sub_comm]
    refine hv.trans ?_
    have h3 : 1.0105 * α * ((1 - α) * S) ≤ 1.0105 * α * v :=
      mul_le_mul_of_nonneg_left (by linarith) (by linarith)
    have h4 : α * S ≤ 1.0105 * α * ((1 - α) * S) := by
      have h5 : α * α ≤ α * 0.0103 := mul_le_mul_of_nonneg_left hα1 hα
      have h6 : α * α * S ≤ α * 0.0103 * S := mul_le_mul_of_nonneg_right h5 hS.le
      have h7 : 0 ≤ α * S := by positivity
      nlinarith
    linarith
  have h1 : |z / v - r| ≤ 1.0105 * α * |r| := by
    rw [hz, show r * (S / v) - r = (S / v - 1) * r by ring, abs_mul]
    exact mul_le_mul_of_nonneg_right hq (abs_nonneg _)
  have h2 : |z / v| ≤ (1 + 1.0105 * α) * |r| := by
    have := abs_add_le (z / v - r) r
    rw [sub_add_cancel] at this
    linarith
  have h3 : |w - r| ≤ |w - z / v| + |z / v - r| := abs_sub_le _ _ _
  have h4 : u * |z / v| ≤ u * ((1 + 1.0105 * α) * |r|) := mul_le_mul_of_nonneg_left h2 hu
  have h5 : u * α ≤ u * 0.0103 := mul_le_mul_of_nonneg_left hα1 hu
  have h6 : u * α * |r| ≤ u * 0.0103 * |r| := mul_le_mul_of_nonneg_right h5 (abs_nonneg _)
  have h7 : 0 ≤ α * |r| := by positivity
  have h8 : 0 ≤ u * |r| := by positivity
  nlinarith

theorem sum_abs_div_le (x y : Fin n → ℝ) (hx : 0 < sigNorm x) (hy : 0 < sigNorm y) :
    ∑ t, |x t / sigNorm x * (y t / sigNorm y)| ≤ 1 := by
  have h : ∀ t, |x t / sigNorm x * (y t / sigNorm y)| = |x t| * |y t| / (sigNorm x * sigNorm y) := fun t => by
    rw [abs_mul, abs_div, abs_div, abs_of_pos hx, abs_of_pos hy, div_mul_div_comm]
  simp only [h]
  rw [← Finset.sum_div, div_le_one (by positivity)]
  have := Real.sum_mul_le_sqrt_mul_sqrt Finset.univ (fun t => |x t|) (fun t => |y t|)
  simpa [sigNorm] using this

/-- The cosine of the angle between two signals. -/
noncomputable def cosine (x y : Fin n → ℝ) : ℝ := ∑ t, x t / sigNorm x * (y t / sigNorm y)

theorem cosine_abs_le (x y : Fin n → ℝ) (hx : 0 < sigNorm x) (hy : 0 < sigNorm y) : |cosine x y| ≤ 1 :=
  (Finset.abs_sum_le_sum_abs _ _).trans (sum_abs_div_le x y hx hy)

/-- Both signals are loud enough for the bound `1e-6` of the norms. -/
theorem IsNormalized.close {E : Machine p} {k : ℕ} (hp : 11 ≤ p) (hk : (k + 2) * unit p ≤ 1 / 100)
    {x x' : Fin n → ℝ} (h : IsNormalized E k x x') (hx : 2e-6 ≤ sigNorm x) (t : Fin n) :
    |x' t - x t / sigNorm x| ≤ (0.5306 * (k * unit p) + 2.0703 * unit p) * |x t / sigNorm x| := by
  obtain ⟨q, v, hq, hv, hx'⟩ := h
  have hu0 := unit_pos (p := p)
  have hu := unit_le hp
  have hS : 0 < sigNorm x := lt_of_lt_of_le (by norm_num) hx
  have hk0 : 0 ≤ (k : ℝ) * unit p := by positivity
  have hq' := hq.err' (u := unit p) hu0.le (by linarith)
  have hsq : ∑ t, x t * x t = sigNorm x ^ 2 := by
    unfold sigNorm
    rw [Real.sq_sqrt (Finset.sum_nonneg fun t _ => sq_nonneg _)]
    exact Finset.sum_congr rfl fun t _ => (sq _).symm
  have hsq' : ∑ t, |x t * x t| = sigNorm x ^ 2 := by
    rw [← hsq]
    exact Finset.sum_congr rfl fun t _ => abs_of_nonneg (mul_self_nonneg _)
  rw [hsq, hsq'] at hq'
  have hv' := norm_close (g := 1.01 * (k * unit p)) (by positivity) (by linarith) hu0.le hS.le hq' hv
  have hm : max v (E.fl 1e-6) = v := by
    refine max_eq_left ?_
    have h1 := (abs_le.1 (E.fl_nearest.rel 1e-6)).2
    rw [← unit, abs_of_pos (by norm_num)] at h1
    have h2 := (abs_le.1 hv').1
    have h3 : (0.51 * (1.01 * (k * unit p)) + 1.01 * unit p) * sigNorm x ≤ 0.02 * sigNorm x :=
      mul_le_mul_of_nonneg_right (by linarith) hS.le
    have h4 : unit p * 1e-6 ≤ 1 / 2048 * 1e-6 := mul_le_mul_of_nonneg_right hu (by norm_num)
    norm_num at h1 h4 hx ⊢
    linarith
  have hw := E.fl_nearest.rel (x t / v)
  rw [hx' t, hm]
  refine (quot_close (by positivity) (by linarith) hu0.le hS hv' hw).trans ?_
  exact mul_le_mul_of_nonneg_right (by linarith) (abs_nonneg _)

theorem prod_close {β a b a' b' : ℝ} (hβ : 0 ≤ β) (hβ1 : β ≤ 0.0168) (ha : |a' - a| ≤ β * |a|) (hb : |b' - b| ≤ β * |b|) :
    |a' * b' - a * b| ≤ 2.017 * β * |a * b| := by
  have h1 : a' * b' - a * b = (a' - a) * (b' - b) + (a' - a) * b + a * (b' - b) := by ring
  have h2 : |a' * b' - a * b| ≤ |a' - a| * |b' - b| + |a' - a| * |b| + |a| * |b' - b| := by
    rw [h1, ← abs_mul, ← abs_mul, ← abs_mul]
    exact abs_add_three _ _ _
  have h3 : |a' - a| * |b' - b| ≤ β * |a| * (β * |b|) := mul_le_mul ha hb (abs_nonneg _) (by positivity)
  have h4 : |a' - a| * |b| ≤ β * |a| * |b| := mul_le_mul_of_nonneg_right ha (abs_nonneg _)
  have h5 : |a| * |b' - b| ≤ |a| * (β * |b|) := mul_le_mul_of_nonneg_left hb (abs_nonneg _)
  have h6 : β * β ≤ 0.0168 * β := mul_le_mul_of_nonneg_right hβ1 hβ
  have h7 : 0 ≤ |a| * |b| := by positivity
  have h8 : β * β * (|a| * |b|) ≤ 0.0168 * β * (|a| * |b|) := mul_le_mul_of_nonneg_right h6 h7
  have h9 : 0 ≤ β * (|a| * |b|) := by positivity
  rw [abs_mul a b]
  nlinarith

/-- The error of the computed coherence. -/
theorem IsCoherence.close {E : Machine p} {k : ℕ} (hp : 11 ≤ p) (hk : (k + 2) * unit p ≤ 1 / 100) {x y : Fin n → ℝ}
    {coh : ℝ} (h : IsCoherence E k x y coh) (hx : 2e-6 ≤ sigNorm x) (hy : 2e-6 ≤ sigNorm y) :
    |coh - cosine x y ^ 2| ≤ 5 * ((k + 2) * unit p) := by
  obtain ⟨x', y', c, hx', hy', hc, rfl⟩ := h
  have hu0 := unit_pos (p := p)
  have hu := unit_le hp
  have hk0 : 0 ≤ (k : ℝ) * unit p := by positivity
  have hSx : 0 < sigNorm x := lt_of_lt_of_le (by norm_num) hx
  have hSy : 0 < sigNorm y := lt_of_lt_of_le (by norm_num) hy
  set β := 0.5306 * (k * unit p) + 2.0703 * unit p with hβ
  have hβ0 : 0 ≤ β := by positivity
  have hβ1 : β ≤ 0.0168 := by rw [hβ]; linarith
  have hprod : ∀ t, |x' t * y' t - x t / sigNorm x * (y t / sigNorm y)| ≤
      2.017 * β * |x t / sigNorm x * (y t / sigNorm y)| := fun t =>
    prod_close hβ0 hβ1 (hx'.close hp hk hx t) (hy'.close hp hk hy t)
  have hT := sum_abs_div_le x y hSx hSy
  set T := ∑ t, |x t / sigNorm x * (y t / sigNorm y)| with hTd
  have hT0 : 0 ≤ T := Finset.sum_nonneg fun _ _ => abs_nonneg _
  have h1 : |∑ t, x' t * y' t - cosine x y| ≤ 2.017 * β * T := by
    unfold cosine
    rw [← Finset.sum_sub_distrib, hTd, Finset.mul_sum]
    exact (Finset.abs_sum_le_sum_abs _ _).trans (Finset.sum_le_sum fun t _ => hprod t)
  have h2 : ∑ t, |x' t * y' t| ≤ (1 + 2.017 * β) * T := by
    rw [hTd, Finset.mul_sum]
    refine Finset.sum_le_sum fun t _ => ?_
    have := abs_add_le (x' t * y' t - x t / sigNorm x * (y t / sigNorm y)) (x t / sigNorm x * (y t / sigNorm y))
    rw [sub_add_cancel] at this
    linarith [hprod t]
  have h3 := hc.err' (u := unit p) hu0.le (by linarith)
  have h4 : |c - cosine x y| ≤ 2.2 * ((k + 2) * unit p) := by
    have h5 : |c - cosine x y| ≤ |c - ∑ t, x' t * y' t| + |∑ t, x' t * y' t - cosine x y| := abs_sub_le _ _ _
    have h6 : 1.01 * (k * unit p) * ∑ t, |x' t * y' t| ≤ 1.01 * (k * unit p) * 1.034 := by
      refine mul_le_mul_of_nonneg_left (h2.trans ?_) (by positivity)
      calc (1 + 2.017 * β) * T ≤ (1 + 2.017 * β) * 1 := by gcongr
        _ ≤ 1.034 := by linarith
    have h7 : 2.017 * β * T ≤ 2.017 * β * 1 := by gcongr
    rw [hβ] at h1 h7
    linarith
  have hρ := cosine_abs_le x y hSx hSy
  set ρ := cosine x y
  set z := (k + 2) * unit p with hz
  have hz0 : 0 ≤ z := by positivity
  have huz : unit p ≤ z / 2 := by rw [hz]; linarith
  have hcabs : |c| ≤ 1.022 := by
    have := abs_add_le (c - ρ) ρ
    rw [sub_add_cancel] at this
    linarith
  have h8 : |c * c - ρ ^ 2| ≤ 2.022 * (2.2 * z) := by
    rw [show c * c - ρ ^ 2 = (c + ρ) * (c - ρ) by ring, abs_mul]
    refine mul_le_mul ((abs_add_le _ _).trans (by linarith)) h4 (abs_nonneg _) (by norm_num)
  have h9 := E.fl_nearest.rel (c * c)
  rw [← unit] at h9
  have h10 : unit p * |c * c| ≤ z / 2 * 1.05 := by
    refine mul_le_mul huz ?_ (abs_nonneg _) (by positivity)
    rw [abs_mul]
    nlinarith [abs_nonneg c]
  have h11 : |E.fl (c * c) - ρ ^ 2| ≤ |E.fl (c * c) - c * c| + |c * c - ρ ^ 2| := abs_sub_le _ _ _
  linarith

end FBE.Rounded
