import Verif.Model.RoundedPerm
import Verif.Spec.Limited
import Verif.Spec.Api
import Verif.Proofs.Perm
import Verif.Props.C67_FloatSiSdr
import Verif.Props.C76_RoundedAssignment

/-!
# From the samples to the permutation in floating point arithmetic
-/

namespace FBE.Rounded

open Spec XR Props

variable {p n r e : ℕ} {fl : ℝ → ℝ}

/-! ### the limited decibels -/

/-- The exact stage with `clamp_db` is the documented limit. -/
theorem limitedDb_eq {d : ℝ} (hd : 0 ≤ d) {c s : ℝ} (hs : 0 < s) :
    10 * Real.logb 10 ((1 - cclamp (some d) c) / cclamp (some d) c) = -limitedDb d (c * s) ((1 - c) * s) := by
  have hG : (1 : ℝ) ≤ 10 ^ (d / 10) := Real.one_le_rpow (by norm_num) (by positivity)
  have hl : 10 * Real.logb 10 ((10 : ℝ) ^ (d / 10)) = d := by
    rw [Real.logb_rpow (by norm_num) (by norm_num)]; ring
  have he : FBE.epsOf (some d) = 1 / ((10 : ℝ) ^ (d / 10) + 1) := eps_eq d
  unfold limitedDb cclamp
  rw [he]
  set G : ℝ := 10 ^ (d / 10)
  have hG1 : 0 < G + 1 := by linarith
  have hε : 1 - 1 / (G + 1) = G / (G + 1) := by field_simp; ring
  have hle : 1 / (G + 1) ≤ G / (G + 1) := by gcongr
  rw [hε]
  by_cases h1 : (1 - c) * s * G ≤ c * s
  · rw [if_pos h1]
    have h2 : (1 - c) * G ≤ c := le_of_mul_le_mul_right (by linarith) hs
    have h3 : G / (G + 1) ≤ c := by rw [div_le_iff₀ hG1]; linarith
    rw [min_eq_right (h3.trans (le_max_left _ _)), show (1 - G / (G + 1)) / (G / (G + 1)) = G⁻¹ by field_simp; ring,
      Real.logb_inv]
    linarith
  · rw [if_neg h1]
    have h3 : c < G / (G + 1) := by
      rw [lt_div_iff₀ hG1]
      by_contra hc
      exact h1 (by nlinarith [mul_le_mul_of_nonneg_right (not_lt.1 hc) hs.le])
    by_cases h4 : c * s * G ≤ (1 - c) * s
    · rw [if_pos h4]
      have h2 : c * G ≤ 1 - c := le_of_mul_le_mul_right (by linarith) hs
      have h5 : c ≤ 1 / (G + 1) := by rw [le_div_iff₀ hG1]; linarith
      rw [max_eq_right h5, min_eq_left hle, show (1 - 1 / (G + 1)) / (1 / (G + 1)) = G by field_simp; ring]
      linarith
    · rw [if_neg h4]
      have h5 : 1 / (G + 1) < c := by
        rw [div_lt_iff₀ hG1]
        by_contra hc
        exact h4 (by nlinarith [mul_le_mul_of_nonneg_right (not_lt.1 hc) hs.le])
      rw [max_eq_left h5.le, min_eq_left h3.le, mul_div_mul_right _ _ hs.ne', ← inv_div, Real.logb_inv]
      ring

theorem limitedDb_abs {d : ℝ} (hd : 0 ≤ d) {A B : ℝ} (hA : 0 ≤ A) (hB : 0 ≤ B) : |limitedDb d A B| ≤ d := by
  have hG : (1 : ℝ) ≤ 10 ^ (d / 10) := Real.one_le_rpow (by norm_num) (by positivity)
  have hl : Real.logb 10 ((10 : ℝ) ^ (d / 10)) = d / 10 := Real.logb_rpow (by norm_num) (by norm_num)
  unfold limitedDb
  set G : ℝ := 10 ^ (d / 10)
  have hG0 : 0 < G := by linarith
  split_ifs with h1 h2
  · rw [abs_of_nonneg hd]
  · rw [abs_neg, abs_of_nonneg hd]
  · have hA0 : 0 < A := by
      rcases hA.eq_or_lt with h | h
      · exact absurd (by rw [← h, zero_mul]; exact hB) h2
      · exact h
    have hB0 : 0 < B := by
      rcases hB.eq_or_lt with h | h
      · exact absurd (by rw [← h, zero_mul]; exact hA) h1
      · exact h
    have a1 : Real.logb 10 (A / B) ≤ Real.logb 10 G :=
      Real.logb_le_logb_of_le (by norm_num) (by positivity) (by rw [div_le_iff₀ hB0]; linarith [not_le.1 h1])
    have a2 : Real.logb 10 (B / A) ≤ Real.logb 10 G :=
      Real.logb_le_logb_of_le (by norm_num) (by positivity) (by rw [div_le_iff₀ hA0]; linarith [not_le.1 h2])
    rw [← inv_div, Real.logb_inv] at a2
    rw [hl] at a1 a2
    rw [abs_le]
    constructor <;> linarith

theorem clamp_lipschitz {x y a b a' b' δ : ℝ} (h1 : |x - y| ≤ δ) (h2 : |a - a'| ≤ δ) (h3 : |b - b'| ≤ δ) :
    |min (max x a) b - min (max y a') b'| ≤ δ := by
  have m1 : |max x a - max y a'| ≤ δ := (abs_max_sub_max_le_max _ _ _ _).trans (max_le h1 h2)
  exact (abs_min_sub_min_le_max _ _ _ _).trans (max_le m1 h3)

/-- The bounds of the clamp. -/
theorem bounds_close (E : Machine p) {d : ℝ} (hd : 0 ≤ d) (hd' : d ≤ 1000) :
    |lo E (some d) - FBE.epsOf (some d)| ≤ 2 ^ (1 - p : ℤ) + 2 ^ (-40 : ℤ) ∧
      |hi E (some d) - (1 - FBE.epsOf (some d))| ≤ 2 ^ (1 - p : ℤ) + 2 ^ (-40 : ℤ) := by
  obtain ⟨e1, e2⟩ := dbClampEps_close E hd hd'
  have hG : (1 : ℝ) ≤ 10 ^ (d / 10) := Real.one_le_rpow (by norm_num) (by positivity)
  have he : FBE.dbClampEps d = 1 / ((10 : ℝ) ^ (d / 10) + 1) := eps_eq d
  have hε0 : 0 ≤ FBE.dbClampEps d := by rw [he]; positivity
  have hε1 : FBE.dbClampEps d ≤ 1 / 2 := by
    rw [he, div_le_div_iff₀ (by linarith) (by norm_num)]; linarith
  have hx : Rounded.epsOf E (some d) = Rounded.dbClampEps E d := rfl
  have hx' : FBE.epsOf (some d) = FBE.dbClampEps d := rfl
  unfold lo hi
  rw [hx, hx']
  have hup : (2 : ℝ) ^ (1 - p : ℤ) = 2 * 2 ^ (-p : ℤ) := by rw [sub_eq_add_neg, zpow_add₀ (by norm_num)]; norm_num
  rw [hup]
  have hu0 : (0 : ℝ) < 2 ^ (-p : ℤ) := by positivity
  set ε := FBE.dbClampEps d
  set ε' := Rounded.dbClampEps E d
  set u : ℝ := 2 ^ (-p : ℤ)
  norm_num at e1 e2 ⊢
  have k1 : 0 ≤ ε' := le_trans (mul_nonneg (by norm_num) hε0) e1
  have k2 : ε' ≤ 0.6 := by nlinarith
  have f1 := E.fl_nearest.rel ε'
  rw [abs_of_nonneg k1] at f1
  have g1 := E.fl64_nearest.abs_err (x := 1 - ε') (by rw [abs_le]; constructor <;> linarith)
  have g2 := E.fl_nearest.rel (E.fl64 (1 - ε'))
  norm_num at g1
  change |E.fl ε' - ε'| ≤ u * ε' at f1
  change |E.fl (E.fl64 (1 - ε')) - E.fl64 (1 - ε')| ≤ u * |E.fl64 (1 - ε')| at g2
  set q := E.fl64 (1 - ε')
  obtain ⟨g3, g4⟩ := abs_le.1 g1
  have k3 : |q| ≤ 1.1 := by rw [abs_le]; constructor <;> linarith
  have k4 : u * |q| ≤ u * 1.1 := by gcongr
  have k5 : u * ε' ≤ u * 0.6 := by gcongr
  obtain ⟨f2, f3⟩ := abs_le.1 f1
  obtain ⟨g5, g6⟩ := abs_le.1 g2
  constructor <;> rw [abs_le] <;> constructor <;> linarith

/-- The decibels of two coherences. -/
theorem db_diff {c b δ : ℝ} (h0 : 0 < c) (h1 : c < 1) (hb : |b - c| ≤ δ) (d1 : 2 * δ ≤ c) (d2 : 2 * δ ≤ 1 - c) :
    0 < b ∧ b < 1 ∧ |10 * Real.logb 10 ((1 - b) / b) - 10 * Real.logb 10 ((1 - c) / c)| ≤ 9 * δ * (1 / c + 1 / (1 - c)) := by
  have h2 : 0 < 1 - c := by linarith
  obtain ⟨hb0, l1⟩ := log_close h0 hb d1
  obtain ⟨hb1, l2⟩ := log_close (b := 1 - b) h2 (by rw [sub_sub_sub_cancel_left, abs_sub_comm]; exact hb) d2
  refine ⟨hb0, by linarith, ?_⟩
  have hlog : 0 < Real.log 10 := Real.log_pos (by norm_num)
  have hδ0 : 0 ≤ δ := (abs_nonneg _).trans hb
  have : 10 * Real.logb 10 ((1 - b) / b) - 10 * Real.logb 10 ((1 - c) / c) =
      10 / Real.log 10 * ((Real.log (1 - b) - Real.log (1 - c)) - (Real.log b - Real.log c)) := by
    rw [Real.logb, Real.logb, Real.log_div hb1.ne' hb0.ne', Real.log_div h2.ne' h0.ne']
    field_simp
    ring
  rw [this, abs_mul, abs_of_pos (by positivity)]
  have h3 : |(Real.log (1 - b) - Real.log (1 - c)) - (Real.log b - Real.log c)| ≤ 2 * δ * (1 / c + 1 / (1 - c)) := by
    refine (abs_sub _ _).trans ((add_le_add l2 l1).trans_eq ?_)
    rw [div_eq_mul_one_div, div_eq_mul_one_div (2 * δ) c]
    ring
  have h4 : 10 / Real.log 10 ≤ 4.5 := by
    rw [div_le_iff₀ hlog]
    linarith [log_ten_lower]
  calc _ ≤ 4.5 * (2 * δ * (1 / c + 1 / (1 - c))) := mul_le_mul h4 h3 (abs_nonneg _) (by norm_num)
    _ = _ := by ring

/-- The decibel stage, for a coherence with an error of at most `δ₀`. -/
theorem clamped_close_of (E : Machine p) (hp : 11 ≤ p) {d : ℝ} (hd : 0 ≤ d) (hd' : d ≤ 1000) {δ₀ : ℝ}
    (hu : (2 : ℝ) ^ (1 - p : ℤ) ≤ δ₀) (hlim : 2 * (δ₀ + 2 ^ (-40 : ℤ)) * ((10 : ℝ) ^ (d / 10) + 1) ≤ 1)
    {q s coh : ℝ} (hs : 0 < s) (hq0 : 0 ≤ q) (hq1 : q ≤ 1) (hc : |coh - q| ≤ δ₀) :
    ∃ w, coherenceToNegSdr E (some d) (fin coh) = fin w ∧ Representable p w ∧ |w - -limitedDb d (q * s) ((1 - q) * s)| ≤
      10 * (δ₀ + 2 ^ (-40 : ℤ)) * ((10 : ℝ) ^ (d / 10) + 3) + 2 ^ (5 - p : ℤ) * (d + 1) := by
  have hδ0 : 0 < δ₀ := lt_of_lt_of_le (by positivity) hu
  obtain ⟨b1, b2⟩ := bounds_close E hd hd'
  have h40 : (0 : ℝ) < 2 ^ (-40 : ℤ) := by positivity
  have hT := limitedDb_eq hd (c := q) hs
  set S := limitedDb d (q * s) ((1 - q) * s) with hS
  have hSd : |S| ≤ d := limitedDb_abs hd (by positivity) (mul_nonneg (by linarith) hs.le)
  have hG : (1 : ℝ) ≤ 10 ^ (d / 10) := Real.one_le_rpow (by norm_num) (by positivity)
  have he : FBE.epsOf (some d) = 1 / ((10 : ℝ) ^ (d / 10) + 1) := eps_eq d
  set δ := δ₀ + 2 ^ (-40 : ℤ)
  have hδ : 0 < δ := by positivity
  have hclose := clamp_lipschitz (hc.trans (by linarith : _ ≤ δ)) (b1.trans (by linarith)) (b2.trans (by linarith))
  set b := min (max coh (lo E (some d))) (hi E (some d)) with hb
  change |b - cclamp (some d) (q)| ≤ δ at hclose
  -- where the exact clamped coherence lies
  have hrange : FBE.epsOf (some d) ≤ cclamp (some d) (q) ∧
      cclamp (some d) (q) ≤ 1 - FBE.epsOf (some d) := by
    have hε : FBE.epsOf (some d) ≤ 1 / 2 := by
      rw [he, div_le_div_iff₀ (by linarith) (by norm_num)]; linarith
    exact ⟨le_min (le_max_right _ _) (by linarith), min_le_right _ _⟩
  rw [he] at hrange
  set c := cclamp (some d) (q) with hcc
  set G : ℝ := 10 ^ (d / 10)
  have hG1 : 0 < G + 1 := by linarith
  obtain ⟨r1, r2⟩ := hrange
  have hε0 : 0 < 1 / (G + 1) := by positivity
  have hc0 : 0 < c := by linarith
  have hc1 : 0 < 1 - c := by linarith
  have d0 : 2 * δ ≤ 1 / (G + 1) := by rw [le_div_iff₀ hG1]; exact hlim
  obtain ⟨k1, k2, k3⟩ := db_diff hc0 (by linarith) hclose (by linarith) (by linarith)
  have hv : coherenceToNegSdr E (some d) (fin coh) = fin (dbFl E b) :=
    coherenceToNegSdr_of_clamp E (by omega) (c := b) rfl k1 k2
  refine ⟨dbFl E b, hv, (E.fl_nearest _).1, ?_⟩
  have k4 := dbFl_close E hp k1 k2
  rw [hT] at k3
  have hsum : 1 / c + 1 / (1 - c) ≤ G + 3 := by
    have i1 : 1 / (1 / (G + 1)) = G + 1 := by field_simp
    have q1 : 1 / (G + 1) * (1 - 1 / (G + 1)) ≤ c * (1 - c) := by nlinarith
    have q2 : 1 / c + 1 / (1 - c) = 1 / (c * (1 - c)) := by field_simp; ring
    have q3 : 1 / (G + 1) * (1 - 1 / (G + 1)) = G / (G + 1) ^ 2 := by field_simp; ring
    rw [q2]
    rw [q3] at q1
    have q4 : 1 / (c * (1 - c)) ≤ 1 / (G / (G + 1) ^ 2) := one_div_le_one_div_of_le (by positivity) q1
    refine q4.trans ?_
    rw [one_div_div, div_le_iff₀ (by linarith)]
    nlinarith
  have k5 : 9 * δ * (1 / c + 1 / (1 - c)) ≤ 9 * δ * (G + 3) := by gcongr
  have hη : 32 * unit p = 2 ^ (5 - p : ℤ) := by
    unfold unit
    rw [sub_eq_add_neg, zpow_add₀ (by norm_num)]
    norm_num
  rw [hη] at k4
  set X := 10 * Real.logb 10 ((1 - b) / b)
  set η : ℝ := 2 ^ (5 - p : ℤ)
  have hη0 : 0 < η := by positivity
  have hη1 : η ≤ 1 / 64 := by
    calc η ≤ (2 : ℝ) ^ (-6 : ℤ) := zpow_le_zpow_right₀ (by norm_num) (by omega)
      _ = 1 / 64 := by norm_num
  have h6 : |dbFl E b - -S| ≤ |dbFl E b - X| + |X - -S| := abs_sub_le _ _ _
  have h7 : |X| ≤ |X - -S| + |S| := by
    have := abs_add_le (X - -S) (-S)
    rwa [sub_add_cancel, abs_neg] at this
  have h8 : η * (|X| + 1) ≤ η * (9 * δ * (G + 3) + d + 1) := mul_le_mul_of_nonneg_left (by linarith) hη0.le
  have h9 : η * (9 * δ * (G + 3)) ≤ 1 / 64 * (9 * δ * (G + 3)) := mul_le_mul_of_nonneg_right hη1 (by positivity)
  have h10 : 0 ≤ δ * (G + 3) := by positivity
  linarith

/-- The error of a value, with `clamp_db`: a bound. -/
noncomputable def clampedErr (p k : ℕ) (d : ℝ) : ℝ :=
  10 * (cohErr p k + 2 ^ (-40 : ℤ)) * ((10 : ℝ) ^ (d / 10) + 3) + 2 ^ (5 - p : ℤ) * (d + 1)

theorem clamped_close (E : Machine p) (hp : 11 ≤ p) {k : ℕ} (hk : ((k + 2 : ℕ) : ℝ) * 2 ^ (-p : ℤ) ≤ 1 / 100) {d : ℝ}
    (hd : 0 ≤ d) (hd' : d ≤ 1000) (hlim : 2 * (cohErr p k + 2 ^ (-40 : ℤ)) * ((10 : ℝ) ^ (d / 10) + 1) ≤ 1)
    {x y : Fin n → ℝ} (hx : 2e-6 ≤ sigNorm x) (hy : 2e-6 ≤ sigNorm y) {v : XR} (hv : IsSiSdrLoss E k (some d) y x v) :
    ∃ w, v = fin w ∧ Representable p w ∧ |w - -limitedSiSdr d x y| ≤ clampedErr p k d := by
  obtain ⟨coh, hcoh, rfl⟩ := hv
  have hc := coh_close hp hk hcoh hx hy
  have hSx : 0 < sigNorm x := lt_of_lt_of_le (by norm_num) hx
  have hSy : 0 < sigNorm y := lt_of_lt_of_le (by norm_num) hy
  obtain ⟨e1, e2⟩ := energies x y hSx hSy
  have hu : (2 : ℝ) ^ (1 - p : ℤ) ≤ cohErr p k := by
    unfold cohErr
    have hup : (2 : ℝ) ^ (1 - p : ℤ) = 2 * 2 ^ (-p : ℤ) := by rw [sub_eq_add_neg, zpow_add₀ (by norm_num)]; norm_num
    rw [hup]
    have : (0 : ℝ) < 2 ^ (-p : ℤ) := by positivity
    have : (0 : ℝ) ≤ k * 2 ^ (-p : ℤ) := by positivity
    linarith
  unfold limitedSiSdr clampedErr
  rw [e1, e2]
  have h1 := cosine_abs_le x y hSx hSy
  exact clamped_close_of E hp hd hd' hu hlim (pow_pos hSy 2) (sq_nonneg _)
    (by rw [← sq_abs]; exact pow_le_one₀ (abs_nonneg _) h1) hc

/-! ### the permutation -/

theorem flLsaWithInf_finite (h : IsNearest p fl) {a b : ℕ} (x : Fin a → Fin b → ℝ) (ha : a ≠ 0) (hb : b ≠ 0) :
    flLsaWithInf h (fun i j => fin (x i j)) = flLsa h fun i j => fin (x i j) := by
  unfold flLsaWithInf
  have h1 : anyEntry XR.isNegInf (fun i j => fin (x i j)) = false := by simp [anyEntry, XR.isNegInf]
  have h2 : anyEntry XR.isPosInf (fun i j => fin (x i j)) = false := by simp [anyEntry, XR.isPosInf]
  simp only [h1, h2]
  simp [ha, hb]

/-- The assignment for computed losses `x`, true losses `y`. -/
theorem flLsaWithInf_perturbed (h : IsNearest p fl) {a b : ℕ} (x y : Fin a → Fin b → ℝ)
    (hx : ∀ i j, Representable p (x i j)) {D ε : ℝ} (hD0 : 0 ≤ D) (hD : ∀ i j i' j', x i j - x i' j' ≤ D)
    (hε : ∀ i j, |x i j - y i j| ≤ ε) (hk : 6 * ((min a b : ℕ) ^ 2 + 1 : ℝ) * 2 ^ (-p : ℤ) ≤ 1) :
    ∃ l, flLsaWithInf h (fun i j => fin (x i j)) = .ok l ∧ IsAssignment l ∧ ∀ l', IsAssignment l' →
      total y l ≤ total y l' + (2 * (min a b : ℕ) * ε +
        4 * (min a b : ℕ) * ((min a b : ℕ) ^ 2 + 1 : ℝ) ^ 2 * 2 ^ (-p : ℤ) * D) := by
  by_cases h0 : a = 0 ∨ b = 0
  · have hmin : min a b = 0 := by omega
    refine ⟨[], ?_, ⟨by simp [hmin], by simp, by simp⟩, fun l' hl' => ?_⟩
    · unfold flLsaWithInf
      have : (a == 0 || b == 0) = true := by simpa using h0
      rw [if_pos this]
    · have : l' = [] := List.length_eq_zero_iff.1 (by rw [hl'.length_eq, hmin])
      simp [this, total, hmin]
  · push Not at h0
    obtain ⟨l, h1, h2, h3⟩ := C76_perturbed h x y hx hD0 hD hε hk
    exact ⟨l, by rw [flLsaWithInf_finite h x h0.1 h0.2]; exact h1, h2, fun l' hl' => by linarith [h3 l' hl']⟩

theorem sum_pairs (S : Fin r → Fin e → ℝ) (P : Pairing r e) : total S P.pairs = P.sum S := by
  unfold total Pairing.pairs Pairing.sum Pairing.values
  rw [List.map_ofFn, List.sum_ofFn]
  rfl

theorem sum_sorted (S : Fin r → Fin e → ℝ) (P : Pairing r e) : total S P.sorted = P.sum S := by
  rw [← sum_pairs]
  exact (P.sorted_perm.map _).sum_eq

theorem sum_cast {n n' : ℕ} (h : n' = n) (v : Fin n → ℝ) : ∑ k : Fin n', v (k.cast h) = ∑ k, v k := by
  subst h; rfl

theorem sum_swap (S : Fin r → Fin e → ℝ) (P : Pairing r e) : P.swap.sum (fun j i => S i j) = P.sum S :=
  sum_cast (min_comm e r) (P.values S)

theorem sum_swap' (S : Fin r → Fin e → ℝ) (P : Pairing e r) : P.swap.sum S = P.sum fun j i => S i j :=
  sum_cast (min_comm r e) (P.values fun j i => S i j)

theorem sum_neg (S : Fin r → Fin e → ℝ) (P : Pairing r e) : (P.sum fun i j => -S i j) = -P.sum S := by
  unfold Pairing.sum Pairing.values
  rw [Finset.sum_neg_distrib]

/-- Tolerance for a total of `k` pairs. -/
noncomputable def permTol (p k : ℕ) (ε D : ℝ) : ℝ := 2 * k * ε + 4 * k * ((k : ℝ) ^ 2 + 1) ^ 2 * 2 ^ (-p : ℤ) * D

/-- The permutation for computed losses `x`, true values `S`. -/
theorem flSolvePermutation_near (h : IsNearest p fl) (x S : Fin r → Fin e → ℝ) (hx : ∀ i j, Representable p (x i j))
    {D ε : ℝ} (hD0 : 0 ≤ D) (hD : ∀ i j i' j', x i j - x i' j' ≤ D) (hε : ∀ i j, |x i j - -S i j| ≤ ε)
    (hk : 6 * ((min r e : ℕ) ^ 2 + 1 : ℝ) * 2 ^ (-p : ℤ) ≤ 1) :
    ∃ loss perm, ∃ P : Pairing r e, flSolvePermutation h (fun i j => fin (x i j)) = .ok (loss, perm) ∧ Describes perm P ∧
      (∀ k, loss k = fin (x (P.ref k) (P.est k))) ∧
      ∀ P' : Pairing r e, P'.sum S ≤ P.sum S + permTol p (min r e) ε D := by
  unfold flSolvePermutation flPermItem
  by_cases her : e < r
  · rw [if_pos her]
    obtain ⟨l, h1, h2, h3⟩ := flLsaWithInf_perturbed h (fun j i => x i j) (fun j i => -S i j) (fun j i => hx i j) hD0
      (fun j i j' i' => hD i j i' j') (fun j i => hε i j) (by rw [min_comm e r]; exact hk)
    rw [min_comm e r] at h3
    rw [h1]
    have hlen : l.length = min r e := by rw [h2.length_eq, min_comm]
    refine ⟨gather l hlen fun j i => fin (x i j), gather l hlen fun _ j => j.val, (pairingOfList l h2).swap,
      by simp only [dif_pos hlen], ⟨fun hre => absurd her (by omega), fun _ k => ?_⟩,
      fun k => rfl, fun P' => ?_⟩
    · exact ⟨pairingOfList_ref l h2 her.le (k.cast (min_comm r e)), rfl⟩
    · have h4 := h3 P'.swap.sorted P'.swap.sorted_isAssignment
      have h5 : total (fun j i => -S i j) l = (pairingOfList l h2).sum fun j i => -S i j := by
        rw [← sum_pairs, pairingOfList_pairs]
      rw [sum_sorted, h5, sum_neg (fun j i => S i j), sum_neg (fun j i => S i j), sum_swap] at h4
      rw [sum_swap']
      unfold permTol
      linarith
  · rw [if_neg her]
    obtain ⟨l, h1, h2, h3⟩ := flLsaWithInf_perturbed h x (fun i j => -S i j) hx hD0 hD hε hk
    rw [h1]
    have hlen : l.length = min r e := h2.length_eq
    refine ⟨gather l hlen fun i j => fin (x i j), gather l hlen fun _ j => j.val, pairingOfList l h2,
      by simp only [dif_pos hlen], ⟨fun hre k => ?_, fun h => absurd h her⟩,
      fun k => rfl, fun P' => ?_⟩
    · exact ⟨pairingOfList_ref l h2 hre k, rfl⟩
    · have h4 := h3 P'.sorted P'.sorted_isAssignment
      have h5 : total (fun i j => -S i j) l = (pairingOfList l h2).sum fun i j => -S i j := by
        rw [← sum_pairs, pairingOfList_pairs]
      rw [sum_sorted, h5, sum_neg, sum_neg] at h4
      unfold permTol
      linarith

end FBE.Rounded
