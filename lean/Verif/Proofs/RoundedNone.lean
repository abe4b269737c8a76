import Verif.Proofs.RoundedBssDoc
import Verif.Spec.Within

/-!
# The decibel stage without `clamp_db`
-/

namespace FBE.Rounded

open Spec Matrix XR Props

variable {p N K r e : ℕ}

/-- Where limited decibels are at the ends. -/
theorem limitedDb_low {d q s : ℝ} (hd : 0 ≤ d) (hs : 0 < s) (hq : 2 * q * ((10 : ℝ) ^ (d / 10) + 1) ≤ 1) :
    limitedDb d (q * s) ((1 - q) * s) = -d := by
  have hG : (1 : ℝ) ≤ 10 ^ (d / 10) := Real.one_le_rpow (by norm_num) (by positivity)
  rw [limitedDb_scale hs]
  unfold limitedDb
  set G : ℝ := 10 ^ (d / 10)
  rw [if_neg (by nlinarith), if_pos (by nlinarith)]

theorem limitedDb_high {d q s : ℝ} (hs : 0 < s) (hq : 2 * (1 - q) * ((10 : ℝ) ^ (d / 10) + 1) ≤ 1) :
    limitedDb d (q * s) ((1 - q) * s) = d := by
  rw [limitedDb_scale hs]
  unfold limitedDb
  have hG0 : (0 : ℝ) < 10 ^ (d / 10) := by positivity
  set G : ℝ := 10 ^ (d / 10)
  rw [if_pos (by nlinarith)]

/-- `1 / c + 1 / (1 - c)` for a clamped coherence. -/
theorem recip_sum {G c : ℝ} (hG : 1 ≤ G) (r1 : 1 / (G + 1) ≤ c) (r2 : c ≤ 1 - 1 / (G + 1)) : 1 / c + 1 / (1 - c) ≤ G + 3 := by
  have hε0 : 0 < 1 / (G + 1) := by positivity
  have hc0 : 0 < c := by linarith
  have hc1 : 0 < 1 - c := by linarith
  have q1 : 1 / (G + 1) * (1 - 1 / (G + 1)) ≤ c * (1 - c) := by nlinarith
  have q2 : 1 / c + 1 / (1 - c) = 1 / (c * (1 - c)) := by field_simp; ring
  have q3 : 1 / (G + 1) * (1 - 1 / (G + 1)) = G / (G + 1) ^ 2 := by field_simp; ring
  rw [q2]
  rw [q3] at q1
  have q4 : 1 / (c * (1 - c)) ≤ 1 / (G / (G + 1) ^ 2) := one_div_le_one_div_of_le (by positivity) q1
  refine q4.trans ?_
  rw [one_div_div, div_le_iff₀ (by linarith)]
  nlinarith

/-- Limited decibels of two coherences. -/
theorem limitedDb_diff {d q b s δ : ℝ} (hd : 0 ≤ d) (hs : 0 < s) (hlim : 2 * δ * ((10 : ℝ) ^ (d / 10) + 1) ≤ 1)
    (hb : |b - q| ≤ δ) : |limitedDb d b (1 - b) - limitedDb d (q * s) ((1 - q) * s)| ≤ 9 * δ * ((10 : ℝ) ^ (d / 10) + 3) := by
  have hδ0 : 0 ≤ δ := (abs_nonneg _).trans hb
  have hG : (1 : ℝ) ≤ 10 ^ (d / 10) := Real.one_le_rpow (by norm_num) (by positivity)
  have he : FBE.epsOf (some d) = 1 / ((10 : ℝ) ^ (d / 10) + 1) := eps_eq d
  have h1 := limitedDb_eq hd (c := q) hs
  have h2 := limitedDb_eq hd (c := b) one_pos
  rw [mul_one, mul_one] at h2
  have hrange : FBE.epsOf (some d) ≤ cclamp (some d) q ∧ cclamp (some d) q ≤ 1 - FBE.epsOf (some d) := by
    have hε : FBE.epsOf (some d) ≤ 1 / 2 := by
      rw [he, div_le_div_iff₀ (by linarith) (by norm_num)]; linarith
    exact ⟨le_min (le_max_right _ _) (by linarith), min_le_right _ _⟩
  have hclose : |cclamp (some d) b - cclamp (some d) q| ≤ δ :=
    clamp_lipschitz hb (by rw [sub_self, abs_zero]; exact hδ0) (by rw [sub_self, abs_zero]; exact hδ0)
  rw [he] at hrange
  set c := cclamp (some d) q
  set c' := cclamp (some d) b
  set G : ℝ := 10 ^ (d / 10)
  have hG1 : 0 < G + 1 := by linarith
  obtain ⟨r1, r2⟩ := hrange
  have hε0 : 0 < 1 / (G + 1) := by positivity
  have d0 : 2 * δ ≤ 1 / (G + 1) := by rw [le_div_iff₀ hG1]; exact hlim
  obtain ⟨-, -, k3⟩ := db_diff (by linarith : 0 < c) (by linarith) hclose (by linarith) (by linarith)
  rw [h1, h2] at k3
  have := recip_sum hG r1 r2
  have k5 : 9 * δ * (1 / c + 1 / (1 - c)) ≤ 9 * δ * (G + 3) := by gcongr
  rw [← abs_neg]
  refine le_trans (le_of_eq ?_) (k3.trans k5)
  congr 1
  ring

theorem clip_diff {d X Y η : ℝ} (hd : 0 ≤ d) (hη0 : 0 ≤ η) (hη1 : η ≤ 1) (h : |Y - X| ≤ η * (|X| + 1)) :
    |max (-d) (min d Y) - max (-d) (min d X)| ≤ η * (d + 1) := by
  obtain ⟨h1, h2⟩ := abs_le.1 h
  have hηd : 0 ≤ η * (d + 1) := by positivity
  have key : ∀ {X Y : ℝ}, d < X → X - η * (X + 1) ≤ Y → |max (-d) (min d Y) - max (-d) (min d X)| ≤ η * (d + 1) := by
    intro X Y hX hY
    rw [min_eq_left hX.le, max_eq_right (by linarith : -d ≤ d)]
    have h3 : d - η * (d + 1) ≤ Y := by nlinarith
    have h4 : max (-d) (min d Y) ≤ d := max_le (by linarith) (min_le_left _ _)
    have h5 : d - η * (d + 1) ≤ max (-d) (min d Y) := le_max_of_le_right (le_min (by linarith) h3)
    exact abs_le.2 ⟨by linarith, by linarith⟩
  have hsym : ∀ Z : ℝ, max (-d) (min d (-Z)) = -max (-d) (min d Z) := fun Z => by
    rcases le_total Z d with hz | hz <;> rcases le_total (-d) Z with hz' | hz' <;>
      simp only [max_def, min_def] <;> split_ifs <;> linarith
  by_cases hX1 : d < X
  · refine key hX1 ?_
    rw [abs_of_pos (by linarith)] at h1
    linarith
  · by_cases hX2 : X < -d
    · rw [abs_of_neg (by linarith)] at h2
      have := key (X := -X) (Y := -Y) (by linarith) (by linarith)
      rw [hsym, hsym, ← neg_sub_neg, neg_neg, neg_neg, abs_sub_comm] at this
      exact this
    · have hXd : |X| ≤ d := abs_le.2 ⟨by linarith, by linarith⟩
      have h3 : |Y - X| ≤ η * (d + 1) := h.trans (by gcongr)
      refine le_trans ?_ h3
      have a1 := abs_max_sub_max_le_max (-d) (min d Y) (-d) (min d X)
      have a2 := abs_min_sub_min_le_max d Y d X
      rw [sub_self, abs_zero] at a1 a2
      exact a1.trans (max_le (abs_nonneg _) (a2.trans (max_le (abs_nonneg _) le_rfl)))

/-- The decibel stage without `clamp_db`, for a coherence with an error of at most `δ`: the value, clipped to any range. -/
theorem unclamped_close_of (E : Machine p) (hp : 11 ≤ p) {d : ℝ} (hd : 0 ≤ d) {δ : ℝ}
    (hlim : 2 * δ * ((10 : ℝ) ^ (d / 10) + 1) ≤ 1)
    {q s coh : ℝ} (hs : 0 < s) (hq0 : 0 ≤ q) (hq1 : q ≤ 1) (hc : |coh - q| ≤ δ) :
    ∃ w, clip d (coherenceToNegSdr E none (fin coh)).neg = fin w ∧ |w - limitedDb d (q * s) ((1 - q) * s)| ≤
      9 * δ * ((10 : ℝ) ^ (d / 10) + 3) + 2 ^ (5 - p : ℤ) * (d + 1) := by
  have hδ0 : 0 ≤ δ := (abs_nonneg _).trans hc
  have hG : (1 : ℝ) ≤ 10 ^ (d / 10) := Real.one_le_rpow (by norm_num) (by positivity)
  have hlo : lo E none = 0 := E.fl_nearest.fix representable_zero
  have hhi : hi E none = 1 := by
    show E.fl (E.fl64 (1 - 0)) = 1
    rw [sub_zero, E.fl64_nearest.fix representable_one, E.fl_nearest.fix representable_one]
  set b := min (max coh 0) 1 with hb
  have hclamp : clamp (fin coh) (fin (lo E none)) (fin (hi E none)) = fin b := by rw [hlo, hhi]; rfl
  have hbq : |b - q| ≤ δ := by
    have : min (max q 0) 1 = q := by rw [max_eq_left hq0, min_eq_left hq1]
    rw [← this]
    exact clamp_lipschitz hc (by rw [sub_self, abs_zero]; exact hδ0) (by rw [sub_self, abs_zero]; exact hδ0)
  have hb0 : 0 ≤ b := le_min (le_max_right _ _) zero_le_one
  have hb1 : b ≤ 1 := min_le_right _ _
  obtain ⟨c1, c2⟩ := abs_le.1 hbq
  have hη0 : (0 : ℝ) < 2 ^ (5 - p : ℤ) := by positivity
  have herr : 0 ≤ 9 * δ * ((10 : ℝ) ^ (d / 10) + 3) + 2 ^ (5 - p : ℤ) * (d + 1) := by positivity
  rcases hb0.eq_or_lt with h0 | h0
  · rw [← h0] at hclamp c1
    refine ⟨-d, by rw [coherenceToNegSdr_zero E hclamp]; rfl, ?_⟩
    rw [limitedDb_low hd hs (le_trans (by gcongr; linarith) hlim), sub_self, abs_zero]
    exact herr
  rcases hb1.eq_or_lt with h1 | h1
  · rw [h1] at hclamp c2
    refine ⟨d, by rw [coherenceToNegSdr_one E hclamp]; rfl, ?_⟩
    rw [limitedDb_high hs (le_trans (by gcongr) hlim), sub_self, abs_zero]
    exact herr
  rw [coherenceToNegSdr_of_clamp E (by omega) hclamp h0 h1]
  refine ⟨_, rfl, ?_⟩
  have k4 := dbFl_close E hp h0 h1
  have hη : 32 * unit p = 2 ^ (5 - p : ℤ) := by
    unfold unit
    rw [sub_eq_add_neg, zpow_add₀ (by norm_num)]
    norm_num
  have hη1 : (2 : ℝ) ^ (5 - p : ℤ) ≤ 1 := by
    calc (2 : ℝ) ^ (5 - p : ℤ) ≤ (2 : ℝ) ^ (0 : ℤ) := zpow_le_zpow_right₀ (by norm_num) (by omega)
      _ = 1 := by norm_num
  rw [hη] at k4
  have hX : 10 * Real.logb 10 (b / (1 - b)) = -(10 * Real.logb 10 ((1 - b) / b)) := by
    rw [← inv_div, Real.logb_inv]
    ring
  have h2 : clip d (dbRatio b (1 - b)) = fin (limitedDb d b (1 - b)) := clip_dbRatio hd h0.le (by linarith) (by linarith)
  unfold dbRatio at h2
  rw [if_neg (by linarith : ¬ 1 - b = 0), if_neg h0.ne', hX] at h2
  set X := 10 * Real.logb 10 ((1 - b) / b)
  have h3 : max (-d) (min d (-X)) = limitedDb d b (1 - b) := by
    simpa only [clip, XR.fin.injEq] using h2
  have h4 := clip_diff (d := d) (X := -X) (Y := -dbFl E b) hd hη0.le hη1 (by
    rw [abs_neg, ← neg_sub', abs_neg]; exact k4)
  rw [h3] at h4
  have h5 := limitedDb_diff hd hs hlim hbq
  refine (abs_sub_le _ (limitedDb d b (1 - b)) _).trans ?_
  linarith

/-- The decibel stage without `clamp_db`, if the exact value is in a range. -/
theorem unclamped_close_in (E : Machine p) (hp : 11 ≤ p) {d : ℝ} (hd : 0 ≤ d) {δ : ℝ} (hu : (2 : ℝ) ^ (1 - p : ℤ) ≤ δ)
    (hlim : 2 * δ * ((10 : ℝ) ^ (d / 10) + 1) ≤ 1)
    {q s coh : ℝ} (hs : 0 < s) (hq0 : 1 / ((10 : ℝ) ^ (d / 10) + 1) ≤ q) (hq1 : q ≤ 1 - 1 / ((10 : ℝ) ^ (d / 10) + 1))
    (hc : |coh - q| ≤ δ) :
    ∃ w, coherenceToNegSdr E none (fin coh) = fin w ∧ Representable p w ∧ |w - -limitedDb d (q * s) ((1 - q) * s)| ≤
      10 * δ * ((10 : ℝ) ^ (d / 10) + 3) + 2 ^ (5 - p : ℤ) * (d + 1) := by
  have hδ0 : 0 < δ := lt_of_lt_of_le (by positivity) hu
  have hG : (1 : ℝ) ≤ 10 ^ (d / 10) := Real.one_le_rpow (by norm_num) (by positivity)
  have hT := limitedDb_eq hd (c := q) hs
  have he : FBE.epsOf (some d) = 1 / ((10 : ℝ) ^ (d / 10) + 1) := eps_eq d
  have hcq : cclamp (some d) q = q := by
    unfold cclamp
    rw [he, max_eq_left hq0, min_eq_left hq1]
  rw [hcq] at hT
  set S := limitedDb d (q * s) ((1 - q) * s) with hS
  set G : ℝ := 10 ^ (d / 10) with hGdef
  have hG1 : 0 < G + 1 := by linarith
  have hε0 : 0 < 1 / (G + 1) := by positivity
  have hSd : |S| ≤ d := limitedDb_abs hd (mul_nonneg (by linarith) hs.le) (mul_nonneg (by linarith) hs.le)
  have d0 : 2 * δ ≤ 1 / (G + 1) := by rw [le_div_iff₀ hG1]; exact hlim
  obtain ⟨k1, k2, k3⟩ := db_diff (by linarith : 0 < q) (by linarith) hc (by linarith) (by linarith)
  have hlo : lo E none = 0 := E.fl_nearest.fix representable_zero
  have hhi : hi E none = 1 := by
    show E.fl (E.fl64 (1 - 0)) = 1
    rw [sub_zero, E.fl64_nearest.fix representable_one, E.fl_nearest.fix representable_one]
  have hclamp : clamp (fin coh) (fin (lo E none)) (fin (hi E none)) = fin coh := by
    rw [hlo, hhi]
    show fin (min (max coh 0) 1) = _
    rw [max_eq_left k1.le, min_eq_left k2.le]
  refine ⟨dbFl E coh, coherenceToNegSdr_of_clamp E (by omega) hclamp k1 k2, (E.fl_nearest _).1, ?_⟩
  have k4 := dbFl_close E hp k1 k2
  rw [hT] at k3
  have hsum := recip_sum hG hq0 hq1
  have k5 : 9 * δ * (1 / q + 1 / (1 - q)) ≤ 9 * δ * (G + 3) := by gcongr
  have hη : 32 * unit p = 2 ^ (5 - p : ℤ) := by
    unfold unit
    rw [sub_eq_add_neg, zpow_add₀ (by norm_num)]
    norm_num
  rw [hη] at k4
  set X := 10 * Real.logb 10 ((1 - coh) / coh)
  set η : ℝ := 2 ^ (5 - p : ℤ)
  have hη0 : 0 < η := by positivity
  have hη1 : η ≤ 1 / 64 := by
    calc η ≤ (2 : ℝ) ^ (-6 : ℤ) := zpow_le_zpow_right₀ (by norm_num) (by omega)
      _ = 1 / 64 := by norm_num
  have h6 : |dbFl E coh - -S| ≤ |dbFl E coh - X| + |X - -S| := abs_sub_le _ _ _
  have h7 : |X| ≤ |X - -S| + |S| := by
    have := abs_add_le (X - -S) (-S)
    rwa [sub_add_cancel, abs_neg] at this
  have h8 : η * (|X| + 1) ≤ η * (9 * δ * (G + 3) + d + 1) := mul_le_mul_of_nonneg_left (by linarith) hη0.le
  have h9 : η * (9 * δ * (G + 3)) ≤ 1 / 64 * (9 * δ * (G + 3)) := mul_le_mul_of_nonneg_right hη1 (by positivity)
  have h10 : 0 ≤ δ * (G + 3) := by positivity
  linarith

/-- `1 / (G + 1) ≤ q` in terms of energies. -/
theorem _root_.FBE.Spec.WithinDb.coherence {d q s A B : ℝ} (hs : 0 < s) (hA : A = q * s) (hB : B = (1 - q) * s) (h : WithinDb d A B) :
    1 / ((10 : ℝ) ^ (d / 10) + 1) ≤ q ∧ q ≤ 1 - 1 / ((10 : ℝ) ^ (d / 10) + 1) := by
  obtain ⟨h1, h2⟩ := h
  subst hA hB
  have hG0 : (0 : ℝ) < 10 ^ (d / 10) := by positivity
  set G : ℝ := 10 ^ (d / 10)
  have h1' : q ≤ G * (1 - q) := le_of_mul_le_mul_right (by linarith) hs
  have h2' : 1 - q ≤ G * q := le_of_mul_le_mul_right (by linarith) hs
  refine ⟨by rw [div_le_iff₀ (by linarith)]; linarith, ?_⟩
  rw [le_sub_comm, div_le_iff₀ (by linarith)]
  linarith

/-! ### the values -/

/-- The coherence of `si_sdr`. -/
theorem IsSiSdrLoss.coherence {E : Machine p} (hp : 11 ≤ p) {k n : ℕ} (hk : ((k + 2 : ℕ) : ℝ) * 2 ^ (-p : ℤ) ≤ 1 / 100)
    {cd : Option ℝ} {x y : Fin n → ℝ} (hx : 2e-6 ≤ sigNorm x) (hy : 2e-6 ≤ sigNorm y) {v : XR} (hv : IsSiSdrLoss E k cd y x v) :
    ∃ coh q s, v = coherenceToNegSdr E cd (fin coh) ∧ 0 < s ∧ 0 ≤ q ∧ q ≤ 1 ∧ |coh - q| ≤ cohErr p k ∧
      alongEnergy x y = q * s ∧ restEnergy x y = (1 - q) * s := by
  obtain ⟨coh, hcoh, rfl⟩ := hv
  have hc := coh_close hp hk hcoh hx hy
  have hSx : 0 < sigNorm x := lt_of_lt_of_le (by norm_num) hx
  have hSy : 0 < sigNorm y := lt_of_lt_of_le (by norm_num) hy
  obtain ⟨e1, e2⟩ := energies x y hSx hSy
  have h1 := cosine_abs_le x y hSx hSy
  exact ⟨coh, _, _, rfl, pow_pos hSy 2, sq_nonneg _, by rw [← sq_abs]; exact pow_le_one₀ (abs_nonneg _) h1, hc, e1, e2⟩

theorem unit_le_cohErr (p k : ℕ) : (2 : ℝ) ^ (1 - p : ℤ) ≤ cohErr p k := by
  unfold cohErr
  have hup : (2 : ℝ) ^ (1 - p : ℤ) = 2 * 2 ^ (-p : ℤ) := by rw [sub_eq_add_neg, zpow_add₀ (by norm_num)]; norm_num
  rw [hup]
  have : (0 : ℝ) < 2 ^ (-p : ℤ) := by positivity
  have : (0 : ℝ) ≤ k * 2 ^ (-p : ℤ) := by positivity
  linarith

/-- The coherence of `sdr`. -/
theorem IsSdrLoss.coherence {E : Machine p} {A : Accuracy} (hp : 11 ≤ p) (hK : 1 ≤ K) (hfit : FilterFits N K) {zm : Bool}
    {load : Option ℝ} (hload : 0 ≤ load.getD 0) {cd : Option ℝ} {x y : Fin N → ℝ}
    (hx : 3e-6 ≤ sigNorm (centred zm x))
    (hy : 3e-6 ≤ sigNorm (centred zm y)) {ρ : ℝ} (hρ : 1 ≤ ρ) (hρx : sigNorm x ≤ ρ * sigNorm (centred zm x))
    (hρy : sigNorm y ≤ ρ * sigNorm (centred zm y)) {l : ℝ} (hl : 0 < l)
    (hco : Conditioned K (effectiveLoad K load) l (centred zm x))
    {δ : ℝ} (hδ : firErr p A.k K ρ A.fft A.solve (effectiveLoad K load) l ≤ δ) (hδ4 : δ ≤ 1 / 4) {v : XR}
    (h : IsSdrLoss E A K zm load cd y x v) :
    ∃ coh q, v = coherenceToNegSdr E cd (fin coh) ∧ 0 ≤ q ∧ q ≤ 1 ∧ |coh - q| ≤ δ ∧ (2 : ℝ) ^ (1 - p : ℤ) ≤ δ ∧
      leastResidual K (effectiveLoad K load) (centred zm x) (centred zm y) = 1 - q := by
  obtain ⟨coh, hcoh, rfl⟩ := h
  have hSx : 0 < sigNorm (centred zm x) := lt_of_lt_of_le (by norm_num) hx
  have hSy : 0 < sigNorm (centred zm y) := lt_of_lt_of_le (by norm_num) hy
  have nx := sigNorm_unitSig hSx
  have hμ0 := effectiveLoad_nonneg K hload
  have hl1 : l ≤ 1 + effectiveLoad K load := coercive_le (D := N + K - 1) (by omega) hK nx (conditioned_coercive hco)
  have hup : (2 : ℝ) ^ (1 - p : ℤ) ≤ δ := (unit_le_firErr hK hρ A.fft_nonneg A.solve_nonneg hl hl1).trans hδ
  have hc := (hcoh.close hp hK hfit hload hx hy hρ hρx hρy hl hco (hδ.trans hδ4)).trans hδ
  have hle : leastResidual K (effectiveLoad K load) (centred zm x) (centred zm y) = _ :=
    (quad_least hμ0 hl hK hco hSy).csInf_eq
  obtain ⟨hq0, hq1⟩ := quad_mem (y := centred zm y) hμ0 hl hK hco hSy
  exact ⟨coh, _, rfl, hq0, hq1, hc, hup, hle⟩

/-- The coherences of `bss_eval_sources`. -/
theorem IsBssLosses.coherence {E : Machine p} {A : Accuracy} (hp : 11 ≤ p) (hK : 1 ≤ K) (hfit : FilterFits N K) {zm : Bool}
    {load : Option ℝ} (hload : 0 ≤ load.getD 0) {cd : Option ℝ} {x : Fin r → Fin N → ℝ}
    {y : Fin e → Fin N → ℝ} (hx : ∀ c, 3e-6 ≤ sigNorm (centred zm (x c)))
    (hy : ∀ j, 3e-6 ≤ sigNorm (centred zm (y j))) {ρ : ℝ} (hρ : 1 ≤ ρ)
    (hρx : ∀ c, sigNorm (x c) ≤ ρ * sigNorm (centred zm (x c)))
    (hρy : ∀ j, sigNorm (y j) ≤ ρ * sigNorm (centred zm (y j))) {l : ℝ} (hl : 0 < l)
    (hco : ConditionedAll K (load.getD 0) l fun c => centred zm (x c)) {σ : ℝ} (hσ : 0 < σ)
    (hσy : ∀ j, leastResidualAll K (load.getD 0) (fun c => centred zm (x c)) (centred zm (y j)) ≤ 1 - σ)
    {δ : ℝ} (hδ : firErr p A.k (K * r) ρ A.fft A.solve (load.getD 0) l ≤ δ) (hδσ : 12 * δ ≤ σ) {sdr sir sar : Fin r → Fin e → XR}
    (h : IsBssLosses E A K zm load cd x y sdr sir sar) (c : Fin r) (j : Fin e) :
    ∃ coh coh' coh'' q s, sdr c j = coherenceToNegSdr E cd (fin coh) ∧ sar c j = coherenceToNegSdr E cd (fin coh') ∧
      sir c j = coherenceToNegSdr E cd (fin coh'') ∧ 0 ≤ q ∧ q ≤ s ∧ 0 < s ∧ s ≤ 1 ∧ |coh - q| ≤ δ ∧ |coh' - s| ≤ δ ∧
      |coh'' - q / s| ≤ 3 * δ / σ ∧ (2 : ℝ) ^ (1 - p : ℤ) ≤ δ ∧ δ ≤ 3 * δ / σ ∧
      leastResidual K (load.getD 0) (centred zm (x c)) (centred zm (y j)) = 1 - q ∧
      leastResidualAll K (load.getD 0) (fun c => centred zm (x c)) (centred zm (y j)) = 1 - s := by
  obtain ⟨cohSdr, cohSar, hcoh, h1, h2, h3⟩ := h
  have hr : 1 ≤ r := by have := c.isLt; omega
  have hc1 := conditionedAll_one hco c
  have hSy : 0 < sigNorm (centred zm (y j)) := lt_of_lt_of_le (by norm_num) (hy j)
  have nx := sigNorm_unitSig (x := centred zm (x c)) (lt_of_lt_of_le (by norm_num) (hx c))
  have hl1 : l ≤ 1 + load.getD 0 := coercive_le (D := N + K - 1) (by omega) hK nx (conditioned_coercive hc1)
  have hKr : 1 ≤ K * r := Nat.one_le_iff_ne_zero.2 (Nat.mul_ne_zero (by omega) (by omega))
  have hup : (2 : ℝ) ^ (1 - p : ℤ) ≤ δ := (unit_le_firErr hKr hρ A.fft_nonneg A.solve_nonneg hl hl1).trans hδ
  have hδ0 : 0 < δ := lt_of_lt_of_le (by positivity) hup
  have hle : leastResidualAll K (load.getD 0) (fun c => centred zm (x c)) (centred zm (y j)) = _ :=
    (quad_least_all hload hl hK hco hSy).csInf_eq
  have hle1 : leastResidual K (load.getD 0) (centred zm (x c)) (centred zm (y j)) = _ := (quad_least hload hl hK hc1 hSy).csInf_eq
  obtain ⟨hq0, hq1⟩ := quad_mem (y := centred zm (y j)) hload hl hK hc1 hSy
  have hqs := quad_le_all hload hl hK hco hSy c
  have hs1 := quad_all_le hload hl hK hco hSy
  have hσj := hσy j
  rw [hle] at hσj
  obtain ⟨g1, g2⟩ := hcoh.close hp hK hfit hload hr hx hy hρ hρx hρy hl hco (hδ.trans (by linarith))
  have k1 := (g1 c j).trans hδ
  have k2 := (g2 j).trans hδ
  rw [h1, h2, h3]
  obtain ⟨v, hv, hvc⟩ := flDiv_close E hp hσ (by linarith) hq0 hqs hs1 hup hδσ k1 k2
  refine ⟨_, _, v, _, _, rfl, rfl, by rw [hv], hq0, hqs, by linarith, hs1, k1, k2, hvc, hup, ?_, hle1, hle⟩
  rw [le_div_iff₀ hσ]
  nlinarith

/-! ### the permutation -/

/-- Permutation for finite losses close to true values inside a range. -/
theorem permutation_of_close (E : Machine p) {d ε : ℝ} (hd : 0 ≤ d) {m : ℕ} (hm : min r e = m)
    (hm' : 6 * ((m : ℝ) ^ 2 + 1) * 2 ^ (-p : ℤ) ≤ 1) {v : Fin r → Fin e → XR} {S : Fin r → Fin e → ℝ}
    (hv : ∀ i j, ∃ w, v i j = fin w ∧ Representable p w ∧ |w - -S i j| ≤ ε) (hS : ∀ i j, |S i j| ≤ d) :
    ∃ loss perm, ∃ P : Pairing r e, flSolvePermutation E.fl_nearest v = .ok (loss, perm) ∧ Describes perm P ∧
      (∀ c, ∃ w, (loss c).neg = fin w ∧ |w - S (P.ref c) (P.est c)| ≤ ε) ∧
      ∀ P' : Pairing r e, P'.sum S ≤ P.sum S + (2 * m * ε + 8 * m * ((m : ℝ) ^ 2 + 1) ^ 2 * 2 ^ (-p : ℤ) * (d + ε)) := by
  choose x hx hrep hc using hv
  have hv' : v = fun i j => fin (x i j) := by funext i j; exact hx i j
  subst hm
  by_cases hne : Nonempty (Fin r × Fin e)
  · obtain ⟨i₀, j₀⟩ := hne
    have hε0 : 0 ≤ ε := (abs_nonneg _).trans (hc i₀ j₀)
    obtain ⟨loss, perm, P, h1, h2, h3, h4⟩ := flSolvePermutation_near E.fl_nearest x S hrep (D := 2 * (d + ε)) (by positivity)
      (fun i j i' j' => by
        have a1 := abs_le.1 (hc i j)
        have a2 := abs_le.1 (hc i' j')
        have a3 := abs_le.1 (hS i j)
        have a4 := abs_le.1 (hS i' j')
        linarith [a1.2, a2.1, a3.1, a4.2]) hc hm'
    rw [hv', h1]
    refine ⟨_, perm, P, rfl, h2, fun c => ⟨-x (P.ref c) (P.est c), by rw [h3]; rfl, ?_⟩, fun P' => ?_⟩
    · have := hc (P.ref c) (P.est c)
      rw [← abs_neg]
      convert this using 2
      ring
    · have := h4 P'
      unfold permTol at this
      linarith
  · have hem : ∀ (i : Fin r) (j : Fin e), False := fun i j => hne ⟨i, j⟩
    obtain ⟨loss, perm, P, h1, h2, h3, h4⟩ := flSolvePermutation_near E.fl_nearest x S hrep (D := 0) (ε := 0) le_rfl
      (fun i j => (hem i j).elim) (fun i j => (hem i j).elim) hm'
    rw [hv', h1]
    refine ⟨_, perm, P, rfl, h2, fun c => (hem (P.ref c) (P.est c)).elim, fun P' => ?_⟩
    have hm0 : min r e = 0 := by
      rcases Nat.eq_zero_or_pos (min r e) with h | h
      · exact h
      · exact (hem ⟨0, by omega⟩ ⟨0, by omega⟩).elim
    have := h4 P'
    unfold permTol at this
    rw [hm0] at this ⊢
    simpa using this

/-- The same with further losses. -/
theorem permutation₃_of_close (E : Machine p) {d ε : ℝ} (hd : 0 ≤ d) {m : ℕ} (hm : min r e = m)
    (hm' : 6 * ((m : ℝ) ^ 2 + 1) * 2 ^ (-p : ℤ) ≤ 1) {v : Fin r → Fin e → XR} {S : Fin r → Fin e → ℝ}
    (m₁ m₂ : Fin r → Fin e → XR)
    (hv : ∀ i j, ∃ w, v i j = fin w ∧ Representable p w ∧ |w - -S i j| ≤ ε) (hS : ∀ i j, |S i j| ≤ d) :
    ∃ loss v₁ v₂ perm, ∃ P : Pairing r e, flSolvePermutation₃ E.fl_nearest v m₁ m₂ = .ok (loss, v₁, v₂, perm) ∧ Describes perm P ∧
      (∀ c, ∃ w, (loss c).neg = fin w ∧ |w - S (P.ref c) (P.est c)| ≤ ε) ∧
      (∀ c, v₁ c = m₁ (P.ref c) (P.est c)) ∧ (∀ c, v₂ c = m₂ (P.ref c) (P.est c)) ∧
      ∀ P' : Pairing r e, P'.sum S ≤ P.sum S + (2 * m * ε + 8 * m * ((m : ℝ) ^ 2 + 1) ^ 2 * 2 ^ (-p : ℤ) * (d + ε)) := by
  choose x hx hrep hc using hv
  have hv' : v = fun i j => fin (x i j) := by funext i j; exact hx i j
  subst hm
  by_cases hne : Nonempty (Fin r × Fin e)
  · obtain ⟨i₀, j₀⟩ := hne
    have hε0 : 0 ≤ ε := (abs_nonneg _).trans (hc i₀ j₀)
    obtain ⟨loss, v₁, v₂, perm, P, h1, h2, h3, h4, h5, h6⟩ := flSolvePermutation₃_near E.fl_nearest x S m₁ m₂ hrep
      (D := 2 * (d + ε)) (by positivity)
      (fun i j i' j' => by
        have a1 := abs_le.1 (hc i j)
        have a2 := abs_le.1 (hc i' j')
        have a3 := abs_le.1 (hS i j)
        have a4 := abs_le.1 (hS i' j')
        linarith [a1.2, a2.1, a3.1, a4.2]) hc hm'
    rw [hv', h1]
    refine ⟨_, _, _, perm, P, rfl, h2, fun c => ⟨-x (P.ref c) (P.est c), by rw [h3]; rfl, ?_⟩, h4, h5, fun P' => ?_⟩
    · have := hc (P.ref c) (P.est c)
      rw [← abs_neg]
      convert this using 2
      ring
    · have := h6 P'
      unfold permTol at this
      linarith
  · have hem : ∀ (i : Fin r) (j : Fin e), False := fun i j => hne ⟨i, j⟩
    obtain ⟨loss, v₁, v₂, perm, P, h1, h2, h3, h4, h5, h6⟩ := flSolvePermutation₃_near E.fl_nearest x S m₁ m₂ hrep
      (D := 0) (ε := 0) le_rfl (fun i j => (hem i j).elim) (fun i j => (hem i j).elim) hm'
    rw [hv', h1]
    refine ⟨_, _, _, perm, P, rfl, h2, fun c => (hem (P.ref c) (P.est c)).elim, h4, h5, fun P' => ?_⟩
    have hm0 : min r e = 0 := by
      rcases Nat.eq_zero_or_pos (min r e) with h | h
      · exact h
      · exact (hem ⟨0, by omega⟩ ⟨0, by omega⟩).elim
    have := h6 P'
    unfold permTol at this
    rw [hm0] at this ⊢
    simpa using this

end FBE.Rounded
