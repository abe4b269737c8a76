import Verif.Proofs.RoundedCgDoc
import Verif.Proofs.RoundedCgExists

/-!
# C84 — the documented values with `use_cg_iter` in floating point arithmetic

With enough iterations and arithmetic that is fine enough for them, the values computed by the iterative solver are as close as wanted to
the documented ones, and the permutation is as good as wanted.
-/

namespace FBE.Props

open Spec XR Rounded

variable {N K r e c : ℕ} {zm : Bool} {load : Option ℝ} {d ε l : ℝ}

theorem cclamp_none_of_mem {q : ℝ} (h0 : 0 ≤ q) (h1 : q ≤ 1) : cclamp none q = q := by
  rw [cclamp_none_eq, max_eq_left h0, min_eq_left h1]

/-- **C84.**  `sdr_loss(y, x, use_cg_iter=it)`. -/
theorem C84_sdr (hK : 2 ≤ K) (hfit : FilterFits N K) (hload : 0 ≤ load.getD 0) {x : Fin r → Fin N → ℝ} {y : Fin e → Fin N → ℝ}
    (hx : ∀ i, 1e-6 ≤ sigNorm (centred zm (x i))) (hy : ∀ j, 1e-6 ≤ sigNorm (centred zm (y j))) (hl : 0 < l)
    (hco : ∀ i, Conditioned K (load.getD 0) l (centred zm (x i))) (hd : 0 ≤ d) (hε : 0 < ε) :
    ∃ it₀, ∀ it ≥ it₀, ∃ η > 0, ∀ (p p' : ℕ) (E : Machine p) (E' : Machine p') (A : Accuracy) (ω : ℝ), Fine η p A ω →
      (2 : ℝ) ^ (-p' : ℤ) ≤ η → ∀ i j v, IsSdrLossCg E E' A ω K zm load none it (y j) (x i) v →
        ∃ w, clip d v.neg = fin w ∧ |w - limitedSdr d K (load.getD 0) (centred zm (x i)) (centred zm (y j))| ≤ ε := by
  obtain ⟨δ, hδ, hdb⟩ := db_fine hd hε
  obtain ⟨it₀, h⟩ := sdrCg_doc hK hfit hload hx hy hl hco hδ
  refine ⟨it₀, fun it hit => ?_⟩
  obtain ⟨η, hη, H⟩ := h it hit
  refine ⟨min η δ, lt_min hη hδ, fun p p' E E' A ω hF hp i j v hv => ?_⟩
  obtain ⟨coh, hcoh, rfl⟩ := hv
  obtain ⟨q, h1, h2, h3, h4⟩ := H p E A ω (hF.mono (min_le_left _ _)) i j coh hcoh
  have h5 := hdb p' E' (hp.trans (min_le_right _ _)) coh q h1
  rw [cclamp_none_of_mem h2 h3] at h5
  unfold limitedSdr
  rw [h4, sub_sub_cancel]
  exact h5

/-- The three values from the coherences. -/
theorem bss_doc_fine (hd : 0 ≤ d) (hε : 0 < ε) {μ : ℝ} {x : Fin r → Fin N → ℝ} {y : Fin e → Fin N → ℝ}
    (hpos : ∀ j, leastResidualAll K μ x (y j) < 1) :
    ∃ δ > 0, ∀ (p : ℕ) (E : Machine p), (2 : ℝ) ^ (-p : ℤ) ≤ δ → ∀ i j cd ca q s, |cd - q| ≤ δ → |ca - s| ≤ δ → 0 ≤ q → q ≤ s → s ≤ 1 →
      leastResidual K μ (x i) (y j) = 1 - q → leastResidualAll K μ x (y j) = 1 - s →
      (∃ w, clip d (Rounded.coherenceToNegSdr E none (fin cd)).neg = fin w ∧ |w - limitedSdr d K μ (x i) (y j)| ≤ ε) ∧
      (∃ w, clip d (Rounded.coherenceToNegSdr E none (flDiv E cd ca)).neg = fin w ∧ |w - limitedSir d K μ x i (y j)| ≤ ε) ∧
      ∃ w, clip d (Rounded.coherenceToNegSdr E none (fin ca)).neg = fin w ∧ |w - limitedSar d K μ x (y j)| ≤ ε := by
  obtain ⟨δ, hδ, hdb⟩ := db_fine hd hε
  obtain ⟨η, hη, H⟩ := uniform_eta (Y := Fin r × Fin e)
    (P := fun t η => ∀ (p : ℕ) (E : Machine p), (2 : ℝ) ^ (-p : ℤ) ≤ η → ∀ cd ca, |cd - (1 - leastResidual K μ (x t.1) (y t.2))| ≤ η →
      |ca - (1 - leastResidualAll K μ x (y t.2))| ≤ η → ∃ c, flDiv E cd ca = fin c ∧
        |c - (1 - leastResidual K μ (x t.1) (y t.2)) / (1 - leastResidualAll K μ x (y t.2))| ≤ δ)
    (fun t η η' hle hP p E hp cd ca h1 h2 => hP p E (hp.trans hle) cd ca (h1.trans hle) (h2.trans hle))
    (fun ⟨i, j⟩ => div_fine (by have := hpos j; dsimp only; linarith) hδ)
  refine ⟨min δ η, lt_min hδ hη, fun p E hp i j cd ca q s h1 h2 hq hqs hs1 e1 e2 => ?_⟩
  have hs0 : 0 < s := by have := hpos j; linarith
  have hq' : q / s ≤ 1 := (div_le_one hs0).2 hqs
  have hpδ := hp.trans (min_le_left _ _)
  have k1 := hdb p E hpδ cd q (h1.trans (min_le_left _ _))
  have k3 := hdb p E hpδ ca s (h2.trans (min_le_left _ _))
  obtain ⟨c, hc, hc'⟩ := H (i, j) p E (hp.trans (min_le_right _ _)) cd ca (by rw [e1, sub_sub_cancel]; exact h1.trans (min_le_right _ _))
    (by rw [e2, sub_sub_cancel]; exact h2.trans (min_le_right _ _))
  rw [e1, e2, sub_sub_cancel, sub_sub_cancel] at hc'
  have k2 := hdb p E hpδ c (q / s) hc'
  rw [cclamp_none_of_mem hq (hqs.trans hs1)] at k1
  rw [cclamp_none_of_mem hs0.le hs1] at k3
  rw [cclamp_none_of_mem (div_nonneg hq hs0.le) hq', ← limitedDb_scale hs0, sub_mul, div_mul_cancel₀ _ hs0.ne', one_mul] at k2
  unfold limitedSdr limitedSir limitedSar
  rw [e1, e2, hc, sub_sub_cancel, sub_sub_cancel, show (1 : ℝ) - q - (1 - s) = s - q by ring]
  exact ⟨k1, k2, k3⟩

/-- **C84.**  `bss_eval_sources(..., use_cg_iter=it)`, all the pairs of a reference and an estimate, as computed for the permutation. -/
theorem C84_bss (hK : 2 ≤ K) (hfit : FilterFits N K) (hload : 0 ≤ load.getD 0) {x : Fin r → Fin N → ℝ} {y : Fin e → Fin N → ℝ}
    (hx : ∀ i, 1e-6 ≤ sigNorm (centred zm (x i))) (hy : ∀ j, 1e-6 ≤ sigNorm (centred zm (y j))) (hl : 0 < l)
    (hco : ConditionedAll K (load.getD 0) l fun i => centred zm (x i))
    (hpos : ∀ j, leastResidualAll K (load.getD 0) (fun i => centred zm (x i)) (centred zm (y j)) < 1) (hd : 0 ≤ d) (hε : 0 < ε) :
    ∃ it₀, ∀ it ≥ it₀, ∃ η > 0, ∀ (p p' : ℕ) (E : Machine p) (E' : Machine p') (A : Accuracy) (ω : ℝ), Fine η p A ω →
      (2 : ℝ) ^ (-p' : ℤ) ≤ η → ∀ sdr sir sar, IsBssLossesCg E E' A ω K true zm load none it x y sdr sir sar → ∀ i j,
        (∃ w, clip d (sdr i j).neg = fin w ∧ |w - limitedSdr d K (load.getD 0) (centred zm (x i)) (centred zm (y j))| ≤ ε) ∧
        (∃ w, clip d (sir i j).neg = fin w ∧ |w - limitedSir d K (load.getD 0) (fun i => centred zm (x i)) i (centred zm (y j))| ≤ ε) ∧
        ∃ w, clip d (sar i j).neg = fin w ∧ |w - limitedSar d K (load.getD 0) (fun i => centred zm (x i)) (centred zm (y j))| ≤ ε := by
  obtain ⟨δ, hδ, hdb⟩ := bss_doc_fine (r := r) (e := e) hd hε hpos
  obtain ⟨it₀, h⟩ := bssCg_doc hK hfit hload hx hy hl hco hδ
  refine ⟨it₀, fun it hit => ?_⟩
  obtain ⟨η, hη, H⟩ := h it hit
  refine ⟨min η δ, lt_min hη hδ, fun p p' E E' A ω hF hp sdr sir sar hv i j => ?_⟩
  obtain ⟨cd, ca, hcoh, k1, k2, k3⟩ := hv
  obtain ⟨q, s, h1, h2, h3, h4, h5, h6, h7⟩ := H p E A ω (hF.mono (min_le_left _ _)) cd ca hcoh i j
  rw [k1, k2, k3]
  exact hdb p' E' (hp.trans (min_le_right _ _)) i j _ _ q s h1 h2 h3 h4 h5 h6 h7

/-- **C84.**  `bss_eval_sources(..., use_cg_iter=it, compute_permutation=False)`. -/
theorem C84_bss_order (hK : 2 ≤ K) (hfit : FilterFits N K) (hload : 0 ≤ load.getD 0) {x y : Fin c → Fin N → ℝ}
    (hx : ∀ i, 1e-6 ≤ sigNorm (centred zm (x i))) (hy : ∀ j, 1e-6 ≤ sigNorm (centred zm (y j))) (hl : 0 < l)
    (hco : ConditionedAll K (load.getD 0) l fun i => centred zm (x i))
    (hpos : ∀ j, leastResidualAll K (load.getD 0) (fun i => centred zm (x i)) (centred zm (y j)) < 1) (hd : 0 ≤ d) (hε : 0 < ε) :
    ∃ it₀, ∀ it ≥ it₀, ∃ η > 0, ∀ (p p' : ℕ) (E : Machine p) (E' : Machine p') (A : Accuracy) (ω : ℝ), Fine η p A ω →
      (2 : ℝ) ^ (-p' : ℤ) ≤ η → ∀ sdr sir sar, IsBssLossesCg E E' A ω K false zm load none it x y sdr sir sar → ∀ j,
        (∃ w, clip d (sdr j j).neg = fin w ∧ |w - limitedSdr d K (load.getD 0) (centred zm (x j)) (centred zm (y j))| ≤ ε) ∧
        (∃ w, clip d (sir j j).neg = fin w ∧ |w - limitedSir d K (load.getD 0) (fun i => centred zm (x i)) j (centred zm (y j))| ≤ ε) ∧
        ∃ w, clip d (sar j j).neg = fin w ∧ |w - limitedSar d K (load.getD 0) (fun i => centred zm (x i)) (centred zm (y j))| ≤ ε := by
  obtain ⟨δ, hδ, hdb⟩ := bss_doc_fine (r := c) (e := c) hd hε hpos
  obtain ⟨it₀, h⟩ := bssCg_doc_diag hK hfit hload hx hy hl hco hδ
  refine ⟨it₀, fun it hit => ?_⟩
  obtain ⟨η, hη, H⟩ := h it hit
  refine ⟨min η δ, lt_min hη hδ, fun p p' E E' A ω hF hp sdr sir sar hv j => ?_⟩
  obtain ⟨cd, ca, hcoh, k1, k2, k3⟩ := hv
  obtain ⟨q, s, h1, h2, h3, h4, h5, h6, h7⟩ := H p E A ω (hF.mono (min_le_left _ _)) cd ca hcoh j
  rw [k1, k2, k3]
  exact hdb p' E' (hp.trans (min_le_right _ _)) j j _ _ q s h1 h2 h3 h4 h5 h6 h7

/-! ### with the permutation -/

/-- The constants. -/
theorem perm_constants {ε : ℝ} (d : ℝ) (hε : 0 < ε) (m : ℕ) :
    ∃ ε₁ > 0, ∃ δ > 0, ε₁ ≤ ε ∧ δ ≤ 2 ^ (-11 : ℤ) ∧ 2 * δ * ((10 : ℝ) ^ (d / 10) + 1) ≤ 1 ∧
      10 * δ * ((10 : ℝ) ^ (d / 10) + 3) + 32 * δ * (d + 1) ≤ ε₁ ∧ 6 * ((m : ℝ) ^ 2 + 1) * δ ≤ 1 ∧
      2 * m * ε₁ + 8 * m * ((m : ℝ) ^ 2 + 1) ^ 2 * δ * (d + ε₁) ≤ ε := by
  have hsmall : ∀ a b : ℝ, 0 < b → ∃ δ > 0, ∀ t, 0 ≤ t → t ≤ δ → t * |a| ≤ b := fun a b hb => by
    refine ⟨b / (|a| + 1), by positivity, fun t h0 ht => ?_⟩
    rw [le_div_iff₀ (by positivity)] at ht
    nlinarith [abs_nonneg a]
  have hm : (0 : ℝ) ≤ m := by positivity
  have hε₁ : ∃ ε₁ > 0, ε₁ ≤ ε ∧ 2 * m * ε₁ ≤ ε / 2 := by
    refine ⟨ε / (4 * m + 1), by positivity, div_le_self hε.le (by linarith), ?_⟩
    rw [mul_div_assoc', div_le_div_iff₀ (by positivity) (by norm_num)]
    nlinarith
  obtain ⟨ε₁, h1, h2, h3⟩ := hε₁
  obtain ⟨δ1, p1, q1⟩ := hsmall (2 * ((10 : ℝ) ^ (d / 10) + 1)) 1 one_pos
  obtain ⟨δ2, p2, q2⟩ := hsmall (10 * ((10 : ℝ) ^ (d / 10) + 3) + 32 * (d + 1)) ε₁ h1
  obtain ⟨δ3, p3, q3⟩ := hsmall (6 * ((m : ℝ) ^ 2 + 1)) 1 one_pos
  obtain ⟨δ4, p4, q4⟩ := hsmall (8 * m * ((m : ℝ) ^ 2 + 1) ^ 2 * (d + ε₁)) (ε / 2) (half_pos hε)
  have hP : 0 < min (2 ^ (-11 : ℤ)) (min (min δ1 δ2) (min δ3 δ4)) :=
    lt_min (by norm_num) (lt_min (lt_min p1 p2) (lt_min p3 p4))
  refine ⟨ε₁, h1, min (2 ^ (-11 : ℤ)) (min (min δ1 δ2) (min δ3 δ4)), hP, h2, min_le_left _ _, ?_, ?_, ?_, ?_⟩
  all_goals set δ := min (2 ^ (-11 : ℤ) : ℝ) (min (min δ1 δ2) (min δ3 δ4)) with hδ
  all_goals have hδ0 := hP.le
  · have := q1 δ hδ0 ((min_le_right _ _).trans ((min_le_left _ _).trans (min_le_left _ _)))
    have h := le_abs_self (2 * ((10 : ℝ) ^ (d / 10) + 1))
    nlinarith
  · have := q2 δ hδ0 ((min_le_right _ _).trans ((min_le_left _ _).trans (min_le_right _ _)))
    have h := le_abs_self (10 * ((10 : ℝ) ^ (d / 10) + 3) + 32 * (d + 1))
    nlinarith
  · have := q3 δ hδ0 ((min_le_right _ _).trans ((min_le_right _ _).trans (min_le_left _ _)))
    have h := le_abs_self (6 * ((m : ℝ) ^ 2 + 1))
    nlinarith
  · have := q4 δ hδ0 ((min_le_right _ _).trans ((min_le_right _ _).trans (min_le_right _ _)))
    have h := mul_le_mul_of_nonneg_left (le_abs_self (8 * m * ((m : ℝ) ^ 2 + 1) ^ 2 * (d + ε₁))) hδ0
    nlinarith

theorem bits_of_fine {p : ℕ} (h : (2 : ℝ) ^ (-p : ℤ) ≤ 2 ^ (-11 : ℤ)) : 11 ≤ p := by
  have := (zpow_le_zpow_iff_right₀ (by norm_num : (1 : ℝ) < 2)).1 h
  omega

theorem two_units {p : ℕ} : (2 : ℝ) ^ (1 - p : ℤ) = 2 * 2 ^ (-p : ℤ) ∧ (2 : ℝ) ^ (5 - p : ℤ) = 32 * 2 ^ (-p : ℤ) := by
  constructor
  · rw [sub_eq_add_neg, zpow_add₀ (by norm_num)]; norm_num
  · rw [sub_eq_add_neg, zpow_add₀ (by norm_num)]; norm_num

/-- **C84.**  `sdr(ref, est, use_cg_iter=it)` of the torch back end, if no pair of a reference and an estimate is more than `d` decibels
away from zero: it succeeds, the permutation describes a pairing, the values are within `ε` of the documented ones, and no pairing is
better than the returned one by more than `ε`. -/
theorem C84_sdr_permutation (hK : 2 ≤ K) (hfit : FilterFits N K) (hload : 0 ≤ load.getD 0) {ref : Fin r → Fin N → ℝ}
    {est : Fin e → Fin N → ℝ} (hx : ∀ i, 1e-6 ≤ sigNorm (centred zm (ref i))) (hy : ∀ j, 1e-6 ≤ sigNorm (centred zm (est j))) (hl : 0 < l)
    (hco : ∀ i, Conditioned K (load.getD 0) l (centred zm (ref i)))
    (hin : ∀ i j, WithinDb d (1 - leastResidual K (load.getD 0) (centred zm (ref i)) (centred zm (est j)))
      (leastResidual K (load.getD 0) (centred zm (ref i)) (centred zm (est j)))) (hd : 0 ≤ d) (hε : 0 < ε) :
    ∃ it₀, ∀ it ≥ it₀, ∃ η > 0, ∀ (p p' : ℕ) (E : Machine p) (E' : Machine p') (A : Accuracy) (ω : ℝ), Fine η p A ω →
      (2 : ℝ) ^ (-p' : ℤ) ≤ η → ∀ res, IsSdrCg E E' A ω K zm load none it ref est res →
        ∃ vals perm, ∃ P : Pairing r e, res = .ok (vals, perm) ∧ Describes perm P ∧
          (∀ c, ∃ w, vals c = fin w ∧
            |w - limitedSdr d K (load.getD 0) (centred zm (ref (P.ref c))) (centred zm (est (P.est c)))| ≤ ε) ∧
          ∀ P' : Pairing r e,
            (P'.sum fun i j => limitedSdr d K (load.getD 0) (centred zm (ref i)) (centred zm (est j))) ≤
            (P.sum fun i j => limitedSdr d K (load.getD 0) (centred zm (ref i)) (centred zm (est j))) + ε := by
  obtain ⟨ε₁, hε₁, δ, hδ, c1, c2, c3, c4, c5, c6⟩ := perm_constants d hε (min r e)
  obtain ⟨it₀, h⟩ := sdrCg_doc hK hfit hload hx hy hl hco hδ
  refine ⟨it₀, fun it hit => ?_⟩
  obtain ⟨η, hη, H⟩ := h it hit
  refine ⟨min η (δ / 2), lt_min hη (by positivity), fun p p' E E' A ω hF hp res hres => ?_⟩
  obtain ⟨v, hv, rfl⟩ := hres
  have hp2 : (2 : ℝ) ^ (-p' : ℤ) ≤ δ / 2 := hp.trans (min_le_right _ _)
  have hp1 : (2 : ℝ) ^ (-p' : ℤ) ≤ δ := by linarith
  have hp11 := bits_of_fine (hp1.trans c2)
  obtain ⟨u1, u2⟩ := two_units (p := p')
  have hcoh : ∀ i j, ∃ coh q, v i j = Rounded.coherenceToNegSdr E' none (fin coh) ∧ |coh - q| ≤ δ ∧ 0 ≤ q ∧ q ≤ 1 ∧
      leastResidual K (load.getD 0) (centred zm (ref i)) (centred zm (est j)) = 1 - q := fun i j => by
    obtain ⟨coh, hcoh, hv⟩ := hv i j
    obtain ⟨q, h1, h2, h3, h4⟩ := H p E A ω (hF.mono (min_le_left _ _)) i j coh hcoh
    exact ⟨coh, q, hv, h1, h2, h3, h4⟩
  obtain ⟨loss, perm, P, h1, h2, h3, h4⟩ := permutation_of_close E' (v := v)
    (S := fun i j => limitedSdr d K (load.getD 0) (centred zm (ref i)) (centred zm (est j))) (ε := ε₁)
    hd rfl (le_trans (by gcongr) c5) (fun i j => by
      obtain ⟨coh, q, hv, hc, hq0, hq1, hle⟩ := hcoh i j
      obtain ⟨b1, b2⟩ := (hin i j).coherence (q := q) one_pos (by rw [hle]; ring) (by rw [hle]; ring)
      obtain ⟨w, w1, w2, w3⟩ := unclamped_close_in E' hp11 hd (by rw [u1]; linarith) c3 one_pos b1 b2 hc
      refine ⟨w, hv.trans w1, w2, ?_⟩
      unfold limitedSdr
      rw [hle, sub_sub_cancel]
      rw [mul_one, mul_one, u2] at w3
      refine w3.trans (le_trans ?_ c4)
      gcongr)
    (fun i j => by
      obtain ⟨coh, q, hv, hc, hq0, hq1, hle⟩ := hcoh i j
      unfold limitedSdr
      rw [hle]
      exact limitedDb_abs hd (by linarith) (by linarith))
  rw [h1]
  refine ⟨_, perm, P, rfl, h2, fun c => ?_, fun P' => (h4 P').trans ?_⟩
  · obtain ⟨w, a, b⟩ := h3 c
    exact ⟨w, a, b.trans c1⟩
  · gcongr
    refine le_trans ?_ c6
    gcongr

/-- **C84.**  `bss_eval_sources(ref, est, use_cg_iter=it)` of the torch back end, if no SIR is more than `d` decibels away from zero.  SDR
and SAR may be anything; they are within `ε` if limited to `[-d, d]` afterwards. -/
theorem C84_bss_permutation (hK : 2 ≤ K) (hfit : FilterFits N K) (hload : 0 ≤ load.getD 0) {ref : Fin r → Fin N → ℝ}
    {est : Fin e → Fin N → ℝ} (hx : ∀ i, 1e-6 ≤ sigNorm (centred zm (ref i))) (hy : ∀ j, 1e-6 ≤ sigNorm (centred zm (est j))) (hl : 0 < l)
    (hco : ConditionedAll K (load.getD 0) l fun i => centred zm (ref i))
    (hpos : ∀ j, leastResidualAll K (load.getD 0) (fun i => centred zm (ref i)) (centred zm (est j)) < 1)
    (hin : ∀ i j, WithinDb d (1 - leastResidual K (load.getD 0) (centred zm (ref i)) (centred zm (est j)))
      (leastResidual K (load.getD 0) (centred zm (ref i)) (centred zm (est j)) -
        leastResidualAll K (load.getD 0) (fun i => centred zm (ref i)) (centred zm (est j)))) (hd : 0 ≤ d) (hε : 0 < ε) :
    ∃ it₀, ∀ it ≥ it₀, ∃ η > 0, ∀ (p p' : ℕ) (E : Machine p) (E' : Machine p') (A : Accuracy) (ω : ℝ), Fine η p A ω →
      (2 : ℝ) ^ (-p' : ℤ) ≤ η → ∀ res, IsBssEvalCg E E' A ω K zm load none it ref est res →
        ∃ sdr sir sar perm, ∃ P : Pairing r e, res = .ok (sdr, sir, sar, perm) ∧ Describes perm P ∧
          (∀ c, ∃ w, clip d (sdr c) = fin w ∧
            |w - limitedSdr d K (load.getD 0) (centred zm (ref (P.ref c))) (centred zm (est (P.est c)))| ≤ ε) ∧
          (∀ c, ∃ w, sir c = fin w ∧
            |w - limitedSir d K (load.getD 0) (fun i => centred zm (ref i)) (P.ref c) (centred zm (est (P.est c)))| ≤ ε) ∧
          (∀ c, ∃ w, clip d (sar c) = fin w ∧
            |w - limitedSar d K (load.getD 0) (fun i => centred zm (ref i)) (centred zm (est (P.est c)))| ≤ ε) ∧
          ∀ P' : Pairing r e,
            (P'.sum fun i j => limitedSir d K (load.getD 0) (fun i => centred zm (ref i)) i (centred zm (est j))) ≤
            (P.sum fun i j => limitedSir d K (load.getD 0) (fun i => centred zm (ref i)) i (centred zm (est j))) + ε := by
  obtain ⟨ε₁, hε₁, δ, hδ, c1, c2, c3, c4, c5, c6⟩ := perm_constants d hε (min r e)
  -- the quotients
  obtain ⟨η₁, hη₁, Hdiv⟩ := uniform_eta (Y := Fin r × Fin e)
    (P := fun t η => ∀ (p : ℕ) (E : Machine p), (2 : ℝ) ^ (-p : ℤ) ≤ η → ∀ cd ca,
      |cd - (1 - leastResidual K (load.getD 0) (centred zm (ref t.1)) (centred zm (est t.2)))| ≤ η →
      |ca - (1 - leastResidualAll K (load.getD 0) (fun i => centred zm (ref i)) (centred zm (est t.2)))| ≤ η → ∃ c, flDiv E cd ca = fin c ∧
        |c - (1 - leastResidual K (load.getD 0) (centred zm (ref t.1)) (centred zm (est t.2))) /
          (1 - leastResidualAll K (load.getD 0) (fun i => centred zm (ref i)) (centred zm (est t.2)))| ≤ δ)
    (fun t η η' hle hP p E hp cd ca h1 h2 => hP p E (hp.trans hle) cd ca (h1.trans hle) (h2.trans hle))
    (fun ⟨i, j⟩ => div_fine (by have := hpos j; dsimp only; linarith) hδ)
  obtain ⟨it₁, h⟩ := bssCg_doc hK hfit hload hx hy hl hco hη₁
  obtain ⟨it₂, hb⟩ := C84_bss hK hfit hload hx hy hl hco hpos hd hε
  refine ⟨max it₁ it₂, fun it hit => ?_⟩
  obtain ⟨η, hη, H⟩ := h it (le_trans (le_max_left _ _) hit)
  obtain ⟨η', hη', H'⟩ := hb it (le_trans (le_max_right _ _) hit)
  refine ⟨min (min η η') (min η₁ (δ / 2)), lt_min (lt_min hη hη') (lt_min hη₁ (by positivity)), fun p p' E E' A ω hF hp res hres => ?_⟩
  obtain ⟨sdr, sir, sar, hv, rfl⟩ := hres
  have hF1 := hF.mono (min_le_left _ _)
  have hp' := hp.trans (min_le_right _ _)
  have hp2 : (2 : ℝ) ^ (-p' : ℤ) ≤ δ / 2 := hp'.trans (min_le_right _ _)
  have hp1 : (2 : ℝ) ^ (-p' : ℤ) ≤ δ := by linarith
  have hp11 := bits_of_fine (hp1.trans c2)
  obtain ⟨u1, u2⟩ := two_units (p := p')
  have hcl := H' p p' E E' A ω (hF1.mono (min_le_right _ _)) ((hp.trans (min_le_left _ _)).trans (min_le_right _ _)) sdr sir sar hv
  have hcoh : ∀ i j, ∃ c q s, sir i j = Rounded.coherenceToNegSdr E' none (fin c) ∧ |c - q / s| ≤ δ ∧ 0 ≤ q ∧ q ≤ s ∧ 0 < s ∧ s ≤ 1 ∧
      leastResidual K (load.getD 0) (centred zm (ref i)) (centred zm (est j)) = 1 - q ∧
      leastResidualAll K (load.getD 0) (fun i => centred zm (ref i)) (centred zm (est j)) = 1 - s := fun i j => by
    obtain ⟨cd, ca, hcoh, -, k2, -⟩ := hv
    obtain ⟨q, s, h1, h2, h3, h4, h5, h6, h7⟩ := H p E A ω (hF1.mono (min_le_left _ _)) cd ca hcoh i j
    have hs0 : 0 < s := by have := hpos j; linarith
    obtain ⟨c, hc, hc'⟩ := Hdiv (i, j) p' E' (hp'.trans (min_le_left _ _)) (cd i j) (ca j) (by rw [h6, sub_sub_cancel]; exact h1)
      (by rw [h7, sub_sub_cancel]; exact h2)
    rw [h6, h7, sub_sub_cancel, sub_sub_cancel] at hc'
    exact ⟨c, q, s, by rw [k2, hc], hc', h3, h4, hs0, h5, h6, h7⟩
  obtain ⟨loss, v₁, v₂, perm, P, h1, h2, h3, h4, h5, h6⟩ := permutation₃_of_close E' (v := sir)
    (S := fun i j => limitedSir d K (load.getD 0) (fun i => centred zm (ref i)) i (centred zm (est j))) (ε := ε₁)
    hd rfl (le_trans (by gcongr) c5) sdr sar (fun i j => by
      obtain ⟨c, q, s, hv, hc, hq0, hqs, hs0, hs1, hle1, hle⟩ := hcoh i j
      have e1 : 1 - (1 - q) = q / s * s := by rw [div_mul_cancel₀ _ hs0.ne']; ring
      have e2 : 1 - q - (1 - s) = (1 - q / s) * s := by rw [sub_mul, div_mul_cancel₀ _ hs0.ne']; ring
      obtain ⟨b1, b2⟩ := (hin i j).coherence (q := q / s) hs0 (by rw [hle1, e1]) (by rw [hle1, hle, e2])
      obtain ⟨w, w1, w2, w3⟩ := unclamped_close_in E' hp11 hd (by rw [u1]; linarith) c3 hs0 b1 b2 hc
      refine ⟨w, hv.trans w1, w2, ?_⟩
      unfold limitedSir
      rw [hle1, hle, e1, e2]
      rw [u2] at w3
      refine w3.trans (le_trans ?_ c4)
      gcongr)
    (fun i j => by
      obtain ⟨c, q, s, hv, hc, hq0, hqs, hs0, hs1, hle1, hle⟩ := hcoh i j
      unfold limitedSir
      rw [hle1, hle]
      exact limitedDb_abs hd (by linarith) (by linarith))
  rw [h1]
  refine ⟨_, _, _, perm, P, rfl, h2, fun c => ?_, fun c => ?_, fun c => ?_, fun P' => (h6 P').trans ?_⟩
  · obtain ⟨w, a, b⟩ := (hcl (P.ref c) (P.est c)).1
    exact ⟨w, by rw [h4]; exact a, b⟩
  · obtain ⟨w, a, b⟩ := h3 c
    exact ⟨w, a, b.trans c1⟩
  · obtain ⟨w, a, b⟩ := (hcl (P.ref c) (P.est c)).2.2
    exact ⟨w, by rw [h5]; exact a, b⟩
  · gcongr
    refine le_trans ?_ c6
    gcongr

/-- **C84.**  `bss_eval_sources(ref, est, use_cg_iter=it)` has an outcome if the arithmetic is fine enough, for every number of
iterations. -/
theorem C84_bss_outcome (hK : 2 ≤ K) (hfit : FilterFits N K) (hload : 0 ≤ load.getD 0) {ref : Fin r → Fin N → ℝ}
    {est : Fin e → Fin N → ℝ} (hr : 0 < r) (hx : ∀ i, 1e-6 ≤ sigNorm (centred zm (ref i)))
    (hy : ∀ j, 1e-6 ≤ sigNorm (centred zm (est j))) (hl : 0 < l)
    (hco : ConditionedAll K (load.getD 0) l fun i => centred zm (ref i)) (it : ℕ) (clampDb : Option ℝ) :
    ∃ η > 0, ∀ (p p' : ℕ) (E : Machine p) (E' : Machine p') (A : Accuracy) (ω : ℝ), Fine η p A ω → 0 ≤ ω → N ≤ A.k → K * r ≤ A.k →
      ∃ res, IsBssEvalCg E E' A ω K zm load clampDb it ref est res := by
  have hN : 0 < N := length_pos (hx ⟨0, hr⟩)
  have hB : Covered torchBackend := Or.inl rfl
  obtain ⟨sd0, sa0, h0, -⟩ := bssCoh_doc hB (o := docOpts K zm load none) rfl hK hN hfit (s := []) (ref := fun _ => ref)
    (est := fun _ => est) (fun _ => hx) (fun _ => hy) hl fun _ => hco
  obtain ⟨sd', sa', h1, -⟩ := sqCosPair_tendsto (o := docOpts K zm load none) hB hload h0
  obtain ⟨hn, hLn, hdet⟩ := spec_of_pair (o := docOpts K zm load (some it)) rfl hK (h1 it)
  obtain ⟨η, hη, H⟩ := exists_bssLossesCg hB (o := docOpts K zm load (some it)) (s := []) (ref := fun _ => ref) (est := fun _ => est) hK hn hLn ()
    (hdet ())
  refine ⟨η, hη, fun p p' E E' A ω hF hω hNk hKk => ?_⟩
  obtain ⟨sdr, sir, sar, h⟩ := H p p' E E' A ω hF hω hr hN hNk hKk true clampDb it
  exact ⟨_, sdr, sir, sar, h, rfl⟩

/-! ### the hypotheses can be met -/

/-- Two references and two estimates, filters of two taps: for a suitable number of iterations there are executions, and they return
values within 0.01 dB and a pairing that is best up to 0.01 dB. -/
example : ∃ (it p : ℕ) (E : Machine p) (A : Accuracy) (res : _),
    IsBssEvalCg E E A 0 2 false none none it (![![1, 0, 0, 0], ![0, 0, 1, 0]] : Fin 2 → Fin 4 → ℝ)
      (![![1, 1, 1, 1], ![0, 2, 2, 1]] : Fin 2 → Fin 4 → ℝ) res ∧
    ∃ sdr sir sar perm, ∃ P : Pairing 2 2, res = .ok (sdr, sir, sar, perm) ∧ Describes perm P ∧ ∀ c, ∃ w, sir c = fin w := by
  set ref : Fin 2 → Fin 4 → ℝ := ![![1, 0, 0, 0], ![0, 0, 1, 0]] with hrefd
  set est : Fin 2 → Fin 4 → ℝ := ![![1, 1, 1, 1], ![0, 2, 2, 1]] with hestd
  have one : ∀ z : Fin 4 → ℝ, 1 ≤ ∑ t, z t ^ 2 → 1e-6 ≤ sigNorm z := fun z hz =>
    le_trans (by norm_num : (1e-6 : ℝ) ≤ 1) (by rw [sigNorm, Real.one_le_sqrt]; exact hz)
  have href : ∀ i, 1e-6 ≤ sigNorm (centred false (ref i)) := fun i =>
    one _ (by fin_cases i <;> norm_num [Fin.sum_univ_succ, centred, ref])
  have hest : ∀ j, 1e-6 ≤ sigNorm (centred false (est j)) := fun i =>
    one _ (by fin_cases i <;> norm_num [Fin.sum_univ_succ, centred, est])
  have hu : ∀ c, unitSig (centred false (ref c)) = ref c := fun c => by
    have hs : sigNorm (centred false (ref c)) = 1 := by
      fin_cases c <;> norm_num [sigNorm, Fin.sum_univ_succ, centred, ref]
    funext t; unfold unitSig; rw [hs, div_one]; rfl
  have hv0 : unitSig (centred false (est 0)) = ![1 / 2, 1 / 2, 1 / 2, 1 / 2] := by
    have hs : sigNorm (centred false (est 0)) = 2 := by
      rw [sigNorm, Real.sqrt_eq_iff_mul_self_eq (Finset.sum_nonneg fun t _ => sq_nonneg _) (by norm_num)]
      norm_num [Fin.sum_univ_succ, centred, est]
    funext t; unfold unitSig; rw [hs]
    fin_cases t <;> norm_num [centred, est]
  have hv1 : unitSig (centred false (est 1)) = ![0, 2 / 3, 2 / 3, 1 / 3] := by
    have hs : sigNorm (centred false (est 1)) = 3 := by
      rw [sigNorm, Real.sqrt_eq_iff_mul_self_eq (Finset.sum_nonneg fun t _ => sq_nonneg _) (by norm_num)]
      norm_num [Fin.sum_univ_succ, centred, est]
    funext t; unfold unitSig; rw [hs]
    fin_cases t <;> norm_num [centred, est]
  let V : Fin 2 → Fin 4 → ℝ := ![![1 / 2, 1 / 2, 1 / 2, 1 / 2], ![0, 2 / 3, 2 / 3, 1 / 3]]
  have hv : ∀ j, unitSig (centred false (est j)) = V j := fun j => by
    fin_cases j
    · exact hv0
    · exact hv1
  have hco : ConditionedAll 2 ((none : Option ℝ).getD 0) 0.01 fun c => centred false (ref c) := fun h => by
    simp only [hu]
    norm_num [ref, filtered, Finset.sum_range_succ, Fin.sum_univ_two, zpad]
    nlinarith [sq_nonneg (h 0 0), sq_nonneg (h 0 1), sq_nonneg (h 1 0), sq_nonneg (h 1 1)]
  have hfit : FilterFits 4 2 := by
    show 2 + 4 ≤ 2 ^ Nat.clog 2 7 + 1
    decide
  have hall : ∀ j, leastResidualAll 2 ((none : Option ℝ).getD 0) (fun c => centred false (ref c)) (centred false (est j)) = 0 := fun j => by
    have hl : IsLeast (Set.range (regularisedResidualAll (K := 2) ((none : Option ℝ).getD 0) (fun c => centred false (ref c))
        (centred false (est j)))) 0 := by
      refine ⟨⟨fun c i => unitSig (centred false (est j)) ⟨2 * c + i, by omega⟩, ?_⟩, ?_⟩
      · unfold regularisedResidualAll residualAll
        simp only [hu]
        norm_num [ref, filtered, Finset.sum_range_succ, Fin.sum_univ_two, zpad]
      · rintro _ ⟨h, rfl⟩
        unfold regularisedResidualAll residualAll
        norm_num
        exact Finset.sum_nonneg fun t _ => sq_nonneg _
    exact hl.csInf_eq
  have hone : ∀ i j, leastResidual 2 ((none : Option ℝ).getD 0) (centred false (ref i)) (centred false (est j)) =
      (![![1 / 2, 5 / 9], ![1 / 2, 4 / 9]] : Fin 2 → Fin 2 → ℝ) i j := fun i j => by
    have hl : IsLeast (Set.range (regularisedResidual (K := 2) ((none : Option ℝ).getD 0) (centred false (ref i)) (centred false (est j))))
        ((![![1 / 2, 5 / 9], ![1 / 2, 4 / 9]] : Fin 2 → Fin 2 → ℝ) i j) := by
      refine ⟨⟨fun t => V j ⟨2 * i + t, by omega⟩, ?_⟩, ?_⟩
      · unfold regularisedResidual residualOne
        rw [hu, hv]
        obtain rfl | rfl : i = 0 ∨ i = 1 := by omega
        all_goals obtain rfl | rfl : j = 0 ∨ j = 1 := by omega
        all_goals
          simp [ref, V, filtered, Finset.sum_range_succ, Fin.sum_univ_two, zpad]
          norm_num
      · rintro _ ⟨h, rfl⟩
        unfold regularisedResidual residualOne
        rw [hu, hv]
        obtain rfl | rfl : i = 0 ∨ i = 1 := by omega
        all_goals obtain rfl | rfl : j = 0 ∨ j = 1 := by omega
        all_goals
          simp [ref, V, filtered, Finset.sum_range_succ, Fin.sum_univ_two, zpad]
          nlinarith [sq_nonneg (1 / 2 - h 0), sq_nonneg (1 / 2 - h 1), sq_nonneg (h 0), sq_nonneg (2 / 3 - h 1), sq_nonneg (2 / 3 - h 0),
            sq_nonneg (1 / 3 - h 1)]
    exact hl.csInf_eq
  have hd : (10 : ℝ) ^ ((10 : ℝ) / 10) = 10 := by norm_num
  obtain ⟨it, H⟩ := C84_bss_permutation (zm := false) (load := none) (d := 10) (ε := 0.01) le_rfl hfit (by norm_num) href hest
    (l := 0.01) (by norm_num) hco (fun j => by rw [hall]; norm_num) (fun i j => by
      rw [hall, hone]
      unfold WithinDb
      rw [hd]
      fin_cases i <;> fin_cases j <;> norm_num) (by norm_num) (by norm_num)
  obtain ⟨η, hη, H⟩ := H it le_rfl
  obtain ⟨η', hη', H'⟩ := C84_bss_outcome (zm := false) (load := none) le_rfl hfit (by norm_num) (by norm_num) href hest
    (l := 0.01) (by norm_num) hco it none
  obtain ⟨p, E, A, hF, hk⟩ := exists_fine (lt_min hη hη') 4
  obtain ⟨res, hres⟩ := H' p p E E A 0 (hF.mono (min_le_right _ _)) le_rfl hk.ge hk.ge
  obtain ⟨sdr, sir, sar, perm, P, h1, h2, -, h3, -⟩ := H p p E E A 0 (hF.mono (min_le_left _ _)) (hF.unit.trans (min_le_left _ _)) res hres
  exact ⟨it, p, E, A, res, hres, sdr, sir, sar, perm, P, h1, h2, fun c => ⟨_, (h3 c).choose_spec.1⟩⟩

end FBE.Props
