import Verif.Spec.Fine
import Verif.Proofs.RoundedLimit
import Verif.Proofs.RoundedNone
import Verif.Proofs.CgLimit

/-!
# From limits to accuracies; the decibels
-/

namespace FBE.Rounded

open Spec Filter Topology XR

variable {p p' N K r e : ℕ}

/-! ### from limits to accuracies -/

theorem _root_.FBE.Spec.Fine.mono {η η' : ℝ} {A : Accuracy} {ω : ℝ} (h : Fine η p A ω) (hη : η ≤ η') : Fine η' p A ω :=
  ⟨h.unit.trans hη, h.sums.trans hη, h.fft.trans hη, h.solve.trans hη, h.weights.trans hη⟩

/-- An execution: the arithmetic and the value. -/
structure Run (X : Type) where
  p : ℕ
  E : Machine p
  A : Accuracy
  ω : ℝ
  x : X

noncomputable def Run.size {X : Type} (t : Run X) : ℝ :=
  (2 : ℝ) ^ (-(t.p) : ℤ) + t.A.k * (2 : ℝ) ^ (-(t.p) : ℤ) + t.A.fft + t.A.solve + |t.ω|

theorem fine_of_tends {X Y : Type} [PseudoMetricSpace Y] {R : ∀ {p : ℕ}, Machine p → Accuracy → ℝ → X → Prop} {g : X → Y} {c : Y}
    (h : ∀ {ι : Type} {l : Filter ι} {p : ι → ℕ} {E : ∀ m, Machine (p m)} {A : ι → Accuracy} {ω : ι → ℝ} {x : ι → X},
      Small l (fun m => (2 : ℝ) ^ (-(p m) : ℤ)) A ω → (∀ m, R (E m) (A m) (ω m) (x m)) → Tendsto (fun m => g (x m)) l (𝓝 c))
    {ε : ℝ} (hε : 0 < ε) :
    ∃ η > 0, ∀ (p : ℕ) (E : Machine p) (A : Accuracy) (ω : ℝ), Fine η p A ω → ∀ x, R E A ω x → dist (g x) c ≤ ε := by
  let ι := {t : Run X // R t.E t.A t.ω t.x}
  let l : Filter ι := comap (fun t => t.1.size) (𝓝 0)
  have hl : Tendsto (fun t : ι => t.1.size) l (𝓝 0) := tendsto_comap
  have hle : ∀ f : ι → ℝ, (∀ t, |f t| ≤ t.1.size) → Tendsto f l (𝓝 0) := fun f hf =>
    squeeze_zero_norm hf hl
  have h0 : ∀ t : ι, 0 ≤ (2 : ℝ) ^ (-(t.1.p) : ℤ) := fun t => by positivity
  have h1 : ∀ t : ι, 0 ≤ t.1.A.k * (2 : ℝ) ^ (-(t.1.p) : ℤ) := fun t => by positivity
  have hS : Small l (fun t : ι => (2 : ℝ) ^ (-(t.1.p) : ℤ)) (fun t => t.1.A) (fun t => t.1.ω) := by
    refine ⟨h0, hle _ fun t => ?_, hle _ fun t => ?_, hle _ fun t => ?_, hle _ fun t => ?_, hle _ fun t => ?_⟩ <;>
    · have a0 := h0 t
      have a1 := h1 t
      have a2 := t.1.A.fft_nonneg
      have a3 := t.1.A.solve_nonneg
      have a4 := abs_nonneg t.1.ω
      unfold Run.size
      first
      | rw [abs_of_nonneg a0]; linarith
      | rw [abs_of_nonneg a1]; linarith
      | rw [abs_of_nonneg a2]; linarith
      | rw [abs_of_nonneg a3]; linarith
      | linarith
  have ht := h (ι := ι) (l := l) (E := fun t => t.1.E) (x := fun t => t.1.x) hS fun t => t.2
  have hev := (Metric.tendsto_nhds.1 ht) ε hε
  obtain ⟨s, hs, hsub⟩ := mem_comap.1 hev
  obtain ⟨η, hη, hball⟩ := Metric.mem_nhds_iff.1 hs
  refine ⟨η / 6, by positivity, fun p E A ω hF x hx => ?_⟩
  have : (⟨⟨p, E, A, ω, x⟩, hx⟩ : ι) ∈ (fun t : ι => t.1.size) ⁻¹' s := by
    apply hball
    rw [Metric.mem_ball, Real.dist_eq, sub_zero]
    obtain ⟨f1, f2, f3, f4, f5⟩ := hF
    have a2 := A.fft_nonneg
    have a3 := A.solve_nonneg
    unfold Run.size
    rw [abs_of_nonneg (by positivity)]
    simp only
    linarith
  exact (hsub this).le

/-! ### decibels -/

theorem cclamp_none_eq (c : ℝ) : cclamp none c = min (max c 0) 1 := by
  show min (max c 0) (1 - 0) = _
  rw [sub_zero]

theorem cclamp_none_diff (a b : ℝ) : |cclamp none a - cclamp none b| ≤ |a - b| := by
  rw [cclamp_none_eq, cclamp_none_eq]
  exact clamp_lipschitz le_rfl (by rw [sub_self, abs_zero]; exact abs_nonneg _) (by rw [sub_self, abs_zero]; exact abs_nonneg _)

/-- The exact decibel value limited to a range. -/
theorem clip_exact {d : ℝ} (hd : 0 ≤ d) (c : ℝ) :
    clip d (FBE.coherenceToNegSdr none (fin c)).neg = fin (limitedDb d (cclamp none c) (1 - cclamp none c)) := by
  have h0 := cclamp_nonneg none c
  have h1 := cclamp_le none c
  rw [coherenceToNegSdr_fin, negDb_eq_dbRatio (E := 1) one_pos (mul_one _).symm (mul_one _).symm, neg_neg',
    clip_dbRatio hd h0 (by linarith) (by linarith)]

theorem round_clamp (E : Machine p) (c : ℝ) : coherenceToNegSdr E none (fin c) = coherenceToNegSdr E none (fin (cclamp none c)) := by
  have hlo : lo E none = 0 := E.fl_nearest.fix representable_zero
  have hhi : hi E none = 1 := by
    show E.fl (E.fl64 (1 - 0)) = 1
    rw [sub_zero, E.fl64_nearest.fix representable_one, E.fl_nearest.fix representable_one]
  have h : clamp (fin c) (fin (lo E none)) (fin (hi E none)) = clamp (fin (cclamp none c)) (fin (lo E none)) (fin (hi E none)) := by
    rw [hlo, hhi, cclamp_none_eq]
    show fin (min (max c 0) 1) = fin (min (max (min (max c 0) 1) 0) 1)
    rw [max_eq_left (le_min (le_max_right _ _) zero_le_one), min_assoc, min_self]
  show round1 E (mul (fin 10) (log10 E (round1 E (div (round1 E (sub (fin 1)
        (clamp (fin c) (fin (lo E none)) (fin (hi E none))))) (clamp (fin c) (fin (lo E none)) (fin (hi E none))))))) = _
  rw [h]
  rfl

/-- Close coherences have close decibel values. -/
theorem db_fine {d ε : ℝ} (hd : 0 ≤ d) (hε : 0 < ε) :
    ∃ δ > 0, ∀ (p : ℕ) (E : Machine p), (2 : ℝ) ^ (-p : ℤ) ≤ δ → ∀ c c0 : ℝ, |c - c0| ≤ δ →
      ∃ w, clip d (coherenceToNegSdr E none (fin c)).neg = fin w ∧
        |w - limitedDb d (cclamp none c0) (1 - cclamp none c0)| ≤ ε := by
  have hG : (1 : ℝ) ≤ 10 ^ (d / 10) := Real.one_le_rpow (by norm_num) (by positivity)
  set G : ℝ := 10 ^ (d / 10) with hGd
  refine ⟨min (2 ^ (-11 : ℤ)) (min (1 / (2 * (G + 1))) (ε / (9 * (G + 3) + 32 * (d + 1)))), by positivity, fun p E hp c c0 hc => ?_⟩
  set δ := min ((2 : ℝ) ^ (-11 : ℤ)) (min (1 / (2 * (G + 1))) (ε / (9 * (G + 3) + 32 * (d + 1)))) with hδ
  have d1 : δ ≤ 2 ^ (-11 : ℤ) := min_le_left _ _
  have d2 : δ ≤ 1 / (2 * (G + 1)) := (min_le_right _ _).trans (min_le_left _ _)
  have d3 : δ ≤ ε / (9 * (G + 3) + 32 * (d + 1)) := (min_le_right _ _).trans (min_le_right _ _)
  have hp11 : 11 ≤ p := by
    by_contra hlt
    have h1 : (2 : ℝ) ^ (-11 : ℤ) < 2 ^ (-p : ℤ) := zpow_lt_zpow_right₀ (by norm_num) (by omega)
    linarith
  have hlim : 2 * δ * ((10 : ℝ) ^ (d / 10) + 1) ≤ 1 := by
    rw [← hGd]
    rw [le_div_iff₀ (by positivity)] at d2
    linarith
  obtain ⟨w, h1, h2⟩ := unclamped_close_of E hp11 hd hlim (s := 1) one_pos (cclamp_nonneg none c0) (cclamp_le none c0)
    ((cclamp_none_diff c c0).trans hc)
  refine ⟨w, by rw [round_clamp]; exact h1, ?_⟩
  rw [mul_one, mul_one, ← hGd] at h2
  refine h2.trans ?_
  have h5 : (2 : ℝ) ^ (5 - p : ℤ) = 32 * 2 ^ (-p : ℤ) := by
    rw [sub_eq_add_neg, zpow_add₀ (by norm_num)]
    norm_num
  rw [le_div_iff₀ (by positivity)] at d3
  rw [h5]
  have : (2 : ℝ) ^ (-p : ℤ) * (d + 1) ≤ δ * (d + 1) := by gcongr
  linarith

/-- The quotient of the coherences. -/
theorem div_fine {q s δ : ℝ} (hs : 0 < s) (hδ : 0 < δ) :
    ∃ η > 0, ∀ (p : ℕ) (E : Machine p), (2 : ℝ) ^ (-p : ℤ) ≤ η → ∀ a b : ℝ, |a - q| ≤ η → |b - s| ≤ η →
      ∃ c, flDiv E a b = fin c ∧ |c - q / s| ≤ δ := by
  have hcont : ContinuousAt (fun t : ℝ × ℝ => t.1 / t.2) (q, s) := continuousAt_fst.div continuousAt_snd hs.ne'
  obtain ⟨η1, h1, k1⟩ := Metric.continuousAt_iff.1 hcont (δ / 2) (by positivity)
  refine ⟨min (η1 / 2) (min (s / 2) (δ / 2 / (|q / s| + δ))), by positivity, fun p E hp a b ha hb => ?_⟩
  set η := min (η1 / 2) (min (s / 2) (δ / 2 / (|q / s| + δ))) with hη
  have e1 : η ≤ η1 / 2 := min_le_left _ _
  have e2 : η ≤ s / 2 := (min_le_right _ _).trans (min_le_left _ _)
  have e3 : η ≤ δ / 2 / (|q / s| + δ) := (min_le_right _ _).trans (min_le_right _ _)
  have hb0 : 0 < b := by
    have := (abs_le.1 hb).1
    linarith
  refine ⟨E.fl (a / b), by unfold flDiv; rw [if_neg hb0.ne'], ?_⟩
  have h2 := k1 (x := (a, b)) (by
    rw [Prod.dist_eq, max_lt_iff, Real.dist_eq, Real.dist_eq]
    exact ⟨by simp only; linarith, by simp only; linarith⟩)
  rw [Real.dist_eq] at h2
  simp only at h2
  have h3 := E.fl_nearest.rel (a / b)
  have h4 : |a / b| ≤ |q / s| + δ := by
    have := abs_sub_abs_le_abs_sub (a / b) (q / s)
    linarith
  rw [le_div_iff₀ (by positivity)] at e3
  have h5 : (2 : ℝ) ^ (-p : ℤ) * |a / b| ≤ η * (|q / s| + δ) := by gcongr
  have h6 := abs_sub_le (E.fl (a / b)) (a / b) (q / s)
  linarith

/-! ### the metrics -/

/-- A family of coherences close to exact ones: their decibel values. -/
theorem metric_fine {X Y : Type} [Fintype Y] {R : ∀ {p : ℕ}, Machine p → Accuracy → ℝ → X → Prop} {g : X → Y → ℝ} {c : Y → ℝ}
    (h : ∀ {ι : Type} {l : Filter ι} {p : ι → ℕ} {E : ∀ m, Machine (p m)} {A : ι → Accuracy} {ω : ι → ℝ} {x : ι → X},
      Small l (fun m => (2 : ℝ) ^ (-(p m) : ℤ)) A ω → (∀ m, R (E m) (A m) (ω m) (x m)) →
        ∀ y, Tendsto (fun m => g (x m) y) l (𝓝 (c y)))
    {d ε : ℝ} (hd : 0 ≤ d) (hε : 0 < ε) :
    ∃ η > 0, ∀ (p p' : ℕ) (E : Machine p) (E' : Machine p') (A : Accuracy) (ω : ℝ), Fine η p A ω → (2 : ℝ) ^ (-p' : ℤ) ≤ η →
      ∀ x, R E A ω x → ∀ y, CloseIn d ε (coherenceToNegSdr E' none (fin (g x y))).neg (FBE.coherenceToNegSdr none (fin (c y))).neg := by
  obtain ⟨δ, hδ, k1⟩ := db_fine hd hε
  obtain ⟨η, hη, k2⟩ := fine_of_tends (R := @R) (g := g) (c := c) (fun hS hx => tendsto_pi_nhds.2 (h hS hx)) hδ
  refine ⟨min η δ, by positivity, fun p p' E E' A ω hF hp x hx y => ?_⟩
  have h1 := k2 p E A ω (hF.mono (min_le_left _ _)) x hx
  have h2 : |g x y - c y| ≤ δ := by
    rw [← Real.dist_eq]
    exact (dist_le_pi_dist _ _ y).trans h1
  obtain ⟨w, w1, w2⟩ := k1 p' E' (hp.trans (min_le_right _ _)) _ _ h2
  exact ⟨w, _, w1, clip_exact hd _, w2⟩

theorem uniform_eta {Y : Type} [Finite Y] {P : Y → ℝ → Prop} (mono : ∀ y η η', η ≤ η' → P y η' → P y η)
    (h : ∀ y, ∃ η > 0, P y η) : ∃ η > 0, ∀ y, P y η := by
  have h1 : ∀ᶠ η in 𝓝[>] (0 : ℝ), ∀ y, P y η := by
    rw [eventually_all]
    intro y
    obtain ⟨η, hη, hP⟩ := h y
    filter_upwards [Ioo_mem_nhdsGT hη] with η' hη'
    exact mono y η' η hη'.2.le hP
  obtain ⟨η, hη, hP⟩ := (h1.and self_mem_nhdsWithin).exists
  exact ⟨η, hP, hη⟩

/-- The three values for one pair of a reference and an estimate. -/
theorem bss_fine {X : Type} {R : ∀ {p : ℕ}, Machine p → Accuracy → ℝ → X → Prop} {g g' : X → ℝ} {q s : ℝ}
    (h : ∀ {ι : Type} {l : Filter ι} {p : ι → ℕ} {E : ∀ m, Machine (p m)} {A : ι → Accuracy} {ω : ι → ℝ} {x : ι → X},
      Small l (fun m => (2 : ℝ) ^ (-(p m) : ℤ)) A ω → (∀ m, R (E m) (A m) (ω m) (x m)) →
        Tendsto (fun m => g (x m)) l (𝓝 q) ∧ Tendsto (fun m => g' (x m)) l (𝓝 s))
    {d ε : ℝ} (hd : 0 ≤ d) (hε : 0 < ε) :
    ∃ η > 0, ∀ (p p' : ℕ) (E : Machine p) (E' : Machine p') (A : Accuracy) (ω : ℝ), Fine η p A ω → (2 : ℝ) ^ (-p' : ℤ) ≤ η →
      ∀ x, R E A ω x →
        CloseIn d ε (coherenceToNegSdr E' none (fin (g x))).neg (FBE.baseMetrics none q s).1.neg ∧
        (0 < s → CloseIn d ε (coherenceToNegSdr E' none (flDiv E' (g x) (g' x))).neg (FBE.baseMetrics none q s).2.1.neg) ∧
        CloseIn d ε (coherenceToNegSdr E' none (fin (g' x))).neg (FBE.baseMetrics none q s).2.2.neg := by
  obtain ⟨δ, hδ, k1⟩ := db_fine hd hε
  obtain ⟨η1, hη1, j1⟩ := fine_of_tends (R := @R) (g := g) (c := q) (fun hS hx => (h hS hx).1) hδ
  obtain ⟨η2, hη2, j2⟩ := fine_of_tends (R := @R) (g := g') (c := s) (fun hS hx => (h hS hx).2) hδ
  have h3 : ∃ η > 0, ∀ (p p' : ℕ) (E : Machine p) (E' : Machine p') (A : Accuracy) (ω : ℝ), Fine η p A ω → (2 : ℝ) ^ (-p' : ℤ) ≤ η →
      ∀ x, R E A ω x → 0 < s → ∃ c, flDiv E' (g x) (g' x) = fin c ∧ |c - q / s| ≤ δ := by
    rcases lt_or_ge 0 s with hs | hs
    · obtain ⟨η0, hη0, k0⟩ := div_fine (q := q) hs hδ
      obtain ⟨η3, hη3, j3⟩ := fine_of_tends (R := @R) (g := g) (c := q) (fun hS hx => (h hS hx).1) hη0
      obtain ⟨η4, hη4, j4⟩ := fine_of_tends (R := @R) (g := g') (c := s) (fun hS hx => (h hS hx).2) hη0
      refine ⟨min η0 (min η3 η4), by positivity, fun p p' E E' A ω hF hp x hx _ => ?_⟩
      exact k0 p' E' (hp.trans (min_le_left _ _)) _ _
        (j3 p E A ω (hF.mono ((min_le_right _ _).trans (min_le_left _ _))) x hx)
        (j4 p E A ω (hF.mono ((min_le_right _ _).trans (min_le_right _ _))) x hx)
    · exact ⟨1, one_pos, fun p p' E E' A ω _ _ x _ hs' => absurd hs' (not_lt.2 hs)⟩
  obtain ⟨η3, hη3, j3⟩ := h3
  refine ⟨min (min η1 η2) (min η3 δ), by positivity, fun p p' E E' A ω hF hp x hx => ?_⟩
  have hp' : (2 : ℝ) ^ (-p' : ℤ) ≤ δ := hp.trans ((min_le_right _ _).trans (min_le_right _ _))
  refine ⟨?_, fun hs => ?_, ?_⟩
  · obtain ⟨w, w1, w2⟩ := k1 p' E' hp' _ _ (j1 p E A ω (hF.mono ((min_le_left _ _).trans (min_le_left _ _))) x hx)
    exact ⟨w, _, w1, clip_exact hd _, w2⟩
  · obtain ⟨c, c1, c2⟩ := j3 p p' E E' A ω (hF.mono ((min_le_right _ _).trans (min_le_left _ _)))
      (hp.trans ((min_le_right _ _).trans (min_le_left _ _))) x hx hs
    obtain ⟨w, w1, w2⟩ := k1 p' E' hp' _ _ c2
    have e1 : (FBE.baseMetrics none q s).2.1 = FBE.coherenceToNegSdr none (fin (q / s)) := by
      show FBE.coherenceToNegSdr none (XR.div (fin q) (fin s)) = _
      rw [show XR.div (fin q) (fin s) = fin (q / s) by simp [XR.div, hs.ne']]
    rw [c1, e1]
    exact ⟨w, _, w1, clip_exact hd _, w2⟩
  · obtain ⟨w, w1, w2⟩ := k1 p' E' hp' _ _ (j2 p E A ω (hF.mono ((min_le_left _ _).trans (min_le_right _ _))) x hx)
    exact ⟨w, _, w1, clip_exact hd _, w2⟩

/-- A SAR that is not `-inf`. -/
theorem pos_of_sar {q s : ℝ} (h : (FBE.baseMetrics none q s).2.2.neg ≠ ninf) : 0 < s := by
  by_contra hs
  push Not at hs
  refine h ?_
  show (FBE.coherenceToNegSdr none (fin s)).neg = ninf
  rw [coherenceToNegSdr_fin, cclamp_none_eq, max_eq_right hs, min_eq_left zero_le_one, negDb, if_pos rfl]
  rfl

/-! ### the exact values are the documented ones -/

theorem prep_unit {o : Opts} {s : List ℕ} {c : ℕ} {x : Sig s c N} {m : BIdx s} {k : Fin c}
    (h : 1e-6 ≤ sigNorm (centred o.zeroMean (x m k))) : prep o x m k = unitSig (centred o.zeroMean (x m k)) := by
  rw [prep_eq]
  funext t
  unfold gain unitSig
  rw [max_eq_left h, inv_mul_eq_div]

theorem sdrCoh_doc {B : Backend} (hB : Covered B) {o : Opts} (hcg : o.useCgIter = none) (hL : 2 ≤ o.filterLength) (hN : 0 < N)
    (hfit : FilterFits N o.filterLength) {s : List ℕ} {ref : Sig s r N} {est : Sig s e N}
    (hx : ∀ m k, 1e-6 ≤ sigNorm (centred o.zeroMean (ref m k))) (hy : ∀ m j, 1e-6 ≤ sigNorm (centred o.zeroMean (est m j)))
    {l : ℝ} (hl : 0 < l) (hco : ∀ m k, Conditioned o.filterLength o.load l (centred o.zeroMean (ref m k))) :
    ∃ coh, sdrCohPair B o ref est = .ok coh ∧ ∀ m k j, coh m k j =
      quad (shifts (N + o.filterLength - 1) o.filterLength (unitSig (centred o.zeroMean (ref m k)))) o.load
        (shift (N + o.filterLength - 1) (unitSig (centred o.zeroMean (est m j))) 0) := by
  obtain ⟨n, hn⟩ := nFft_pos hN
  have hb := fits_bounds hn hfit
  have F := fam_fits (D := N + o.filterLength - 1) (by omega) hn hfit hL
  have h := sdrCohPair_direct hn (min_eq_left (by omega)) hL F hB hcg ref est
  rw [if_neg] at h
  · refine ⟨_, h, fun m k j => ?_⟩
    rw [prep_unit (hx m k), prep_unit (hy m j)]
    rfl
  · rintro ⟨⟨m, k⟩, h⟩
    unfold SingularOne at h
    rw [prep_unit (hx m k)] at h
    exact (conditioned_coercive (hco m k)).det_ne_zero hl h

theorem bssCoh_doc {B : Backend} (hB : Covered B) {o : Opts} (hcg : o.useCgIter = none) (hL : 2 ≤ o.filterLength) (hN : 0 < N)
    (hfit : FilterFits N o.filterLength) {s : List ℕ} {ref : Sig s r N} {est : Sig s e N}
    (hx : ∀ m k, 1e-6 ≤ sigNorm (centred o.zeroMean (ref m k))) (hy : ∀ m j, 1e-6 ≤ sigNorm (centred o.zeroMean (est m j)))
    {l : ℝ} (hl : 0 < l) (hco : ∀ m, ConditionedAll o.filterLength o.load l fun k => centred o.zeroMean (ref m k)) :
    ∃ sd sa, sqCosPair B o ref est = .ok (sd, sa) ∧ (∀ m k j, sd m k j =
      quad (shifts (N + o.filterLength - 1) o.filterLength (unitSig (centred o.zeroMean (ref m k)))) o.load
        (shift (N + o.filterLength - 1) (unitSig (centred o.zeroMean (est m j))) 0)) ∧ ∀ m j, sa m j =
      quad (allShifts (N + o.filterLength - 1) o.filterLength fun k => unitSig (centred o.zeroMean (ref m k))) o.load
        (shift (N + o.filterLength - 1) (unitSig (centred o.zeroMean (est m j))) 0) := by
  obtain ⟨n, hn⟩ := nFft_pos hN
  have hb := fits_bounds hn hfit
  have F := fam_fits (D := N + o.filterLength - 1) (by omega) hn hfit hL
  have hp : ∀ m, prep o ref m = fun k => unitSig (centred o.zeroMean (ref m k)) := fun m => funext fun k => prep_unit (hx m k)
  have h := sqCosPair_direct hn (min_eq_left (by omega)) hL F (by omega) hB hcg ref est
  rw [if_neg] at h
  · refine ⟨_, _, h, fun m k j => ?_, fun m j => ?_⟩
    · rw [prep_unit (hx m k), prep_unit (hy m j)]
      rfl
    · rw [hp, prep_unit (hy m j)]
  · rintro (⟨⟨m, k⟩, h⟩ | ⟨m, h⟩)
    · unfold SingularOne at h
      rw [prep_unit (hx m k)] at h
      exact (conditioned_coercive (conditionedAll_one (hco m) k)).det_ne_zero hl h
    · unfold SingularAll at h
      rw [hp] at h
      exact (conditionedAll_coercive (hco m)).det_ne_zero hl h

end FBE.Rounded
