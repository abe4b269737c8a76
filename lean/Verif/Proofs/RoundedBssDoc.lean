import Verif.Proofs.RoundedBss

/-!
# Rounding errors of `bss_eval_sources`
-/

namespace FBE.Rounded

open Spec Matrix XR

variable {p N K r e : ℕ}

theorem firErr_mono {k K' : ℕ} (hK : K ≤ K') {ρ ε ε' μ l : ℝ} (hρ : 1 ≤ ρ) (hε : 0 ≤ ε) (hε' : 0 ≤ ε') (hμ : 0 ≤ μ) (hl : 0 < l) :
    firErr p k K ρ ε ε' μ l ≤ firErr p k K' ρ ε ε' μ l := by
  unfold firErr
  have : (K : ℝ) ≤ K' := by exact_mod_cast hK
  gcongr

/-- The coherences. -/
theorem IsCoherences.close {E : Machine p} {A : Accuracy} (hp : 11 ≤ p) (hK : 1 ≤ K) (hfit : FilterFits N K) {zm : Bool}
    {load : Option ℝ} (hload : 0 ≤ load.getD 0) {x : Fin r → Fin N → ℝ} {y : Fin e → Fin N → ℝ} (hr : 1 ≤ r)
    (hx : ∀ c, 3e-6 ≤ sigNorm (centred zm (x c)))
    (hy : ∀ j, 3e-6 ≤ sigNorm (centred zm (y j))) {ρ : ℝ} (hρ : 1 ≤ ρ)
    (hρx : ∀ c, sigNorm (x c) ≤ ρ * sigNorm (centred zm (x c)))
    (hρy : ∀ j, sigNorm (y j) ≤ ρ * sigNorm (centred zm (y j))) {l : ℝ} (hl : 0 < l)
    (hco : ConditionedAll K (load.getD 0) l fun c => centred zm (x c))
    (hδ : firErr p A.k (K * r) ρ A.fft A.solve (load.getD 0) l ≤ 1 / 4) {cohSdr : Fin r → Fin e → ℝ} {cohSar : Fin e → ℝ}
    (h : IsCoherences E A K zm load x y cohSdr cohSar) :
    (∀ c j, |cohSdr c j - quad (shifts (N + K - 1) K (unitSig (centred zm (x c)))) (load.getD 0)
        (shift (N + K - 1) (unitSig (centred zm (y j))) 0)| ≤ firErr p A.k (K * r) ρ A.fft A.solve (load.getD 0) l) ∧
      ∀ j, |cohSar j - quad (allShifts (N + K - 1) K fun c => unitSig (centred zm (x c))) (load.getD 0)
        (shift (N + K - 1) (unitSig (centred zm (y j))) 0)| ≤ firErr p A.k (K * r) ρ A.fft A.solve (load.getD 0) l := by
  obtain ⟨xc, yc, x', y', hxc, hyc, hx', hy', hcoh⟩ := h
  have nx := fun c => sigNorm_unitSig (x := centred zm (x c)) (lt_of_lt_of_le (by norm_num) (hx c))
  have ny := fun j => sigNorm_unitSig (x := centred zm (y j)) (lt_of_lt_of_le (by norm_num) (hy j))
  have hc1 := fun c => conditionedAll_one hco c
  have hl1 : l ≤ 1 + load.getD 0 :=
    coercive_le (D := N + K - 1) (by omega) hK (nx ⟨0, hr⟩) (conditioned_coercive (hc1 ⟨0, hr⟩))
  have hKr : K ≤ K * r := Nat.le_mul_of_pos_right _ hr
  have hB := prep_small (by omega) hρ hl hl1 hδ
  have hmono := firErr_mono (p := p) (k := A.k) hKr hρ A.fft_nonneg A.solve_nonneg hload hl
  have px := fun c => prep_close hp (hxc c) (hx' c) (hx c) hρ (hρx c) hB
  have py := fun j => prep_close hp (hyc j) (hy' j) (hy j) hρ (hρy j) hB
  have hcall := conditionedAll_coercive hco
  by_cases hK1 : K = 1
  · subst hK1
    rw [if_pos rfl] at hcoh
    obtain ⟨rfl, hcoh⟩ := hcoh
    rw [Option.getD_none] at *
    have hk0 : (0 : ℝ) ≤ A.k := Nat.cast_nonneg _
    have hu0 := unit_pos (p := p)
    have hkρ : (A.k + 4) * unit p ≤ (A.k + 4) * ρ * unit p := by
      have : (A.k + 4 : ℝ) ≤ (A.k + 4) * ρ := le_mul_of_one_le_right (by linarith) hρ
      gcongr
    refine ⟨fun c j => ?_, fun j => ?_⟩
    · have h1 := (hcoh.1 c j).close (nx c) (ny j) hkρ hB (px c) (py j)
      rw [quad_one (by omega) (nx c)]
      refine h1.trans (le_trans ?_ hmono)
      have hfft := A.fft_nonneg
      have hsol := A.solve_nonneg
      have hB0 : 0 ≤ (A.k + 4) * ρ * unit p := by positivity
      have hC1 : 1 ≤ ((1 : ℕ) : ℝ) * (1 + 0) / l := by
        rw [le_div_iff₀ hl]
        push_cast
        linarith
      have : 48 * ((A.k + 4) * ρ * unit p) + 24 * A.fft + 2 * A.solve ≤ firErr p A.k 1 ρ A.fft A.solve 0 l := by
        unfold firErr
        exact le_mul_of_one_le_left (by positivity) hC1
      linarith
    · exact hcoh.sar hr nx ny hρ px py hl hl1 hcall hδ hB j
  · rw [if_neg hK1] at hcoh
    refine ⟨fun c j => ?_, fun j => ?_⟩
    · exact ((hcoh.one c j).close hp (by omega) hfit hload (nx c) (ny j) hρ (px c) (py j) hl hl1 (conditioned_coercive (hc1 c))
        (hmono.trans hδ)).trans hmono
    · exact hcoh.sar hp (by omega) hfit hload hr nx ny hρ px py hl hl1 hcall hδ j

/-- The quotient of two coherences. -/
theorem flDiv_close (E : Machine p) (hp : 11 ≤ p) {a b q s δ σ : ℝ} (hσ : 0 < σ) (hs : σ ≤ s) (hq0 : 0 ≤ q) (hqs : q ≤ s) (hs1 : s ≤ 1)
    (hu : (2 : ℝ) ^ (1 - p : ℤ) ≤ δ) (hδ : 12 * δ ≤ σ) (ha : |a - q| ≤ δ) (hb : |b - s| ≤ δ) :
    ∃ c, flDiv E a b = fin c ∧ |c - q / s| ≤ 3 * δ / σ := by
  have hu0 := unit_pos (p := p)
  have hup : (2 : ℝ) ^ (1 - p : ℤ) = 2 * unit p := by
    unfold unit; rw [sub_eq_add_neg, zpow_add₀ (by norm_num)]; norm_num
  rw [hup] at hu
  have hu2 := unit_le hp
  have hs0 : 0 < s := by linarith
  obtain ⟨a1, a2⟩ := abs_le.1 ha
  obtain ⟨b1, b2⟩ := abs_le.1 hb
  have hb0 : 0 < b := by linarith
  have hbσ : 11 / 12 * σ ≤ b := by linarith
  refine ⟨E.fl (a / b), by unfold flDiv; rw [if_neg hb0.ne'], ?_⟩
  have e1 : a / b - q / s = ((a - q) * s - q * (b - s)) / (b * s) := by
    field_simp
    ring
  have h1 : |a / b - q / s| ≤ 24 / 11 * (δ / σ) := by
    rw [e1, abs_div, abs_of_pos (mul_pos hb0 hs0), div_le_iff₀ (mul_pos hb0 hs0)]
    have h2 : |(a - q) * s - q * (b - s)| ≤ 2 * δ * s := by
      refine (abs_sub _ _).trans ?_
      rw [abs_mul, abs_mul, abs_of_pos hs0, abs_of_nonneg hq0]
      have : |a - q| * s ≤ δ * s := by gcongr
      have : q * |b - s| ≤ s * δ := by gcongr
      linarith
    refine h2.trans ?_
    have h3 : 2 * δ ≤ 24 / 11 * (δ / σ) * b := by
      have : 24 / 11 * (δ / σ) * (11 / 12 * σ) ≤ 24 / 11 * (δ / σ) * b := by
        have : 0 ≤ 24 / 11 * (δ / σ) := by
          have : 0 ≤ δ := by linarith
          positivity
        gcongr
      refine le_trans (le_of_eq ?_) this
      field_simp
      ring
    calc 2 * δ * s ≤ 24 / 11 * (δ / σ) * b * s := by gcongr
      _ = 24 / 11 * (δ / σ) * (b * s) := by ring
  have h2 := E.fl_nearest.rel (a / b)
  have hδσ : δ ≤ δ / σ := by
    rw [le_div_iff₀ hσ]
    nlinarith
  have hδσ1 : δ / σ ≤ 1 / 12 := by
    rw [div_le_div_iff₀ hσ (by norm_num)]; linarith
  have hqs1 : q / s ≤ 1 := (div_le_one hs0).2 hqs
  have hqs0 : 0 ≤ q / s := by positivity
  obtain ⟨c1, c2⟩ := abs_le.1 h1
  have h3 : |a / b| ≤ 1.2 := abs_le.2 ⟨by linarith, by linarith⟩
  have h4 : |E.fl (a / b) - a / b| ≤ unit p * 1.2 := h2.trans (mul_le_mul_of_nonneg_left h3 hu0.le)
  have h5 : |E.fl (a / b) - q / s| ≤ |E.fl (a / b) - a / b| + |a / b - q / s| := abs_sub_le _ _ _
  have h6 : 3 * δ / σ = 3 * (δ / σ) := by ring
  rw [h6]
  linarith

/-- Without regularisation: the projection onto the shifts of all the references. -/
theorem quad_doc_all {l : ℝ} (hl : 0 < l) {x : Fin r → Fin N → ℝ} {y : Fin N → ℝ} (h : ConditionedAll K 0 l x)
    (hx : ∀ c, 0 < sigNorm (x c)) (hy : 0 < sigNorm y) :
    quad (allShifts (N + K - 1) K fun c => unitSig (x c)) 0 (shift (N + K - 1) (unitSig y) 0) * sigNorm y ^ 2 =
      energy ((spanAll (N + K - 1) K x).starProjection (shift (N + K - 1) y 0)) := by
  have hdet := (conditionedAll_coercive h).det_ne_zero hl
  rw [gramD_zero] at hdet
  rw [quad_eq_proj _ _ hdet]
  have h1 : famSpan (allShifts (N + K - 1) K fun c => unitSig (x c)) = spanAll (N + K - 1) K x := by
    have e : (allShifts (N + K - 1) K fun c => unitSig (x c)) =
        fun a => (sigNorm (x a.2))⁻¹ • shift (N + K - 1) (x a.2) a.1 := by
      funext a
      have e : unitSig (x a.2) = fun t => (sigNorm (x a.2))⁻¹ * x a.2 t := by funext t; unfold unitSig; rw [div_eq_inv_mul]
      show shift (N + K - 1) (unitSig (x a.2)) a.1 = _
      rw [e, shift_smul]
    rw [e]
    exact span_range_smul (fun a : Fin K × Fin r => (sigNorm (x a.2))⁻¹) (fun a => inv_ne_zero (hx a.2).ne')
      (fun a : Fin K × Fin r => shift (N + K - 1) (x a.2) a.1)
  have h2 : shift (N + K - 1) (unitSig y) 0 = (sigNorm y)⁻¹ • shift (N + K - 1) y 0 := by
    have e : unitSig y = fun t => (sigNorm y)⁻¹ * y t := by funext t; unfold unitSig; rw [div_eq_inv_mul]
    rw [e, shift_smul]
  rw [h1, h2, map_smul, norm_smul, mul_pow, Real.norm_eq_abs, sq_abs]
  unfold energy
  field_simp

theorem quad_all_nonneg {μ l : ℝ} (hμ : 0 ≤ μ) (hl : 0 < l) {x : Fin r → Fin N → ℝ} {y : Fin N → ℝ} (h : ConditionedAll K μ l x) :
    0 ≤ quad (allShifts (N + K - 1) K fun c => unitSig (x c)) μ (shift (N + K - 1) (unitSig y) 0) :=
  quad_nonneg _ _ hμ ((conditionedAll_coercive h).det_ne_zero hl)

/-- Without regularisation: the documented SAR. -/
theorem clip_docSar {d : ℝ} (hd : 0 ≤ d) (hK : 1 ≤ K) {l : ℝ} (hl : 0 < l) {x : Fin r → Fin N → ℝ}
    {y : Fin N → ℝ} (h : ConditionedAll K 0 l x) (hx : ∀ c, 0 < sigNorm (x c)) (hy : 0 < sigNorm y) :
    clip d (docSar K x y) = .fin (limitedSar d K 0 x y) := by
  have hle : leastResidualAll K 0 x y = _ := (quad_least_all le_rfl hl hK h hy).csInf_eq
  have hq0 := quad_all_nonneg (y := y) le_rfl hl h
  have hq1 := quad_all_le le_rfl hl hK h hy
  have hq := quad_doc_all hl h hx hy
  unfold limitedSar
  rw [hle, sub_sub_cancel]
  set q := quad (allShifts (N + K - 1) K fun c => unitSig (x c)) 0 (shift (N + K - 1) (unitSig y) 0)
  have hs : 0 < sigNorm y ^ 2 := by positivity
  have he := energy_sub_proj (spanAll (N + K - 1) K x) (shift (N + K - 1) y 0)
  rw [energy_shift _ (by omega), ← hq] at he
  unfold docSar
  dsimp only
  rw [he, ← hq, clip_dbRatio hd (by positivity) (by nlinarith) (by linarith), ← limitedDb_scale hs q]
  congr 2
  ring

/-- Without regularisation: the documented SIR. -/
theorem clip_docSir {d : ℝ} (hd : 0 ≤ d) (hK : 1 ≤ K) {l : ℝ} (hl : 0 < l) {x : Fin r → Fin N → ℝ} {c : Fin r}
    {y : Fin N → ℝ} (h : ConditionedAll K 0 l x) (hx : ∀ c, 0 < sigNorm (x c)) (hy : 0 < sigNorm y)
    (hpos : leastResidualAll K 0 x y < 1) : clip d (docSir K x c y) = .fin (limitedSir d K 0 x c y) := by
  have hle : leastResidualAll K 0 x y = _ := (quad_least_all le_rfl hl hK h hy).csInf_eq
  have hle1 : leastResidual K 0 (x c) y = _ := (quad_least le_rfl hl hK (conditionedAll_one h c) hy).csInf_eq
  have hq0 := quad_mem (y := y) le_rfl hl hK (conditionedAll_one h c) hy
  have hqs := quad_le_all le_rfl hl hK h hy c
  have hq := quad_doc_all hl h hx hy
  have hq' := quad_doc hl (conditionedAll_one h c) (hx c) hy
  rw [hle] at hpos
  unfold limitedSir
  rw [hle, hle1, sub_sub_cancel]
  set s := quad (allShifts (N + K - 1) K fun c => unitSig (x c)) 0 (shift (N + K - 1) (unitSig y) 0)
  set q := quad (shifts (N + K - 1) K (unitSig (x c))) 0 (shift (N + K - 1) (unitSig y) 0)
  have hs : 0 < sigNorm y ^ 2 := by positivity
  have hsub : spanOne (N + K - 1) K (x c) ≤ spanAll (N + K - 1) K x := by
    refine Submodule.span_mono ?_
    rintro _ ⟨i, rfl⟩
    exact ⟨(i, c), rfl⟩
  have he := energy_proj_sub_proj hsub (shift (N + K - 1) y 0)
  rw [← hq, ← hq'] at he
  unfold docSir
  dsimp only
  rw [he, ← hq', clip_dbRatio hd (mul_nonneg hq0.1 hs.le) (by nlinarith) (by nlinarith), ← limitedDb_scale hs q]
  congr 2
  ring

/-- The losses. -/
theorem IsBssLosses.close {E : Machine p} {A : Accuracy} (hp : 11 ≤ p) (hK : 1 ≤ K) (hfit : FilterFits N K) {zm : Bool}
    {load : Option ℝ} (hload : 0 ≤ load.getD 0) {d : ℝ} (hd : 0 ≤ d) (hd' : d ≤ 1000) {x : Fin r → Fin N → ℝ}
    {y : Fin e → Fin N → ℝ} (hr : 1 ≤ r) (hx : ∀ c, 3e-6 ≤ sigNorm (centred zm (x c)))
    (hy : ∀ j, 3e-6 ≤ sigNorm (centred zm (y j))) {ρ : ℝ} (hρ : 1 ≤ ρ)
    (hρx : ∀ c, sigNorm (x c) ≤ ρ * sigNorm (centred zm (x c)))
    (hρy : ∀ j, sigNorm (y j) ≤ ρ * sigNorm (centred zm (y j))) {l : ℝ} (hl : 0 < l)
    (hco : ConditionedAll K (load.getD 0) l fun c => centred zm (x c)) {σ : ℝ} (hσ : 0 < σ)
    (hσy : ∀ j, leastResidualAll K (load.getD 0) (fun c => centred zm (x c)) (centred zm (y j)) ≤ 1 - σ)
    {δ : ℝ} (hδ : firErr p A.k (K * r) ρ A.fft A.solve (load.getD 0) l ≤ δ)
    (hlim : 2 * (3 * δ / σ + 2 ^ (-40 : ℤ)) * ((10 : ℝ) ^ (d / 10) + 1) ≤ 1) {sdr sir sar : Fin r → Fin e → XR}
    (h : IsBssLosses E A K zm load (some d) x y sdr sir sar) (c : Fin r) (j : Fin e) :
    (∃ w, sdr c j = fin w ∧ Representable p w ∧
      |w - -limitedSdr d K (load.getD 0) (centred zm (x c)) (centred zm (y j))| ≤
        10 * (δ + 2 ^ (-40 : ℤ)) * ((10 : ℝ) ^ (d / 10) + 3) + 2 ^ (5 - p : ℤ) * (d + 1)) ∧
    (∃ w, sir c j = fin w ∧ Representable p w ∧
      |w - -limitedSir d K (load.getD 0) (fun c => centred zm (x c)) c (centred zm (y j))| ≤
        10 * (3 * δ / σ + 2 ^ (-40 : ℤ)) * ((10 : ℝ) ^ (d / 10) + 3) + 2 ^ (5 - p : ℤ) * (d + 1)) ∧
    ∃ w, sar c j = fin w ∧ Representable p w ∧
      |w - -limitedSar d K (load.getD 0) (fun c => centred zm (x c)) (centred zm (y j))| ≤
        10 * (δ + 2 ^ (-40 : ℤ)) * ((10 : ℝ) ^ (d / 10) + 3) + 2 ^ (5 - p : ℤ) * (d + 1) := by
  obtain ⟨cohSdr, cohSar, hcoh, h1, h2, h3⟩ := h
  have hc1 := conditionedAll_one hco c
  have hSy : 0 < sigNorm (centred zm (y j)) := lt_of_lt_of_le (by norm_num) (hy j)
  have nx := sigNorm_unitSig (x := centred zm (x c)) (lt_of_lt_of_le (by norm_num) (hx c))
  have hl1 : l ≤ 1 + load.getD 0 := coercive_le (D := N + K - 1) (by omega) hK nx (conditioned_coercive hc1)
  have hKr : 1 ≤ K * r := Nat.one_le_iff_ne_zero.2 (Nat.mul_ne_zero (by omega) (by omega))
  have hup : (2 : ℝ) ^ (1 - p : ℤ) ≤ δ := (unit_le_firErr hKr hρ A.fft_nonneg A.solve_nonneg hl hl1).trans hδ
  have hδ0 : 0 < δ := lt_of_lt_of_le (by positivity) hup
  have hG : (1 : ℝ) ≤ 10 ^ (d / 10) := Real.one_le_rpow (by norm_num) (by positivity)
  have h40 : (0 : ℝ) < 2 ^ (-40 : ℤ) := by positivity
  have hle : leastResidualAll K (load.getD 0) (fun c => centred zm (x c)) (centred zm (y j)) = _ :=
    (quad_least_all hload hl hK hco hSy).csInf_eq
  have hle1 : leastResidual K (load.getD 0) (centred zm (x c)) (centred zm (y j)) = _ := (quad_least hload hl hK hc1 hSy).csInf_eq
  obtain ⟨hq0, hq1⟩ := quad_mem (y := centred zm (y j)) hload hl hK hc1 hSy
  have hqs := quad_le_all hload hl hK hco hSy c
  have hs1 := quad_all_le hload hl hK hco hSy
  have hσj := hσy j
  rw [hle] at hσj
  have hδσ : 12 * δ ≤ σ := by
    have h3 : 0 < 3 * δ / σ := by positivity
    have : 2 * (3 * δ / σ) * (1 + 1) ≤ 1 := by
      refine le_trans ?_ hlim
      gcongr
      linarith
    have h4 : 3 * δ / σ ≤ 1 / 4 := by linarith
    rw [div_le_div_iff₀ hσ (by norm_num)] at h4
    linarith
  have hδ4 : δ ≤ 1 / 4 := by linarith
  have hδle : δ ≤ 3 * δ / σ := by
    rw [le_div_iff₀ hσ]; nlinarith
  have hlim' : 2 * (δ + 2 ^ (-40 : ℤ)) * ((10 : ℝ) ^ (d / 10) + 1) ≤ 1 := by
    refine le_trans ?_ hlim
    gcongr
  obtain ⟨g1, g2⟩ := hcoh.close hp hK hfit hload hr hx hy hρ hρx hρy hl hco (hδ.trans hδ4)
  have k1 := (g1 c j).trans hδ
  have k2 := (g2 j).trans hδ
  rw [h1, h2, h3]
  unfold limitedSdr limitedSir limitedSar
  rw [hle, hle1, sub_sub_cancel, sub_sub_cancel]
  set s := quad (allShifts (N + K - 1) K fun c => unitSig (centred zm (x c))) (load.getD 0)
    (shift (N + K - 1) (unitSig (centred zm (y j))) 0)
  set q := quad (shifts (N + K - 1) K (unitSig (centred zm (x c)))) (load.getD 0)
    (shift (N + K - 1) (unitSig (centred zm (y j))) 0)
  have hσs : σ ≤ s := by linarith
  have hs0 : 0 < s := by linarith
  refine ⟨?_, ?_, ?_⟩
  · simpa only [mul_one] using clamped_close_of E hp hd hd' hup hlim' one_pos hq0 hq1 k1
  · obtain ⟨v, hv, hvc⟩ := flDiv_close E hp hσ hσs hq0 hqs hs1 hup hδσ k1 k2
    rw [hv]
    have := clamped_close_of E hp hd hd' (hup.trans hδle) hlim hs0 (div_nonneg hq0 hs0.le) ((div_le_one hs0).2 hqs) hvc
    rw [div_mul_cancel₀ _ hs0.ne', sub_mul, one_mul, div_mul_cancel₀ _ hs0.ne'] at this
    rw [show (1 : ℝ) - q - (1 - s) = s - q from by ring]
    exact this
  · simpa only [mul_one] using clamped_close_of E hp hd hd' hup hlim' one_pos hs0.le hs1 k2

theorem gather_fin {a b n : ℕ} (l : List (Fin a × Fin b)) (hl : l.length = n) {α : Type} (f : Fin a → Fin b → α) (k : Fin n) :
    gather l hl f k = f (l[k.val]'(by omega)).1 (l[k.val]'(by omega)).2 := rfl

/-- The permutation with further losses. -/
theorem flSolvePermutation₃_near {fl : ℝ → ℝ} (h : IsNearest p fl) (x S : Fin r → Fin e → ℝ) (m₁ m₂ : Fin r → Fin e → XR)
    (hx : ∀ i j, Representable p (x i j))
    {D ε : ℝ} (hD0 : 0 ≤ D) (hD : ∀ i j i' j', x i j - x i' j' ≤ D) (hε : ∀ i j, |x i j - -S i j| ≤ ε)
    (hk : 6 * ((min r e : ℕ) ^ 2 + 1 : ℝ) * 2 ^ (-p : ℤ) ≤ 1) :
    ∃ loss v₁ v₂ perm, ∃ P : Pairing r e, flSolvePermutation₃ h (fun i j => fin (x i j)) m₁ m₂ = .ok (loss, v₁, v₂, perm) ∧
      Describes perm P ∧ (∀ k, loss k = fin (x (P.ref k) (P.est k))) ∧ (∀ k, v₁ k = m₁ (P.ref k) (P.est k)) ∧
      (∀ k, v₂ k = m₂ (P.ref k) (P.est k)) ∧
      ∀ P' : Pairing r e, P'.sum S ≤ P.sum S + permTol p (min r e) ε D := by
  unfold flSolvePermutation₃ flPermItem₃
  by_cases her : e < r
  · rw [if_pos her]
    obtain ⟨l, h1, h2, h3⟩ := flLsaWithInf_perturbed h (fun j i => x i j) (fun j i => -S i j) (fun j i => hx i j) hD0
      (fun j i j' i' => hD i j i' j') (fun j i => hε i j) (by rw [min_comm e r]; exact hk)
    rw [min_comm e r] at h3
    rw [h1]
    have hlen : l.length = min r e := by rw [h2.length_eq, min_comm]
    refine ⟨gather l hlen fun j i => fin (x i j), gather l hlen fun j i => m₁ i j, gather l hlen fun j i => m₂ i j,
      gather l hlen fun _ j => j.val, (pairingOfList l h2).swap,
      by simp only [dif_pos hlen], ⟨fun hre => absurd her (by omega), fun _ k => ?_⟩,
      fun k => rfl, fun k => rfl, fun k => rfl, fun P' => ?_⟩
    · exact ⟨pairingOfList_ref l h2 her.le (k.cast (min_comm r e)), rfl⟩
    · have h4 := h3 P'.swap.sorted P'.swap.sorted_isAssignment
      have h5 : total (fun j i => -S i j) l = (pairingOfList l h2).sum fun j i => -S i j := by
        rw [← sum_pairs, pairingOfList_pairs]
      rw [sum_sorted, h5, sum_neg (fun j i => S i j), sum_neg (fun j i => S i j), sum_swap] at h4
      rw [sum_swap']
      unfold permTol
      linarith
  · rw [if_neg her]
    obtain ⟨l, h1, h2, h3⟩ := flLsaWithInf_perturbed h x (fun i j => -S i j) hx hD0 hD hε hk
    rw [h1]
    have hlen : l.length = min r e := h2.length_eq
    refine ⟨gather l hlen fun i j => fin (x i j), gather l hlen m₁, gather l hlen m₂, gather l hlen fun _ j => j.val,
      pairingOfList l h2, by simp only [dif_pos hlen], ⟨fun hre k => ?_, fun h => absurd h her⟩,
      fun k => rfl, fun k => rfl, fun k => rfl, fun P' => ?_⟩
    · exact ⟨pairingOfList_ref l h2 hre k, rfl⟩
    · have h4 := h3 P'.sorted P'.sorted_isAssignment
      have h5 : total (fun i j => -S i j) l = (pairingOfList l h2).sum fun i j => -S i j := by
        rw [← sum_pairs, pairingOfList_pairs]
      rw [sum_sorted, h5, sum_neg, sum_neg] at h4
      unfold permTol
      linarith

theorem IsSolve.exact {A : Accuracy} {J : Type} [Fintype J] [DecidableEq J] {M : Matrix J J ℝ} (h : M.det ≠ 0) (b : J → ℝ) :
    IsSolve A M b (M⁻¹ *ᵥ b) := by
  refine ⟨0, ?_, fun B hB i j => ?_⟩
  · rw [add_zero]
    exact mulVec_inv h _
  · rw [Matrix.zero_apply, abs_zero]
    have := (abs_nonneg _).trans (hB i j)
    have := A.solve_nonneg
    positivity

theorem exists_stats2 (p : ℕ) (A : Accuracy) (n : ℕ) (x : Fin r → Fin N → ℝ) (y : Fin e → Fin N → ℝ) :
    ∃ acf xcorr, IsStats2 p A n x y acf xcorr := by
  let X : Fin r → ℕ → ℂ := fun c f => (rfft n (List.ofFn (x c))).getD f 0
  let Y : Fin e → ℕ → ℂ := fun c f => (rfft n (List.ofFn (y c))).getD f 0
  let Z : Fin r → Fin r → ℕ → ℂ := fun c d f => (starRingEnd ℂ) (X d f) * X c f
  let W : Fin r → Fin e → ℕ → ℂ := fun c d f => (starRingEnd ℂ) (X c f) * Y d f
  have hfft := A.fft_nonneg
  refine ⟨fun c d t => (irfft n ((List.range (n / 2 + 1)).map (Z c d))).getD t 0,
    fun c d t => (irfft n ((List.range (n / 2 + 1)).map (W c d))).getD t 0, X, Y, fun c => ?_, fun c => ?_,
    fun c d => ⟨Z c d, fun f => ?_, fun t _ => ?_⟩, fun c d => ⟨W c d, fun f => ?_, fun t _ => ?_⟩⟩
  · unfold IsRfft
    simp only [X, sub_self, norm_zero]
    simp only [ne_eq, OfNat.ofNat_ne_zero, not_false_eq_true, zero_pow, Finset.sum_const_zero]
    positivity
  · unfold IsRfft
    simp only [Y, sub_self, norm_zero]
    simp only [ne_eq, OfNat.ofNat_ne_zero, not_false_eq_true, zero_pow, Finset.sum_const_zero]
    positivity
  · simp only [Z, sub_self, norm_zero]; positivity
  · simp only [sub_self, abs_zero]; positivity
  · simp only [W, sub_self, norm_zero]; positivity
  · simp only [sub_self, abs_zero]; positivity

/-- There is an outcome. -/
theorem exists_bssLosses (E : Machine p) {A : Accuracy} (hp : 11 ≤ p) (hN : N ≤ A.k) (hKk : K * r ≤ A.k) (hK : 1 ≤ K)
    (hfit : FilterFits N K) {zm : Bool}
    {load : Option ℝ} (hload : 0 ≤ load.getD 0) (hKl : K = 1 → load = none) (cd : Option ℝ) {x : Fin r → Fin N → ℝ}
    {y : Fin e → Fin N → ℝ} (hr : 1 ≤ r) (hx : ∀ c, 3e-6 ≤ sigNorm (centred zm (x c)))
    (hy : ∀ j, 3e-6 ≤ sigNorm (centred zm (y j))) {ρ : ℝ} (hρ : 1 ≤ ρ)
    (hρx : ∀ c, sigNorm (x c) ≤ ρ * sigNorm (centred zm (x c)))
    (hρy : ∀ j, sigNorm (y j) ≤ ρ * sigNorm (centred zm (y j))) {l : ℝ} (hl : 0 < l)
    (hco : ConditionedAll K (load.getD 0) l fun c => centred zm (x c))
    (hδ : firErr p A.k (K * r) ρ A.fft A.solve (load.getD 0) l ≤ 1 / 4) :
    ∃ sdr sir sar, IsBssLosses E A K zm load cd x y sdr sir sar := by
  have nx := fun c => sigNorm_unitSig (x := centred zm (x c)) (lt_of_lt_of_le (by norm_num) (hx c))
  have ny := fun j => sigNorm_unitSig (x := centred zm (y j)) (lt_of_lt_of_le (by norm_num) (hy j))
  have hc1 := fun c => conditionedAll_one hco c
  have hl1 : l ≤ 1 + load.getD 0 :=
    coercive_le (D := N + K - 1) (by omega) hK (nx ⟨0, hr⟩) (conditioned_coercive (hc1 ⟨0, hr⟩))
  have hKr : K ≤ K * r := Nat.le_mul_of_pos_right _ hr
  have hN0 : 0 < N := by
    rcases Nat.eq_zero_or_pos N with h0 | h0
    · subst h0
      have := nx ⟨0, hr⟩
      simp [sigNorm] at this
    · exact h0
  have hdotG : ∀ (m : ℕ), 1 ≤ m → m ≤ A.k → ∀ a b : Fin m → ℝ, ∃ c, IsDot (2 ^ (-p : ℤ)) a b A.k Finset.univ c :=
    fun m hm hmk a b => by
      obtain ⟨c, hc⟩ := exists_isDot (u := 2 ^ (-p : ℤ)) (by positivity) a b Finset.univ ⟨⟨0, hm⟩, Finset.mem_univ _⟩
      rw [Finset.card_univ, Fintype.card_fin] at hc
      exact ⟨c, hc.mono hmk⟩
  have hdot := hdotG N hN0 hN
  have hnorm : ∀ a : Fin N → ℝ, ∃ a', IsNormalized E A.k a a' := fun a => by
    obtain ⟨q, hq⟩ := hdot a a
    exact ⟨_, q, √q, hq, by rw [sub_self, abs_zero]; positivity, fun t => rfl⟩
  have hcen : ∀ a : Fin N → ℝ, ∃ a', IsCentred E A.k zm a a' := fun a => by
    cases zm with
    | false => exact ⟨a, by unfold IsCentred; rw [if_neg (by simp)]⟩
    | true =>
      obtain ⟨q, hq⟩ := hdot a (fun _ => 1)
      refine ⟨fun t => E.fl (a t - q / N), ?_⟩
      unfold IsCentred
      rw [if_pos rfl]
      exact ⟨q, q / N, hq, by rw [sub_self, abs_zero]; positivity, fun t => rfl⟩
  choose xc hxc using fun c => hcen (x c)
  choose yc hyc using fun j => hcen (y j)
  choose x' hx' using fun c => hnorm (xc c)
  choose y' hy' using fun j => hnorm (yc j)
  have hB := prep_small (by omega) hρ hl hl1 hδ
  have px := fun c => prep_close hp (hxc c) (hx' c) (hx c) hρ (hρx c) hB
  have py := fun j => prep_close hp (hyc j) (hy' j) (hy j) hρ (hρy j) hB
  have hcall := conditionedAll_coercive hco
  have hmono := firErr_mono (p := p) (k := A.k) hKr hρ A.fft_nonneg A.solve_nonneg hload hl
  suffices h : ∃ cohSdr cohSar, if K = 1 then load = none ∧ IsOneTapCoherences E A x' y' cohSdr cohSar
      else IsFirCoherences E A K load x' y' cohSdr cohSar by
    obtain ⟨cohSdr, cohSar, h⟩ := h
    exact ⟨_, _, _, cohSdr, cohSar, ⟨xc, yc, x', y', hxc, hyc, hx', hy', h⟩, fun _ _ => rfl, fun _ _ => rfl, fun _ _ => rfl⟩
  by_cases hK1 : K = 1
  · subst hK1
    have hn := hKl rfl
    subst hn
    rw [Option.getD_none] at *
    choose acm hacm using fun c d => hdot (x' c) (x' d)
    choose xcorr hxcorr using fun c j => hdot (x' c) (y' j)
    have hdet := oneTap_det (acm := Matrix.of acm) hr nx hρ px hl hl1 hcall hδ hB hacm
    choose s hs using fun j => hdotG r hr (by omega) (fun c => xcorr c j) ((Matrix.of acm)⁻¹ *ᵥ fun c => xcorr c j)
    refine ⟨fun c j => E.fl (xcorr c j * xcorr c j), s, ?_⟩
    rw [if_pos rfl]
    exact ⟨rfl, fun c j => ⟨xcorr c j, hxcorr c j, rfl⟩, Matrix.of acm, xcorr, hacm, hxcorr,
      fun j => ⟨_, IsSolve.exact hdet _, hs j⟩⟩
  · obtain ⟨acf, xcorr, hst⟩ := exists_stats2 p A (fftSize N) x' y'
    have hdet := hst.det_ne_zero (E := E) hp (by omega) hfit hload hr nx ny hρ px py hl hl1 hcall hδ
    obtain ⟨X, Y, hX, hY, hax, hay⟩ := id hst
    have hdet1 := fun c (j : Fin e) => IsStats.det_ne_zero (E := E) (A := A) (acf := acf c c) (xcorr := xcorr c j) hp (by omega) hfit
      hload (nx c) (ny j) hρ (px c) (py j) hl hl1 (conditioned_coercive (hc1 c)) (hmono.trans hδ)
      ⟨X c, Y j, hX c, hY j, hax c c, hay c j⟩
    choose cs hcs using fun c j => hdotG K hK (by omega) (fun i : Fin K => xcorr c j i)
      ((flToeplitz K (loaded E load (acf c c)))⁻¹ *ᵥ fun i : Fin K => xcorr c j i)
    choose s hs using fun j => hdotG (K * r) (by omega) hKk
      (fun a : Fin (K * r) => xcorr (finProdFinEquiv.symm a).2 j (finProdFinEquiv.symm a).1)
      (fun a => ((flBlockToeplitz (fftSize N) K (loadedDiag E load acf))⁻¹ *ᵥ fun a => xcorr a.2 j a.1) (finProdFinEquiv.symm a))
    refine ⟨cs, s, ?_⟩
    rw [if_neg hK1]
    refine ⟨acf, xcorr, hst, fun c j => ⟨_, ?_, hcs c j⟩, fun j => ⟨_, IsSolve.exact hdet _, hs j⟩⟩
    unfold loadedDiag
    rw [if_pos rfl]
    exact IsSolve.exact (hdet1 c j) _

end FBE.Rounded
