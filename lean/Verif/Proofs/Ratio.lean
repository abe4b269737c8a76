import Verif.Proofs.Projection
import Verif.Proofs.Api
import Verif.Proofs.Diag

/-!
# From coherences to the documented ratios
-/

set_option linter.unusedSectionVars false

namespace FBE

open Spec XR

variable {s : List ℕ} {r e c N : ℕ}

theorem report_neg {cl : Option ℝ} (hcl : ∀ d, cl = some d → 0 ≤ d) (x : XR) :
    report cl x.neg = (report cl x).neg := by
  cases cl with
  | none => rfl
  | some d => exact clip_neg (hcl d rfl) x

theorem coherenceToNegSdr_report {cl : Option ℝ} (hcl : ∀ d, cl = some d → 0 ≤ d) (x : XR) :
    coherenceToNegSdr cl x = report cl (coherenceToNegSdr none x) := by
  cases cl with
  | none => rfl
  | some d => exact coherenceToNegSdr_clip (hcl d rfl) x

theorem neg_neg' (x : XR) : x.neg.neg = x := by cases x <;> simp [neg]

/-- Coherence `c` of an estimate of energy `E`. -/
theorem loss_eq {cl : Option ℝ} (hcl : ∀ d, cl = some d → 0 ≤ d) {a b E c : ℝ} (hE : 0 < E)
    (h0 : 0 ≤ c) (h1 : c ≤ 1) (ha : a = c * E) (hb : b = (1 - c) * E) :
    coherenceToNegSdr cl (fin c) = (report cl (dbRatio a b)).neg := by
  rw [coherenceToNegSdr_report hcl, coherenceToNegSdr_fin, cclamp_none h0 h1, negDb_eq_dbRatio hE ha hb,
    report_neg hcl]

/-- The ratio of two coherences. -/
theorem sir_eq {cl : Option ℝ} (hcl : ∀ d, cl = some d → 0 ≤ d) {a b g : ℝ} (hg : g ≠ 0)
    (h0 : 0 ≤ a) (h1 : a ≤ b) :
    coherenceToNegSdr cl (XR.div (fin (g * a)) (fin (g * b))) = (report cl (dbRatio a (b - a))).neg := by
  by_cases hb : b = 0
  · have ha : a = 0 := le_antisymm (h1.trans hb.le) h0
    subst ha hb
    have : XR.div (fin (g * 0)) (fin (g * 0)) = nan := by
      show (if g * 0 = 0 then signInf (g * 0) else _) = _
      simp [signInf]
    rw [this, coherenceToNegSdr_nan]
    unfold dbRatio
    simp only [sub_self, if_true]
    cases cl <;> rfl
  · have hbp : 0 < b := lt_of_le_of_ne (h0.trans h1) (Ne.symm hb)
    have : XR.div (fin (g * a)) (fin (g * b)) = fin (a / b) := by
      show (if g * b = 0 then signInf (g * a) else fin (g * a / (g * b))) = _
      rw [if_neg (mul_ne_zero hg hb), mul_div_mul_left _ _ hg]
    rw [this]
    refine loss_eq hcl hbp (div_nonneg h0 hbp.le) ((div_le_one hbp).2 h1) ?_ ?_
    · field_simp
    · field_simp

theorem energy_nonneg {D : ℕ} (v : Space D) : 0 ≤ energy v := by unfold energy; positivity

theorem gain_sq_energy {D : ℕ} (hD : N ≤ D) {y : Fin N → ℝ} (hy : Audible y) :
    gain y ^ 2 * energy (shift D y 0) = 1 ∧ 0 < energy (shift D y 0) := by
  have hp : 0 < sigNorm y := lt_of_lt_of_le (by norm_num) hy
  rw [energy_shift D hD, gain_eq hy]
  exact ⟨by field_simp, by positivity⟩

/-- A coherence that is the normalised energy of a projection of the estimate. -/
theorem loss_proj {cl : Option ℝ} (hcl : ∀ d, cl = some d → 0 ≤ d) {D : ℕ} (hD : N ≤ D)
    {y : Fin N → ℝ} (hy : Audible y) (K : Submodule ℝ (Space D)) :
    coherenceToNegSdr cl (fin (gain y ^ 2 * energy (K.starProjection (shift D y 0)))) =
      (report cl (dbRatio (energy (K.starProjection (shift D y 0)))
        (energy (shift D y 0 - K.starProjection (shift D y 0))))).neg := by
  obtain ⟨h1, hE⟩ := gain_sq_energy hD hy
  have hle : energy (K.starProjection (shift D y 0)) ≤ energy (shift D y 0) := by
    have := energy_sub_proj K (shift D y 0)
    have := energy_nonneg (shift D y 0 - K.starProjection (shift D y 0))
    linarith
  have hnn := energy_nonneg (K.starProjection (shift D y 0))
  have hg : 0 < gain y ^ 2 := pow_pos (gain_pos y) 2
  refine loss_eq hcl hE (by positivity) ?_ ?_ ?_
  · rw [← h1]; exact mul_le_mul_of_nonneg_left hle hg.le
  · linear_combination (-energy (K.starProjection (shift D y 0))) * h1
  · rw [energy_sub_proj]
    linear_combination energy (K.starProjection (shift D y 0)) * h1

/-- The metrics of one pair from the coherences of `bss_eval_sources`. -/
theorem baseMetrics_doc {B : Backend} (hB : Covered B) {o : Opts} (hdir : o.direct) (hload : o.load = 0)
    (hcl : o.clampOk) (hfit : FilterFits N o.filterLength)
    (ref : Sig s r N) (est : Sig s e N) {sdr sar}
    (h : sqCosPair B o ref est = .ok (sdr, sar)) (m : BIdx s) (k : Fin r) (j : Fin e)
    (href : o.filterLength = 1 → Normalisable (cen o ref m k)) :
    (Audible (cen o est m j) →
      (baseMetrics o.clampDb (sdr m k j) (sar m j)).1 =
        (report o.clampDb (docSdr o.filterLength (cen o ref m) k (cen o est m j))).neg) ∧
    (baseMetrics o.clampDb (sdr m k j) (sar m j)).2.1 =
      (report o.clampDb (docSir o.filterLength (cen o ref m) k (cen o est m j))).neg ∧
    (Audible (cen o est m j) →
      (baseMetrics o.clampDb (sdr m k j) (sar m j)).2.2 =
        (report o.clampDb (docSar o.filterLength (cen o ref m) (cen o est m j))).neg) := by
  have hL : o.filterLength ≠ 0 := by
    intro h0; simp only [sqCosPair_def] at h; rw [if_pos h0] at h; cases h
  have hD : N + o.filterLength ≤ (N + o.filterLength - 1) + 1 := by omega
  obtain ⟨h1, h2⟩ := sqCosPair_proj hB hdir hload hfit hD ref est h m k j
  rw [h1 href, h2]
  refine ⟨fun hy => loss_proj hcl (by omega) hy _, ?_, fun hy => loss_proj hcl (by omega) hy _⟩
  have hle := spanOne_le_spanAll (N + o.filterLength - 1) o.filterLength (cen o ref m) k
  have := sir_eq hcl (pow_pos (gain_pos (cen o est m j)) 2).ne'
    (energy_nonneg ((spanOne (N + o.filterLength - 1) o.filterLength (cen o ref m k)).starProjection
        (shift (N + o.filterLength - 1) (cen o est m j) 0)))
    (energy_proj_mono hle (shift (N + o.filterLength - 1) (cen o est m j) 0))
  refine this.trans ?_
  rw [← energy_proj_sub_proj hle]
  rfl

theorem spanAll_surj {r' : ℕ} (D L : ℕ) (x : Fin r → Fin N → ℝ) (f : Fin r' → Fin r)
    (hf : Function.Surjective f) : spanAll D L (fun k => x (f k)) = spanAll D L x := by
  unfold spanAll
  congr 1
  ext v
  constructor
  · rintro ⟨⟨l, k⟩, rfl⟩
    exact ⟨(l, f k), rfl⟩
  · rintro ⟨⟨l, k⟩, rfl⟩
    obtain ⟨k', rfl⟩ := hf k
    exact ⟨(l, k'), rfl⟩

theorem docSir_surj {r' : ℕ} (L : ℕ) (x : Fin r → Fin N → ℝ) (f : Fin r' → Fin r)
    (hf : Function.Surjective f) (k : Fin r') (y : Fin N → ℝ) :
    docSir L (fun k => x (f k)) k y = docSir L x (f k) y := by
  unfold docSir
  simp only [spanAll_surj _ _ x f hf]

theorem docSar_surj {r' : ℕ} (L : ℕ) (x : Fin r → Fin N → ℝ) (f : Fin r' → Fin r)
    (hf : Function.Surjective f) (y : Fin N → ℝ) :
    docSar L (fun k => x (f k)) y = docSar L x y := by
  unfold docSar
  simp only [spanAll_surj _ _ x f hf]

/-- The channels of `bss_eval_sources(compute_permutation=False)`. -/
theorem bssEvalSources_false {B : Backend} {o : Opts} {T : ℕ} {ref : Sig s c N} {est : Sig s c T} {out}
    (h : bssEvalSources B o false ref est = .ok out) :
    ∃ sd sa, sqCosDiag B o (fun m (k : Fin (min c c)) => ref m (k.castLE (min_le_left c c)))
        (fun m k => est m (k.castLE (min_le_right c c))) = .ok (sd, sa) ∧
      out = ⟨fun m k => (baseMetrics o.clampDb (sd m k) (sa m k)).1.neg,
        fun m k => (baseMetrics o.clampDb (sd m k) (sa m k)).2.1.neg,
        fun m k => (baseMetrics o.clampDb (sd m k) (sa m k)).2.2.neg, none⟩ := by
  unfold bssEvalSources at h
  rw [if_neg (by simp), if_neg (by simp)] at h
  unfold bssEvalNoPerm at h
  split at h
  · cases h
  · rename_i sd sa hs
    cases h
    exact ⟨sd, sa, hs, rfl⟩

theorem castLE_surj (c : ℕ) : Function.Surjective
    (fun k : Fin (min c c) => (k.castLE (min_le_left c c) : Fin c)) := fun k =>
  ⟨k.cast (min_self c).symm, rfl⟩

end FBE
