import Verif.Proofs.Norm

/-!
# The coherences as energies of projections
-/

set_option linter.unusedSectionVars false

namespace FBE

open Spec Matrix

variable {s : List ℕ} {r e c N : ℕ}

theorem span_range_smul {E J : Type*} [AddCommGroup E] [Module ℝ E] (a : J → ℝ) (ha : ∀ i, a i ≠ 0)
    (v : J → E) :
    Submodule.span ℝ (Set.range fun i => a i • v i) = Submodule.span ℝ (Set.range v) := by
  apply le_antisymm
  · rw [Submodule.span_le]
    rintro _ ⟨i, rfl⟩
    exact Submodule.smul_mem _ _ (Submodule.subset_span ⟨i, rfl⟩)
  · rw [Submodule.span_le]
    rintro _ ⟨i, rfl⟩
    have : v i = (a i)⁻¹ • (a i • v i) := by rw [smul_smul, inv_mul_cancel₀ (ha i), one_smul]
    show v i ∈ _
    rw [this]
    exact Submodule.smul_mem _ _ (Submodule.subset_span ⟨i, rfl⟩)

/-- Centred signals of one batch item. -/
noncomputable abbrev cen (o : Opts) (x : Sig s c N) (m : BIdx s) : Fin c → Fin N → ℝ :=
  fun k => centred o.zeroMean (x m k)

theorem famSpan_ref (D L : ℕ) (o : Opts) (x : Sig s c N) (m : BIdx s) (k : Fin c) :
    famSpan (refFam (fun x i => shift D x i) L (prep o x m k)) = spanOne D L (cen o x m k) := by
  unfold famSpan refFam spanOne
  rw [prep_eq]
  simp only [shift_smul]
  exact span_range_smul (fun _ => gain (centred o.zeroMean (x m k))) (fun _ => (gain_pos _).ne')
    fun l : Fin L => shift D (centred o.zeroMean (x m k)) l

theorem famSpan_all (D L : ℕ) (o : Opts) (x : Sig s c N) (m : BIdx s) :
    famSpan (allFam (fun x i => shift D x i) L (prep o x m)) = spanAll D L (cen o x m) := by
  unfold famSpan allFam spanAll
  simp only [prep_eq, shift_smul]
  exact span_range_smul (fun p : Fin L × Fin c => gain (centred o.zeroMean (x m p.2)))
    (fun _ => (gain_pos _).ne') fun p : Fin L × Fin c => shift D (centred o.zeroMean (x m p.2)) p.1

theorem famSpan_one (D : ℕ) (o : Opts) (x : Sig s c N) (m : BIdx s) :
    famSpan (oneFam D (prep o x m)) = spanAll D 1 (cen o x m) := by
  have h : famSpan (oneFam D (prep o x m)) =
      Submodule.span ℝ (Set.range fun k : Fin c => shift D (centred o.zeroMean (x m k)) 0) := by
    unfold famSpan oneFam
    simp only [prep_eq, shift_smul]
    exact span_range_smul (fun k : Fin c => gain (centred o.zeroMean (x m k)))
      (fun _ => (gain_pos _).ne') fun k : Fin c => shift D (centred o.zeroMean (x m k)) 0
  rw [h]
  unfold spanAll
  congr 1
  ext v
  constructor
  · rintro ⟨k, rfl⟩
    exact ⟨(0, k), rfl⟩
  · rintro ⟨⟨l, k⟩, rfl⟩
    refine ⟨k, ?_⟩
    have : l.val = 0 := by omega
    simp only [this]

theorem shift_prep (D : ℕ) (o : Opts) (x : Sig s c N) (m : BIdx s) (k : Fin c) (l : ℕ) :
    shift D (prep o x m k) l = gain (cen o x m k) • shift D (cen o x m k) l := by
  rw [prep_eq, shift_smul]

theorem proj_smul_sq {D : ℕ} (K : Submodule ℝ (Space D)) (a : ℝ) (y : Space D) :
    ‖K.starProjection (a • y)‖ ^ 2 = a ^ 2 * energy (K.starProjection y) := by
  rw [map_smul, norm_smul, mul_pow, Real.norm_eq_abs, sq_abs]
  rfl

/-- Projection on a line. -/
theorem proj_line {D : ℕ} (x y : Space D) (hx : ‖x‖ ^ 2 = 1 ∨ x = 0) :
    ‖(Submodule.span ℝ {x}).starProjection y‖ ^ 2 = inner ℝ x y ^ 2 := by
  rcases hx with hx | rfl
  · have h1 : ‖x‖ = 1 := by
      have := norm_nonneg x
      nlinarith
    rw [Submodule.starProjection_singleton]
    simp only [h1, norm_smul, Real.norm_eq_abs, mul_one]
    norm_num
  · rw [Submodule.starProjection_singleton]
    simp

theorem spanOne_one (D : ℕ) (x : Fin N → ℝ) : spanOne D 1 x = Submodule.span ℝ {shift D x 0} := by
  unfold spanOne
  congr 1
  ext v
  constructor
  · rintro ⟨l, rfl⟩
    have : l.val = 0 := by omega
    show shift D x l.val = _
    rw [this]
  · rintro rfl
    exact ⟨0, rfl⟩

theorem spanOne_smul (D L : ℕ) {a : ℝ} (ha : a ≠ 0) (x : Fin N → ℝ) :
    spanOne D L (fun t => a * x t) = spanOne D L x := by
  unfold spanOne
  simp only [shift_smul]
  exact span_range_smul (fun _ => a) (fun _ => ha) fun l : Fin L => shift D x l

theorem cohSdrOne_proj (D : ℕ) (hD : N ≤ D) (o : Opts) (ref : Sig s r N) (est : Sig s e N) (m : BIdx s)
    (k : Fin r) (j : Fin e) (href : Normalisable (cen o ref m k)) :
    dot (prep o ref m k) (prep o est m j) ^ 2 =
      gain (cen o est m j) ^ 2 *
        energy ((spanOne D 1 (cen o ref m k)).starProjection (shift D (cen o est m j) 0)) := by
  rw [← proj_smul_sq, ← shift_prep, ← spanOne_smul D 1 (gain_pos (cen o ref m k)).ne']
  have hp : (fun t => gain (cen o ref m k) * cen o ref m k t) = prep o ref m k := (prep_eq o ref m k).symm
  rw [hp, spanOne_one, proj_line, inner_shift_zero D hD]
  rcases href with h | h
  · left
    rw [norm_shift_sq D _ 0 (by omega)]
    exact prep_sq_eq o ref m k h
  · right
    rw [shift_prep, h]
    have : shift D (0 : Fin N → ℝ) 0 = 0 := by
      have := shift_smul D 0 (0 : Fin N → ℝ) 0
      rw [zero_smul] at this
      rw [← this]
      congr 1
      funext t
      simp
    rw [this, smul_zero]

theorem fits_bounds {n L : ℕ} (hn : nFft N = .ok n) (hfit : FilterFits N L) : L + N ≤ n + 1 := by
  have h : n = 2 ^ Nat.clog 2 (2 * N - 1) := by
    simp only [nFft_def] at hn
    split at hn
    · cases hn
    · rw [← Except.ok.inj hn]; congr 2; omega
  unfold FilterFits at hfit
  omega

theorem fam_fits {n L D : ℕ} (hD : N + L ≤ D + 1) (hn : nFft N = .ok n) (hfit : FilterFits N L)
    (hL : 2 ≤ L) : Fam N N L n (fun x i => shift D x i) (fun y => shift D y 0) := by
  have h := fits_bounds hn hfit
  have hN := (nFft_ok hn).1
  exact fam_shift (by omega) h (by omega) (by omega) (by omega)

/-- The coherences of `sdr_loss` (pairwise) as projections. -/
theorem sdrCohPair_proj {B : Backend} (hB : Covered B) {o : Opts} (hdir : o.direct) (hload : o.load = 0)
    (hfit : FilterFits N o.filterLength) {D : ℕ} (hD : N + o.filterLength ≤ D + 1)
    (ref : Sig s r N) (est : Sig s e N) {coh}
    (h : sdrCohPair B o ref est = .ok coh) (m : BIdx s) (k : Fin r) (j : Fin e)
    (href : o.filterLength = 1 → Normalisable (cen o ref m k)) :
    coh m k j = gain (cen o est m j) ^ 2 *
      energy ((spanOne D o.filterLength (cen o ref m k)).starProjection
        (shift D (cen o est m j) 0)) := by
  by_cases h0 : o.filterLength = 0
  · simp only [sdrCohPair_def] at h; unfold sdrCohPairGen at h; rw [if_pos h0] at h; cases h
  by_cases h1 : o.filterLength = 1
  · simp only [sdrCohPair_def] at h; unfold sdrCohPairGen at h; rw [if_neg h0, if_pos h1] at h; cases h
    rw [h1]
    exact cohSdrOne_proj D (by omega) o ref est m k j (href h1)
  have hcg := hdir.resolve_left h1
  cases hn : nFft N with
  | error err => simp only [sdrCohPair_def] at h; unfold sdrCohPairGen at h; rw [if_neg h0, if_neg h1, hn] at h; cases h
  | ok n =>
    have hb := fits_bounds hn hfit
    have hN := (nFft_ok hn).1
    have F := fam_fits hD hn hfit (by omega)
    rw [sdrCohPair_direct hn (by omega) (by omega) F hB hcg] at h
    split at h
    · cases h
    · rename_i hs
      cases h
      push Not at hs
      have hs' : ¬ SingularOne _ _ _ (prep o ref m k) := hs (m, k)
      unfold SingularOne at hs'
      rw [hload, gramD_zero] at hs'
      beta_reduce
      rw [hload, quad_eq_proj _ _ hs', famSpan_ref, shift_prep, proj_smul_sq]

/-- The coherences of `square_cosine_metrics` (pairwise) as projections. -/
theorem sqCosPair_proj {B : Backend} (hB : Covered B) {o : Opts} (hdir : o.direct) (hload : o.load = 0)
    (hfit : FilterFits N o.filterLength) {D : ℕ} (hD : N + o.filterLength ≤ D + 1)
    (ref : Sig s r N) (est : Sig s e N) {sdr sar}
    (h : sqCosPair B o ref est = .ok (sdr, sar)) (m : BIdx s) (k : Fin r) (j : Fin e) :
    ((o.filterLength = 1 → Normalisable (cen o ref m k)) → sdr m k j = gain (cen o est m j) ^ 2 *
      energy ((spanOne D o.filterLength (cen o ref m k)).starProjection
        (shift D (cen o est m j) 0))) ∧
    sar m j = gain (cen o est m j) ^ 2 *
      energy ((spanAll D o.filterLength (cen o ref m)).starProjection
        (shift D (cen o est m j) 0)) := by
  by_cases h0 : o.filterLength = 0
  · simp only [sqCosPair_def] at h; unfold sqCosPairGen at h; rw [if_pos h0] at h; cases h
  by_cases h1 : o.filterLength = 1
  · have hD : N ≤ D := by omega
    simp only [sqCosPair_def] at h; unfold sqCosPairGen at h; rw [if_neg h0, if_pos h1, cohSarOne_eq D hD] at h
    by_cases hs : ∃ m : BIdx s, (gramD (oneFam D (prep o ref m)) o.load).det = 0
    · rw [if_pos hs] at h; cases h
    · rw [if_neg hs] at h
      cases h
      push Not at hs
      have hs' := hs m
      rw [hload, gramD_zero] at hs'
      refine ⟨fun href => ?_, ?_⟩
      · rw [h1]
        exact cohSdrOne_proj _ hD o ref est m k j (href h1)
      · beta_reduce
        rw [h1, hload, quad_eq_proj _ _ hs', famSpan_one, shift_prep, proj_smul_sq]
  have hcg := hdir.resolve_left h1
  cases hn : nFft N with
  | error err => simp only [sqCosPair_def] at h; unfold sqCosPairGen at h; rw [if_neg h0, if_neg h1, hn] at h; cases h
  | ok n =>
    have hb := fits_bounds hn hfit
    have hN := (nFft_ok hn).1
    have F := fam_fits hD hn hfit (by omega)
    rw [sqCosPair_direct hn (by omega) (by omega) F (by omega) hB hcg] at h
    split at h
    · cases h
    · rename_i hs
      cases h
      push Not at hs
      have hs1 : ¬ SingularOne _ _ _ (prep o ref m k) := hs.1 (m, k)
      have hs2 := hs.2 m
      unfold SingularOne at hs1
      unfold SingularAll at hs2
      rw [hload, gramD_zero] at hs1 hs2
      refine ⟨fun _ => ?_, ?_⟩
      · beta_reduce
        rw [hload, quad_eq_proj _ _ hs1, famSpan_ref, shift_prep, proj_smul_sq]
      · beta_reduce
        rw [hload, quad_eq_proj _ _ hs2, famSpan_all, shift_prep, proj_smul_sq]

/-! ### Pythagoras -/

theorem inner_proj_self {D : ℕ} (K : Submodule ℝ (Space D)) (y : Space D) :
    inner ℝ (K.starProjection y) y = energy (K.starProjection y) := by
  unfold energy
  rw [← real_inner_self_eq_norm_sq, inner_proj_eq (K.starProjection_apply_mem y)]

theorem energy_sub_proj {D : ℕ} (K : Submodule ℝ (Space D)) (y : Space D) :
    energy (y - K.starProjection y) = energy y - energy (K.starProjection y) := by
  have h := inner_proj_self K y
  rw [real_inner_comm] at h
  unfold energy at *
  rw [norm_sub_sq_real, h]
  ring

theorem energy_proj_sub_proj {D : ℕ} {K K' : Submodule ℝ (Space D)} (hK : K ≤ K') (y : Space D) :
    energy (K'.starProjection y - K.starProjection y) =
      energy (K'.starProjection y) - energy (K.starProjection y) := by
  have h : inner ℝ (K'.starProjection y) (K.starProjection y) = energy (K.starProjection y) := by
    rw [real_inner_comm, inner_proj_eq (hK (K.starProjection_apply_mem y)), inner_proj_self]
  unfold energy at *
  rw [norm_sub_sq_real, h]
  ring

theorem spanOne_le_spanAll (D L : ℕ) (x : Fin r → Fin N → ℝ) (k : Fin r) :
    spanOne D L (x k) ≤ spanAll D L x := by
  unfold spanOne spanAll
  rw [Submodule.span_le]
  rintro _ ⟨l, rfl⟩
  exact Submodule.subset_span ⟨(l, k), rfl⟩

theorem energy_proj_mono {D : ℕ} {K K' : Submodule ℝ (Space D)} (hK : K ≤ K') (y : Space D) :
    energy (K.starProjection y) ≤ energy (K'.starProjection y) := by
  have := energy_proj_sub_proj hK y
  have h0 : 0 ≤ energy (K'.starProjection y - K.starProjection y) := by unfold energy; positivity
  linarith

theorem energy_shift (D : ℕ) (hD : N ≤ D) (x : Fin N → ℝ) : energy (shift D x 0) = sigNorm x ^ 2 := by
  unfold energy
  rw [norm_shift_sq D x 0 (by omega), sigNorm_sq]

theorem gain_eq {x : Fin N → ℝ} (h : 1e-6 ≤ sigNorm x) : gain x = (sigNorm x)⁻¹ := by
  unfold gain; rw [max_eq_left h]

end FBE
