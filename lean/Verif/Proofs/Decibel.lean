import Verif.Model.Helpers
import Verif.Spec.Signal
import Verif.Spec.Perm

/-!
# Decibel values
-/

set_option linter.unusedSectionVars false

namespace FBE

open XR Spec

/-- The bound on the coherence. -/
noncomputable def epsOf : Option ℝ → ℝ
  | some d => dbClampEps d
  | none => 0

/-- The clamped coherence. -/
noncomputable def cclamp (cl : Option ℝ) (c : ℝ) : ℝ := min (max c (epsOf cl)) (1 - epsOf cl)

theorem dbClampEps_pos (d : ℝ) : 0 < dbClampEps d := by
  unfold dbClampEps; positivity

theorem dbClampEps_lt (d : ℝ) : dbClampEps d < 1 := by
  unfold dbClampEps
  have : (0 : ℝ) < (10 : ℝ) ^ (-d / 10) := by positivity
  rw [div_lt_one (by positivity)]
  linarith

theorem epsOf_nonneg (cl : Option ℝ) : 0 ≤ epsOf cl := by
  cases cl with
  | none => exact le_rfl
  | some d => exact (dbClampEps_pos d).le

theorem epsOf_le (cl : Option ℝ) : epsOf cl ≤ 1 := by
  cases cl with
  | none => exact zero_le_one
  | some d => exact (dbClampEps_lt d).le

theorem cclamp_nonneg (cl : Option ℝ) (c : ℝ) : 0 ≤ cclamp cl c := by
  have := epsOf_nonneg cl
  have := epsOf_le cl
  exact le_min (le_max_of_le_right (by assumption)) (by linarith)

theorem cclamp_le (cl : Option ℝ) (c : ℝ) : cclamp cl c ≤ 1 := by
  have := epsOf_nonneg cl
  exact (min_le_right _ _).trans (by linarith)

theorem cclamp_mono (cl : Option ℝ) {c c' : ℝ} (h : c ≤ c') : cclamp cl c ≤ cclamp cl c' :=
  min_le_min_right _ (max_le_max_right _ h)

/-- Decibel value of a coherence in `[0, 1]`, negated. -/
noncomputable def negDb (v : ℝ) : XR :=
  if v = 0 then pinf else if v = 1 then ninf else fin (10 * Real.logb 10 ((1 - v) / v))

theorem coherenceToNegSdr_fin (cl : Option ℝ) (c : ℝ) :
    coherenceToNegSdr cl (fin c) = negDb (cclamp cl c) := by
  have hcl : coherenceToNegSdr cl (fin c) =
      mul (fin 10) (log10 (div (sub (fin 1) (fin (cclamp cl c))) (fin (cclamp cl c)))) := by
    cases cl <;> rfl
  rw [hcl]
  have h0 := cclamp_nonneg cl c
  have h1 := cclamp_le cl c
  generalize cclamp cl c = v at *
  unfold negDb
  show mul (fin 10) (log10 (if v = 0 then signInf (1 + -v) else fin ((1 + -v) / v))) = _
  by_cases hv0 : v = 0
  · subst hv0
    simp [signInf, log10, mul]
  · have hvp : 0 < v := lt_of_le_of_ne h0 (Ne.symm hv0)
    rw [if_neg hv0, if_neg hv0]
    by_cases hv1 : v = 1
    · subst hv1
      simp [signInf, log10, mul, neg]
    · have : 0 < (1 - v) / v := div_pos (by have := lt_of_le_of_ne h1 hv1; linarith) hvp
      rw [if_neg hv1]
      simp only [log10, ← sub_eq_add_neg]
      rw [if_pos this]
      rfl

theorem coherenceToNegSdr_pinf (cl : Option ℝ) : coherenceToNegSdr cl pinf = negDb (1 - epsOf cl) := by
  have : coherenceToNegSdr cl pinf = coherenceToNegSdr cl (fin 1) := by
    have h : clamp pinf (fin (epsOf cl)) (fin (1 - epsOf cl)) =
        clamp (fin 1) (fin (epsOf cl)) (fin (1 - epsOf cl)) := by
      show fin (1 - epsOf cl) = fin (min (max 1 (epsOf cl)) (1 - epsOf cl))
      rw [max_eq_left (epsOf_le cl), min_eq_right (by linarith [epsOf_nonneg cl])]
    cases cl <;> exact congrArg (fun v => mul (fin 10) (log10 (div (sub (fin 1) v) v))) h
  rw [this, coherenceToNegSdr_fin]
  congr 1
  unfold cclamp
  rw [max_eq_left (epsOf_le cl), min_eq_right (by linarith [epsOf_nonneg cl])]

theorem coherenceToNegSdr_ninf (cl : Option ℝ) : coherenceToNegSdr cl ninf = negDb (cclamp cl 0) := by
  have : coherenceToNegSdr cl ninf = coherenceToNegSdr cl (fin 0) := by
    have h : clamp ninf (fin (epsOf cl)) (fin (1 - epsOf cl)) =
        clamp (fin 0) (fin (epsOf cl)) (fin (1 - epsOf cl)) := by
      show fin (min (epsOf cl) (1 - epsOf cl)) = fin (min (max 0 (epsOf cl)) (1 - epsOf cl))
      rw [max_eq_right (epsOf_nonneg cl)]
    cases cl <;> exact congrArg (fun v => mul (fin 10) (log10 (div (sub (fin 1) v) v))) h
  rw [this, coherenceToNegSdr_fin]

theorem coherenceToNegSdr_nan (cl : Option ℝ) : coherenceToNegSdr cl nan = nan := by
  cases cl <;> rfl

theorem negDb_ne_nan (v : ℝ) : negDb v ≠ nan := by
  unfold negDb; split
  · simp
  · split <;> simp

theorem coherenceToNegSdr_eq_nan {cl : Option ℝ} {x : XR} : coherenceToNegSdr cl x = nan ↔ x = nan := by
  constructor
  · intro h
    cases x with
    | nan => rfl
    | fin c => rw [coherenceToNegSdr_fin] at h; exact absurd h (negDb_ne_nan _)
    | pinf => rw [coherenceToNegSdr_pinf] at h; exact absurd h (negDb_ne_nan _)
    | ninf => rw [coherenceToNegSdr_ninf] at h; exact absurd h (negDb_ne_nan _)
  · rintro rfl; exact coherenceToNegSdr_nan cl

/-! ### monotonicity -/

theorem neg_eq_nan {x : XR} : neg x = nan ↔ x = nan := by cases x <;> simp [neg]

theorem toEReal_neg {x : XR} (_h : x ≠ nan) : toEReal (neg x) = - toEReal x := by
  cases x <;> simp [neg, toEReal]

theorem ratio_anti {v w : ℝ} (h0 : 0 < v) (hvw : v ≤ w) : (1 - w) / w ≤ (1 - v) / v := by
  rw [div_le_div_iff₀ (lt_of_lt_of_le h0 hvw) h0]
  nlinarith

theorem negDb_anti {v w : ℝ} (h0 : 0 ≤ v) (hvw : v ≤ w) (h1 : w ≤ 1) :
    toEReal (negDb w) ≤ toEReal (negDb v) := by
  unfold negDb
  by_cases hv0 : v = 0
  · rw [if_pos hv0]; exact le_top
  · have hvp : 0 < v := lt_of_le_of_ne h0 (Ne.symm hv0)
    rw [if_neg hv0]
    have hw0 : w ≠ 0 := (lt_of_lt_of_le hvp hvw).ne'
    rw [if_neg hw0]
    by_cases hw1 : w = 1
    · rw [if_pos hw1]; exact bot_le
    · rw [if_neg hw1]
      have hw : w < 1 := lt_of_le_of_ne h1 hw1
      rw [if_neg (by linarith : ¬ v = 1)]
      refine EReal.coe_le_coe_iff.2 ?_
      have := ratio_anti hvp hvw
      have hpos : 0 < (1 - w) / w := div_pos (by linarith) (by linarith)
      have := Real.logb_le_logb_of_le (b := 10) (by norm_num) hpos this
      linarith

/-- A larger coherence gives a smaller loss. -/
theorem coherenceToNegSdr_anti (cl : Option ℝ) {c c' : ℝ} (h : c ≤ c') :
    toEReal (coherenceToNegSdr cl (fin c')) ≤ toEReal (coherenceToNegSdr cl (fin c)) := by
  rw [coherenceToNegSdr_fin, coherenceToNegSdr_fin]
  exact negDb_anti (cclamp_nonneg _ _) (cclamp_mono cl h) (cclamp_le _ _)

/-! ### clamping in decibels -/

theorem ten_rpow_pos (x : ℝ) : (0 : ℝ) < (10 : ℝ) ^ x := Real.rpow_pos_of_pos (by norm_num) x

/-- `eps / (1 - eps)` is `10^(-d/10)`. -/
theorem dbClampEps_ratio (d : ℝ) : (1 - dbClampEps d) / dbClampEps d = (10 : ℝ) ^ (d / 10) := by
  unfold dbClampEps
  have h := ten_rpow_pos (-d / 10)
  have h' : (10 : ℝ) ^ (d / 10) = ((10 : ℝ) ^ (-d / 10))⁻¹ := by
    rw [← Real.rpow_neg (by norm_num)]; congr 1; ring
  rw [h']
  generalize (10 : ℝ) ^ (-d / 10) = e at *
  simp only
  field_simp
  ring

theorem negDb_eps (d : ℝ) : negDb (dbClampEps d) = fin d := by
  unfold negDb
  rw [if_neg (dbClampEps_pos d).ne', if_neg (dbClampEps_lt d).ne, dbClampEps_ratio,
    Real.logb_rpow (by norm_num) (by norm_num)]
  congr 1; ring

theorem negDb_symm {v : ℝ} : negDb (1 - v) = neg (negDb v) := by
  unfold negDb
  by_cases h0 : v = 0
  · subst h0; simp [neg]
  · by_cases h1 : v = 1
    · subst h1; simp [neg]
    · have h0' : 1 - v ≠ 0 := sub_ne_zero.2 (Ne.symm h1)
      have h1' : 1 - v ≠ 1 := fun h => h0 (by linarith)
      rw [if_neg h0', if_neg h1', if_neg h0, if_neg h1]
      simp only [neg]
      congr 1
      rw [show (1 - (1 - v)) / (1 - v) = ((1 - v) / v)⁻¹ by rw [inv_div]; congr 1; ring,
        Real.logb_inv]
      ring

theorem dbClampEps_le_half {d : ℝ} (hd : 0 ≤ d) : dbClampEps d ≤ 1 / 2 := by
  unfold dbClampEps
  have h := ten_rpow_pos (-d / 10)
  have h1 : (10 : ℝ) ^ (-d / 10) ≤ 1 := Real.rpow_le_one_of_one_le_of_nonpos (by norm_num) (by linarith)
  rw [div_le_div_iff₀ (by positivity) (by norm_num)]
  linarith

theorem toReal_toEReal {a : XR} {x : ℝ} (h : toEReal a = (x : EReal)) (hn : a ≠ nan) : a = fin x := by
  cases a with
  | fin y => exact congrArg fin (EReal.coe_eq_coe_iff.1 h)
  | pinf => exact absurd h.symm (EReal.coe_ne_top x)
  | ninf => exact absurd h.symm (EReal.coe_ne_bot x)
  | nan => exact absurd rfl hn

theorem toEReal_inj {a b : XR} (ha : a ≠ nan) (hb : b ≠ nan) (h : toEReal a = toEReal b) : a = b := by
  cases a <;> cases b <;> simp_all [toEReal]

/-- `clip` on extended reals. -/
theorem toEReal_clip {d : ℝ} (hd : 0 ≤ d) {a : XR} (ha : a ≠ nan) :
    toEReal (clip d a) = max ((-d : ℝ) : EReal) (min (d : EReal) (toEReal a)) := by
  cases a with
  | fin x =>
    show ((max (-d) (min d x) : ℝ) : EReal) = max ((-d : ℝ) : EReal) (min (d : EReal) (x : EReal))
    rw [EReal.coe_strictMono.monotone.map_max, EReal.coe_strictMono.monotone.map_min]
  | pinf =>
    show (d : EReal) = max ((-d : ℝ) : EReal) (min (d : EReal) ⊤)
    rw [min_eq_left le_top, max_eq_right (EReal.coe_le_coe_iff.2 (by linarith))]
  | ninf =>
    show ((-d : ℝ) : EReal) = max ((-d : ℝ) : EReal) (min (d : EReal) ⊥)
    rw [min_eq_right bot_le, max_eq_left bot_le]
  | nan => exact absurd rfl ha

theorem clip_ne_nan {d : ℝ} {a : XR} (ha : a ≠ nan) : clip d a ≠ nan := by
  cases a <;> simp_all [clip]

theorem clip_neg {d : ℝ} (hd : 0 ≤ d) (a : XR) : clip d (neg a) = neg (clip d a) := by
  cases a with
  | fin x =>
    simp only [clip, neg]
    congr 1
    simp only [max_def, min_def]
    split_ifs <;> linarith
  | pinf => rfl
  | ninf => simp [clip, neg]
  | nan => rfl

theorem clip_of_mem {d : ℝ} {a : XR} (ha : a ≠ nan) (h1 : ((-d : ℝ) : EReal) ≤ toEReal a)
    (h2 : toEReal a ≤ (d : EReal)) : clip d a = a := by
  cases a with
  | fin x =>
    have h1 : -d ≤ x := EReal.coe_le_coe_iff.1 h1
    have h2 : x ≤ d := EReal.coe_le_coe_iff.1 h2
    simp only [clip]
    rw [min_eq_right h2, max_eq_right h1]
  | pinf => exact absurd (top_le_iff.1 h2) (EReal.coe_ne_top d)
  | ninf => exact absurd (le_bot_iff.1 h1) (EReal.coe_ne_bot _)
  | nan => exact absurd rfl ha

theorem clip_of_ge {d : ℝ} (hd : 0 ≤ d) {a : XR} (ha : a ≠ nan) (h : (d : EReal) ≤ toEReal a) :
    clip d a = fin d := by
  cases a with
  | fin x =>
    have h : d ≤ x := EReal.coe_le_coe_iff.1 h
    simp only [clip]
    rw [min_eq_left h, max_eq_right (by linarith)]
  | pinf => rfl
  | ninf => exact absurd (le_bot_iff.1 h) (EReal.coe_ne_bot _)
  | nan => exact absurd rfl ha

theorem clip_of_le {d : ℝ} {a : XR} (ha : a ≠ nan)
    (h : toEReal a ≤ ((-d : ℝ) : EReal)) : clip d a = fin (-d) := by
  cases a with
  | fin x =>
    have h : x ≤ -d := EReal.coe_le_coe_iff.1 h
    simp only [clip]
    rw [max_eq_left ((min_le_right _ _).trans h)]
  | pinf => exact absurd (top_le_iff.1 h) (EReal.coe_ne_top _)
  | ninf => rfl
  | nan => exact absurd rfl ha

theorem cclamp_some (d c : ℝ) : cclamp (some d) c = cclamp (some d) (cclamp none c) := by
  have h0 := dbClampEps_pos d
  have h1 := dbClampEps_lt d
  unfold cclamp epsOf
  simp only
  generalize dbClampEps d = e at *
  simp only [max_def, min_def]
  split_ifs <;> linarith

theorem negDb_clamp {d : ℝ} (hd : 0 ≤ d) {v : ℝ} (h0 : 0 ≤ v) (h1 : v ≤ 1) :
    negDb (cclamp (some d) v) = clip d (negDb v) := by
  have he0 := dbClampEps_pos d
  have he := dbClampEps_le_half hd
  have e1 : negDb (1 - dbClampEps d) = fin (-d) := by rw [negDb_symm, negDb_eps]; rfl
  show negDb (min (max v (dbClampEps d)) (1 - dbClampEps d)) = _
  rcases le_total v (dbClampEps d) with h | h
  · rw [max_eq_right h, min_eq_left (by linarith), negDb_eps]
    refine (clip_of_ge hd (negDb_ne_nan _) ?_).symm
    have := negDb_anti h0 h (by linarith)
    rwa [negDb_eps] at this
  · rw [max_eq_left h]
    rcases le_total v (1 - dbClampEps d) with h' | h'
    · rw [min_eq_left h']
      refine (clip_of_mem (negDb_ne_nan _) ?_ ?_).symm
      · have := negDb_anti h0 h' (by linarith)
        rwa [e1] at this
      · have := negDb_anti he0.le h h1
        rwa [negDb_eps] at this
    · rw [min_eq_right h', e1]
      refine (clip_of_le (negDb_ne_nan _) ?_).symm
      have := negDb_anti (by linarith) h' h1
      rwa [e1] at this

/-- Clamping the coherence is clipping the decibel value. -/
theorem coherenceToNegSdr_clip {d : ℝ} (hd : 0 ≤ d) (x : XR) :
    coherenceToNegSdr (some d) x = clip d (coherenceToNegSdr none x) := by
  cases x with
  | fin c =>
    rw [coherenceToNegSdr_fin, coherenceToNegSdr_fin, cclamp_some,
      negDb_clamp hd (cclamp_nonneg _ _) (cclamp_le _ _)]
  | pinf =>
    rw [coherenceToNegSdr_pinf, coherenceToNegSdr_pinf, show (1 : ℝ) - epsOf none = 1 by simp [epsOf],
      ← negDb_clamp hd zero_le_one le_rfl]
    congr 1
    show _ = min (max 1 (dbClampEps d)) (1 - dbClampEps d)
    rw [max_eq_left (dbClampEps_lt d).le, min_eq_right (by linarith [dbClampEps_pos d])]
    rfl
  | ninf =>
    rw [coherenceToNegSdr_ninf, coherenceToNegSdr_ninf, cclamp_some,
      negDb_clamp hd (cclamp_nonneg _ _) (cclamp_le _ _)]
  | nan => rw [coherenceToNegSdr_nan, coherenceToNegSdr_nan]; rfl

theorem clip_bounds {d : ℝ} (hd : 0 ≤ d) {a : XR} (ha : a ≠ nan) :
    ∃ x, clip d a = fin x ∧ -d ≤ x ∧ x ≤ d := by
  cases a with
  | fin x => exact ⟨_, rfl, le_max_left _ _, max_le (by linarith) (min_le_left _ _)⟩
  | pinf => exact ⟨_, rfl, by linarith, le_rfl⟩
  | ninf => exact ⟨_, rfl, le_rfl, by linarith⟩
  | nan => exact absurd rfl ha

/-- On `[0, 1]` the clamp without `clamp_db` does nothing. -/
theorem cclamp_none {c : ℝ} (h0 : 0 ≤ c) (h1 : c ≤ 1) : cclamp none c = c := by
  unfold cclamp epsOf
  simp only
  rw [max_eq_left h0, min_eq_left (by linarith)]

/-- The decibel value of an energy ratio. -/
theorem negDb_eq_dbRatio {a b E c : ℝ} (hE : 0 < E) (ha : a = c * E) (hb : b = (1 - c) * E) :
    negDb c = neg (dbRatio a b) := by
  subst ha hb
  unfold negDb dbRatio
  by_cases h0 : c = 0
  · subst h0
    simp [hE.ne', neg]
  · by_cases h1 : c = 1
    · subst h1
      simp [hE.ne', neg]
    · have h1' : 1 - c ≠ 0 := sub_ne_zero.2 (Ne.symm h1)
      rw [if_neg h0, if_neg h1, if_neg (mul_ne_zero h1' hE.ne'), if_neg (mul_ne_zero h0 hE.ne')]
      simp only [neg]
      congr 1
      rw [mul_div_mul_right _ _ hE.ne', ← inv_div c (1 - c), Real.logb_inv]
      ring

end FBE
