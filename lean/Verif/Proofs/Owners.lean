import Verif.Spec.Owners
import Verif.Spec.Perm
import Verif.Proofs.Ensemble

/-!
# Lemmas on estimates that belong to one reference
-/

namespace FBE

open Spec XR

variable {L r e N D : ℕ}

theorem ownerDb_nonneg {c : ℝ} (h0 : 0 ≤ c) (h1 : c < 1) : 0 ≤ ownerDb c :=
  mul_nonneg (by norm_num) (Real.logb_nonneg (by norm_num) ((one_le_div (by linarith)).2 (by linarith)))

theorem dbRatio_owner {c : ℝ} (h0 : 0 ≤ c) (h1 : c < 1) : dbRatio (1 + c) (1 - c) = fin (ownerDb c) := by
  unfold dbRatio ownerDb
  rw [if_neg (by linarith), if_neg (by linarith)]

/-- A ratio reported above the value is above the value. -/
theorem ratio_of_gt {cl : Option ℝ} (hcl : ∀ d, cl = some d → 0 ≤ d) {a b c : ℝ} (h0 : 0 ≤ c) (h1 : c < 1) (ha : 0 ≤ a)
    (hb : 0 ≤ b) (h : (ownerDb c : EReal) < toEReal (report cl (dbRatio a b))) : b * (1 + c) < a * (1 - c) := by
  by_contra hle
  push Not at hle
  refine absurd h (not_lt.2 ?_)
  have hT := ownerDb_nonneg h0 h1
  rcases eq_or_lt_of_le (add_nonneg ha hb) with hs | hs
  · have ha0 : a = 0 := by linarith
    have hb0 : b = 0 := by linarith
    subst ha0 hb0
    have : toEReal (report cl (dbRatio 0 0)) = 0 := by
      unfold dbRatio
      rw [if_pos rfl, if_pos rfl]
      cases cl <;> rfl
    rw [this]
    exact_mod_cast hT
  · refine (report_ratio_le hcl (a' := 1 + c) (b' := 1 - c) ha (by linarith) hs (by linarith) (by linarith)).trans ?_
    rw [dbRatio_owner h0 h1]
    cases cl with
    | none => exact le_rfl
    | some d =>
      have hd := hcl d rfl
      show ((max (-d) (min d (ownerDb c)) : ℝ) : EReal) ≤ _
      exact_mod_cast max_le (by linarith) (min_le_right _ _)

/-- A ratio below the value is reported below the value. -/
theorem lt_of_ratio {cl : Option ℝ} {a b c : ℝ} (h0 : 0 ≤ c) (h1 : c < 1) (hcl : ∀ d, cl = some d → ownerDb c < d)
    (ha : 0 ≤ a) (hb : 0 ≤ b) (h : a * (1 - c) < b * (1 + c)) :
    toEReal (report cl (dbRatio a b)) < (ownerDb c : EReal) ∧ report cl (dbRatio a b) ≠ nan := by
  have hT := ownerDb_nonneg h0 h1
  have hb' : b ≠ 0 := by
    rintro rfl
    nlinarith
  have key : ∀ v : ℝ, v < ownerDb c → toEReal (report cl (fin v)) < (ownerDb c : EReal) := fun v hv => by
    cases cl with
    | none => exact EReal.coe_lt_coe_iff.2 hv
    | some d =>
      have hd := hcl d rfl
      show ((max (-d) (min d v) : ℝ) : EReal) < _
      exact EReal.coe_lt_coe_iff.2 (max_lt (by linarith) (min_lt_of_right_lt hv))
  unfold dbRatio
  rw [if_neg hb']
  split
  · cases cl with
    | none => exact ⟨EReal.bot_lt_coe _, by simp [report]⟩
    | some d =>
      have hd := hcl d rfl
      refine ⟨?_, by simp [report, clip]⟩
      show ((-d : ℝ) : EReal) < _
      exact EReal.coe_lt_coe_iff.2 (by linarith)
  · rename_i ha'
    refine ⟨key _ ?_, by cases cl <;> simp [report, clip]⟩
    have hbp := lt_of_le_of_ne hb (Ne.symm hb')
    have hap := lt_of_le_of_ne ha (Ne.symm ha')
    unfold ownerDb
    refine mul_lt_mul_of_pos_left (Real.logb_lt_logb (by norm_num) (by positivity) ?_) (by norm_num)
    rw [div_lt_div_iff₀ hbp (by linarith)]
    linarith

theorem gt_of_ratio {a b c : ℝ} (h0 : 0 ≤ c) (h1 : c < 1) (hb : 0 ≤ b) (h : b * (1 + c) < a * (1 - c)) :
    (ownerDb c : EReal) < toEReal (dbRatio a b) := by
  have ha : 0 < a := by
    by_contra ha
    push Not at ha
    nlinarith
  unfold dbRatio
  split
  · rw [if_neg ha.ne']
    exact EReal.coe_lt_top _
  · rename_i hb'
    have hbp := lt_of_le_of_ne hb (Ne.symm hb')
    rw [if_neg ha.ne']
    refine EReal.coe_lt_coe_iff.2 ?_
    unfold ownerDb
    refine mul_lt_mul_of_pos_left (Real.logb_lt_logb (by norm_num) (div_pos (by linarith) (by linarith)) ?_) (by norm_num)
    rw [div_lt_div_iff₀ (by linarith) hbp]
    linarith

/-- Two projections of a vector: their energies add up to at most `1 + c` times that of the vector. -/
theorem two_projections (K K' : Submodule ℝ (Space D)) {c : ℝ} (h0 : 0 ≤ c)
    (hc : ∀ u ∈ K, ∀ v ∈ K', |inner ℝ u v| ≤ c * (‖u‖ * ‖v‖)) (u : Space D) :
    energy (K.starProjection u) + energy (K'.starProjection u) ≤ (1 + c) * energy u := by
  have e1 : ∀ K : Submodule ℝ (Space D), inner ℝ u (K.starProjection u) = energy (K.starProjection u) := fun K => by
    have h := K.starProjection_inner_eq_zero u _ (K.starProjection_apply_mem u)
    rw [inner_sub_left, sub_eq_zero] at h
    rw [h, real_inner_self_eq_norm_sq]
    rfl
  set a := K.starProjection u
  set b := K'.starProjection u
  have hab := hc a (K.starProjection_apply_mem u) b (K'.starProjection_apply_mem u)
  have hS : energy a + energy b = inner ℝ u (a + b) := by rw [inner_add_right, e1 K, e1 K']
  have hn : ‖a + b‖ ^ 2 ≤ (1 + c) * (energy a + energy b) := by
    rw [norm_add_sq_real]
    unfold energy
    have := (abs_le.1 hab).2
    nlinarith [sq_nonneg (‖a‖ - ‖b‖)]
  have hcs : energy a + energy b ≤ ‖u‖ * ‖a + b‖ := hS ▸ real_inner_le_norm u (a + b)
  set S := energy a + energy b
  have hS0 : 0 ≤ S := add_nonneg (sq_nonneg _) (sq_nonneg _)
  have h2 : S ^ 2 ≤ energy u * ((1 + c) * S) := by
    calc S ^ 2 ≤ (‖u‖ * ‖a + b‖) ^ 2 := pow_le_pow_left₀ hS0 hcs 2
      _ = ‖u‖ ^ 2 * ‖a + b‖ ^ 2 := by ring
      _ ≤ _ := mul_le_mul_of_nonneg_left hn (sq_nonneg _)
  rcases eq_or_lt_of_le hS0 with h | h
  · rw [← h]
    exact mul_nonneg (by linarith) (sq_nonneg _)
  · nlinarith

theorem mem_spanOne_iff {x : Fin N → ℝ} {u : Space D} :
    u ∈ spanOne D L x ↔ ∃ h : Fin L → ℝ, u = ∑ l, h l • shift D x l := by
  unfold spanOne
  rw [Submodule.mem_span_range_iff_exists_fun]
  exact ⟨fun ⟨h, e⟩ => ⟨h, e.symm⟩, fun ⟨h, e⟩ => ⟨h, e.symm⟩⟩

theorem sum_shift_apply (h : Fin L → ℝ) (x : Fin N → ℝ) (t : Fin D) :
    (∑ l : Fin L, h l • shift D x l) t = filtered h x t := by
  unfold filtered
  simp [shift]

theorem correlated_spans {c : ℝ} {x x' : Fin N → ℝ} (hx : AtMostCorrelated L c x x') :
    ∀ u ∈ spanOne (N + L - 1) L x, ∀ v ∈ spanOne (N + L - 1) L x', |inner ℝ u v| ≤ c * (‖u‖ * ‖v‖) := by
  intro u hu v hv
  obtain ⟨h, rfl⟩ := mem_spanOne_iff.1 hu
  obtain ⟨h', rfl⟩ := mem_spanOne_iff.1 hv
  have hn : ∀ (h : Fin L → ℝ) (x : Fin N → ℝ), ‖∑ l, h l • shift (N + L - 1) x l‖ =
      √(∑ t ∈ Finset.range (N + L - 1), filtered h x t ^ 2) := fun h x => by
    rw [EuclideanSpace.norm_eq, Finset.sum_range]
    congr 1
    refine Finset.sum_congr rfl fun t _ => ?_
    rw [sum_shift_apply, Real.norm_eq_abs, sq_abs]
  rw [hn, hn]
  refine le_trans (le_of_eq ?_) (hx h h')
  congr 1
  rw [PiLp.inner_apply, Finset.sum_range]
  refine Finset.sum_congr rfl fun t _ => ?_
  rw [sum_shift_apply, sum_shift_apply]
  exact mul_comm _ _

/-- An estimate with a large ratio for one reference has a small ratio for the others. -/
theorem owner_ratio (K K' : Submodule ℝ (Space D)) {c : ℝ} (h0 : 0 ≤ c)
    (hc : ∀ u ∈ K, ∀ v ∈ K', |inner ℝ u v| ≤ c * (‖u‖ * ‖v‖)) (u : Space D)
    (h : energy (u - K.starProjection u) * (1 + c) < energy (K.starProjection u) * (1 - c)) :
    energy (K'.starProjection u) * (1 - c) < energy (u - K'.starProjection u) * (1 + c) := by
  have h1 := two_projections K K' h0 hc u
  have h2 := energy_parts K u
  have h3 := energy_parts K' u
  nlinarith

/-- If in each column one entry is below and all others are above a level, and no row has two of the low entries,
then a best pairing joins the low entries. -/
theorem best_owners {M : Fin r → Fin e → XR} {σ : Fin e → Fin r} (hσ : Function.Injective σ) {t : EReal}
    (hn : ∀ k j, M k j ≠ nan) (hlow : ∀ j, toEReal (M (σ j) j) < t) (hhigh : ∀ j k, k ≠ σ j → t < toEReal (M k j))
    {P : Pairing r e} (hP : BestPairing M P) (i : Fin (min r e)) : P.ref i = σ (P.est i) := by
  let P0 : Pairing r e := ⟨fun i => σ (P.est i), P.est, hσ.comp P.est_inj, P.est_inj⟩
  have h0 : ∀ i, toEReal (P0.values M i) < t := fun i => hlow _
  have h1 : ∀ i, P.values M i = P0.values M i ∨ t < toEReal (P.values M i) := fun i => by
    by_cases hi : P.ref i = σ (P.est i)
    · left
      show M (P.ref i) (P.est i) = M (σ (P.est i)) (P.est i)
      rw [hi]
    · exact Or.inr (hhigh _ _ hi)
  have hp0 : nPos (P0.values M) = 0 := by
    unfold nPos
    rw [Finset.card_eq_zero, Finset.filter_eq_empty_iff]
    intro i _ hi
    have := h0 i
    cases hv : P0.values M i <;> rw [hv] at hi this <;> simp [XR.isPosInf, toEReal] at hi this
  have hp : nPos (P.values M) = 0 := Nat.le_zero.1 (hp0 ▸ hP.pos P0)
  have hp1 : ∀ i, P.values M i ≠ pinf := fun i hi => by
    unfold nPos at hp
    rw [Finset.card_eq_zero, Finset.filter_eq_empty_iff] at hp
    exact hp (Finset.mem_univ i) (by rw [hi]; rfl)
  have hsub : (Finset.univ.filter fun k => (P.values M k).isNegInf = true) ⊆
      Finset.univ.filter fun k => (P0.values M k).isNegInf = true := by
    intro i hi
    rw [Finset.mem_filter] at hi ⊢
    refine ⟨hi.1, ?_⟩
    rcases h1 i with h | h
    · rw [← h]; exact hi.2
    · cases hv : P.values M i <;> rw [hv] at hi h <;> simp [XR.isNegInf, toEReal] at hi h
  have hset := Finset.eq_of_subset_of_card_le hsub (hP.neg P0)
  have hfin := hP.fin P0 (by rw [hp0, hp]) (by unfold nNeg; rw [hset])
  by_contra hi
  refine absurd hfin (not_le.2 ?_)
  have hcase : ∀ i, P.ref i ≠ σ (P.est i) → ∃ a b, P.values M i = fin a ∧ P0.values M i = fin b ∧ b < a := fun i hi => by
    have hhi : t < toEReal (P.values M i) := hhigh _ _ hi
    have hlo := h0 i
    have hm : i ∈ (Finset.univ.filter fun k => (P.values M k).isNegInf = true) ↔
      i ∈ Finset.univ.filter fun k => (P0.values M k).isNegInf = true := by rw [hset]
    simp only [Finset.mem_filter, Finset.mem_univ, true_and] at hm
    have n1 := hn (P.ref i) (P.est i)
    have n2 := hn (P0.ref i) (P0.est i)
    change P.values M i ≠ nan at n1
    change P0.values M i ≠ nan at n2
    have n3 := hp1 i
    cases hv : P.values M i with
    | fin a =>
      rw [hv] at hhi hm
      cases hv0 : P0.values M i with
      | fin b =>
        rw [hv0] at hlo
        exact ⟨a, b, rfl, rfl, EReal.coe_lt_coe_iff.1 (hlo.trans hhi)⟩
      | pinf => rw [hv0] at hlo; simp [toEReal] at hlo
      | ninf => rw [hv0] at hm; simp [XR.isNegInf] at hm
      | nan => exact absurd hv0 n2
    | pinf => exact absurd hv n3
    | ninf => rw [hv] at hhi; simp [toEReal] at hhi
    | nan => exact absurd hv n1
  unfold finSum
  refine Finset.sum_lt_sum (fun i _ => ?_) ⟨i, Finset.mem_univ _, ?_⟩
  · by_cases hi : P.ref i = σ (P.est i)
    · have : P0.values M i = P.values M i := by
        show M (σ (P.est i)) (P.est i) = M (P.ref i) (P.est i)
        rw [hi]
      rw [this]
    · obtain ⟨a, b, ha, hb, hab⟩ := hcase i hi
      rw [ha, hb]
      exact hab.le
  · obtain ⟨a, b, ha, hb, hab⟩ := hcase i hi
    rw [ha, hb]
    exact hab

end FBE
