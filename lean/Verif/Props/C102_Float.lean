import Verif.Props.C80_FloatSdr
import Verif.Props.C102_Owners

/-!
# C102 — high values settle the permutation, in floating point
-/

namespace FBE.Props

open Spec XR Rounded

variable {N K r e : ℕ}

/-- An estimate with a limited SDR above the value of the correlation for one reference is below it for the others. -/
theorem limited_one_owner {d : ℝ} (hd : 0 ≤ d) (hK : 1 ≤ K) {l : ℝ} (hl : 0 < l) {x : Fin r → Fin N → ℝ} {y : Fin N → ℝ}
    (hco : ∀ i, Conditioned K 0 l (x i)) (hx : ∀ i, 0 < sigNorm (x i)) (hy : 0 < sigNorm y) {c : ℝ} (h0 : 0 ≤ c)
    (h1 : c < 1) {k k' : Fin r} (hc : AtMostCorrelated K c (x k) (x k')) (hk : ownerDb c < limitedSdr d K 0 (x k) y) :
    limitedSdr d K 0 (x k') y < ownerDb c := by
  have e1 := clip_docSdr hd hK hl (hco k) (hx k) hy
  have e2 := clip_docSdr hd hK hl (hco k') (hx k') hy
  set u := shift (N + K - 1) y 0
  have hcl : ∀ d', some d = some d' → 0 ≤ d' := fun d' h => by cases h; exact hd
  have hk' : (ownerDb c : EReal) < toEReal (report (some d) (docSdr K x k y)) := by
    show _ < toEReal (clip d _)
    rw [e1]
    exact EReal.coe_lt_coe_iff.2 hk
  have hlt : ownerDb c < d := by
    refine hk.trans_le ((le_abs_self _).trans (limitedDb_abs hd ?_ ?_))
    all_goals
      have hle : leastResidual K 0 (x k) y = _ := (quad_least le_rfl hl hK (hco k) hy).csInf_eq
      obtain ⟨hq0, hq1⟩ := quad_mem (y := y) le_rfl hl hK (hco k) hy
      rw [hle]
      linarith
  have hr := ratio_of_gt hcl h0 h1 (sq_nonneg _) (sq_nonneg _) hk'
  have := (lt_of_ratio (cl := some d) h0 h1 (fun d' h => by cases h; exact hlt) (sq_nonneg _) (sq_nonneg _)
    (owner_ratio _ _ h0 (correlated_spans hc) u hr)).1
  have h2 : toEReal (clip d (docSdr K x k' y)) < (ownerDb c : EReal) := this
  rw [e2] at h2
  exact EReal.coe_lt_coe_iff.1 h2

/-- **C102.**  The setting of `C80_float64` without regularisation; the references are correlated at most by `c`.  If the
SDR of every estimate for its own reference `σ j` is above `10 log10 ((1 + c) / (1 - c))` by 0.025 dB per source, the
permutation that the floating point computation returns joins every estimate with its reference. -/
theorem C102_float64 (E : Machine 53) {A : Accuracy} (hAk : A.k ≤ 1000) (hAf : A.fft ≤ 1e-14) (hAs : A.solve ≤ 1e-13)
    (hK : 1 ≤ K) (hK' : K ≤ 512) (hfit : FilterFits N K) {zm : Bool} {d : ℝ} (hd : 0 ≤ d) (hd' : d ≤ 20)
    (hm : min r e ≤ 20)
    {ref : Fin r → Fin N → ℝ} {est : Fin e → Fin N → ℝ} (href : ∀ i, 3e-6 ≤ sigNorm (centred zm (ref i)))
    (hest : ∀ j, 3e-6 ≤ sigNorm (centred zm (est j)))
    (hρx : ∀ i, sigNorm (ref i) ≤ 2 * sigNorm (centred zm (ref i)))
    (hρy : ∀ j, sigNorm (est j) ≤ 2 * sigNorm (centred zm (est j)))
    (hco : ∀ i, Conditioned K 0 0.001 (centred zm (ref i)))
    {c : ℝ} (h0 : 0 ≤ c) (h1 : c < 1)
    (hc : ∀ k k', k ≠ k' → AtMostCorrelated K c (centred zm (ref k)) (centred zm (ref k')))
    {σ : Fin e → Fin r} (hσ : Function.Injective σ)
    (hgood : ∀ j, ownerDb c + e * 0.025 < limitedSdr d K 0 (centred zm (ref (σ j))) (centred zm (est j)))
    {res : Except PyErr ((Fin (min r e) → XR) × (Fin (min r e) → ℕ))} (hres : IsSdr E A K zm none (some d) ref est res) :
    ∃ vals perm, ∃ P : Pairing r e, res = .ok (vals, perm) ∧ Describes perm P ∧ (∀ k, P.ref k = σ (P.est k)) ∧
      ∀ k, ∃ w, vals k = fin w ∧
        |w - limitedSdr d K 0 (centred zm (ref (σ (P.est k)))) (centred zm (est (P.est k)))| ≤ 0.012 := by
  have hμ : effectiveLoad K none = 0 := by unfold effectiveLoad; split <;> rfl
  obtain ⟨vals, perm, P, r1, r2, r3, r4⟩ := C80_float64 E hAk hAf hAs hK hK' hfit (load := none) le_rfl zero_le_one hd hd'
    hm href hest hρx hρy (fun i => by rw [hμ]; exact hco i) hres
  rw [hμ] at r3 r4
  set S : Fin r → Fin e → ℝ := fun i j => limitedSdr d K 0 (centred zm (ref i)) (centred zm (est j)) with hS
  have hme : ((min r e : ℕ) : ℝ) ≤ e := by exact_mod_cast min_le_right r e
  have hlow : ∀ j k, k ≠ σ j → S k j < ownerDb c := fun j k hk =>
    limited_one_owner hd hK (by norm_num) (x := fun i => centred zm (ref i)) hco (fun i => lt_of_lt_of_le (by norm_num) (href i))
      (lt_of_lt_of_le (by norm_num) (hest j)) h0 h1 (hc (σ j) k (Ne.symm hk))
      (lt_of_le_of_lt (le_add_of_nonneg_right (by positivity)) (hgood j))
  let P0 : Pairing r e := ⟨fun i => σ (P.est i), P.est, hσ.comp P.est_inj, P.est_inj⟩
  have hown : ∀ k, P.ref k = σ (P.est k) := by
    by_contra hne
    push Not at hne
    obtain ⟨k0, hk0⟩ := hne
    have hle : ∀ k, P.values S k ≤ P0.values S k := fun k => by
      by_cases hk : P.ref k = σ (P.est k)
      · show S (P.ref k) (P.est k) ≤ S (σ (P.est k)) (P.est k)
        rw [hk]
      · have a := hlow _ _ hk
        have b := hgood (P.est k)
        have : (0 : ℝ) ≤ e * 0.025 := by positivity
        show S (P.ref k) (P.est k) ≤ S (σ (P.est k)) (P.est k)
        simp only [hS] at a ⊢
        linarith
    have h4 := r4 P0
    have hsplit : (e : ℝ) * 0.025 < P0.values S k0 - P.values S k0 := by
      have a := hlow _ _ hk0
      have b := hgood (P.est k0)
      show _ < S (σ (P.est k0)) (P.est k0) - S (P.ref k0) (P.est k0)
      simp only [hS] at a ⊢
      linarith
    have hsum : P0.values S k0 - P.values S k0 ≤ ∑ k, (P0.values S k - P.values S k) :=
      Finset.single_le_sum (f := fun k => P0.values S k - P.values S k) (fun k _ => sub_nonneg.2 (hle k))
        (Finset.mem_univ k0)
    rw [Finset.sum_sub_distrib] at hsum
    change ∑ k, P0.values S k ≤ ∑ k, P.values S k + _ at h4
    nlinarith
  refine ⟨vals, perm, P, r1, r2, hown, fun k => ?_⟩
  obtain ⟨w, hw, hw'⟩ := r3 k
  refine ⟨w, hw, ?_⟩
  rw [← hown k]
  exact hw'

/-- **C102.**  The same from what is returned: if the values that the floating point computation returns are all above
`10 log10 ((1 + c) / (1 - c))` by 0.012 dB, every estimate is joined with the only reference for which its SDR is not below
this value. -/
theorem C102_float64_certificate (E : Machine 53) {A : Accuracy} (hAk : A.k ≤ 1000) (hAf : A.fft ≤ 1e-14)
    (hAs : A.solve ≤ 1e-13) (hK : 1 ≤ K) (hK' : K ≤ 512) (hfit : FilterFits N K) {zm : Bool} {d : ℝ} (hd : 0 ≤ d)
    (hd' : d ≤ 20) (hm : min r e ≤ 20)
    {ref : Fin r → Fin N → ℝ} {est : Fin e → Fin N → ℝ} (href : ∀ i, 3e-6 ≤ sigNorm (centred zm (ref i)))
    (hest : ∀ j, 3e-6 ≤ sigNorm (centred zm (est j)))
    (hρx : ∀ i, sigNorm (ref i) ≤ 2 * sigNorm (centred zm (ref i)))
    (hρy : ∀ j, sigNorm (est j) ≤ 2 * sigNorm (centred zm (est j)))
    (hco : ∀ i, Conditioned K 0 0.001 (centred zm (ref i)))
    {c : ℝ} (h0 : 0 ≤ c) (h1 : c < 1)
    (hc : ∀ k k', k ≠ k' → AtMostCorrelated K c (centred zm (ref k)) (centred zm (ref k')))
    {vals : Fin (min r e) → XR} {perm : Fin (min r e) → ℕ}
    (hgood : ∀ k, ((ownerDb c + 0.012 : ℝ) : EReal) < toEReal (vals k))
    (hres : IsSdr E A K zm none (some d) ref est (.ok (vals, perm))) :
    ∃ P : Pairing r e, Describes perm P ∧
      ∀ k i, ownerDb c ≤ limitedSdr d K 0 (centred zm (ref i)) (centred zm (est (P.est k))) ↔ i = P.ref k := by
  have hμ : effectiveLoad K none = 0 := by unfold effectiveLoad; split <;> rfl
  obtain ⟨vals', perm', P, r1, r2, r3, -⟩ := C80_float64 E hAk hAf hAs hK hK' hfit (load := none) le_rfl zero_le_one hd hd'
    hm href hest hρx hρy (fun i => by rw [hμ]; exact hco i) hres
  rw [hμ] at r3
  simp only [Except.ok.injEq, Prod.mk.injEq] at r1
  obtain ⟨rfl, rfl⟩ := r1
  have hown : ∀ k, ownerDb c < limitedSdr d K 0 (centred zm (ref (P.ref k))) (centred zm (est (P.est k))) := fun k => by
    obtain ⟨w, hw, hw'⟩ := r3 k
    have := hgood k
    rw [hw] at this
    have := EReal.coe_lt_coe_iff.1 this
    have := (abs_le.1 hw').2
    linarith
  refine ⟨P, r2, fun k i => ⟨fun h => ?_, fun h => h ▸ (hown k).le⟩⟩
  by_contra hne
  exact absurd h (not_le.2 (limited_one_owner hd hK (by norm_num) (x := fun i => centred zm (ref i)) hco
    (fun i => lt_of_lt_of_le (by norm_num) (href i)) (lt_of_lt_of_le (by norm_num) (hest _)) h0 h1
    (hc (P.ref k) i (Ne.symm hne)) (hown k)))

/-! ### the hypotheses can be met -/

/-- Two impulses as references, estimates with SDRs of 2.5 dB in the reverse order, `float64`, `clamp_db=20`: the hypotheses of both
theorems are met. -/
example : ∃ (E : Machine 53) (A : Accuracy) (res : _),
    IsSdr E A 1 false none (some 20) (![![1, 0], ![0, 1]] : Fin 2 → Fin 2 → ℝ)
      (![![3, 4], ![4, 3]] : Fin 2 → Fin 2 → ℝ) res ∧
    ∃ vals perm, ∃ P : Pairing 2 2, res = .ok (vals, perm) ∧ Describes perm P ∧ (∀ k, P.ref k = 1 - P.est k) ∧
      ∃ P' : Pairing 2 2, Describes perm P' ∧ ∀ k i, ownerDb 0 ≤ limitedSdr 20 1 0 (centred false
        ((![![1, 0], ![0, 1]] : Fin 2 → Fin 2 → ℝ) i)) (centred false
          ((![![3, 4], ![4, 3]] : Fin 2 → Fin 2 → ℝ) (P'.est k))) ↔ i = P'.ref k := by
  obtain ⟨E, -⟩ := exists_machine (p := 53) (by norm_num)
  set x : Fin 2 → Fin 2 → ℝ := ![![1, 0], ![0, 1]] with hx
  set y : Fin 2 → Fin 2 → ℝ := ![![3, 4], ![4, 3]] with hy
  have nx : ∀ i, sigNorm (x i) = 1 := fun i => by fin_cases i <;> norm_num [x, sigNorm, Fin.sum_univ_two]
  have ny : ∀ i, sigNorm (y i) = 5 := fun i => by
    have : ∑ t, y i t ^ 2 = 5 ^ 2 := by fin_cases i <;> norm_num [y, Fin.sum_univ_two]
    rw [sigNorm, this, Real.sqrt_sq (by norm_num)]
  have hco : ∀ i, Conditioned 1 0 0.001 (x i) := fun i h => by
    have e : unitSig (x i) = x i := by funext t; unfold unitSig; rw [nx, div_one]
    rw [e]
    have := sq_nonneg (h 0)
    fin_cases i <;> norm_num [x, filtered, Finset.sum_range_succ, Fin.sum_univ_two, zpad] <;> linarith
  have hμ : effectiveLoad 1 none = 0 := rfl
  have hfit : FilterFits 2 1 := fits_one (by norm_num)
  let A : Accuracy := ⟨2, 1e-15, 1e-14, by norm_num, by norm_num⟩
  have href : ∀ i, 3e-6 ≤ sigNorm (centred false (x i)) := fun i => by
    change 3e-6 ≤ sigNorm (x i); rw [nx]; norm_num
  have hest : ∀ i, 3e-6 ≤ sigNorm (centred false (y i)) := fun i => by
    change 3e-6 ≤ sigNorm (y i); rw [ny]; norm_num
  have hρ : ∀ z : Fin 2 → ℝ, sigNorm z ≤ 2 * sigNorm (centred false z) := fun z => by
    have : 0 ≤ sigNorm z := Real.sqrt_nonneg _
    change sigNorm z ≤ 2 * sigNorm z
    linarith
  obtain ⟨res, hres⟩ := C80_outcome E A (by norm_num) le_rfl (by norm_num [A]) (by norm_num) hfit (load := none) le_rfl (some 20)
    href hest (ρ := 2) (by norm_num) (fun i => hρ _) (fun j => hρ _) (l := 0.001) (by norm_num) (fun i => hco i)
    (by rw [hμ]; norm_num [firErr, A])
  have hcor : ∀ k k', k ≠ k' → AtMostCorrelated 1 0 (centred false (x k)) (centred false (x k')) := fun k k' hne h h' => by
    change |∑ t ∈ _, filtered h (x k) t * filtered h' (x k') t| ≤ _
    rw [zero_mul]
    refine abs_nonpos_iff.2 ?_
    fin_cases k <;> fin_cases k' <;>
      first
      | exact absurd rfl hne
      | norm_num [x, filtered, Finset.sum_range_succ, Fin.sum_univ_two, zpad]
  have hq : ∀ j, leastResidual 1 0 (x (1 - j)) (y j) ≤ 0.36 := fun j => by
    have hy0 : 0 < sigNorm (y j) := by rw [ny]; norm_num
    have hl := quad_least le_rfl (by norm_num) le_rfl (hco (1 - j)) hy0
    unfold leastResidual
    rw [hl.csInf_eq]
    refine (hl.2 ⟨![0.8], rfl⟩).trans ?_
    have e1 : unitSig (x (1 - j)) = x (1 - j) := by funext t; unfold unitSig; rw [nx, div_one]
    have e2 : unitSig (y j) = fun t => y j t / 5 := by funext t; unfold unitSig; rw [ny]
    unfold regularisedResidual
    rw [e1, e2]
    have h10 : ∀ z : Fin 2 → ℝ, residualOne (![0.8] : Fin 1 → ℝ) z (fun t => y j t / 5) =
        (y j 0 / 5 - 0.8 * z 0) ^ 2 + (y j 1 / 5 - 0.8 * z 1) ^ 2 := fun z => by
      simp [residualOne, filtered, Finset.sum_range_succ, zpad]
    rw [h10, zero_mul, add_zero]
    fin_cases j
    · change (3 / 5 - 0.8 * 0 : ℝ) ^ 2 + (4 / 5 - 0.8 * 1) ^ 2 ≤ 0.36
      norm_num
    · change (4 / 5 - 0.8 * 1 : ℝ) ^ 2 + (3 / 5 - 0.8 * 0) ^ 2 ≤ 0.36
      norm_num
  have hgood : ∀ j, ownerDb 0 + (2 : ℕ) * 0.025 <
      limitedSdr 20 1 0 (centred false (x (1 - j))) (centred false (y j)) := fun j => by
    have hy0 : 0 < sigNorm (y j) := by rw [ny]; norm_num
    have hle : leastResidual 1 0 (x (1 - j)) (y j) = _ :=
      (quad_least le_rfl (by norm_num) le_rfl (hco (1 - j)) hy0).csInf_eq
    have hq1 := (quad_mem (y := y j) le_rfl (by norm_num) le_rfl (hco (1 - j)) hy0).2
    have hqj := hq j
    have hq0 : 0 ≤ leastResidual 1 0 (x (1 - j)) (y j) := by rw [hle]; linarith
    have ho : ownerDb 0 = 0 := by norm_num [ownerDb]
    rw [ho]
    change _ < limitedDb 20 (1 - leastResidual 1 0 (x (1 - j)) (y j)) (leastResidual 1 0 (x (1 - j)) (y j))
    set q := leastResidual 1 0 (x (1 - j)) (y j)
    unfold limitedDb
    have hG : (10 : ℝ) ^ ((20 : ℝ) / 10) = 100 := by norm_num
    rw [hG]
    split_ifs with c1 c2
    · norm_num
    · linarith
    · have hqp : 0 < q := by
        rcases eq_or_lt_of_le hq0 with h | h
        · rw [← h] at c1; norm_num at c1
        · exact h
      have h17 : (1.7 : ℝ) ≤ (1 - q) / q := (le_div_iff₀ hqp).2 (by linarith)
      have h2 : (0.4 : ℝ) ≤ Real.log ((1 - q) / q) :=
        le_trans (by norm_num) ((Real.one_sub_inv_le_log_of_pos (by norm_num : (0 : ℝ) < 1.7)).trans
          (Real.log_le_log (by norm_num) h17))
      have h3 := Real.log_le_sub_one_of_pos (by norm_num : (0 : ℝ) < 10)
      have h4 : 0 < Real.log 10 := Real.log_pos (by norm_num)
      have h5 : (0.4 / 9 : ℝ) ≤ Real.logb 10 ((1 - q) / q) := by
        unfold Real.logb
        rw [le_div_iff₀ h4]
        norm_num at h3 ⊢
        linarith
      norm_num at h5 ⊢
      linarith
  obtain ⟨vals, perm, P, r1, r2, r3, r4⟩ := C102_float64 E (A := A) (by norm_num [A]) (by norm_num [A]) (by norm_num [A]) le_rfl
    (by norm_num) hfit (by norm_num) (by norm_num) (by norm_num) href hest (fun i => hρ _) (fun j => hρ _) hco le_rfl
    zero_lt_one hcor (σ := fun j => 1 - j) (by decide) hgood hres
  subst r1
  refine ⟨E, A, _, hres, vals, perm, P, rfl, r2, r3, C102_float64_certificate E (A := A) (by norm_num [A]) (by norm_num [A])
    (by norm_num [A]) le_rfl (by norm_num) hfit (by norm_num) (by norm_num) (by norm_num) href hest (fun i => hρ _)
    (fun j => hρ _) hco le_rfl zero_lt_one hcor (fun k => ?_) hres⟩
  obtain ⟨w, hw, hw'⟩ := r4 k
  rw [hw]
  refine EReal.coe_lt_coe_iff.2 ?_
  have a := hgood (P.est k)
  have b := (abs_le.1 hw').1
  norm_num at a b ⊢
  linarith

end FBE.Props
