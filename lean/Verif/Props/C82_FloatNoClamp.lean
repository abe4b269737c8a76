import Verif.Proofs.RoundedNone
import Verif.Props.C81_FloatBss

/-!
# C82 — the default `clamp_db=None` in floating point arithmetic

Without `clamp_db` the values of perfect, nearly perfect and useless estimates are infinite or arbitrary large numbers.  What they are good
for: limited to a range afterwards they are as accurate as those computed with `clamp_db`, and the permutation is as good if no pair of
a reference and an estimate is outside the range.
-/

namespace FBE.Props

open Spec XR Rounded

variable {p n N K r e : ℕ}

/-- **C82.**  `si_sdr` without `clamp_db`: the value limited to `[-d, d]` is within `9 δ (10^(d/10) + 3) + 2^(5-p) (d + 1)` of the
documented one limited to `[-d, d]`, for every `d` for which this is small.  In particular it is not a NaN, and it is infinite only for
values outside the range. -/
theorem C82_si_sdr (E : Machine p) (hp : 11 ≤ p) {k : ℕ} (hk : ((k + 2 : ℕ) : ℝ) * 2 ^ (-p : ℤ) ≤ 1 / 100) {d : ℝ}
    (hd : 0 ≤ d) (hlim : 2 * cohErr p k * ((10 : ℝ) ^ (d / 10) + 1) ≤ 1)
    {x y : Fin n → ℝ} (hx : 2e-6 ≤ sigNorm x) (hy : 2e-6 ≤ sigNorm y) {v : XR} (hv : IsSiSdrLoss E k none y x v) :
    ∃ w, clip d v.neg = fin w ∧ |w - limitedSiSdr d x y| ≤ 9 * cohErr p k * ((10 : ℝ) ^ (d / 10) + 3) + 2 ^ (5 - p : ℤ) * (d + 1) := by
  obtain ⟨coh, q, s, rfl, hs, hq0, hq1, hc, e1, e2⟩ := hv.coherence hp hk hx hy
  unfold limitedSiSdr
  rw [e1, e2]
  exact unclamped_close_of E hp hd hlim hs hq0 hq1 hc

/-- **C82.**  The same for `sdr`, with the error `δ` of C80. -/
theorem C82_sdr (E : Machine p) (A : Accuracy) (hp : 11 ≤ p) (hK : 1 ≤ K) (hfit : FilterFits N K) {zm : Bool}
    {load : Option ℝ} (hload : 0 ≤ load.getD 0) {d : ℝ} (hd : 0 ≤ d) {x y : Fin N → ℝ}
    (hx : 3e-6 ≤ sigNorm (centred zm x)) (hy : 3e-6 ≤ sigNorm (centred zm y)) {ρ : ℝ} (hρ : 1 ≤ ρ)
    (hρx : sigNorm x ≤ ρ * sigNorm (centred zm x)) (hρy : sigNorm y ≤ ρ * sigNorm (centred zm y)) {l : ℝ} (hl : 0 < l)
    (hco : Conditioned K (effectiveLoad K load) l (centred zm x))
    {δ : ℝ} (hδ : firErr p A.k K ρ A.fft A.solve (effectiveLoad K load) l ≤ δ)
    (hlim : 2 * δ * ((10 : ℝ) ^ (d / 10) + 1) ≤ 1) {v : XR} (h : IsSdrLoss E A K zm load none y x v) :
    ∃ w, clip d v.neg = fin w ∧ |w - limitedSdr d K (effectiveLoad K load) (centred zm x) (centred zm y)| ≤
        9 * δ * ((10 : ℝ) ^ (d / 10) + 3) + 2 ^ (5 - p : ℤ) * (d + 1) := by
  have hG : (1 : ℝ) ≤ 10 ^ (d / 10) := Real.one_le_rpow (by norm_num) (by positivity)
  have hδ4 : δ ≤ 1 / 4 := by
    by_contra hlt
    push Not at hlt
    nlinarith
  obtain ⟨coh, q, rfl, hq0, hq1, hc, -, hle⟩ := h.coherence hp hK hfit hload hx hy hρ hρx hρy hl hco hδ hδ4
  unfold limitedSdr
  rw [hle, sub_sub_cancel]
  simpa only [mul_one] using unclamped_close_of E hp hd hlim one_pos hq0 hq1 hc

/-- **C82.**  The same for `bss_eval_sources`, with the errors of C81. -/
theorem C82_bss (E : Machine p) (A : Accuracy) (hp : 11 ≤ p) (hK : 1 ≤ K) (hfit : FilterFits N K) {zm : Bool}
    {load : Option ℝ} (hload : 0 ≤ load.getD 0) {d : ℝ} (hd : 0 ≤ d) {x : Fin r → Fin N → ℝ}
    {y : Fin e → Fin N → ℝ} (hx : ∀ c, 3e-6 ≤ sigNorm (centred zm (x c)))
    (hy : ∀ j, 3e-6 ≤ sigNorm (centred zm (y j))) {ρ : ℝ} (hρ : 1 ≤ ρ)
    (hρx : ∀ c, sigNorm (x c) ≤ ρ * sigNorm (centred zm (x c)))
    (hρy : ∀ j, sigNorm (y j) ≤ ρ * sigNorm (centred zm (y j))) {l : ℝ} (hl : 0 < l)
    (hco : ConditionedAll K (load.getD 0) l fun c => centred zm (x c)) {σ : ℝ} (hσ : 0 < σ)
    (hσy : ∀ j, leastResidualAll K (load.getD 0) (fun c => centred zm (x c)) (centred zm (y j)) ≤ 1 - σ)
    {δ : ℝ} (hδ : firErr p A.k (K * r) ρ A.fft A.solve (load.getD 0) l ≤ δ)
    (hlim : 2 * (3 * δ / σ) * ((10 : ℝ) ^ (d / 10) + 1) ≤ 1) {sdr sir sar : Fin r → Fin e → XR}
    (h : IsBssLosses E A K zm load none x y sdr sir sar) (c : Fin r) (j : Fin e) :
    (∃ w, clip d (sdr c j).neg = fin w ∧ |w - limitedSdr d K (load.getD 0) (centred zm (x c)) (centred zm (y j))| ≤
        9 * δ * ((10 : ℝ) ^ (d / 10) + 3) + 2 ^ (5 - p : ℤ) * (d + 1)) ∧
    (∃ w, clip d (sir c j).neg = fin w ∧ |w - limitedSir d K (load.getD 0) (fun c => centred zm (x c)) c (centred zm (y j))| ≤
        9 * (3 * δ / σ) * ((10 : ℝ) ^ (d / 10) + 3) + 2 ^ (5 - p : ℤ) * (d + 1)) ∧
    ∃ w, clip d (sar c j).neg = fin w ∧ |w - limitedSar d K (load.getD 0) (fun c => centred zm (x c)) (centred zm (y j))| ≤
        9 * δ * ((10 : ℝ) ^ (d / 10) + 3) + 2 ^ (5 - p : ℤ) * (d + 1) := by
  have hG : (1 : ℝ) ≤ 10 ^ (d / 10) := Real.one_le_rpow (by norm_num) (by positivity)
  have hδσ : 12 * δ ≤ σ := by
    have h4 : 3 * δ / σ ≤ 1 / 4 := by
      by_contra hlt
      push Not at hlt
      nlinarith
    rw [div_le_div_iff₀ hσ (by norm_num)] at h4
    linarith
  obtain ⟨coh, coh', coh'', q, s, h1, h2, h3, hq0, hqs, hs0, hs1, k1, k2, k3, hup, hδle, hle1, hle⟩ :=
    h.coherence hp hK hfit hload hx hy hρ hρx hρy hl hco hσ hσy hδ hδσ c j
  have hlim' : 2 * δ * ((10 : ℝ) ^ (d / 10) + 1) ≤ 1 := le_trans (by gcongr) hlim
  rw [h1, h2, h3]
  unfold limitedSdr limitedSir limitedSar
  rw [hle, hle1, sub_sub_cancel, sub_sub_cancel]
  refine ⟨?_, ?_, ?_⟩
  · simpa only [mul_one] using unclamped_close_of E hp hd hlim' one_pos hq0 (hqs.trans hs1) k1
  · have := unclamped_close_of E hp hd hlim hs0 (div_nonneg hq0 hs0.le) ((div_le_one hs0).2 hqs) k3
    rw [div_mul_cancel₀ _ hs0.ne', sub_mul, one_mul, div_mul_cancel₀ _ hs0.ne'] at this
    rw [show (1 : ℝ) - q - (1 - s) = s - q from by ring]
    exact this
  · simpa only [mul_one] using unclamped_close_of E hp hd hlim' one_pos hs0.le hs1 k2

/-- **C82.**  `si_sdr` without `clamp_db` with its permutation, if no pair of a reference and an estimate is more than `d` decibels away
from zero: it succeeds, all the values are finite and within `ε`, and no pairing is better than the returned one by more than
`2 m ε + 8 m (m² + 1)² 2^-p (d + ε)`. -/
theorem C82_si_sdr_permutation (E : Machine p) (hp : 11 ≤ p) {k : ℕ} (hk : ((k + 2 : ℕ) : ℝ) * 2 ^ (-p : ℤ) ≤ 1 / 100) {d : ℝ}
    (hd : 0 ≤ d) (hlim : 2 * cohErr p k * ((10 : ℝ) ^ (d / 10) + 1) ≤ 1)
    {m : ℕ} (hm : min r e = m) (hm' : 6 * ((m : ℝ) ^ 2 + 1) * 2 ^ (-p : ℤ) ≤ 1)
    {ref : Fin r → Fin n → ℝ} {est : Fin e → Fin n → ℝ} (href : ∀ i, 2e-6 ≤ sigNorm (ref i))
    (hest : ∀ j, 2e-6 ≤ sigNorm (est j)) (hin : ∀ i j, WithinDb d (alongEnergy (ref i) (est j)) (restEnergy (ref i) (est j))) {ε : ℝ}
    (hε : 10 * cohErr p k * ((10 : ℝ) ^ (d / 10) + 3) + 2 ^ (5 - p : ℤ) * (d + 1) ≤ ε)
    {res : Except PyErr ((Fin (min r e) → XR) × (Fin (min r e) → ℕ))} (hres : IsSiSdr E k none ref est res) :
    ∃ vals perm, ∃ P : Pairing r e, res = .ok (vals, perm) ∧ Describes perm P ∧
      (∀ c, ∃ w, vals c = fin w ∧ |w - limitedSiSdr d (ref (P.ref c)) (est (P.est c))| ≤ ε) ∧
      ∀ P' : Pairing r e, (P'.sum fun i j => limitedSiSdr d (ref i) (est j)) ≤
        (P.sum fun i j => limitedSiSdr d (ref i) (est j)) +
          (2 * m * ε + 8 * m * ((m : ℝ) ^ 2 + 1) ^ 2 * 2 ^ (-p : ℤ) * (d + ε)) := by
  obtain ⟨v, hv, rfl⟩ := hres
  obtain ⟨loss, perm, P, h1, h2, h3, h4⟩ := permutation_of_close E (v := v) (S := fun i j => limitedSiSdr d (ref i) (est j)) (ε := ε)
    hd hm hm' (fun i j => by
      obtain ⟨coh, q, s, hv, hs, hq0, hq1, hc, e1, e2⟩ := (hv i j).coherence hp hk (href i) (hest j)
      obtain ⟨b1, b2⟩ := (hin i j).coherence hs e1 e2
      obtain ⟨w, w1, w2, w3⟩ := unclamped_close_in E hp hd (unit_le_cohErr p k) hlim hs b1 b2 hc
      refine ⟨w, hv.trans w1, w2, ?_⟩
      unfold limitedSiSdr
      rw [e1, e2]
      exact w3.trans hε)
    (fun i j => limitedDb_abs hd (Finset.sum_nonneg fun t _ => sq_nonneg _) (Finset.sum_nonneg fun t _ => sq_nonneg _))
  rw [h1]
  exact ⟨_, perm, P, rfl, h2, h3, h4⟩

/-- **C82.**  The same for `sdr`. -/
theorem C82_sdr_permutation (E : Machine p) (A : Accuracy) (hp : 11 ≤ p) (hK : 1 ≤ K) (hfit : FilterFits N K) {zm : Bool}
    {load : Option ℝ} (hload : 0 ≤ load.getD 0) {d : ℝ} (hd : 0 ≤ d)
    {m : ℕ} (hm : min r e = m) (hm' : 6 * ((m : ℝ) ^ 2 + 1) * 2 ^ (-p : ℤ) ≤ 1)
    {ref : Fin r → Fin N → ℝ} {est : Fin e → Fin N → ℝ} (href : ∀ i, 3e-6 ≤ sigNorm (centred zm (ref i)))
    (hest : ∀ j, 3e-6 ≤ sigNorm (centred zm (est j))) {ρ : ℝ} (hρ : 1 ≤ ρ)
    (hρx : ∀ i, sigNorm (ref i) ≤ ρ * sigNorm (centred zm (ref i)))
    (hρy : ∀ j, sigNorm (est j) ≤ ρ * sigNorm (centred zm (est j))) {l : ℝ} (hl : 0 < l)
    (hco : ∀ i, Conditioned K (effectiveLoad K load) l (centred zm (ref i)))
    (hin : ∀ i j, WithinDb d (1 - leastResidual K (effectiveLoad K load) (centred zm (ref i)) (centred zm (est j)))
      (leastResidual K (effectiveLoad K load) (centred zm (ref i)) (centred zm (est j))))
    {δ : ℝ} (hδ : firErr p A.k K ρ A.fft A.solve (effectiveLoad K load) l ≤ δ)
    (hlim : 2 * δ * ((10 : ℝ) ^ (d / 10) + 1) ≤ 1) {ε : ℝ}
    (hε : 10 * δ * ((10 : ℝ) ^ (d / 10) + 3) + 2 ^ (5 - p : ℤ) * (d + 1) ≤ ε)
    {res : Except PyErr ((Fin (min r e) → XR) × (Fin (min r e) → ℕ))} (hres : IsSdr E A K zm load none ref est res) :
    ∃ vals perm, ∃ P : Pairing r e, res = .ok (vals, perm) ∧ Describes perm P ∧
      (∀ c, ∃ w, vals c = fin w ∧
        |w - limitedSdr d K (effectiveLoad K load) (centred zm (ref (P.ref c))) (centred zm (est (P.est c)))| ≤ ε) ∧
      ∀ P' : Pairing r e,
        (P'.sum fun i j => limitedSdr d K (effectiveLoad K load) (centred zm (ref i)) (centred zm (est j))) ≤
        (P.sum fun i j => limitedSdr d K (effectiveLoad K load) (centred zm (ref i)) (centred zm (est j))) +
          (2 * m * ε + 8 * m * ((m : ℝ) ^ 2 + 1) ^ 2 * 2 ^ (-p : ℤ) * (d + ε)) := by
  obtain ⟨v, hv, rfl⟩ := hres
  have hG : (1 : ℝ) ≤ 10 ^ (d / 10) := Real.one_le_rpow (by norm_num) (by positivity)
  have hδ4 : δ ≤ 1 / 4 := by
    by_contra hlt
    push Not at hlt
    nlinarith
  have hcoh := fun i j => (hv i j).coherence hp hK hfit hload (href i) (hest j) hρ (hρx i) (hρy j) hl (hco i) hδ hδ4
  obtain ⟨loss, perm, P, h1, h2, h3, h4⟩ := permutation_of_close E (v := v)
    (S := fun i j => limitedSdr d K (effectiveLoad K load) (centred zm (ref i)) (centred zm (est j))) (ε := ε)
    hd hm hm' (fun i j => by
      obtain ⟨coh, q, hv, hq0, hq1, hc, hup, hle⟩ := hcoh i j
      obtain ⟨b1, b2⟩ := (hin i j).coherence (q := q) one_pos (by rw [hle]; ring) (by rw [hle]; ring)
      obtain ⟨w, w1, w2, w3⟩ := unclamped_close_in E hp hd hup hlim one_pos b1 b2 hc
      refine ⟨w, hv.trans w1, w2, ?_⟩
      unfold limitedSdr
      rw [hle, sub_sub_cancel]
      rw [mul_one, mul_one] at w3
      exact w3.trans hε)
    (fun i j => by
      obtain ⟨coh, q, hv, hq0, hq1, hc, hup, hle⟩ := hcoh i j
      unfold limitedSdr
      rw [hle]
      exact limitedDb_abs hd (by linarith) (by linarith))
  rw [h1]
  exact ⟨_, perm, P, rfl, h2, h3, h4⟩

/-- **C82.**  The same for `bss_eval_sources`, if no SIR is more than `d` decibels away from zero.  SDR and SAR, on which the permutation
does not depend, may be anything; they are within `ε'` if limited to `[-d, d]` afterwards. -/
theorem C82_bss_permutation (E : Machine p) (A : Accuracy) (hp : 11 ≤ p) (hK : 1 ≤ K) (hfit : FilterFits N K) {zm : Bool}
    {load : Option ℝ} (hload : 0 ≤ load.getD 0) {d : ℝ} (hd : 0 ≤ d)
    {m : ℕ} (hm : min r e = m) (hm' : 6 * ((m : ℝ) ^ 2 + 1) * 2 ^ (-p : ℤ) ≤ 1)
    {ref : Fin r → Fin N → ℝ} {est : Fin e → Fin N → ℝ} (href : ∀ i, 3e-6 ≤ sigNorm (centred zm (ref i)))
    (hest : ∀ j, 3e-6 ≤ sigNorm (centred zm (est j))) {ρ : ℝ} (hρ : 1 ≤ ρ)
    (hρx : ∀ i, sigNorm (ref i) ≤ ρ * sigNorm (centred zm (ref i)))
    (hρy : ∀ j, sigNorm (est j) ≤ ρ * sigNorm (centred zm (est j))) {l : ℝ} (hl : 0 < l)
    (hco : ConditionedAll K (load.getD 0) l fun c => centred zm (ref c)) {σ : ℝ} (hσ : 0 < σ)
    (hσy : ∀ j, leastResidualAll K (load.getD 0) (fun c => centred zm (ref c)) (centred zm (est j)) ≤ 1 - σ)
    (hin : ∀ i j, WithinDb d (1 - leastResidual K (load.getD 0) (centred zm (ref i)) (centred zm (est j)))
      (leastResidual K (load.getD 0) (centred zm (ref i)) (centred zm (est j)) -
        leastResidualAll K (load.getD 0) (fun c => centred zm (ref c)) (centred zm (est j))))
    {δ : ℝ} (hδ : firErr p A.k (K * r) ρ A.fft A.solve (load.getD 0) l ≤ δ)
    (hlim : 2 * (3 * δ / σ) * ((10 : ℝ) ^ (d / 10) + 1) ≤ 1) {ε ε' : ℝ}
    (hε : 10 * (3 * δ / σ) * ((10 : ℝ) ^ (d / 10) + 3) + 2 ^ (5 - p : ℤ) * (d + 1) ≤ ε)
    (hε' : 9 * δ * ((10 : ℝ) ^ (d / 10) + 3) + 2 ^ (5 - p : ℤ) * (d + 1) ≤ ε')
    {res : Except PyErr ((Fin (min r e) → XR) × (Fin (min r e) → XR) × (Fin (min r e) → XR) × (Fin (min r e) → ℕ))}
    (hres : IsBssEval E A K zm load none ref est res) :
    ∃ sdr sir sar perm, ∃ P : Pairing r e, res = .ok (sdr, sir, sar, perm) ∧ Describes perm P ∧
      (∀ c, ∃ w, clip d (sdr c) = fin w ∧
        |w - limitedSdr d K (load.getD 0) (centred zm (ref (P.ref c))) (centred zm (est (P.est c)))| ≤ ε') ∧
      (∀ c, ∃ w, sir c = fin w ∧
        |w - limitedSir d K (load.getD 0) (fun i => centred zm (ref i)) (P.ref c) (centred zm (est (P.est c)))| ≤ ε) ∧
      (∀ c, ∃ w, clip d (sar c) = fin w ∧
        |w - limitedSar d K (load.getD 0) (fun i => centred zm (ref i)) (centred zm (est (P.est c)))| ≤ ε') ∧
      ∀ P' : Pairing r e,
        (P'.sum fun i j => limitedSir d K (load.getD 0) (fun i => centred zm (ref i)) i (centred zm (est j))) ≤
        (P.sum fun i j => limitedSir d K (load.getD 0) (fun i => centred zm (ref i)) i (centred zm (est j))) +
          (2 * m * ε + 8 * m * ((m : ℝ) ^ 2 + 1) ^ 2 * 2 ^ (-p : ℤ) * (d + ε)) := by
  obtain ⟨sdr, sir, sar, hv, rfl⟩ := hres
  have hG : (1 : ℝ) ≤ 10 ^ (d / 10) := Real.one_le_rpow (by norm_num) (by positivity)
  have hδσ : 12 * δ ≤ σ := by
    have h4 : 3 * δ / σ ≤ 1 / 4 := by
      by_contra hlt
      push Not at hlt
      nlinarith
    rw [div_le_div_iff₀ hσ (by norm_num)] at h4
    linarith
  have hcoh := fun i j => hv.coherence hp hK hfit hload href hest hρ hρx hρy hl hco hσ hσy hδ hδσ i j
  have hcl := fun i j => C82_bss E A hp hK hfit hload hd href hest hρ hρx hρy hl hco hσ hσy hδ hlim hv i j
  obtain ⟨loss, v₁, v₂, perm, P, h1, h2, h3, h4, h5, h6⟩ := permutation₃_of_close E (v := sir)
    (S := fun i j => limitedSir d K (load.getD 0) (fun i => centred zm (ref i)) i (centred zm (est j))) (ε := ε)
    hd hm hm' sdr sar (fun i j => by
      obtain ⟨coh, coh', coh'', q, s, -, -, hv, hq0, hqs, hs0, hs1, -, -, hc, hup, hδle, hle1, hle⟩ := hcoh i j
      have e1 : 1 - (1 - q) = q / s * s := by rw [div_mul_cancel₀ _ hs0.ne']; ring
      have e2 : 1 - q - (1 - s) = (1 - q / s) * s := by rw [sub_mul, div_mul_cancel₀ _ hs0.ne']; ring
      obtain ⟨b1, b2⟩ := (hin i j).coherence (q := q / s) hs0 (by rw [hle1, e1]) (by rw [hle1, hle, e2])
      obtain ⟨w, w1, w2, w3⟩ := unclamped_close_in E hp hd (hup.trans hδle) hlim hs0 b1 b2 hc
      refine ⟨w, hv.trans w1, w2, ?_⟩
      unfold limitedSir
      rw [hle1, hle, e1, e2]
      exact w3.trans hε)
    (fun i j => by
      obtain ⟨coh, coh', coh'', q, s, -, -, hv, hq0, hqs, hs0, hs1, -, -, hc, hup, hδle, hle1, hle⟩ := hcoh i j
      unfold limitedSir
      rw [hle1, hle]
      exact limitedDb_abs hd (by linarith) (by linarith))
  rw [h1]
  refine ⟨_, _, _, perm, P, rfl, h2, fun c => ?_, h3, fun c => ?_, h6⟩
  · obtain ⟨w, a, b⟩ := (hcl (P.ref c) (P.est c)).1
    exact ⟨w, by rw [h4]; exact a, b.trans hε'⟩
  · obtain ⟨w, a, b⟩ := (hcl (P.ref c) (P.est c)).2.2
    exact ⟨w, by rw [h5]; exact a, b.trans hε'⟩

/-- **C82.**  `si_sdr` in `float64` without `clamp_db`, at most `10^7` samples, any order of the summations: limited to up to 50 dB every
value is within 0.01 dB. -/
theorem C82_float64 (E : Machine 53) (hn : n ≤ 10 ^ 7) {d : ℝ} (hd : 0 ≤ d) (hd' : d ≤ 50) {x y : Fin n → ℝ}
    (hx : 2e-6 ≤ sigNorm x) (hy : 2e-6 ≤ sigNorm y) {v : XR} (hv : IsSiSdrLoss E n none y x v) :
    ∃ w, clip d v.neg = fin w ∧ |w - limitedSiSdr d x y| ≤ 0.01 := by
  have hnr : (n : ℝ) ≤ 10 ^ 7 := by exact_mod_cast hn
  have hδ : cohErr 53 n ≤ 6e-9 := by
    unfold cohErr
    calc 5 * (((n : ℝ) + 2) * 2 ^ (-(53 : ℕ) : ℤ)) ≤ 5 * ((10 ^ 7 + 2) * 2 ^ (-(53 : ℕ) : ℤ)) := by gcongr
      _ ≤ 6e-9 := by norm_num
  have hG : (10 : ℝ) ^ (d / 10) ≤ 10 ^ 5 := pow_db (by norm_num; exact hd')
  have hG0 : (0 : ℝ) < 10 ^ (d / 10) := by positivity
  have b1 : cohErr 53 n * ((10 : ℝ) ^ (d / 10) + 1) ≤ 6e-9 * (10 ^ 5 + 1) :=
    mul_le_mul hδ (by linarith) (by positivity) (by norm_num)
  have b3 : cohErr 53 n * ((10 : ℝ) ^ (d / 10) + 3) ≤ 6e-9 * (10 ^ 5 + 3) :=
    mul_le_mul hδ (by linarith) (by positivity) (by norm_num)
  have b4 : (2 : ℝ) ^ (5 - (53 : ℕ) : ℤ) * (d + 1) ≤ 2 ^ (5 - (53 : ℕ) : ℤ) * (50 + 1) := by gcongr
  have b5 : (2 : ℝ) ^ (5 - (53 : ℕ) : ℤ) * (50 + 1) ≤ 0.0001 := by norm_num
  obtain ⟨w, h1, h2⟩ := C82_si_sdr E (by norm_num) (k := n) (by
    calc ((n + 2 : ℕ) : ℝ) * 2 ^ (-(53 : ℕ) : ℤ) ≤ (10 ^ 7 + 2) * 2 ^ (-(53 : ℕ) : ℤ) := by push_cast; gcongr
      _ ≤ 1 / 100 := by norm_num) hd (by have := b1.trans (by norm_num : _ ≤ (0.4 : ℝ)); linarith) hx hy hv
  refine ⟨w, h1, h2.trans ?_⟩
  have := b3.trans (by norm_num : _ ≤ (0.00061 : ℝ))
  linarith

/-- **C82.**  `si_sdr` in `float32` without `clamp_db`, sums in which no sample passes through more than 100 operations: limited to up
to 20 dB every value is within 0.04 dB. -/
theorem C82_float32 (E : Machine 24) {k : ℕ} (hk : k ≤ 100) {d : ℝ} (hd : 0 ≤ d) (hd' : d ≤ 20) {x y : Fin n → ℝ}
    (hx : 2e-6 ≤ sigNorm x) (hy : 2e-6 ≤ sigNorm y) {v : XR} (hv : IsSiSdrLoss E k none y x v) :
    ∃ w, clip d v.neg = fin w ∧ |w - limitedSiSdr d x y| ≤ 0.04 := by
  have hnr : (k : ℝ) ≤ 100 := by exact_mod_cast hk
  have hδ : cohErr 24 k ≤ 3.05e-5 := by
    unfold cohErr
    calc 5 * (((k : ℝ) + 2) * 2 ^ (-(24 : ℕ) : ℤ)) ≤ 5 * ((100 + 2) * 2 ^ (-(24 : ℕ) : ℤ)) := by gcongr
      _ ≤ 3.05e-5 := by norm_num
  have hG : (10 : ℝ) ^ (d / 10) ≤ 10 ^ 2 := pow_db (by norm_num; exact hd')
  have hG0 : (0 : ℝ) < 10 ^ (d / 10) := by positivity
  have b1 : cohErr 24 k * ((10 : ℝ) ^ (d / 10) + 1) ≤ 3.05e-5 * (10 ^ 2 + 1) :=
    mul_le_mul hδ (by linarith) (by positivity) (by norm_num)
  have b3 : cohErr 24 k * ((10 : ℝ) ^ (d / 10) + 3) ≤ 3.05e-5 * (10 ^ 2 + 3) :=
    mul_le_mul hδ (by linarith) (by positivity) (by norm_num)
  have b4 : (2 : ℝ) ^ (5 - (24 : ℕ) : ℤ) * (d + 1) ≤ 2 ^ (5 - (24 : ℕ) : ℤ) * (20 + 1) := by gcongr
  have b5 : (2 : ℝ) ^ (5 - (24 : ℕ) : ℤ) * (20 + 1) ≤ 0.0001 := by norm_num
  obtain ⟨w, h1, h2⟩ := C82_si_sdr E (by norm_num) (k := k) (by
    calc ((k + 2 : ℕ) : ℝ) * 2 ^ (-(24 : ℕ) : ℤ) ≤ (100 + 2) * 2 ^ (-(24 : ℕ) : ℤ) := by push_cast; gcongr
      _ ≤ 1 / 100 := by norm_num) hd (by have := b1.trans (by norm_num : _ ≤ (0.4 : ℝ)); linarith) hx hy hv
  refine ⟨w, h1, h2.trans ?_⟩
  have := b3.trans (by norm_num : _ ≤ (0.0032 : ℝ))
  linarith

/-! ### the hypotheses can be met -/

/-- A perfect estimate without `clamp_db`: whatever the roundings, at least 49.99 dB are reported. -/
example : ∃ (E : Machine 53) (v : XR), IsSiSdrLoss E 2 none (![6, 2] : Fin 2 → ℝ) ![3, 1] v ∧
    ∃ w, clip 50 v.neg = fin w ∧ 49.99 ≤ w := by
  obtain ⟨E, -⟩ := exists_machine (p := 53) (by norm_num)
  obtain ⟨v, hv⟩ := C67_any_order E (by norm_num) none (![3, 1] : Fin 2 → ℝ) ![6, 2]
  have one : ∀ z : Fin 2 → ℝ, 1 ≤ ∑ t, z t ^ 2 → 2e-6 ≤ sigNorm z := fun z hz =>
    le_trans (by norm_num : (2e-6 : ℝ) ≤ 1) (by rw [sigNorm, Real.one_le_sqrt]; exact hz)
  obtain ⟨w, h1, h2⟩ := C82_float64 E (by norm_num) (d := 50) (by norm_num) le_rfl (one _ (by norm_num [Fin.sum_univ_two]))
    (one _ (by norm_num [Fin.sum_univ_two])) hv
  have h3 : limitedSiSdr 50 (![3, 1] : Fin 2 → ℝ) ![6, 2] = 50 := by
    norm_num [limitedSiSdr, limitedDb, alongEnergy, restEnergy, scaleOf, Fin.sum_univ_two]
  rw [h3] at h2
  have := abs_le.1 h2
  exact ⟨E, v, hv, w, h1, by linarith⟩

/-- Two references and two estimates, none of them perfect or orthogonal, without `clamp_db`. -/
example : ∃ (E : Machine 53) (res : _),
    IsSiSdr E 2 none (![![1, 0], ![0, 1]] : Fin 2 → Fin 2 → ℝ) (![![1, 2], ![2, 1]] : Fin 2 → Fin 2 → ℝ) res ∧
    ∃ vals perm, ∃ P : Pairing 2 2, res = .ok (vals, perm) ∧ Describes perm P ∧ ∀ c, ∃ w, vals c = fin w := by
  obtain ⟨E, -⟩ := exists_machine (p := 53) (by norm_num)
  obtain ⟨res, hres⟩ := C77_outcome E (by norm_num) none (![![1, 0], ![0, 1]] : Fin 2 → Fin 2 → ℝ)
    (![![1, 2], ![2, 1]] : Fin 2 → Fin 2 → ℝ)
  have one : ∀ z : Fin 2 → ℝ, 1 ≤ ∑ t, z t ^ 2 → 2e-6 ≤ sigNorm z := fun z hz =>
    le_trans (by norm_num : (2e-6 : ℝ) ≤ 1) (by rw [sigNorm, Real.one_le_sqrt]; exact hz)
  have hd : (10 : ℝ) ^ ((10 : ℝ) / 10) = 10 := by norm_num
  obtain ⟨vals, perm, P, h1, h2, h3, -⟩ := C82_si_sdr_permutation E (by norm_num) (k := 2) (d := 10) (by norm_num) (by norm_num)
    (by rw [hd]; norm_num [cohErr]) rfl (by norm_num)
    (fun i => one _ (by fin_cases i <;> norm_num [Fin.sum_univ_two]))
    (fun j => one _ (by fin_cases j <;> norm_num [Fin.sum_univ_two]))
    (fun i j => by
      unfold WithinDb
      rw [hd]
      fin_cases i <;> fin_cases j <;> norm_num [alongEnergy, restEnergy, scaleOf, Fin.sum_univ_two]) le_rfl hres
  exact ⟨E, res, hres, vals, perm, P, h1, h2, fun c => ⟨_, (h3 c).choose_spec.1⟩⟩

/-- The references and estimates of C81 for `bss_eval_sources` without `clamp_db`. -/
example : ∃ (E : Machine 53) (A : Accuracy) (sdr sir sar : _),
    IsBssLosses E A 2 false none none (![![1, 0, 0, 0], ![0, 0, 1, 0]] : Fin 2 → Fin 4 → ℝ)
      (![![1, 1, 1, 1], ![0, 2, 1, 1]] : Fin 2 → Fin 4 → ℝ) sdr sir sar ∧ ∀ c j, ∃ w, clip 20 (sir c j).neg = fin w := by
  obtain ⟨E, -⟩ := exists_machine (p := 53) (by norm_num)
  set ref : Fin 2 → Fin 4 → ℝ := ![![1, 0, 0, 0], ![0, 0, 1, 0]] with hrefd
  set est : Fin 2 → Fin 4 → ℝ := ![![1, 1, 1, 1], ![0, 2, 1, 1]] with hestd
  have one : ∀ z : Fin 4 → ℝ, 1 ≤ ∑ t, z t ^ 2 → 3e-6 ≤ sigNorm z := fun z hz =>
    le_trans (by norm_num : (3e-6 : ℝ) ≤ 1) (by rw [sigNorm, Real.one_le_sqrt]; exact hz)
  have href : ∀ i, 3e-6 ≤ sigNorm (centred false (ref i)) := fun i =>
    one _ (by fin_cases i <;> norm_num [Fin.sum_univ_succ, centred, ref])
  have hest : ∀ j, 3e-6 ≤ sigNorm (centred false (est j)) := fun i =>
    one _ (by fin_cases i <;> norm_num [Fin.sum_univ_succ, centred, est])
  have hρ : ∀ z : Fin 4 → ℝ, sigNorm z ≤ 2 * sigNorm (centred false z) := fun z => by
    have : 0 ≤ sigNorm z := Real.sqrt_nonneg _
    change sigNorm z ≤ 2 * sigNorm z
    linarith
  have hu : ∀ c, unitSig (centred false (ref c)) = ref c := fun c => by
    have hs : sigNorm (centred false (ref c)) = 1 := by
      fin_cases c <;> norm_num [sigNorm, Fin.sum_univ_succ, centred, ref]
    funext t; unfold unitSig; rw [hs, div_one]; rfl
  have hco : ConditionedAll 2 ((none : Option ℝ).getD 0) 0.01 fun c => centred false (ref c) := fun h => by
    simp only [hu]
    norm_num [ref, filtered, Finset.sum_range_succ, Fin.sum_univ_two, zpad]
    nlinarith [sq_nonneg (h 0 0), sq_nonneg (h 0 1), sq_nonneg (h 1 0), sq_nonneg (h 1 1)]
  have hfit : FilterFits 4 2 := by
    show 2 + 4 ≤ 2 ^ Nat.clog 2 7 + 1
    decide
  have hσ : ∀ j, leastResidualAll 2 ((none : Option ℝ).getD 0) (fun c => centred false (ref c)) (centred false (est j)) ≤ 1 - 0.1 := fun j => by
    have hl := (quad_least_all (K := 2) (x := fun c => centred false (ref c)) (y := centred false (est j)) (l := 0.01)
      (μ := (none : Option ℝ).getD 0) (by norm_num) (by norm_num) (by norm_num) hco (lt_of_lt_of_le (by norm_num) (hest j)))
    rw [leastResidualAll, hl.csInf_eq]
    set s := sigNorm (centred false (est j)) with hs
    have hs0 : 0 < s := lt_of_lt_of_le (by norm_num) (hest j)
    refine le_trans (hl.2 ⟨fun c i => est j ⟨2 * c + i, by omega⟩ / s, rfl⟩) ?_
    unfold regularisedResidualAll residualAll
    simp only [hu]
    have e1 : unitSig (centred false (est j)) = fun t => est j t / s := rfl
    rw [e1]
    norm_num [ref, filtered, Finset.sum_range_succ, Fin.sum_univ_two, zpad]
  let A : Accuracy := ⟨4, 1e-15, 1e-14, by norm_num, by norm_num⟩
  obtain ⟨sdr, sir, sar, h⟩ := exists_bssLosses E (A := A) (by norm_num) le_rfl le_rfl (by norm_num) hfit (load := none) (by norm_num)
    (fun h => by norm_num at h) none (by norm_num) href hest (ρ := 2) (by norm_num) (fun i => hρ _) (fun j => hρ _) (l := 0.01) (by norm_num)
    hco (by norm_num [firErr, A])
  refine ⟨E, A, sdr, sir, sar, h, fun c j => ?_⟩
  have hd : (10 : ℝ) ^ ((20 : ℝ) / 10) = 100 := by
    rw [show (20 : ℝ) / 10 = (2 : ℕ) by norm_num, Real.rpow_natCast]; norm_num
  obtain ⟨-, ⟨w, hw, -⟩, -⟩ := C82_bss E A (by norm_num) (by norm_num) hfit (load := none) (by norm_num) (d := 20) (by norm_num) href hest
    (ρ := 2) (by norm_num) (fun i => hρ _) (fun j => hρ _) (l := 0.01) (by norm_num) hco (σ := 0.1) (by norm_num) hσ
    (δ := 1e-6) (by norm_num [firErr, A]) (by rw [hd]; norm_num) h c j
  exact ⟨w, hw⟩

end FBE.Props
