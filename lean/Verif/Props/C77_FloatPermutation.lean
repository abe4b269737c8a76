import Verif.Proofs.RoundedPerm

/-!
# C77 — the scale-invariant SDR and its permutation in floating point arithmetic, from the samples to the result

`si_sdr(ref, est, clamp_db=d, return_perm=True)` of the torch back end with every operation rounded
(`Model/RoundedPerm.lean`), against the documented SI-SDR limited to `[-d, d]` (`Spec/Limited.lean`).  Unlike in C67 nothing is
assumed about the quality of the estimates: perfect and orthogonal ones are included.
-/

namespace FBE.Props

open Spec XR Rounded

variable {p n r e : ℕ}

/-- **C77.**  `clamp_db=d`: every value is within
`10 (δ + 2^-40) (10^(d/10) + 3) + 2^(5-p) (d + 1)` of the documented SI-SDR limited to `[-d, d]`, with
`δ = 5 (k + 2) 2^-p`, for every estimate. -/
theorem C77_values (E : Machine p) (hp : 11 ≤ p) {k : ℕ} (hk : ((k + 2 : ℕ) : ℝ) * 2 ^ (-p : ℤ) ≤ 1 / 100) {d : ℝ}
    (hd : 0 ≤ d) (hd' : d ≤ 1000) (hlim : 2 * (cohErr p k + 2 ^ (-40 : ℤ)) * ((10 : ℝ) ^ (d / 10) + 1) ≤ 1)
    {x y : Fin n → ℝ} (hx : 2e-6 ≤ sigNorm x) (hy : 2e-6 ≤ sigNorm y) {v : XR} (hv : IsSiSdrLoss E k (some d) y x v) :
    ∃ w, v = fin w ∧ |w - -limitedSiSdr d x y| ≤
      10 * (cohErr p k + 2 ^ (-40 : ℤ)) * ((10 : ℝ) ^ (d / 10) + 3) + 2 ^ (5 - p : ℤ) * (d + 1) := by
  obtain ⟨w, h1, -, h2⟩ := clamped_close E hp hk hd hd' hlim hx hy hv
  exact ⟨w, h1, h2⟩

/-- **C77.**  `si_sdr` succeeds.  It returns the values of a complete pairing of references and estimates, each within `ε` of the
documented one, and no pairing has a total SI-SDR larger than that of the returned pairing by more than
`2 K ε + 8 K (K² + 1)² 2^-p (d + ε)`, where `K` is the number of pairs and `ε` the bound of `C77_values`. -/
theorem C77_permutation (E : Machine p) (hp : 11 ≤ p) {k : ℕ} (hk : ((k + 2 : ℕ) : ℝ) * 2 ^ (-p : ℤ) ≤ 1 / 100) {d : ℝ}
    (hd : 0 ≤ d) (hd' : d ≤ 1000) (hlim : 2 * (cohErr p k + 2 ^ (-40 : ℤ)) * ((10 : ℝ) ^ (d / 10) + 1) ≤ 1)
    {K : ℕ} (hK : min r e = K) (hK' : 6 * ((K : ℝ) ^ 2 + 1) * 2 ^ (-p : ℤ) ≤ 1)
    {ref : Fin r → Fin n → ℝ} {est : Fin e → Fin n → ℝ} (href : ∀ i, 2e-6 ≤ sigNorm (ref i))
    (hest : ∀ j, 2e-6 ≤ sigNorm (est j)) {ε : ℝ}
    (hε : 10 * (cohErr p k + 2 ^ (-40 : ℤ)) * ((10 : ℝ) ^ (d / 10) + 3) + 2 ^ (5 - p : ℤ) * (d + 1) ≤ ε)
    {res : Except PyErr ((Fin (min r e) → XR) × (Fin (min r e) → ℕ))} (hres : IsSiSdr E k (some d) ref est res) :
    ∃ vals perm, ∃ P : Pairing r e, res = .ok (vals, perm) ∧ Describes perm P ∧
      (∀ c, ∃ w, vals c = fin w ∧ |w - limitedSiSdr d (ref (P.ref c)) (est (P.est c))| ≤ ε) ∧
      ∀ P' : Pairing r e, (P'.sum fun i j => limitedSiSdr d (ref i) (est j)) ≤
        (P.sum fun i j => limitedSiSdr d (ref i) (est j)) +
          (2 * K * ε + 8 * K * ((K : ℝ) ^ 2 + 1) ^ 2 * 2 ^ (-p : ℤ) * (d + ε)) := by
  obtain ⟨v, hv, rfl⟩ := hres
  have hcl := fun i j => clamped_close E hp hk hd hd' hlim (href i) (hest j) (hv i j)
  choose x hx hrep hclose using hcl
  have hv' : v = fun i j => fin (x i j) := by funext i j; exact hx i j
  have hc : ∀ i j, |x i j - -limitedSiSdr d (ref i) (est j)| ≤ ε := fun i j => (hclose i j).trans hε
  have hε0 : 0 ≤ ε := by
    refine le_trans ?_ hε
    have := cohErr_pos p k
    positivity
  have hS : ∀ i j, |limitedSiSdr d (ref i) (est j)| ≤ d := fun i j =>
    limitedDb_abs hd (Finset.sum_nonneg fun t _ => sq_nonneg _) (Finset.sum_nonneg fun t _ => sq_nonneg _)
  subst hK
  obtain ⟨loss, perm, P, h1, h2, h3, h4⟩ := flSolvePermutation_near E.fl_nearest x
    (fun i j => limitedSiSdr d (ref i) (est j)) hrep (D := 2 * (d + ε)) (by positivity) (fun i j i' j' => by
      have a1 := abs_le.1 (hc i j)
      have a2 := abs_le.1 (hc i' j')
      have a3 := abs_le.1 (hS i j)
      have a4 := abs_le.1 (hS i' j')
      linarith [a1.2, a2.1, a3.1, a4.2]) hc hK'
  rw [hv', h1]
  refine ⟨_, perm, P, rfl, h2, fun c => ⟨-x (P.ref c) (P.est c), by rw [h3]; rfl, ?_⟩, fun P' => ?_⟩
  · have := hc (P.ref c) (P.est c)
    rw [← abs_neg]
    convert this using 2
    ring
  · have := h4 P'
    unfold permTol at this
    linarith

theorem pow_db {d : ℝ} {m : ℕ} (hd : d ≤ 10 * m) : (10 : ℝ) ^ (d / 10) ≤ 10 ^ m := by
  rw [← Real.rpow_natCast]
  exact Real.rpow_le_rpow_of_exponent_le (by norm_num) (by linarith)

/-- **C77.**  `float64`, any order of the summations, at most `10^7` samples, `clamp_db` up to 50, up to 20 sources: every value
is within 0.01 dB, and the mean SI-SDR is within 0.021 dB of the best mean over all pairings. -/
theorem C77_float64 (E : Machine 53) (hn : n ≤ 10 ^ 7) {d : ℝ} (hd : 0 ≤ d) (hd' : d ≤ 50) (hK : min r e ≤ 20)
    {ref : Fin r → Fin n → ℝ} {est : Fin e → Fin n → ℝ} (href : ∀ i, 2e-6 ≤ sigNorm (ref i))
    (hest : ∀ j, 2e-6 ≤ sigNorm (est j)) {res : Except PyErr ((Fin (min r e) → XR) × (Fin (min r e) → ℕ))}
    (hres : IsSiSdr E n (some d) ref est res) :
    ∃ vals perm, ∃ P : Pairing r e, res = .ok (vals, perm) ∧ Describes perm P ∧
      (∀ c, ∃ w, vals c = fin w ∧ |w - limitedSiSdr d (ref (P.ref c)) (est (P.est c))| ≤ 0.01) ∧
      ∀ P' : Pairing r e, (P'.sum fun i j => limitedSiSdr d (ref i) (est j)) ≤
        (P.sum fun i j => limitedSiSdr d (ref i) (est j)) + (min r e : ℕ) * 0.021 := by
  have hnr : (n : ℝ) ≤ 10 ^ 7 := by exact_mod_cast hn
  have hδ : cohErr 53 n + 2 ^ (-40 : ℤ) ≤ 6e-9 := by
    unfold cohErr
    calc 5 * (((n : ℝ) + 2) * 2 ^ (-(53 : ℕ) : ℤ)) + 2 ^ (-40 : ℤ)
        ≤ 5 * ((10 ^ 7 + 2) * 2 ^ (-(53 : ℕ) : ℤ)) + 2 ^ (-40 : ℤ) := by gcongr
      _ ≤ 6e-9 := by norm_num
  have hδ0 : 0 < cohErr 53 n + 2 ^ (-40 : ℤ) := add_pos (cohErr_pos 53 n) (by positivity)
  have hG : (10 : ℝ) ^ (d / 10) ≤ 10 ^ 5 := pow_db (by norm_num; exact hd')
  have hG0 : (0 : ℝ) < 10 ^ (d / 10) := by positivity
  obtain ⟨K, hKe⟩ : ∃ K, min r e = K := ⟨_, rfl⟩
  rw [hKe] at hK
  have hKr : (K : ℝ) ≤ 20 := by exact_mod_cast hK
  have hK2 : (K : ℝ) ^ 2 + 1 ≤ 401 := by
    have : (K : ℝ) ^ 2 ≤ 20 ^ 2 := pow_le_pow_left₀ (by positivity) hKr 2
    linarith
  have b1 : (cohErr 53 n + 2 ^ (-40 : ℤ)) * ((10 : ℝ) ^ (d / 10) + 1) ≤ 6e-9 * (10 ^ 5 + 1) :=
    mul_le_mul hδ (by linarith) (by positivity) (by norm_num)
  have b3 : (cohErr 53 n + 2 ^ (-40 : ℤ)) * ((10 : ℝ) ^ (d / 10) + 3) ≤ 6e-9 * (10 ^ 5 + 3) :=
    mul_le_mul hδ (by linarith) (by positivity) (by norm_num)
  have b4 : (2 : ℝ) ^ (5 - (53 : ℕ) : ℤ) * (d + 1) ≤ 2 ^ (5 - (53 : ℕ) : ℤ) * (50 + 1) := by gcongr
  have b5 : (2 : ℝ) ^ (5 - (53 : ℕ) : ℤ) * (50 + 1) ≤ 0.0001 := by norm_num
  obtain ⟨vals, perm, P, h1, h2, h3, h4⟩ := C77_permutation E (by norm_num) (k := n) (by
    calc ((n + 2 : ℕ) : ℝ) * 2 ^ (-(53 : ℕ) : ℤ) ≤ (10 ^ 7 + 2) * 2 ^ (-(53 : ℕ) : ℤ) := by push_cast; gcongr
      _ ≤ 1 / 100 := by norm_num) hd (by linarith)
    (by have := b1.trans (by norm_num : _ ≤ (0.4 : ℝ)); linarith) hKe
    (by
      calc 6 * ((K : ℝ) ^ 2 + 1) * 2 ^ (-(53 : ℕ) : ℤ) ≤ 6 * 401 * 2 ^ (-(53 : ℕ) : ℤ) := by gcongr
        _ ≤ 1 := by norm_num) href hest (ε := 0.01)
    (by have := b3.trans (by norm_num : _ ≤ (0.00061 : ℝ)); linarith) hres
  refine ⟨vals, perm, P, h1, h2, h3, fun P' => (h4 P').trans ?_⟩
  rw [hKe]
  have c1 : ((K : ℝ) ^ 2 + 1) ^ 2 * 2 ^ (-(53 : ℕ) : ℤ) * (d + 0.01) ≤ 401 ^ 2 * 2 ^ (-(53 : ℕ) : ℤ) * (50 + 0.01) := by
    gcongr
  have c2 := c1.trans (by norm_num : _ ≤ (0.0001 : ℝ))
  have c3 := mul_le_mul_of_nonneg_left c2 (Nat.cast_nonneg K : (0 : ℝ) ≤ K)
  have c4 : (0 : ℝ) ≤ K := Nat.cast_nonneg K
  linarith

/-- **C77.**  `float32`, sums in which no sample passes through more than 100 operations (blocked or pairwise summation),
`clamp_db` up to 20, up to 6 sources: every value is within 0.04 dB, and the mean SI-SDR is within 0.1 dB of the best
mean over all pairings. -/
theorem C77_float32 (E : Machine 24) {k : ℕ} (hk : k ≤ 100) {d : ℝ} (hd : 0 ≤ d) (hd' : d ≤ 20) (hK : min r e ≤ 6)
    {ref : Fin r → Fin n → ℝ} {est : Fin e → Fin n → ℝ} (href : ∀ i, 2e-6 ≤ sigNorm (ref i))
    (hest : ∀ j, 2e-6 ≤ sigNorm (est j)) {res : Except PyErr ((Fin (min r e) → XR) × (Fin (min r e) → ℕ))}
    (hres : IsSiSdr E k (some d) ref est res) :
    ∃ vals perm, ∃ P : Pairing r e, res = .ok (vals, perm) ∧ Describes perm P ∧
      (∀ c, ∃ w, vals c = fin w ∧ |w - limitedSiSdr d (ref (P.ref c)) (est (P.est c))| ≤ 0.04) ∧
      ∀ P' : Pairing r e, (P'.sum fun i j => limitedSiSdr d (ref i) (est j)) ≤
        (P.sum fun i j => limitedSiSdr d (ref i) (est j)) + (min r e : ℕ) * 0.1 := by
  have hnr : (k : ℝ) ≤ 100 := by exact_mod_cast hk
  have hδ : cohErr 24 k + 2 ^ (-40 : ℤ) ≤ 3.05e-5 := by
    unfold cohErr
    calc 5 * (((k : ℝ) + 2) * 2 ^ (-(24 : ℕ) : ℤ)) + 2 ^ (-40 : ℤ)
        ≤ 5 * ((100 + 2) * 2 ^ (-(24 : ℕ) : ℤ)) + 2 ^ (-40 : ℤ) := by gcongr
      _ ≤ 3.05e-5 := by norm_num
  have hδ0 : 0 < cohErr 24 k + 2 ^ (-40 : ℤ) := add_pos (cohErr_pos 24 k) (by positivity)
  have hG : (10 : ℝ) ^ (d / 10) ≤ 10 ^ 2 := pow_db (by norm_num; exact hd')
  have hG0 : (0 : ℝ) < 10 ^ (d / 10) := by positivity
  obtain ⟨K, hKe⟩ : ∃ K, min r e = K := ⟨_, rfl⟩
  rw [hKe] at hK
  have hKr : (K : ℝ) ≤ 6 := by exact_mod_cast hK
  have hK2 : (K : ℝ) ^ 2 + 1 ≤ 37 := by
    have : (K : ℝ) ^ 2 ≤ 6 ^ 2 := pow_le_pow_left₀ (by positivity) hKr 2
    linarith
  have b1 : (cohErr 24 k + 2 ^ (-40 : ℤ)) * ((10 : ℝ) ^ (d / 10) + 1) ≤ 3.05e-5 * (10 ^ 2 + 1) :=
    mul_le_mul hδ (by linarith) (by positivity) (by norm_num)
  have b3 : (cohErr 24 k + 2 ^ (-40 : ℤ)) * ((10 : ℝ) ^ (d / 10) + 3) ≤ 3.05e-5 * (10 ^ 2 + 3) :=
    mul_le_mul hδ (by linarith) (by positivity) (by norm_num)
  have b4 : (2 : ℝ) ^ (5 - (24 : ℕ) : ℤ) * (d + 1) ≤ 2 ^ (5 - (24 : ℕ) : ℤ) * (20 + 1) := by gcongr
  have b5 : (2 : ℝ) ^ (5 - (24 : ℕ) : ℤ) * (20 + 1) ≤ 0.0001 := by norm_num
  obtain ⟨vals, perm, P, h1, h2, h3, h4⟩ := C77_permutation E (by norm_num) (k := k) (by
    calc ((k + 2 : ℕ) : ℝ) * 2 ^ (-(24 : ℕ) : ℤ) ≤ (100 + 2) * 2 ^ (-(24 : ℕ) : ℤ) := by push_cast; gcongr
      _ ≤ 1 / 100 := by norm_num) hd (by linarith)
    (by have := b1.trans (by norm_num : _ ≤ (0.4 : ℝ)); linarith) hKe
    (by
      calc 6 * ((K : ℝ) ^ 2 + 1) * 2 ^ (-(24 : ℕ) : ℤ) ≤ 6 * 37 * 2 ^ (-(24 : ℕ) : ℤ) := by gcongr
        _ ≤ 1 := by norm_num) href hest (ε := 0.04)
    (by have := b3.trans (by norm_num : _ ≤ (0.0032 : ℝ)); linarith) hres
  refine ⟨vals, perm, P, h1, h2, h3, fun P' => (h4 P').trans ?_⟩
  rw [hKe]
  have c1 : ((K : ℝ) ^ 2 + 1) ^ 2 * 2 ^ (-(24 : ℕ) : ℤ) * (d + 0.04) ≤ 37 ^ 2 * 2 ^ (-(24 : ℕ) : ℤ) * (20 + 0.04) := by
    gcongr
  have c2 := c1.trans (by norm_num : _ ≤ (0.0017 : ℝ))
  have c3 := mul_le_mul_of_nonneg_left c2 (Nat.cast_nonneg K : (0 : ℝ) ≤ K)
  have c4 : (0 : ℝ) ≤ K := Nat.cast_nonneg K
  linarith

/-- **C77.**  The statements are not about nothing: there is always an outcome. -/
theorem C77_outcome (E : Machine p) (hn : 0 < n) (cd : Option ℝ) (ref : Fin r → Fin n → ℝ) (est : Fin e → Fin n → ℝ) :
    ∃ res, IsSiSdr E n cd ref est res := by
  choose v hv using fun i j => C67_any_order E hn cd (ref i) (est j)
  exact ⟨_, v, hv, rfl⟩

/-! ### the hypotheses can be met -/

/-- Two references, three estimates, one of them perfect, one orthogonal to a reference; `float64`, `clamp_db=30`. -/
example : ∃ (E : Machine 53) (res : _),
    IsSiSdr E 2 (some 30) (![![1, 0], ![0, 1]] : Fin 2 → Fin 2 → ℝ) (![![0, 2], ![2, 1], ![1, 3]] : Fin 3 → Fin 2 → ℝ) res ∧
    ∃ vals perm, ∃ P : Pairing 2 3, res = .ok (vals, perm) ∧ Describes perm P := by
  obtain ⟨E, -⟩ := exists_machine (p := 53) (by norm_num)
  obtain ⟨res, hres⟩ := C77_outcome E (by norm_num) (some 30) (![![1, 0], ![0, 1]] : Fin 2 → Fin 2 → ℝ)
    (![![0, 2], ![2, 1], ![1, 3]] : Fin 3 → Fin 2 → ℝ)
  have one : ∀ z : Fin 2 → ℝ, 1 ≤ ∑ t, z t ^ 2 → 2e-6 ≤ sigNorm z := fun z hz =>
    le_trans (by norm_num : (2e-6 : ℝ) ≤ 1) (by rw [sigNorm, Real.one_le_sqrt]; exact hz)
  obtain ⟨vals, perm, P, h1, h2, -, -⟩ := C77_float64 E (by norm_num) (by norm_num) (by norm_num) (by norm_num)
    (fun i => one _ (by fin_cases i <;> norm_num [Fin.sum_univ_two]))
    (fun j => one _ (by fin_cases j <;> norm_num [Fin.sum_univ_two])) hres
  exact ⟨E, res, hres, vals, perm, P, h1, h2⟩

/-- The same in `float32` with `clamp_db=20`, more references than estimates. -/
example : ∃ (E : Machine 24) (res : _),
    IsSiSdr E 2 (some 20) (![![0, 2], ![2, 1], ![1, 3]] : Fin 3 → Fin 2 → ℝ) (![![1, 0], ![0, 1]] : Fin 2 → Fin 2 → ℝ) res ∧
    ∃ vals perm, ∃ P : Pairing 3 2, res = .ok (vals, perm) ∧ Describes perm P := by
  obtain ⟨E, -⟩ := exists_machine (p := 24) (by norm_num)
  obtain ⟨res, hres⟩ := C77_outcome E (by norm_num) (some 20) (![![0, 2], ![2, 1], ![1, 3]] : Fin 3 → Fin 2 → ℝ)
    (![![1, 0], ![0, 1]] : Fin 2 → Fin 2 → ℝ)
  have one : ∀ z : Fin 2 → ℝ, 1 ≤ ∑ t, z t ^ 2 → 2e-6 ≤ sigNorm z := fun z hz =>
    le_trans (by norm_num : (2e-6 : ℝ) ≤ 1) (by rw [sigNorm, Real.one_le_sqrt]; exact hz)
  obtain ⟨vals, perm, P, h1, h2, -, -⟩ := C77_float32 E (by norm_num) (by norm_num) (by norm_num) (by norm_num)
    (fun i => one _ (by fin_cases i <;> norm_num [Fin.sum_univ_two]))
    (fun j => one _ (by fin_cases j <;> norm_num [Fin.sum_univ_two])) hres
  exact ⟨E, res, hres, vals, perm, P, h1, h2⟩

/-- A perfect estimate has the limited SI-SDR `d`. -/
example : limitedSiSdr 30 ![1, 0] ![3, 0] = 30 := by
  norm_num [limitedSiSdr, limitedDb, alongEnergy, restEnergy, scaleOf, Fin.sum_univ_two]

end FBE.Props
