import Verif.Proofs.RoundedFirDoc
import Verif.Props.C77_FloatPermutation

/-!
# C80 — the SDR for filters of any length in floating point arithmetic, from the samples to the result

`sdr_loss` and `sdr` with the direct solver, every operation rounded (`Model/RoundedFir.lean`): the removal of the mean, the
normalisation, the FFTs, the regularisation, the solution of the Toeplitz system and the decibel stage.  The result is compared
with the SDR of the least squares filter (`Spec/FirError.lean`), which without regularisation is the documented one.  The accuracy
depends on how well the reference determines the filters (`Conditioned`); `load_diag` guarantees a bound for every reference.
-/

namespace FBE.Props

open Spec XR Rounded

variable {p N K r e : ℕ}

/-- **C80.**  `clamp_db=d`: the loss is within `10 (δ + 2^-40) (10^(d/10) + 3) + 2^(5-p) (d + 1)` of the negative SDR limited to
`[-d, d]`, where `δ` is the bound `firErr` for the error of a coherence. -/
theorem C80_values (E : Machine p) (A : Accuracy) (hp : 11 ≤ p) (hK : 1 ≤ K) (hfit : FilterFits N K) {zm : Bool}
    {load : Option ℝ} (hload : 0 ≤ load.getD 0) {d : ℝ} (hd : 0 ≤ d) (hd' : d ≤ 1000) {x y : Fin N → ℝ}
    (hx : 3e-6 ≤ sigNorm (centred zm x)) (hy : 3e-6 ≤ sigNorm (centred zm y)) {ρ : ℝ} (hρ : 1 ≤ ρ)
    (hρx : sigNorm x ≤ ρ * sigNorm (centred zm x)) (hρy : sigNorm y ≤ ρ * sigNorm (centred zm y)) {l : ℝ} (hl : 0 < l)
    (hco : Conditioned K (effectiveLoad K load) l (centred zm x))
    {δ : ℝ} (hδ : firErr p A.k K ρ A.fft A.solve (effectiveLoad K load) l ≤ δ)
    (hlim : 2 * (δ + 2 ^ (-40 : ℤ)) * ((10 : ℝ) ^ (d / 10) + 1) ≤ 1) {v : XR}
    (h : IsSdrLoss E A K zm load (some d) y x v) :
    ∃ w, v = fin w ∧ |w - -limitedSdr d K (effectiveLoad K load) (centred zm x) (centred zm y)| ≤
        10 * (δ + 2 ^ (-40 : ℤ)) * ((10 : ℝ) ^ (d / 10) + 3) + 2 ^ (5 - p : ℤ) * (d + 1) := by
  obtain ⟨w, h1, -, h2⟩ := IsSdrLoss.close hp hK hfit hload hd hd' hx hy hρ hρx hρy hl hco hδ hlim h
  exact ⟨w, h1, h2⟩

/-- **C80.**  The SDR it is compared with: some filter leaves the least residual, and without regularisation the SDR is the
documented one, clipped. -/
theorem C80_documented {d : ℝ} (hd : 0 ≤ d) (hK : 1 ≤ K) {μ l : ℝ} (hμ : 0 ≤ μ) (hl : 0 < l) {x : Fin r → Fin N → ℝ} {i : Fin r}
    {y : Fin N → ℝ} (h : Conditioned K μ l (x i)) (hx : 0 < sigNorm (x i)) (hy : 0 < sigNorm y) :
    IsLeast (Set.range (regularisedResidual (K := K) μ (x i) y)) (leastResidual K μ (x i) y) ∧
      (μ = 0 → clip d (docSdr K x i y) = fin (limitedSdr d K μ (x i) y)) := by
  refine ⟨?_, fun h0 => ?_⟩
  · have := quad_least hμ hl hK h hy
    unfold leastResidual
    rw [this.csInf_eq]
    exact this
  · subst h0
    exact clip_docSdr hd hK hl h hx hy

/-- **C80.**  With `load_diag=μ` every reference is conditioned. -/
theorem C80_load {μ : ℝ} (x : Fin N → ℝ) : Conditioned K μ μ x := fun _ =>
  le_add_of_nonneg_left (Finset.sum_nonneg fun _ _ => sq_nonneg _)

/-- **C80.**  With filters of one tap every audible reference is conditioned, with the best constant. -/
theorem C80_one_tap {x : Fin N → ℝ} (hx : 0 < sigNorm x) : Conditioned 1 0 1 x := fun h => by
  have hs : ∑ t, unitSig x t ^ 2 = 1 := by
    have := Real.sq_sqrt (Finset.sum_nonneg fun t (_ : t ∈ Finset.univ) => sq_nonneg (unitSig x t))
    rw [← this]
    change sigNorm (unitSig x) ^ 2 = 1
    rw [sigNorm_unitSig hx, one_pow]
  have : ∑ t ∈ Finset.range (N + 1 - 1), filtered h (unitSig x) t ^ 2 = h 0 ^ 2 := by
    rw [Nat.add_sub_cancel, Finset.sum_range, ← mul_one (h 0 ^ 2), ← hs, Finset.mul_sum]
    refine Finset.sum_congr rfl fun t _ => ?_
    simp [filtered, mul_pow, zpad_val]
  rw [this, Fin.sum_univ_one]
  linarith

/-- **C80.**  `sdr` succeeds.  It returns the values of a complete pairing of references and estimates, each within `ε` of the SDR
of the least squares filter, and no pairing has a total SDR larger than that of the returned pairing by more than
`2 m ε + 8 m (m² + 1)² 2^-p (d + ε)`, where `m` is the number of pairs and `ε` the bound of `C80_values`. -/
theorem C80_permutation (E : Machine p) (A : Accuracy) (hp : 11 ≤ p) (hK : 1 ≤ K) (hfit : FilterFits N K) {zm : Bool}
    {load : Option ℝ} (hload : 0 ≤ load.getD 0) {d : ℝ} (hd : 0 ≤ d) (hd' : d ≤ 1000)
    {m : ℕ} (hm : min r e = m) (hm' : 6 * ((m : ℝ) ^ 2 + 1) * 2 ^ (-p : ℤ) ≤ 1)
    {ref : Fin r → Fin N → ℝ} {est : Fin e → Fin N → ℝ} (href : ∀ i, 3e-6 ≤ sigNorm (centred zm (ref i)))
    (hest : ∀ j, 3e-6 ≤ sigNorm (centred zm (est j))) {ρ : ℝ} (hρ : 1 ≤ ρ)
    (hρx : ∀ i, sigNorm (ref i) ≤ ρ * sigNorm (centred zm (ref i)))
    (hρy : ∀ j, sigNorm (est j) ≤ ρ * sigNorm (centred zm (est j))) {l : ℝ} (hl : 0 < l)
    (hco : ∀ i, Conditioned K (effectiveLoad K load) l (centred zm (ref i)))
    {δ : ℝ} (hδ : firErr p A.k K ρ A.fft A.solve (effectiveLoad K load) l ≤ δ)
    (hlim : 2 * (δ + 2 ^ (-40 : ℤ)) * ((10 : ℝ) ^ (d / 10) + 1) ≤ 1) {ε : ℝ}
    (hε : 10 * (δ + 2 ^ (-40 : ℤ)) * ((10 : ℝ) ^ (d / 10) + 3) + 2 ^ (5 - p : ℤ) * (d + 1) ≤ ε)
    {res : Except PyErr ((Fin (min r e) → XR) × (Fin (min r e) → ℕ))} (hres : IsSdr E A K zm load (some d) ref est res) :
    ∃ vals perm, ∃ P : Pairing r e, res = .ok (vals, perm) ∧ Describes perm P ∧
      (∀ c, ∃ w, vals c = fin w ∧
        |w - limitedSdr d K (effectiveLoad K load) (centred zm (ref (P.ref c))) (centred zm (est (P.est c)))| ≤ ε) ∧
      ∀ P' : Pairing r e,
        (P'.sum fun i j => limitedSdr d K (effectiveLoad K load) (centred zm (ref i)) (centred zm (est j))) ≤
        (P.sum fun i j => limitedSdr d K (effectiveLoad K load) (centred zm (ref i)) (centred zm (est j))) +
          (2 * m * ε + 8 * m * ((m : ℝ) ^ 2 + 1) ^ 2 * 2 ^ (-p : ℤ) * (d + ε)) := by
  obtain ⟨v, hv, rfl⟩ := hres
  have hcl := fun i j => IsSdrLoss.close hp hK hfit hload hd hd' (href i) (hest j) hρ (hρx i) (hρy j) hl (hco i) hδ hlim (hv i j)
  choose x hx hrep hclose using hcl
  have hv' : v = fun i j => fin (x i j) := by funext i j; exact hx i j
  set S : Fin r → Fin e → ℝ :=
    fun i j => limitedSdr d K (effectiveLoad K load) (centred zm (ref i)) (centred zm (est j)) with hSdef
  have hc : ∀ i j, |x i j - -S i j| ≤ ε := fun i j => (hclose i j).trans hε
  have hμ0 := effectiveLoad_nonneg K hload
  have hS : ∀ i j, |S i j| ≤ d := fun i j => by
    have hle : leastResidual K (effectiveLoad K load) (centred zm (ref i)) (centred zm (est j)) = _ :=
      (quad_least hμ0 hl hK (hco i) (lt_of_lt_of_le (by norm_num) (hest j))).csInf_eq
    have hq := quad_mem hμ0 hl hK (hco i) (lt_of_lt_of_le (by norm_num) (hest j))
    change |limitedSdr d K (effectiveLoad K load) (centred zm (ref i)) (centred zm (est j))| ≤ d
    unfold limitedSdr
    rw [hle]
    exact limitedDb_abs hd (by linarith [hq.1]) (by linarith [hq.2])
  by_cases hne : Nonempty (Fin r × Fin e)
  · obtain ⟨i₀, j₀⟩ := hne
    have hε0 : 0 ≤ ε := (abs_nonneg _).trans (hc i₀ j₀)
    subst hm
    obtain ⟨loss, perm, P, h1, h2, h3, h4⟩ := flSolvePermutation_near E.fl_nearest x S hrep (D := 2 * (d + ε)) (by positivity)
      (fun i j i' j' => by
        have a1 := abs_le.1 (hc i j)
        have a2 := abs_le.1 (hc i' j')
        have a3 := abs_le.1 (hS i j)
        have a4 := abs_le.1 (hS i' j')
        linarith [a1.2, a2.1, a3.1, a4.2]) hc hm'
    rw [hv', h1]
    refine ⟨_, perm, P, rfl, h2, fun c => ⟨-x (P.ref c) (P.est c), by rw [h3]; rfl, ?_⟩, fun P' => ?_⟩
    · have := hc (P.ref c) (P.est c)
      rw [← abs_neg]
      convert this using 2
      ring
    · have := h4 P'
      unfold permTol at this
      linarith
  · have hem : ∀ (i : Fin r) (j : Fin e), False := fun i j => hne ⟨i, j⟩
    subst hm
    obtain ⟨loss, perm, P, h1, h2, h3, h4⟩ := flSolvePermutation_near E.fl_nearest x S hrep (D := 0) (ε := 0) le_rfl
      (fun i j => (hem i j).elim) (fun i j => (hem i j).elim) hm'
    rw [hv', h1]
    refine ⟨_, perm, P, rfl, h2, fun c => (hem (P.ref c) (P.est c)).elim, fun P' => ?_⟩
    have hm0 : min r e = 0 := by
      rcases Nat.eq_zero_or_pos (min r e) with h | h
      · exact h
      · exact (hem ⟨0, by omega⟩ ⟨0, by omega⟩).elim
    have := h4 P'
    unfold permTol at this
    rw [hm0] at this ⊢
    simpa using this

/-- **C80.**  `float64`, filters of up to 512 taps, sums in which no sample passes through more than 1000 operations, transforms
with relative errors up to `10^-14` and a solver with relative backward errors up to `10^-13`; the means do not make up more than
three quarters of the energy.  If no filter of norm one reduces the energy of a reference below one thousandth (or
`load_diag ≥ 0.001`), every value limited to 20 dB is within 0.012 dB, and for up to 20 sources the mean is within 0.025 dB of the best
mean over all pairings. -/
theorem C80_float64 (E : Machine 53) {A : Accuracy} (hAk : A.k ≤ 1000) (hAf : A.fft ≤ 1e-14) (hAs : A.solve ≤ 1e-13)
    (hK : 1 ≤ K) (hK' : K ≤ 512) (hfit : FilterFits N K) {zm : Bool} {load : Option ℝ} (hload : 0 ≤ load.getD 0)
    (hload' : load.getD 0 ≤ 1) {d : ℝ} (hd : 0 ≤ d) (hd' : d ≤ 20) (hm : min r e ≤ 20)
    {ref : Fin r → Fin N → ℝ} {est : Fin e → Fin N → ℝ} (href : ∀ i, 3e-6 ≤ sigNorm (centred zm (ref i)))
    (hest : ∀ j, 3e-6 ≤ sigNorm (centred zm (est j)))
    (hρx : ∀ i, sigNorm (ref i) ≤ 2 * sigNorm (centred zm (ref i)))
    (hρy : ∀ j, sigNorm (est j) ≤ 2 * sigNorm (centred zm (est j)))
    (hco : ∀ i, Conditioned K (effectiveLoad K load) 0.001 (centred zm (ref i)))
    {res : Except PyErr ((Fin (min r e) → XR) × (Fin (min r e) → ℕ))} (hres : IsSdr E A K zm load (some d) ref est res) :
    ∃ vals perm, ∃ P : Pairing r e, res = .ok (vals, perm) ∧ Describes perm P ∧
      (∀ c, ∃ w, vals c = fin w ∧
        |w - limitedSdr d K (effectiveLoad K load) (centred zm (ref (P.ref c))) (centred zm (est (P.est c)))| ≤ 0.012) ∧
      ∀ P' : Pairing r e,
        (P'.sum fun i j => limitedSdr d K (effectiveLoad K load) (centred zm (ref i)) (centred zm (est j))) ≤
        (P.sum fun i j => limitedSdr d K (effectiveLoad K load) (centred zm (ref i)) (centred zm (est j))) +
          (min r e : ℕ) * 0.025 := by
  have hμ0 := effectiveLoad_nonneg K hload
  have hμ1 : effectiveLoad K load ≤ 1 := by unfold effectiveLoad; split <;> simp [hload']
  have hk : (A.k : ℝ) ≤ 1000 := by exact_mod_cast hAk
  have hKr : (K : ℝ) ≤ 512 := by exact_mod_cast hK'
  have hf0 := A.fft_nonneg
  have hs0 := A.solve_nonneg
  have hδ : firErr 53 A.k K 2 A.fft A.solve (effectiveLoad K load) 0.001 ≤ 1.15e-5 := by
    unfold firErr
    calc K * (1 + effectiveLoad K load) / 0.001 * (48 * (((A.k : ℝ) + 4) * 2 * 2 ^ (-(53 : ℕ) : ℤ)) + 24 * A.fft + 2 * A.solve)
        ≤ 512 * (1 + 1) / 0.001 * (48 * ((1000 + 4) * 2 * 2 ^ (-(53 : ℕ) : ℤ)) + 24 * 1e-14 + 2 * 1e-13) := by gcongr
      _ ≤ 1.15e-5 := by norm_num
  have hG : (10 : ℝ) ^ (d / 10) ≤ 10 ^ 2 := pow_db (by norm_num; exact hd')
  have hG0 : (0 : ℝ) < 10 ^ (d / 10) := by positivity
  obtain ⟨m, hme⟩ : ∃ m, min r e = m := ⟨_, rfl⟩
  rw [hme] at hm
  have hmr : (m : ℝ) ≤ 20 := by exact_mod_cast hm
  have hm2 : (m : ℝ) ^ 2 + 1 ≤ 401 := by
    have : (m : ℝ) ^ 2 ≤ 20 ^ 2 := pow_le_pow_left₀ (by positivity) hmr 2
    linarith
  have b4 : (2 : ℝ) ^ (5 - (53 : ℕ) : ℤ) * (d + 1) ≤ 2 ^ (5 - (53 : ℕ) : ℤ) * (20 + 1) := by gcongr
  have b5 : (2 : ℝ) ^ (5 - (53 : ℕ) : ℤ) * (20 + 1) ≤ 0.00001 := by norm_num
  have b6 : (2 : ℝ) ^ (-40 : ℤ) ≤ 1e-12 := by norm_num
  have b1 : ((1.15e-5 : ℝ) + 2 ^ (-40 : ℤ)) * ((10 : ℝ) ^ (d / 10) + 1) ≤ (1.15e-5 + 1e-12) * (10 ^ 2 + 1) := by gcongr
  have b3 : ((1.15e-5 : ℝ) + 2 ^ (-40 : ℤ)) * ((10 : ℝ) ^ (d / 10) + 3) ≤ (1.15e-5 + 1e-12) * (10 ^ 2 + 3) := by gcongr
  obtain ⟨vals, perm, P, h1, h2, h3, h4⟩ := C80_permutation E A (by norm_num) hK hfit hload hd (by linarith) hme
    (by
      calc 6 * ((m : ℝ) ^ 2 + 1) * 2 ^ (-(53 : ℕ) : ℤ) ≤ 6 * 401 * 2 ^ (-(53 : ℕ) : ℤ) := by gcongr
        _ ≤ 1 := by norm_num) href hest (by norm_num) hρx hρy (by norm_num) hco hδ
    (by have := b1.trans (by norm_num : _ ≤ (0.4 : ℝ)); linarith)
    (ε := 0.012) (by have := b3.trans (by norm_num : _ ≤ (0.00119 : ℝ)); linarith) hres
  refine ⟨vals, perm, P, h1, h2, h3, fun P' => (h4 P').trans ?_⟩
  rw [hme]
  have c1 : ((m : ℝ) ^ 2 + 1) ^ 2 * 2 ^ (-(53 : ℕ) : ℤ) * (d + 0.012) ≤ 401 ^ 2 * 2 ^ (-(53 : ℕ) : ℤ) * (20 + 0.012) := by
    gcongr
  have c2 := c1.trans (by norm_num : _ ≤ (0.0001 : ℝ))
  have c3 := mul_le_mul_of_nonneg_left c2 (Nat.cast_nonneg m : (0 : ℝ) ≤ m)
  have c4 : (0 : ℝ) ≤ m := Nat.cast_nonneg m
  linarith

/-- **C80.**  The direct solver does not fail: whatever the roundings, under the same conditions the computed Toeplitz matrix is
nonsingular. -/
theorem C80_nonsingular (E : Machine p) (A : Accuracy) (hp : 11 ≤ p) (hK : 2 ≤ K) (hfit : FilterFits N K) {zm : Bool}
    {load : Option ℝ} (hload : 0 ≤ load.getD 0) {x y : Fin N → ℝ} (hx : 3e-6 ≤ sigNorm (centred zm x))
    (hy : 3e-6 ≤ sigNorm (centred zm y)) {ρ : ℝ} (hρ : 1 ≤ ρ) (hρx : sigNorm x ≤ ρ * sigNorm (centred zm x))
    (hρy : sigNorm y ≤ ρ * sigNorm (centred zm y)) {l : ℝ} (hl : 0 < l) (hco : Conditioned K (load.getD 0) l (centred zm x))
    (hδ : firErr p A.k K ρ A.fft A.solve (load.getD 0) l ≤ 1 / 4) {xc yc x' y' : Fin N → ℝ} (hxc : IsCentred E A.k zm x xc)
    (hyc : IsCentred E A.k zm y yc) (hx' : IsNormalized E A.k xc x') (hy' : IsNormalized E A.k yc y') {acf xcorr : ℕ → ℝ}
    (hst : IsStats p A (fftSize N) x' y' acf xcorr) : (flToeplitz K (loaded E load acf)).det ≠ 0 := by
  have nx := sigNorm_unitSig (x := centred zm x) (lt_of_lt_of_le (by norm_num) hx)
  have ny := sigNorm_unitSig (x := centred zm y) (lt_of_lt_of_le (by norm_num) hy)
  have hl1 : l ≤ 1 + load.getD 0 := coercive_le (D := N + K - 1) (by omega) (by omega) nx (conditioned_coercive hco)
  have hB := prep_small (by omega) hρ hl hl1 hδ
  exact hst.det_ne_zero (E := E) hp hK hfit hload nx ny hρ (prep_close hp hxc hx' hx hρ hρx hB) (prep_close hp hyc hy' hy hρ hρy hB)
    hl hl1 (conditioned_coercive hco) hδ

/-- **C80.**  The statements are not about nothing: under the same conditions there is an outcome. -/
theorem C80_outcome (E : Machine p) (A : Accuracy) (hp : 11 ≤ p) (hN : N ≤ A.k) (hKk : K ≤ A.k) (hK : 1 ≤ K)
    (hfit : FilterFits N K) {zm : Bool} {load : Option ℝ} (hload : 0 ≤ load.getD 0) (cd : Option ℝ)
    {ref : Fin r → Fin N → ℝ} {est : Fin e → Fin N → ℝ} (href : ∀ i, 3e-6 ≤ sigNorm (centred zm (ref i)))
    (hest : ∀ j, 3e-6 ≤ sigNorm (centred zm (est j))) {ρ : ℝ} (hρ : 1 ≤ ρ)
    (hρx : ∀ i, sigNorm (ref i) ≤ ρ * sigNorm (centred zm (ref i)))
    (hρy : ∀ j, sigNorm (est j) ≤ ρ * sigNorm (centred zm (est j))) {l : ℝ} (hl : 0 < l)
    (hco : ∀ i, Conditioned K (effectiveLoad K load) l (centred zm (ref i)))
    (hδ : firErr p A.k K ρ A.fft A.solve (effectiveLoad K load) l ≤ 1 / 4) :
    ∃ res, IsSdr E A K zm load cd ref est res := by
  choose v hv using fun i j => exists_sdrLoss E hp hN hKk hK hfit hload cd (href i) (hest j) hρ (hρx i) (hρy j) hl (hco i) hδ
  exact ⟨_, v, hv, rfl⟩

/-! ### the hypotheses can be met -/

/-- Two references of two samples, three estimates, filters of two taps with `load_diag=0.01`, `float64`, `clamp_db=20`. -/
example : ∃ (E : Machine 53) (A : Accuracy) (res : _),
    IsSdr E A 2 false (some 0.01) (some 20) (![![1, 0], ![0, 1]] : Fin 2 → Fin 2 → ℝ)
      (![![0, 2], ![2, 1], ![1, 3]] : Fin 3 → Fin 2 → ℝ) res ∧
    ∃ vals perm, ∃ P : Pairing 2 3, res = .ok (vals, perm) ∧ Describes perm P := by
  obtain ⟨E, -⟩ := exists_machine (p := 53) (by norm_num)
  have one : ∀ z : Fin 2 → ℝ, 1 ≤ ∑ t, z t ^ 2 → 3e-6 ≤ sigNorm z := fun z hz =>
    le_trans (by norm_num : (3e-6 : ℝ) ≤ 1) (by rw [sigNorm, Real.one_le_sqrt]; exact hz)
  have href : ∀ i, 3e-6 ≤ sigNorm (centred false ((![![1, 0], ![0, 1]] : Fin 2 → Fin 2 → ℝ) i)) := fun i =>
    one _ (by fin_cases i <;> norm_num [Fin.sum_univ_two, centred])
  have hest : ∀ j, 3e-6 ≤ sigNorm (centred false ((![![0, 2], ![2, 1], ![1, 3]] : Fin 3 → Fin 2 → ℝ) j)) := fun i =>
    one _ (by fin_cases i <;> norm_num [Fin.sum_univ_two, centred])
  have hρ : ∀ z : Fin 2 → ℝ, sigNorm z ≤ 2 * sigNorm (centred false z) := fun z => by
    have : 0 ≤ sigNorm z := Real.sqrt_nonneg _
    change sigNorm z ≤ 2 * sigNorm z
    linarith
  have hμ : effectiveLoad 2 (some 0.01) = 0.01 := by norm_num [effectiveLoad]
  have hco : ∀ i, Conditioned 2 (effectiveLoad 2 (some 0.01)) 0.001
      (centred false ((![![1, 0], ![0, 1]] : Fin 2 → Fin 2 → ℝ) i)) := fun i h => by
    refine le_trans ?_ (C80_load _ h)
    rw [hμ]
    exact mul_le_mul_of_nonneg_right (by norm_num) (Finset.sum_nonneg fun _ _ => sq_nonneg _)
  have hfit : FilterFits 2 2 := by
    show 2 + 2 ≤ 2 ^ Nat.clog 2 3 + 1
    decide
  let A : Accuracy := ⟨2, 1e-15, 1e-14, by norm_num, by norm_num⟩
  obtain ⟨res, hres⟩ := C80_outcome E A (by norm_num) le_rfl le_rfl (by norm_num) hfit (load := some 0.01) (by norm_num) (some 20)
    href hest (ρ := 2) (by norm_num) (fun i => hρ _) (fun j => hρ _) (l := 0.001) (by norm_num) hco
    (by rw [hμ]; norm_num [firErr, A])
  obtain ⟨vals, perm, P, h1, h2, -, -⟩ := C80_float64 E (A := A) (by norm_num [A]) (by norm_num [A]) (by norm_num [A]) (by norm_num)
    (by norm_num) hfit (by norm_num) (by norm_num) (by norm_num) (by norm_num) (by norm_num) href hest (fun i => hρ _)
    (fun j => hρ _) hco hres
  exact ⟨E, A, res, hres, vals, perm, P, h1, h2⟩

/-- An impulse is conditioned for filters of two taps without regularisation, with the best constant. -/
example : Conditioned 2 0 1 (![1, 0] : Fin 2 → ℝ) := by
  intro h
  have hs : sigNorm (![1, 0] : Fin 2 → ℝ) = 1 := by norm_num [sigNorm, Fin.sum_univ_two]
  have e : unitSig (![1, 0] : Fin 2 → ℝ) = ![1, 0] := by
    funext t; unfold unitSig; rw [hs, div_one]
  rw [e]
  norm_num [filtered, Finset.sum_range_succ, Fin.sum_univ_two, zpad]

end FBE.Props
