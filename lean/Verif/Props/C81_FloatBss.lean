import Verif.Proofs.RoundedBssDoc
import Verif.Props.C80_FloatSdr

/-!
# C81 — SDR, SIR, SAR and the permutation of `bss_eval_sources` in floating point arithmetic

`bss_eval_sources` with the direct solver, every operation rounded (`Model/RoundedBss.lean`).  The values are compared with those of
filters fitted by least squares (`Spec/BssError.lean`), which without regularisation are the documented ones.  The accuracy depends on
how well the references together determine the filters (`ConditionedAll`); the SIR also needs that the references explain a part of the
estimate.
-/

namespace FBE.Props

open Spec XR Rounded

variable {p N K r e : ℕ}

/-- **C81.**  `clamp_db=d`: negative SDR and SAR are within `10 (δ + 2^-40) (10^(d/10) + 3) + 2^(5-p) (d + 1)` of the values of the least
squares filters limited to `[-d, d]`, where `δ` is the bound `firErr` for filters of `K r` taps.  If the references explain at least the
part `σ` of the energy of each estimate, the negative SIR is within the same bound with `3 δ / σ` in place of `δ`. -/
theorem C81_values (E : Machine p) (A : Accuracy) (hp : 11 ≤ p) (hK : 1 ≤ K) (hfit : FilterFits N K) {zm : Bool}
    {load : Option ℝ} (hload : 0 ≤ load.getD 0) {d : ℝ} (hd : 0 ≤ d) (hd' : d ≤ 1000) {x : Fin r → Fin N → ℝ}
    {y : Fin e → Fin N → ℝ} (hx : ∀ c, 3e-6 ≤ sigNorm (centred zm (x c)))
    (hy : ∀ j, 3e-6 ≤ sigNorm (centred zm (y j))) {ρ : ℝ} (hρ : 1 ≤ ρ)
    (hρx : ∀ c, sigNorm (x c) ≤ ρ * sigNorm (centred zm (x c)))
    (hρy : ∀ j, sigNorm (y j) ≤ ρ * sigNorm (centred zm (y j))) {l : ℝ} (hl : 0 < l)
    (hco : ConditionedAll K (load.getD 0) l fun c => centred zm (x c)) {σ : ℝ} (hσ : 0 < σ)
    (hσy : ∀ j, leastResidualAll K (load.getD 0) (fun c => centred zm (x c)) (centred zm (y j)) ≤ 1 - σ)
    {δ : ℝ} (hδ : firErr p A.k (K * r) ρ A.fft A.solve (load.getD 0) l ≤ δ)
    (hlim : 2 * (3 * δ / σ + 2 ^ (-40 : ℤ)) * ((10 : ℝ) ^ (d / 10) + 1) ≤ 1) {sdr sir sar : Fin r → Fin e → XR}
    (h : IsBssLosses E A K zm load (some d) x y sdr sir sar) (c : Fin r) (j : Fin e) :
    (∃ w, sdr c j = fin w ∧ |w - -limitedSdr d K (load.getD 0) (centred zm (x c)) (centred zm (y j))| ≤
        10 * (δ + 2 ^ (-40 : ℤ)) * ((10 : ℝ) ^ (d / 10) + 3) + 2 ^ (5 - p : ℤ) * (d + 1)) ∧
    (∃ w, sir c j = fin w ∧ |w - -limitedSir d K (load.getD 0) (fun c => centred zm (x c)) c (centred zm (y j))| ≤
        10 * (3 * δ / σ + 2 ^ (-40 : ℤ)) * ((10 : ℝ) ^ (d / 10) + 3) + 2 ^ (5 - p : ℤ) * (d + 1)) ∧
    ∃ w, sar c j = fin w ∧ |w - -limitedSar d K (load.getD 0) (fun c => centred zm (x c)) (centred zm (y j))| ≤
        10 * (δ + 2 ^ (-40 : ℤ)) * ((10 : ℝ) ^ (d / 10) + 3) + 2 ^ (5 - p : ℤ) * (d + 1) := by
  obtain ⟨⟨w₁, a1, -, a2⟩, ⟨w₂, b1, -, b2⟩, w₃, c1, -, c2⟩ :=
    h.close hp hK hfit hload hd hd' (by have := c.isLt; omega) hx hy hρ hρx hρy hl hco hσ hσy hδ hlim c j
  exact ⟨⟨w₁, a1, a2⟩, ⟨w₂, b1, b2⟩, w₃, c1, c2⟩

/-- **C81.**  The values they are compared with: some filters for all the references leave the least residual, and without
regularisation SDR, SAR and SIR are the documented ones, clipped. -/
theorem C81_documented {d : ℝ} (hd : 0 ≤ d) (hK : 1 ≤ K) {μ l : ℝ} (hμ : 0 ≤ μ) (hl : 0 < l) {x : Fin r → Fin N → ℝ} {c : Fin r}
    {y : Fin N → ℝ} (h : ConditionedAll K μ l x) (hx : ∀ c, 0 < sigNorm (x c)) (hy : 0 < sigNorm y) :
    IsLeast (Set.range (regularisedResidualAll (K := K) μ x y)) (leastResidualAll K μ x y) ∧
      (μ = 0 → clip d (docSdr K x c y) = fin (limitedSdr d K μ (x c) y) ∧ clip d (docSar K x y) = fin (limitedSar d K μ x y) ∧
        (leastResidualAll K μ x y < 1 → clip d (docSir K x c y) = fin (limitedSir d K μ x c y))) := by
  refine ⟨?_, fun h0 => ?_⟩
  · have := quad_least_all hμ hl hK h hy
    unfold leastResidualAll
    rw [this.csInf_eq]
    exact this
  · subst h0
    exact ⟨clip_docSdr hd hK hl (conditionedAll_one h c) (hx c) hy, clip_docSar hd hK hl h hx hy, clip_docSir hd hK hl h hx hy⟩

/-- **C81.**  With `load_diag=μ` all references are conditioned. -/
theorem C81_load {μ : ℝ} (x : Fin r → Fin N → ℝ) : ConditionedAll K μ μ x := fun _ =>
  le_add_of_nonneg_left (Finset.sum_nonneg fun _ _ => sq_nonneg _)

/-- **C81.**  `bss_eval_sources` succeeds.  It returns SDR, SIR and SAR of a complete pairing of references and estimates, the SIR
within `ε` of that of the least squares filters, SDR and SAR within `ε'`.  No pairing has a total SIR larger than that of the returned
pairing by more than `2 m ε + 8 m (m² + 1)² 2^-p (d + ε)`, where `m` is the number of pairs. -/
theorem C81_permutation (E : Machine p) (A : Accuracy) (hp : 11 ≤ p) (hK : 1 ≤ K) (hfit : FilterFits N K) {zm : Bool}
    {load : Option ℝ} (hload : 0 ≤ load.getD 0) {d : ℝ} (hd : 0 ≤ d) (hd' : d ≤ 1000)
    {m : ℕ} (hm : min r e = m) (hm' : 6 * ((m : ℝ) ^ 2 + 1) * 2 ^ (-p : ℤ) ≤ 1)
    {ref : Fin r → Fin N → ℝ} {est : Fin e → Fin N → ℝ} (href : ∀ i, 3e-6 ≤ sigNorm (centred zm (ref i)))
    (hest : ∀ j, 3e-6 ≤ sigNorm (centred zm (est j))) {ρ : ℝ} (hρ : 1 ≤ ρ)
    (hρx : ∀ i, sigNorm (ref i) ≤ ρ * sigNorm (centred zm (ref i)))
    (hρy : ∀ j, sigNorm (est j) ≤ ρ * sigNorm (centred zm (est j))) {l : ℝ} (hl : 0 < l)
    (hco : ConditionedAll K (load.getD 0) l fun c => centred zm (ref c)) {σ : ℝ} (hσ : 0 < σ)
    (hσy : ∀ j, leastResidualAll K (load.getD 0) (fun c => centred zm (ref c)) (centred zm (est j)) ≤ 1 - σ)
    {δ : ℝ} (hδ : firErr p A.k (K * r) ρ A.fft A.solve (load.getD 0) l ≤ δ)
    (hlim : 2 * (3 * δ / σ + 2 ^ (-40 : ℤ)) * ((10 : ℝ) ^ (d / 10) + 1) ≤ 1) {ε ε' : ℝ}
    (hε : 10 * (3 * δ / σ + 2 ^ (-40 : ℤ)) * ((10 : ℝ) ^ (d / 10) + 3) + 2 ^ (5 - p : ℤ) * (d + 1) ≤ ε)
    (hε' : 10 * (δ + 2 ^ (-40 : ℤ)) * ((10 : ℝ) ^ (d / 10) + 3) + 2 ^ (5 - p : ℤ) * (d + 1) ≤ ε')
    {res : Except PyErr ((Fin (min r e) → XR) × (Fin (min r e) → XR) × (Fin (min r e) → XR) × (Fin (min r e) → ℕ))}
    (hres : IsBssEval E A K zm load (some d) ref est res) :
    ∃ sdr sir sar perm, ∃ P : Pairing r e, res = .ok (sdr, sir, sar, perm) ∧ Describes perm P ∧
      (∀ c, ∃ w, sdr c = fin w ∧
        |w - limitedSdr d K (load.getD 0) (centred zm (ref (P.ref c))) (centred zm (est (P.est c)))| ≤ ε') ∧
      (∀ c, ∃ w, sir c = fin w ∧
        |w - limitedSir d K (load.getD 0) (fun i => centred zm (ref i)) (P.ref c) (centred zm (est (P.est c)))| ≤ ε) ∧
      (∀ c, ∃ w, sar c = fin w ∧
        |w - limitedSar d K (load.getD 0) (fun i => centred zm (ref i)) (centred zm (est (P.est c)))| ≤ ε') ∧
      ∀ P' : Pairing r e,
        (P'.sum fun i j => limitedSir d K (load.getD 0) (fun i => centred zm (ref i)) i (centred zm (est j))) ≤
        (P.sum fun i j => limitedSir d K (load.getD 0) (fun i => centred zm (ref i)) i (centred zm (est j))) +
          (2 * m * ε + 8 * m * ((m : ℝ) ^ 2 + 1) ^ 2 * 2 ^ (-p : ℤ) * (d + ε)) := by
  obtain ⟨sdr, sir, sar, hl3, rfl⟩ := hres
  have hcl := fun i j => IsBssLosses.close hp hK hfit hload hd hd' (by have := i.isLt; omega) href hest hρ hρx hρy hl hco hσ hσy hδ
    hlim hl3 i j
  choose xd hxd hxd' using fun i j => (hcl i j).1
  choose x hx hx' using fun i j => (hcl i j).2.1
  choose xa hxa hxa' using fun i j => (hcl i j).2.2
  have hv' : sir = fun i j => fin (x i j) := by funext i j; exact hx i j
  set S : Fin r → Fin e → ℝ :=
    fun i j => limitedSir d K (load.getD 0) (fun i => centred zm (ref i)) i (centred zm (est j)) with hSdef
  have hc : ∀ i j, |x i j - -S i j| ≤ ε := fun i j => (hx' i j).2.trans hε
  have hS : ∀ i j, |S i j| ≤ d := fun i j => by
    have hy0 : 0 < sigNorm (centred zm (est j)) := lt_of_lt_of_le (by norm_num) (hest j)
    have hle : leastResidual K (load.getD 0) (centred zm (ref i)) (centred zm (est j)) = _ :=
      (quad_least hload hl hK (conditionedAll_one hco i) hy0).csInf_eq
    have hle2 : leastResidualAll K (load.getD 0) (fun i => centred zm (ref i)) (centred zm (est j)) = _ :=
      (quad_least_all hload hl hK hco hy0).csInf_eq
    have hq := quad_mem (y := centred zm (est j)) hload hl hK (conditionedAll_one hco i) hy0
    have hqs := quad_le_all (y := centred zm (est j)) hload hl hK hco hy0 i
    change |limitedSir d K (load.getD 0) (fun i => centred zm (ref i)) i (centred zm (est j))| ≤ d
    unfold limitedSir
    rw [hle, hle2]
    exact limitedDb_abs hd (by linarith [hq.1]) (by linarith)
  have hneg : ∀ {w s ε : ℝ}, |w - -s| ≤ ε → |-w - s| ≤ ε := fun {w s ε} h => by
    rw [← abs_neg]
    convert h using 2
    ring
  by_cases hne : Nonempty (Fin r × Fin e)
  · obtain ⟨i₀, j₀⟩ := hne
    have hε0 : 0 ≤ ε := (abs_nonneg _).trans (hc i₀ j₀)
    subst hm
    obtain ⟨loss, v₁, v₂, perm, P, h1, h2, h3, h4, h5, h6⟩ := flSolvePermutation₃_near E.fl_nearest x S sdr sar
      (fun i j => (hx' i j).1) (D := 2 * (d + ε)) (by positivity)
      (fun i j i' j' => by
        have a1 := abs_le.1 (hc i j)
        have a2 := abs_le.1 (hc i' j')
        have a3 := abs_le.1 (hS i j)
        have a4 := abs_le.1 (hS i' j')
        linarith [a1.2, a2.1, a3.1, a4.2]) hc hm'
    rw [hv', h1]
    refine ⟨_, _, _, perm, P, rfl, h2, fun c => ⟨-xd (P.ref c) (P.est c), by rw [h4, hxd]; rfl, hneg ((hxd' _ _).2.trans hε')⟩,
      fun c => ⟨-x (P.ref c) (P.est c), by rw [h3]; rfl, hneg (hc _ _)⟩,
      fun c => ⟨-xa (P.ref c) (P.est c), by rw [h5, hxa]; rfl, hneg ((hxa' _ _).2.trans hε')⟩, fun P' => ?_⟩
    have := h6 P'
    unfold permTol at this
    linarith
  · have hem : ∀ (i : Fin r) (j : Fin e), False := fun i j => hne ⟨i, j⟩
    subst hm
    obtain ⟨loss, v₁, v₂, perm, P, h1, h2, h3, h4, h5, h6⟩ := flSolvePermutation₃_near E.fl_nearest x S sdr sar
      (fun i j => (hx' i j).1) (D := 0) (ε := 0) le_rfl (fun i j => (hem i j).elim) (fun i j => (hem i j).elim) hm'
    rw [hv', h1]
    refine ⟨_, _, _, perm, P, rfl, h2, fun c => (hem (P.ref c) (P.est c)).elim, fun c => (hem (P.ref c) (P.est c)).elim,
      fun c => (hem (P.ref c) (P.est c)).elim, fun P' => ?_⟩
    have hm0 : min r e = 0 := by
      rcases Nat.eq_zero_or_pos (min r e) with h | h
      · exact h
      · exact (hem ⟨0, by omega⟩ ⟨0, by omega⟩).elim
    have := h6 P'
    unfold permTol at this
    rw [hm0] at this ⊢
    simpa using this

/-- **C81.**  `float64`, up to 4 references and filters of up to 512 taps, sums in which no sample passes through more than 1000
operations, transforms with relative errors up to `10^-14` and a solver with relative backward errors up to `10^-13`; the means do not make
up more than three quarters of the energy.  If no filters of norm one reduce the energy below one hundredth (or `load_diag ≥ 0.01`) and
the references explain at least a tenth of each estimate, SDR and SAR limited to 20 dB are within 0.005 dB, the SIR within 0.15 dB, and
the mean SIR is within 0.31 dB of the best mean over all pairings. -/
theorem C81_float64 (E : Machine 53) {A : Accuracy} (hAk : A.k ≤ 1000) (hAf : A.fft ≤ 1e-14) (hAs : A.solve ≤ 1e-13)
    (hK : 1 ≤ K) (hK' : K ≤ 512) (hr : r ≤ 4) (hfit : FilterFits N K) {zm : Bool} {load : Option ℝ} (hload : 0 ≤ load.getD 0)
    (hload' : load.getD 0 ≤ 1) {d : ℝ} (hd : 0 ≤ d) (hd' : d ≤ 20)
    {ref : Fin r → Fin N → ℝ} {est : Fin e → Fin N → ℝ} (href : ∀ i, 3e-6 ≤ sigNorm (centred zm (ref i)))
    (hest : ∀ j, 3e-6 ≤ sigNorm (centred zm (est j)))
    (hρx : ∀ i, sigNorm (ref i) ≤ 2 * sigNorm (centred zm (ref i)))
    (hρy : ∀ j, sigNorm (est j) ≤ 2 * sigNorm (centred zm (est j)))
    (hco : ConditionedAll K (load.getD 0) 0.01 fun c => centred zm (ref c))
    (hσy : ∀ j, leastResidualAll K (load.getD 0) (fun c => centred zm (ref c)) (centred zm (est j)) ≤ 0.9)
    {res : Except PyErr ((Fin (min r e) → XR) × (Fin (min r e) → XR) × (Fin (min r e) → XR) × (Fin (min r e) → ℕ))}
    (hres : IsBssEval E A K zm load (some d) ref est res) :
    ∃ sdr sir sar perm, ∃ P : Pairing r e, res = .ok (sdr, sir, sar, perm) ∧ Describes perm P ∧
      (∀ c, ∃ w, sdr c = fin w ∧
        |w - limitedSdr d K (load.getD 0) (centred zm (ref (P.ref c))) (centred zm (est (P.est c)))| ≤ 0.005) ∧
      (∀ c, ∃ w, sir c = fin w ∧
        |w - limitedSir d K (load.getD 0) (fun i => centred zm (ref i)) (P.ref c) (centred zm (est (P.est c)))| ≤ 0.15) ∧
      (∀ c, ∃ w, sar c = fin w ∧
        |w - limitedSar d K (load.getD 0) (fun i => centred zm (ref i)) (centred zm (est (P.est c)))| ≤ 0.005) ∧
      ∀ P' : Pairing r e,
        (P'.sum fun i j => limitedSir d K (load.getD 0) (fun i => centred zm (ref i)) i (centred zm (est j))) ≤
        (P.sum fun i j => limitedSir d K (load.getD 0) (fun i => centred zm (ref i)) i (centred zm (est j))) +
          (min r e : ℕ) * 0.31 := by
  have hk : (A.k : ℝ) ≤ 1000 := by exact_mod_cast hAk
  have hKr : ((K * r : ℕ) : ℝ) ≤ 2048 := by exact_mod_cast (Nat.mul_le_mul hK' hr)
  have hf0 := A.fft_nonneg
  have hs0 := A.solve_nonneg
  have hδ : firErr 53 A.k (K * r) 2 A.fft A.solve (load.getD 0) 0.01 ≤ 4.6e-6 := by
    unfold firErr
    calc ((K * r : ℕ) : ℝ) * (1 + load.getD 0) / 0.01 * (48 * (((A.k : ℝ) + 4) * 2 * 2 ^ (-(53 : ℕ) : ℤ)) + 24 * A.fft + 2 * A.solve)
        ≤ 2048 * (1 + 1) / 0.01 * (48 * ((1000 + 4) * 2 * 2 ^ (-(53 : ℕ) : ℤ)) + 24 * 1e-14 + 2 * 1e-13) := by gcongr
      _ ≤ 4.6e-6 := by norm_num
  have hG : (10 : ℝ) ^ (d / 10) ≤ 10 ^ 2 := pow_db (by norm_num; exact hd')
  have hG0 : (0 : ℝ) < 10 ^ (d / 10) := by positivity
  obtain ⟨m, hme⟩ : ∃ m, min r e = m := ⟨_, rfl⟩
  have hm : m ≤ 4 := by omega
  have hmr : (m : ℝ) ≤ 4 := by exact_mod_cast hm
  have hm2 : (m : ℝ) ^ 2 + 1 ≤ 17 := by
    have : (m : ℝ) ^ 2 ≤ 4 ^ 2 := pow_le_pow_left₀ (by positivity) hmr 2
    linarith
  have b4 : (2 : ℝ) ^ (5 - (53 : ℕ) : ℤ) * (d + 1) ≤ 2 ^ (5 - (53 : ℕ) : ℤ) * (20 + 1) := by gcongr
  have b5 : (2 : ℝ) ^ (5 - (53 : ℕ) : ℤ) * (20 + 1) ≤ 0.00001 := by norm_num
  have b6 : (2 : ℝ) ^ (-40 : ℤ) ≤ 1e-12 := by norm_num
  have b1 : (3 * (4.6e-6 : ℝ) / 0.1 + 2 ^ (-40 : ℤ)) * ((10 : ℝ) ^ (d / 10) + 1) ≤ (3 * 4.6e-6 / 0.1 + 1e-12) * (10 ^ 2 + 1) := by
    gcongr
  have b3 : (3 * (4.6e-6 : ℝ) / 0.1 + 2 ^ (-40 : ℤ)) * ((10 : ℝ) ^ (d / 10) + 3) ≤ (3 * 4.6e-6 / 0.1 + 1e-12) * (10 ^ 2 + 3) := by
    gcongr
  have b3' : ((4.6e-6 : ℝ) + 2 ^ (-40 : ℤ)) * ((10 : ℝ) ^ (d / 10) + 3) ≤ (4.6e-6 + 1e-12) * (10 ^ 2 + 3) := by gcongr
  obtain ⟨sdr, sir, sar, perm, P, h1, h2, h3, h4, h5, h6⟩ := C81_permutation E A (by norm_num) hK hfit hload hd (by linarith) hme
    (by
      calc 6 * ((m : ℝ) ^ 2 + 1) * 2 ^ (-(53 : ℕ) : ℤ) ≤ 6 * 17 * 2 ^ (-(53 : ℕ) : ℤ) := by gcongr
        _ ≤ 1 := by norm_num) href hest (by norm_num) hρx hρy (by norm_num) hco (σ := 0.1) (by norm_num)
    (fun j => (hσy j).trans (by norm_num)) hδ
    (by have := b1.trans (by norm_num : _ ≤ (0.4 : ℝ)); linarith)
    (ε := 0.15) (by have := b3.trans (by norm_num : _ ≤ (0.01499 : ℝ)); linarith)
    (ε' := 0.005) (by have := b3'.trans (by norm_num : _ ≤ (0.00049 : ℝ)); linarith) hres
  refine ⟨sdr, sir, sar, perm, P, h1, h2, h3, h4, h5, fun P' => (h6 P').trans ?_⟩
  rw [hme]
  have c1 : ((m : ℝ) ^ 2 + 1) ^ 2 * 2 ^ (-(53 : ℕ) : ℤ) * (d + 0.15) ≤ 17 ^ 2 * 2 ^ (-(53 : ℕ) : ℤ) * (20 + 0.15) := by
    gcongr
  have c2 := c1.trans (by norm_num : _ ≤ (0.0001 : ℝ))
  have c3 := mul_le_mul_of_nonneg_left c2 (Nat.cast_nonneg m : (0 : ℝ) ≤ m)
  have c4 : (0 : ℝ) ≤ m := Nat.cast_nonneg m
  linarith

/-- **C81.**  The direct solver does not fail on the large system: whatever the roundings, under the same conditions the computed block
Toeplitz matrix is nonsingular. -/
theorem C81_nonsingular (E : Machine p) (A : Accuracy) (hp : 11 ≤ p) (hK : 2 ≤ K) (hr : 1 ≤ r) (hfit : FilterFits N K) {zm : Bool}
    {load : Option ℝ} (hload : 0 ≤ load.getD 0) {x : Fin r → Fin N → ℝ} {y : Fin e → Fin N → ℝ}
    (hx : ∀ c, 3e-6 ≤ sigNorm (centred zm (x c))) (hy : ∀ j, 3e-6 ≤ sigNorm (centred zm (y j))) {ρ : ℝ} (hρ : 1 ≤ ρ)
    (hρx : ∀ c, sigNorm (x c) ≤ ρ * sigNorm (centred zm (x c))) (hρy : ∀ j, sigNorm (y j) ≤ ρ * sigNorm (centred zm (y j)))
    {l : ℝ} (hl : 0 < l) (hco : ConditionedAll K (load.getD 0) l fun c => centred zm (x c))
    (hδ : firErr p A.k (K * r) ρ A.fft A.solve (load.getD 0) l ≤ 1 / 4) {xc x' : Fin r → Fin N → ℝ} {yc y' : Fin e → Fin N → ℝ}
    (hxc : ∀ c, IsCentred E A.k zm (x c) (xc c)) (hyc : ∀ j, IsCentred E A.k zm (y j) (yc j))
    (hx' : ∀ c, IsNormalized E A.k (xc c) (x' c)) (hy' : ∀ j, IsNormalized E A.k (yc j) (y' j))
    {acf : Fin r → Fin r → ℕ → ℝ} {xcorr : Fin r → Fin e → ℕ → ℝ} (hst : IsStats2 p A (fftSize N) x' y' acf xcorr) :
    (flBlockToeplitz (fftSize N) K (loadedDiag E load acf)).det ≠ 0 := by
  have nx := fun c => sigNorm_unitSig (x := centred zm (x c)) (lt_of_lt_of_le (by norm_num) (hx c))
  have ny := fun j => sigNorm_unitSig (x := centred zm (y j)) (lt_of_lt_of_le (by norm_num) (hy j))
  have hl1 : l ≤ 1 + load.getD 0 :=
    coercive_le (D := N + K - 1) (by omega) (by omega) (nx ⟨0, hr⟩) (conditioned_coercive (conditionedAll_one hco ⟨0, hr⟩))
  have hKr : 1 ≤ K * r := Nat.one_le_iff_ne_zero.2 (Nat.mul_ne_zero (by omega) (by omega))
  have hB := prep_small hKr hρ hl hl1 hδ
  exact hst.det_ne_zero (E := E) hp hK hfit hload hr nx ny hρ (fun c => prep_close hp (hxc c) (hx' c) (hx c) hρ (hρx c) hB)
    (fun j => prep_close hp (hyc j) (hy' j) (hy j) hρ (hρy j) hB) hl hl1 (conditionedAll_coercive hco) hδ

/-- **C81.**  The statements are not about nothing: under the same conditions there is an outcome. -/
theorem C81_outcome (E : Machine p) (A : Accuracy) (hp : 11 ≤ p) (hN : N ≤ A.k) (hKk : K * r ≤ A.k) (hK : 1 ≤ K) (hr : 1 ≤ r)
    (hfit : FilterFits N K) {zm : Bool} {load : Option ℝ} (hload : 0 ≤ load.getD 0) (hKl : K = 1 → load = none) (cd : Option ℝ)
    {ref : Fin r → Fin N → ℝ} {est : Fin e → Fin N → ℝ} (href : ∀ i, 3e-6 ≤ sigNorm (centred zm (ref i)))
    (hest : ∀ j, 3e-6 ≤ sigNorm (centred zm (est j))) {ρ : ℝ} (hρ : 1 ≤ ρ)
    (hρx : ∀ i, sigNorm (ref i) ≤ ρ * sigNorm (centred zm (ref i)))
    (hρy : ∀ j, sigNorm (est j) ≤ ρ * sigNorm (centred zm (est j))) {l : ℝ} (hl : 0 < l)
    (hco : ConditionedAll K (load.getD 0) l fun c => centred zm (ref c))
    (hδ : firErr p A.k (K * r) ρ A.fft A.solve (load.getD 0) l ≤ 1 / 4) :
    ∃ res, IsBssEval E A K zm load cd ref est res := by
  obtain ⟨sdr, sir, sar, h⟩ := exists_bssLosses E hp hN hKk hK hfit hload hKl cd hr href hest hρ hρx hρy hl hco hδ
  exact ⟨_, sdr, sir, sar, h, rfl⟩

/-! ### the hypotheses can be met -/

/-- Two references of four samples whose shifts are orthogonal, two estimates, filters of two taps without regularisation, `float64`,
`clamp_db=20`. -/
example : ∃ (E : Machine 53) (A : Accuracy) (res : _),
    IsBssEval E A 2 false none (some 20) (![![1, 0, 0, 0], ![0, 0, 1, 0]] : Fin 2 → Fin 4 → ℝ)
      (![![1, 1, 1, 1], ![0, 2, 1, 1]] : Fin 2 → Fin 4 → ℝ) res ∧
    ∃ sdr sir sar perm, ∃ P : Pairing 2 2, res = .ok (sdr, sir, sar, perm) ∧ Describes perm P := by
  obtain ⟨E, -⟩ := exists_machine (p := 53) (by norm_num)
  set ref : Fin 2 → Fin 4 → ℝ := ![![1, 0, 0, 0], ![0, 0, 1, 0]] with hrefd
  set est : Fin 2 → Fin 4 → ℝ := ![![1, 1, 1, 1], ![0, 2, 1, 1]] with hestd
  have one : ∀ z : Fin 4 → ℝ, 1 ≤ ∑ t, z t ^ 2 → 3e-6 ≤ sigNorm z := fun z hz =>
    le_trans (by norm_num : (3e-6 : ℝ) ≤ 1) (by rw [sigNorm, Real.one_le_sqrt]; exact hz)
  have href : ∀ i, 3e-6 ≤ sigNorm (centred false (ref i)) := fun i =>
    one _ (by fin_cases i <;> norm_num [Fin.sum_univ_succ, centred, ref])
  have hest : ∀ j, 3e-6 ≤ sigNorm (centred false (est j)) := fun i =>
    one _ (by fin_cases i <;> norm_num [Fin.sum_univ_succ, centred, est])
  have hρ : ∀ z : Fin 4 → ℝ, sigNorm z ≤ 2 * sigNorm (centred false z) := fun z => by
    have : 0 ≤ sigNorm z := Real.sqrt_nonneg _
    change sigNorm z ≤ 2 * sigNorm z
    linarith
  have hu : ∀ c, unitSig (centred false (ref c)) = ref c := fun c => by
    have hs : sigNorm (centred false (ref c)) = 1 := by
      fin_cases c <;> norm_num [sigNorm, Fin.sum_univ_succ, centred, ref]
    funext t; unfold unitSig; rw [hs, div_one]; rfl
  have hco : ConditionedAll 2 ((none : Option ℝ).getD 0) 0.01 fun c => centred false (ref c) := fun h => by
    simp only [hu]
    norm_num [ref, filtered, Finset.sum_range_succ, Fin.sum_univ_two, zpad]
    nlinarith [sq_nonneg (h 0 0), sq_nonneg (h 0 1), sq_nonneg (h 1 0), sq_nonneg (h 1 1)]
  have hfit : FilterFits 4 2 := by
    show 2 + 4 ≤ 2 ^ Nat.clog 2 7 + 1
    decide
  have hσ : ∀ j, leastResidualAll 2 ((none : Option ℝ).getD 0) (fun c => centred false (ref c)) (centred false (est j)) ≤ 0.9 := fun j => by
    have hl := (quad_least_all (K := 2) (x := fun c => centred false (ref c)) (y := centred false (est j)) (l := 0.01)
      (μ := (none : Option ℝ).getD 0) (by norm_num) (by norm_num) (by norm_num) hco (lt_of_lt_of_le (by norm_num) (hest j)))
    rw [leastResidualAll, hl.csInf_eq]
    set s := sigNorm (centred false (est j)) with hs
    have hs0 : 0 < s := lt_of_lt_of_le (by norm_num) (hest j)
    refine le_trans (hl.2 ⟨fun c i => est j ⟨2 * c + i, by omega⟩ / s, rfl⟩) ?_
    unfold regularisedResidualAll residualAll
    simp only [hu]
    have e1 : unitSig (centred false (est j)) = fun t => est j t / s := rfl
    rw [e1]
    norm_num [ref, filtered, Finset.sum_range_succ, Fin.sum_univ_two, zpad]
  let A : Accuracy := ⟨4, 1e-15, 1e-14, by norm_num, by norm_num⟩
  obtain ⟨res, hres⟩ := C81_outcome E A (by norm_num) le_rfl le_rfl (by norm_num) (by norm_num) hfit (load := none) (by norm_num)
    (fun h => by norm_num at h) (some 20) href hest (ρ := 2) (by norm_num) (fun i => hρ _) (fun j => hρ _) (l := 0.01) (by norm_num) hco
    (by norm_num [firErr, A])
  obtain ⟨sdr, sir, sar, perm, P, h1, h2, -⟩ := C81_float64 E (A := A) (by norm_num [A]) (by norm_num [A]) (by norm_num [A])
    (by norm_num) (by norm_num) (by norm_num) hfit (by norm_num) (by norm_num) (by norm_num) (by norm_num) href hest (fun i => hρ _)
    (fun j => hρ _) hco hσ hres
  exact ⟨E, A, res, hres, sdr, sir, sar, perm, P, h1, h2⟩

end FBE.Props
