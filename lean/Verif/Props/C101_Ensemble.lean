import Verif.Proofs.Ensemble
import Verif.Props.C100_Segments

/-!
# C101 — weighted sums of several estimates
-/

namespace FBE.Props

open Spec XR

variable {s : List ℕ} {r e N : ℕ} {B : Backend} {o : Opts}

theorem shift_ne_zero' {L : ℕ} (hL : 0 < L) {y : Fin N → ℝ} (hy : Audible y) : shift (N + L - 1) y 0 ≠ 0 := fun h => by
  have := power_eq (N := N) (D := N + L - 1) (by omega) y
  rw [h] at this
  unfold energy at this
  rw [norm_zero] at this
  have := power_pos hy
  linarith

theorem parallel_projection {L : ℕ} {f : Fin L → ℝ} {x y : Fin N → ℝ} {g : ℝ} (hb : IsBestFilter (fun l => g * f l) x y) :
    (spanOne (N + L - 1) L x).starProjection (shift (N + L - 1) y 0) = g • ∑ l : Fin L, f l • shift (N + L - 1) x l := by
  rw [best_projection hb, Finset.smul_sum]
  exact Finset.sum_congr rfl fun l _ => by rw [smul_smul]

/-- **C101.**  Estimates in which the target went through the same filter, up to positive gains: the SDR of any sum
of them with weights that are not negative is at least the worst of their SDRs. -/
theorem C101_sdr_loss (hB : Covered B) (hdir : o.direct) (hload : o.load = 0) (hcl : o.clampOk)
    (hf : FilterFits N o.filterLength) {est : Sig s e N} {ref : Sig s r N} {w : Fin e → ℝ} (hw : ∀ j, 0 ≤ w j) {L L'}
    (h : sdrLossPair B o est ref = .ok L) (h' : sdrLossPair B o (ensemble w est) ref = .ok L') (m : BIdx s) (k : Fin r)
    (hest : ∀ j, Audible (centred o.zeroMean (est m j)))
    (hsum : Audible (centred o.zeroMean (ensemble w est m 0)))
    (href : o.filterLength = 1 → Normalisable (centred o.zeroMean (ref m k)))
    {f : Fin o.filterLength → ℝ} {g : Fin e → ℝ} (hg : ∀ j, 0 < g j)
    (hbest : ∀ j, IsBestFilter (fun l => g j * f l) (centred o.zeroMean (ref m k)) (centred o.zeroMean (est m j))) :
    ∃ j, toEReal (L m k j).neg ≤ toEReal (L' m k 0).neg := by
  have hL := sdrLossPair_length h
  have hc : centred o.zeroMean (ensemble w est m 0) = fun t => ∑ j, w j * centred o.zeroMean (est m j) t :=
    centred_sum o.zeroMean w (est m)
  obtain ⟨j, hj⟩ := ensemble_le hcl (spanOne (N + o.filterLength - 1) o.filterLength (centred o.zeroMean (ref m k)))
    (fun j => shift (N + o.filterLength - 1) (centred o.zeroMean (est m j)) 0) (fun j => shift_ne_zero' hL (hest j)) w g hw hg
    _ (fun j => parallel_projection (hbest j)) (by
      rw [← shift_sum, ← hc]
      exact shift_ne_zero' hL hsum)
  refine ⟨j, ?_⟩
  rw [C01_sdr_loss_pairwise hB hdir hload hcl hf h m k j (hest j) href,
    C01_sdr_loss_pairwise hB hdir hload hcl hf h' m k 0 hsum href, neg_neg', neg_neg']
  rw [← shift_sum, ← hc] at hj
  exact hj

/-- **C101** for one tap (the SI-SDR): enough that every estimate is positively correlated with the reference. -/
theorem C101_si_sdr (hB : Covered B) (h1 : o.filterLength = 1) (hload : o.load = 0) (hcl : o.clampOk) (hN : 0 < N)
    {est : Sig s e N} {ref : Sig s r N} {w : Fin e → ℝ} (hw : ∀ j, 0 ≤ w j) {L L'}
    (h : sdrLossPair B o est ref = .ok L) (h' : sdrLossPair B o (ensemble w est) ref = .ok L') (m : BIdx s) (k : Fin r)
    (hest : ∀ j, Audible (centred o.zeroMean (est m j)))
    (hsum : Audible (centred o.zeroMean (ensemble w est m 0)))
    (href : Audible (centred o.zeroMean (ref m k)))
    (hpos : ∀ j, 0 < ∑ t, centred o.zeroMean (est m j) t * centred o.zeroMean (ref m k) t) :
    ∃ j, toEReal (L m k j).neg ≤ toEReal (L' m k 0).neg := by
  have hp := power_pos href
  refine C101_sdr_loss hB (Or.inl h1) hload hcl (by rw [h1]; exact fits_one hN) hw h h' m k hest hsum (fun _ => Or.inl href)
    (f := fun _ => 1) (fun j => div_pos (hpos j) hp) fun j f => ?_
  have h0 : 0 < o.filterLength := by omega
  rw [residualOne_first h1 h0, residualOne_first h1 h0]
  set x := centred o.zeroMean (ref m k)
  set y := centred o.zeroMean (est m j)
  have ex : ∀ a : ℝ, ∑ t, (y t - a * x t) ^ 2 = ∑ t, y t ^ 2 - 2 * a * ∑ t, y t * x t + a ^ 2 * power x := fun a => by
    unfold power
    rw [Finset.mul_sum, Finset.mul_sum, ← Finset.sum_sub_distrib, ← Finset.sum_add_distrib]
    exact Finset.sum_congr rfl fun t _ => by ring
  rw [ex, ex]
  set c := ∑ t, y t * x t
  have : 0 ≤ power x * (f ⟨0, h0⟩ - c / power x) ^ 2 := by positivity
  have e2 : power x * (f ⟨0, h0⟩ - c / power x) ^ 2 =
      f ⟨0, h0⟩ ^ 2 * power x - 2 * f ⟨0, h0⟩ * c + c ^ 2 / power x := by
    field_simp
    ring
  have e3 : -(2 * (c / power x * 1) * c) + (c / power x * 1) ^ 2 * power x = -(c ^ 2 / power x) := by
    field_simp
    ring
  linarith

/-- **C101 — independent errors average out.**  If the target is the same in all `e` estimates, and the errors (what
remains of the estimates) are uncorrelated with each other and equally strong, then the average has an SDR that is
`10 log10 e` above that of the estimates. -/
theorem C101_independent_errors (hB : Covered B) (hdir : o.direct) (hload : o.load = 0) (hcl : o.clampDb = none)
    (hf : FilterFits N o.filterLength) {est : Sig s e N} {ref : Sig s r N} {a : ℝ} (ha : a ≠ 0) {L L'}
    (h : sdrLossPair B o est ref = .ok L) (h' : sdrLossPair B o (ensemble (fun _ => a) est) ref = .ok L')
    (m : BIdx s) (k : Fin r)
    (hest : ∀ j, Audible (centred o.zeroMean (est m j)))
    (hsum : Audible (centred o.zeroMean (ensemble (fun _ => a) est m 0)))
    (href : o.filterLength = 1 → Normalisable (centred o.zeroMean (ref m k)))
    {f : Fin o.filterLength → ℝ}
    (hbest : ∀ j, IsBestFilter f (centred o.zeroMean (ref m k)) (centred o.zeroMean (est m j)))
    (herr : ∀ i j, i ≠ j → ∑ t ∈ Finset.range (N + o.filterLength - 1),
      leftOver f (centred o.zeroMean (ref m k)) (centred o.zeroMean (est m i)) t *
        leftOver f (centred o.zeroMean (ref m k)) (centred o.zeroMean (est m j)) t = 0)
    (heq : ∀ i j, residualOne f (centred o.zeroMean (ref m k)) (centred o.zeroMean (est m i)) =
      residualOne f (centred o.zeroMean (ref m k)) (centred o.zeroMean (est m j)))
    (j : Fin e) {v : ℝ} (hv : (L m k j).neg = fin v) : (L' m k 0).neg = fin (v + 10 * Real.logb 10 e) := by
  have hcl' : o.clampOk := fun d hd => by rw [hcl] at hd; cases hd
  have hc : centred o.zeroMean (ensemble (fun _ => a) est m 0) = fun t => ∑ j, a * centred o.zeroMean (est m j) t :=
    centred_sum o.zeroMean (fun _ => a) (est m)
  rw [C01_sdr_loss_pairwise hB hdir hload hcl' hf h m k j (hest j) href, neg_neg', hcl] at hv
  rw [C01_sdr_loss_pairwise hB hdir hload hcl' hf h' m k 0 hsum href, neg_neg', hcl]
  unfold report docSdr at hv ⊢
  dsimp only at hv ⊢
  rw [hc, shift_sum]
  set D := N + o.filterLength - 1
  set x := centred o.zeroMean (ref m k)
  set K := spanOne D o.filterLength x
  set F := ∑ l : Fin o.filterLength, f l • shift D x l
  have hP : ∀ i, K.starProjection (shift D (centred o.zeroMean (est m i)) 0) = F := fun i => best_projection (hbest i)
  rw [hP j] at hv
  have he : (e : ℝ) ≠ 0 := by
    have := j.pos
    positivity
  have hPs : K.starProjection (∑ i, a • shift D (centred o.zeroMean (est m i)) 0) = (e * a) • F := by
    rw [map_sum]
    simp only [map_smul, hP, Finset.sum_const, Finset.card_univ, Fintype.card_fin]
    rw [← Nat.cast_smul_eq_nsmul ℝ, smul_smul]
  set d : Fin e → Space D := fun i => shift D (centred o.zeroMean (est m i)) 0 - F with hd
  have hres : ∀ i, energy (d i) = energy (d j) := fun i => by
    have := heq i j
    rw [residualOne_eq, residualOne_eq] at this
    exact this
  have hort : ∀ i i', i ≠ i' → inner ℝ (d i) (d i') = 0 := fun i i' hii => by
    rw [← herr i i' hii, Finset.sum_range, PiLp.inner_apply]
    refine Finset.sum_congr rfl fun t _ => ?_
    rw [← leftOver_apply, ← leftOver_apply]
    exact mul_comm _ _
  have hsub : ∑ i, a • shift D (centred o.zeroMean (est m i)) 0 - (e * a) • F = a • ∑ i, d i := by
    rw [← Finset.smul_sum, hd, Finset.sum_sub_distrib, smul_sub, Finset.sum_const, Finset.card_univ, Fintype.card_fin,
      ← Nat.cast_smul_eq_nsmul ℝ, smul_smul, mul_comm a]
  have hE : energy (∑ i, d i) = e * energy (d j) := by
    unfold energy
    rw [← real_inner_self_eq_norm_sq, sum_inner]
    have : ∀ i, inner ℝ (d i) (∑ i', d i') = energy (d j) := fun i => by
      rw [inner_sum, Finset.sum_eq_single i (fun i' _ h => hort i i' h.symm) (fun h => absurd (Finset.mem_univ _) h),
        real_inner_self_eq_norm_sq]
      exact hres i
    rw [Finset.sum_congr rfl fun i _ => this i]
    simp [energy]
  rw [hPs, hsub]
  have e1 : energy ((e * a) • F) = a ^ 2 * (e ^ 2 * energy F) := by
    unfold energy
    rw [norm_smul, mul_pow, Real.norm_eq_abs, sq_abs]
    ring
  have e2 : energy (a • ∑ i, d i) = a ^ 2 * (e * energy (d j)) := by
    rw [← hE]
    unfold energy
    rw [norm_smul, mul_pow, Real.norm_eq_abs, sq_abs]
  rw [e1, e2, dbRatio_scale (by positivity), show (e : ℝ) ^ 2 * energy F = e * (e * energy F) by ring,
    dbRatio_scale (by positivity)]
  change dbRatio (energy F) (energy (d j)) = _ at hv
  unfold dbRatio at hv ⊢
  split at hv
  · split at hv <;> cases hv
  · split at hv
    · cases hv
    · rename_i hb hF
      cases hv
      rw [if_neg hb, if_neg (mul_ne_zero he hF), mul_div_assoc, Real.logb_mul he (div_ne_zero hF hb)]
      congr 1
      ring

/-- **C101 — the signs matter.**  For every level of the noise, the estimates `(1, ε)` and `(-1, ε)` of `(1, 0)` have an
SI-SDR of `20 log10 (1 / ε)`, but their sum has an SI-SDR of `-inf`. -/
theorem C101_signs_matter {ε : ℝ} (hε : 1e-6 ≤ ε) :
    ∃ L L', siSdrLossPair (s := []) B false none (fun _ => ![![1, ε], ![-1, ε]]) (fun _ (_ : Fin 1) => ![1, 0]) = .ok L ∧
      siSdrLossPair (s := []) B false none (ensemble (fun _ => 1) fun _ => ![![1, ε], ![-1, ε]])
        (fun _ (_ : Fin 1) => ![1, 0]) = .ok L' ∧
      ∀ m, (∀ j, (L m 0 j).neg = fin (20 * Real.logb 10 (1 / ε))) ∧ (L' m 0 0).neg = ninf := by
  obtain ⟨L, h⟩ := C34_sdr_loss_length_one (B := B) (o := siOpts false none none) rfl
    (fun (_ : BIdx []) => ![![1, ε], ![-1, ε]]) (fun _ (_ : Fin 1) => ![1, 0])
  obtain ⟨L', h'⟩ := C34_sdr_loss_length_one (B := B) (o := siOpts false none none) rfl
    (ensemble (fun _ => 1) fun (_ : BIdx []) => ![![1, ε], ![-1, ε]]) (fun _ (_ : Fin 1) => ![1, 0])
  have he : 0 < ε := lt_of_lt_of_le (by norm_num) hε
  have hx : Audible (![1, 0] : Fin 2 → ℝ) := Ex.audible _ 0 (by simp)
  have hy : ∀ (m : BIdx []) (j : Fin 2), Audible ((fun (_ : BIdx []) => ![![1, ε], ![-1, ε]]) m j) := fun m j => by
    unfold Audible sigNorm
    refine Real.le_sqrt_of_sq_le ?_
    fin_cases j <;> simp [Fin.sum_univ_two] <;> nlinarith [sq_nonneg ε]
  have hen : ∀ m : BIdx [], ensemble (fun _ => 1) (fun (_ : BIdx []) => ![![1, ε], ![-1, ε]]) m 0 = ![0, 2 * ε] := fun m => by
    funext t
    unfold ensemble
    fin_cases t
    · simp [Fin.sum_univ_two]
    · simp [Fin.sum_univ_two]
      ring
  have hs : ∀ m : BIdx [], Audible (ensemble (fun _ => 1) (fun (_ : BIdx []) => ![![1, ε], ![-1, ε]]) m 0) := fun m => by
    rw [hen]
    unfold Audible sigNorm
    refine Real.le_sqrt_of_sq_le ?_
    simp [Fin.sum_univ_two]
    nlinarith
  refine ⟨L, L', h, h', fun m => ⟨fun j => ?_, ?_⟩⟩
  · rw [C03_si_sdr_loss (fun d hd => by cases hd) h m 0 j (hy m j) hx, neg_neg']
    have hr : report none (dbRatio 1 (ε ^ 2)) = fin (20 * Real.logb 10 (1 / ε)) := by
      unfold report dbRatio
      rw [if_neg (by positivity), if_neg one_ne_zero, show (1 : ℝ) / ε ^ 2 = (1 / ε) ^ 2 by ring, Real.logb_pow]
      push_cast
      ring_nf
    rw [← hr]
    unfold centred
    fin_cases j <;> simp [Fin.sum_univ_two]
  · rw [C03_si_sdr_loss (fun d hd => by cases hd) h' m 0 0 (hs m) hx, neg_neg']
    show report none (dbRatio (∑ t, (_ / _ * _) ^ 2) _) = _
    unfold centred
    simp only [Bool.false_eq_true, if_false, hen]
    unfold report dbRatio
    simp [Fin.sum_univ_two, he.ne']

/-! ### the hypotheses can be met -/

-- the SI-SDR of `1 (2, 0, 1) + 2 (1, 0, 2)` for the references `(1, 0, 0)` and `(0, 0, 1)`
example (m : BIdx []) (k : Fin 2) : ∃ L L', sdrLossPair torchBackend { Ex.opts with filterLength := 1 } Ex.est Ex.ref = .ok L ∧
    sdrLossPair torchBackend { Ex.opts with filterLength := 1 } (ensemble ![1, 2] Ex.est) Ex.ref = .ok L' ∧
    ∃ j, toEReal (L m k j).neg ≤ toEReal (L' m k 0).neg := by
  obtain ⟨L, h⟩ := C34_sdr_loss_length_one (B := torchBackend) (o := { Ex.opts with filterLength := 1 }) rfl Ex.est Ex.ref
  obtain ⟨L', h'⟩ := C34_sdr_loss_length_one (B := torchBackend) (o := { Ex.opts with filterLength := 1 }) rfl
    (ensemble ![1, 2] Ex.est) Ex.ref
  refine ⟨L, L', h, h', C101_si_sdr Ex.covered rfl rfl (fun d hd => by cases hd) (by norm_num) (fun j => ?_) h h' m k
    (fun j => Ex.est_audible m j) (Ex.audible _ 0 ?_) ?_ fun j => ?_⟩
  · fin_cases j <;> simp
  · simp [Ex.opts, centred, ensemble, Ex.est, Fin.sum_univ_two]
    norm_num
  · fin_cases k
    · exact Ex.audible _ 0 (by simp [Ex.opts, centred, Ex.ref])
    · exact Ex.audible _ 2 (by simp [Ex.opts, centred, Ex.ref])
  · fin_cases k <;> fin_cases j <;> simp [Ex.opts, centred, Ex.ref, Ex.est, Fin.sum_univ_three]

-- two taps: the reference `(1, 0, 0)`, the estimates `(1, 1, 1)` and `(2, 2, 3)`, both with the filter `(1, 1)` up to gains
example (m : BIdx []) : ∃ L L', sdrLossPair (s := []) torchBackend Ex.opts (fun _ => ![![1, 1, 1], ![2, 2, 3]]) (fun _ (_ : Fin 1) => ![1, 0, 0]) = .ok L ∧
    sdrLossPair (s := []) torchBackend Ex.opts (ensemble ![1, 1] fun _ => ![![1, 1, 1], ![2, 2, 3]]) (fun _ (_ : Fin 1) => ![1, 0, 0]) = .ok L' ∧
    ∃ j, toEReal (L m 0 j).neg ≤ toEReal (L' m 0 0).neg := by
  have n1 : ∀ (m : BIdx []) (k : Fin 1), (![1, 0, 0] : Fin 3 → ℝ) ≠ 0 := fun _ _ h => by simpa using congrFun h 0
  obtain ⟨L, h⟩ := (C34_sdr_loss Ex.covered rfl le_rfl rfl (by norm_num) Ex.fits
    (fun (_ : BIdx []) => ![![1, 1, 1], ![2, 2, 3]]) (fun _ (_ : Fin 1) => ![1, 0, 0])).2.2 n1
  obtain ⟨L', h'⟩ := (C34_sdr_loss Ex.covered rfl le_rfl rfl (by norm_num) Ex.fits
    (ensemble ![1, 1] fun (_ : BIdx []) => ![![1, 1, 1], ![2, 2, 3]]) (fun _ (_ : Fin 1) => ![1, 0, 0])).2.2 n1
  refine ⟨L, L', h, h', C101_sdr_loss Ex.covered Ex.direct Ex.load Ex.clampOk Ex.fits (fun j => ?_) h h' m 0
    (fun j => Ex.audible _ 0 ?_) (Ex.audible _ 0 ?_) (fun h => absurd h (by decide)) (f := fun _ => 1) (g := ![1, 2])
    (fun j => ?_) fun j f => ?_⟩
  · fin_cases j <;> simp
  · fin_cases j <;> simp [Ex.opts, centred]
  · simp [Ex.opts, centred, ensemble, Fin.sum_univ_two]
  · fin_cases j <;> simp
  · change Fin 2 → ℝ at f
    change residualOne (L := 2) _ _ _ ≤ residualOne (L := 2) _ _ _
    unfold residualOne filtered
    fin_cases j <;> simp [Ex.opts, centred, zpad, Finset.sum_range_succ, Fin.sum_univ_two] <;>
      nlinarith [sq_nonneg (1 - f 0), sq_nonneg (1 - f 1), sq_nonneg (2 - f 0), sq_nonneg (2 - f 1)]

-- the average of `(1, 1, 0)` and `(1, 0, 1)`, both with SI-SDR 0 dB for `(1, 0, 0)`, has 3 dB
example (m : BIdx []) : ∃ L L',
    sdrLossPair (s := []) torchBackend (siOpts false none none) (fun _ => ![![1, 1, 0], ![1, 0, 1]]) (fun _ (_ : Fin 1) => ![1, 0, 0]) = .ok L ∧
    sdrLossPair (s := []) torchBackend (siOpts false none none) (ensemble (fun _ => 1 / 2) fun _ => ![![1, 1, 0], ![1, 0, 1]])
      (fun _ (_ : Fin 1) => ![1, 0, 0]) = .ok L' ∧
    (L m 0 0).neg = fin 0 ∧ (L' m 0 0).neg = fin (10 * Real.logb 10 2) := by
  obtain ⟨L, h⟩ := C34_sdr_loss_length_one (B := torchBackend) (o := siOpts false none none) rfl
    (fun (_ : BIdx []) => ![![1, 1, 0], ![1, 0, 1]]) (fun _ (_ : Fin 1) => ![1, 0, 0])
  obtain ⟨L', h'⟩ := C34_sdr_loss_length_one (B := torchBackend) (o := siOpts false none none) rfl
    (ensemble (fun _ => 1 / 2) fun (_ : BIdx []) => ![![1, 1, 0], ![1, 0, 1]]) (fun _ (_ : Fin 1) => ![1, 0, 0])
  have hx : Audible (![1, 0, 0] : Fin 3 → ℝ) := Ex.audible _ 0 (by simp)
  have hy : ∀ j, Audible (centred false ((![![1, 1, 0], ![1, 0, 1]] : Fin 2 → Fin 3 → ℝ) j)) := fun j => by
    fin_cases j
    · exact Ex.audible _ 0 (by simp [centred])
    · exact Ex.audible _ 0 (by simp [centred])
  have hv : (L m 0 0).neg = fin 0 := by
    rw [C03_si_sdr_loss (fun d hd => by cases hd) h m 0 0 (hy 0) hx, neg_neg']
    unfold report dbRatio centred
    simp [Fin.sum_univ_three]
  have hb : ∀ j, IsBestFilter (L := 1) (fun _ => 1) (centred false ![1, 0, 0])
      (centred false ((![![1, 1, 0], ![1, 0, 1]] : Fin 2 → Fin 3 → ℝ) j)) := fun j f => by
    rw [residualOne_one, residualOne_one]
    fin_cases j <;> simp [centred, Fin.sum_univ_three] <;> exact sq_nonneg _
  have herr : ∀ i j : Fin 2, i ≠ j → ∑ t ∈ Finset.range (3 + 1 - 1),
      leftOver (L := 1) (fun _ => 1) (centred false ![1, 0, 0]) (centred false ((![![1, 1, 0], ![1, 0, 1]] : Fin 2 → Fin 3 → ℝ) i)) t *
      leftOver (L := 1) (fun _ => 1) (centred false ![1, 0, 0]) (centred false ((![![1, 1, 0], ![1, 0, 1]] : Fin 2 → Fin 3 → ℝ) j)) t = 0 :=
    fun i j hij => by
      unfold leftOver
      simp only [filtered_one]
      fin_cases i <;> fin_cases j <;> simp [centred, zpad, Finset.sum_range_succ] at hij ⊢
  have heq : ∀ i j : Fin 2,
      residualOne (L := 1) (fun _ => 1) (centred false ![1, 0, 0]) (centred false ((![![1, 1, 0], ![1, 0, 1]] : Fin 2 → Fin 3 → ℝ) i)) =
      residualOne (L := 1) (fun _ => 1) (centred false ![1, 0, 0]) (centred false ((![![1, 1, 0], ![1, 0, 1]] : Fin 2 → Fin 3 → ℝ) j)) :=
    fun i j => by
      rw [residualOne_one, residualOne_one]
      fin_cases i <;> fin_cases j <;> simp [centred, Fin.sum_univ_three]
  have := C101_independent_errors (o := siOpts false none none) Ex.covered (Or.inl rfl) rfl rfl (fits_one (by norm_num))
    (a := 1 / 2) (by norm_num) h h' m 0 hy
    (Ex.audible _ 0 (by simp [siOpts, centred, ensemble]; norm_num)) (fun _ => Or.inl hx) (f := fun _ => 1)
    hb herr heq 0 hv
  refine ⟨L, L', h, h', hv, ?_⟩
  rw [this, zero_add]
  norm_num

example : ∃ L L', siSdrLossPair (s := []) torchBackend false none (fun _ => ![![1, 0.1], ![-1, 0.1]]) (fun _ (_ : Fin 1) => ![1, 0]) = .ok L ∧
    siSdrLossPair (s := []) torchBackend false none (ensemble (fun _ => 1) fun _ => ![![1, 0.1], ![-1, 0.1]])
      (fun _ (_ : Fin 1) => ![1, 0]) = .ok L' ∧
    ∀ m, (∀ j, (L m 0 j).neg = fin (20 * Real.logb 10 (1 / 0.1))) ∧ (L' m 0 0).neg = ninf :=
  C101_signs_matter (by norm_num)

end FBE.Props
