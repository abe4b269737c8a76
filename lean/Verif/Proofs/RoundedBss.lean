import Verif.Proofs.RoundedFirDoc
import Verif.Model.RoundedBss
import Verif.Spec.BssError

/-!
# Rounding errors of the coherences of `bss_eval_sources`
-/

namespace FBE.Rounded

open Spec Matrix XR

variable {p N K r e : ℕ}

/-- The shifts of all the references. -/
noncomputable abbrev allShifts (D K : ℕ) (x : Fin r → Fin N → ℝ) : Fin K × Fin r → Space D := allFam (fun x i => shift D x i) K x

theorem allShifts_apply (D : ℕ) (x : Fin r → Fin N → ℝ) (a : Fin K × Fin r) : allShifts D K x a = shift D (x a.2) a.1 := rfl

theorem allShifts_norm {D : ℕ} (hD : N + K ≤ D + 1) {x : Fin r → Fin N → ℝ} (hx : ∀ c, sigNorm (x c) = 1) (a : Fin K × Fin r) :
    ‖allShifts D K x a‖ = 1 := shifts_norm (K := K) hD (hx a.2) a.1

theorem sum_smul_allShifts (D : ℕ) (x : Fin r → Fin N → ℝ) (w : Fin K × Fin r → ℝ) (t : Fin D) :
    (∑ a, w a • allShifts D K x a) t = ∑ c, filtered (fun i => w (i, c)) (x c) t := by
  have h : ∑ a, w a • allShifts D K x a = ∑ c, ∑ i, w (i, c) • shifts D K (x c) i := by
    rw [Fintype.sum_prod_type_right]
    rfl
  rw [h]
  have h2 : (∑ c, ∑ i, w (i, c) • shifts D K (x c) i) t = ∑ c, (∑ i, w (i, c) • shifts D K (x c) i) t := by
    simp
  rw [h2]
  exact Finset.sum_congr rfl fun c _ => sum_smul_shifts D (x c) _ t

theorem sum_sq_pairs (w : Fin K × Fin r → ℝ) : ∑ a, w a ^ 2 = ∑ c, ∑ i, w (i, c) ^ 2 := Fintype.sum_prod_type_right _

theorem conditionedAll_coercive {μ l : ℝ} {x : Fin r → Fin N → ℝ} (h : ConditionedAll K μ l x) :
    Coercive (allShifts (N + K - 1) K fun c => unitSig (x c)) μ l := by
  intro w
  have h1 := h fun c i => w (i, c)
  rw [gramD_quad]
  have h2 : ‖∑ a, w a • allShifts (N + K - 1) K (fun c => unitSig (x c)) a‖ ^ 2 =
      ∑ t ∈ Finset.range (N + K - 1), (∑ c, filtered (fun i => w (i, c)) (unitSig (x c)) t) ^ 2 := by
    have := energy_eq_sum (∑ a, w a • allShifts (N + K - 1) K (fun c => unitSig (x c)) a)
    unfold energy at this
    rw [this, Finset.sum_range]
    exact Finset.sum_congr rfl fun t _ => by rw [sum_smul_allShifts]
  have h3 : w ⬝ᵥ w = ∑ c, ∑ i, w (i, c) ^ 2 := by
    rw [← sum_sq_pairs]
    exact Finset.sum_congr rfl fun i _ => (sq _).symm
  rw [h2, h3]
  exact h1

/-- Filters for one reference. -/
theorem conditionedAll_one {μ l : ℝ} {x : Fin r → Fin N → ℝ} (h : ConditionedAll K μ l x) (c : Fin r) : Conditioned K μ l (x c) := by
  intro w
  have h1 := h (Pi.single c w)
  have e1 : ∑ d, ∑ i, (Pi.single c w : Fin r → Fin K → ℝ) d i ^ 2 = ∑ i, w i ^ 2 := by
    rw [Finset.sum_eq_single c]
    · simp
    · intro d _ hd; simp [Pi.single_eq_of_ne hd]
    · intro hd; exact absurd (Finset.mem_univ _) hd
  have e2 : ∀ t, ∑ d, filtered ((Pi.single c w : Fin r → Fin K → ℝ) d) (unitSig (x d)) t = filtered w (unitSig (x c)) t := fun t => by
    rw [Finset.sum_eq_single c]
    · simp
    · intro d _ hd; simp [Pi.single_eq_of_ne hd, filtered]
    · intro hd; exact absurd (Finset.mem_univ _) hd
  simp only [e1, e2] at h1
  exact h1

/-- The least residual of filters for all the references. -/
theorem quad_least_all {μ l : ℝ} (hμ : 0 ≤ μ) (hl : 0 < l) {x : Fin r → Fin N → ℝ} {y : Fin N → ℝ} (hK : 1 ≤ K)
    (h : ConditionedAll K μ l x) (hy : 0 < sigNorm y) : IsLeast (Set.range (regularisedResidualAll (K := K) μ x y))
      (1 - quad (allShifts (N + K - 1) K fun c => unitSig (x c)) μ (shift (N + K - 1) (unitSig y) 0)) := by
  have h1 := quad_least_fam (norm_shift_unit (D := N + K - 1) (by omega) hy) hμ ((conditionedAll_coercive h).det_ne_zero hl)
  have h2 : ∀ w : Fin r → Fin K → ℝ, regularisedResidualAll μ x y w = energy (shift (N + K - 1) (unitSig y) 0 -
      ∑ a : Fin K × Fin r, w a.2 a.1 • allShifts (N + K - 1) K (fun c => unitSig (x c)) a) +
        μ * ∑ a : Fin K × Fin r, w a.2 a.1 ^ 2 := fun w => by
    unfold regularisedResidualAll
    rw [residualAll_eq, sum_sq_pairs fun a => w a.2 a.1]
    rfl
  have h3 : Set.range (regularisedResidualAll (K := K) μ x y) =
      Set.range fun w : Fin K × Fin r → ℝ => energy (shift (N + K - 1) (unitSig y) 0 -
        ∑ a, w a • allShifts (N + K - 1) K (fun c => unitSig (x c)) a) + μ * ∑ a, w a ^ 2 := by
    ext v
    constructor
    · rintro ⟨w, rfl⟩
      exact ⟨fun a => w a.2 a.1, (h2 w).symm⟩
    · rintro ⟨w, rfl⟩
      exact ⟨fun c i => w (i, c), h2 _⟩
  rw [h3]
  exact h1

/-- More references explain more. -/
theorem quad_le_all {μ l : ℝ} (hμ : 0 ≤ μ) (hl : 0 < l) {x : Fin r → Fin N → ℝ} {y : Fin N → ℝ} (hK : 1 ≤ K)
    (h : ConditionedAll K μ l x) (hy : 0 < sigNorm y) (c : Fin r) :
    quad (shifts (N + K - 1) K (unitSig (x c))) μ (shift (N + K - 1) (unitSig y) 0) ≤
      quad (allShifts (N + K - 1) K fun c => unitSig (x c)) μ (shift (N + K - 1) (unitSig y) 0) := by
  have h1 := quad_least_all hμ hl hK h hy
  obtain ⟨w, hw⟩ := (quad_least hμ hl hK (conditionedAll_one h c) hy).1
  have h2 := h1.2 ⟨Pi.single c w, rfl⟩
  have h3 : regularisedResidualAll μ x y (Pi.single c w) = regularisedResidual μ (x c) y w := by
    unfold regularisedResidualAll regularisedResidual residualAll residualOne
    have e1 : ∑ d, ∑ i, (Pi.single c w : Fin r → Fin K → ℝ) d i ^ 2 = ∑ i, w i ^ 2 := by
      rw [Finset.sum_eq_single c]
      · simp
      · intro d _ hd; simp [Pi.single_eq_of_ne hd]
      · intro hd; exact absurd (Finset.mem_univ _) hd
    have e2 : ∀ t, ∑ d, filtered ((Pi.single c w : Fin r → Fin K → ℝ) d) (unitSig (x d)) t = filtered w (unitSig (x c)) t := fun t => by
      rw [Finset.sum_eq_single c]
      · simp
      · intro d _ hd; simp [Pi.single_eq_of_ne hd, filtered]
      · intro hd; exact absurd (Finset.mem_univ _) hd
    simp only [e1, e2]
  rw [h3, hw] at h2
  linarith

theorem quad_all_le {μ l : ℝ} (hμ : 0 ≤ μ) (hl : 0 < l) {x : Fin r → Fin N → ℝ} {y : Fin N → ℝ} (hK : 1 ≤ K)
    (h : ConditionedAll K μ l x) (hy : 0 < sigNorm y) :
    quad (allShifts (N + K - 1) K fun c => unitSig (x c)) μ (shift (N + K - 1) (unitSig y) 0) ≤ 1 := by
  refine quad_le_one_of_norm _ hμ ((conditionedAll_coercive h).det_ne_zero hl) ?_
  have h1 := norm_shift_unit (D := N + K - 1) (by omega) hy
  have h0 : (0 : ℝ) ≤ ‖shift (N + K - 1) (unitSig y) 0‖ := norm_nonneg _
  nlinarith

/-- Entries of the block Toeplitz matrix. -/
theorem block_close {E : Machine p} (hp : 11 ≤ p) {D n : ℕ} {x : Fin r → Fin N → ℝ} (hx : ∀ c, sigNorm (x c) = 1)
    (hD : N + K ≤ D + 1) (hF : Fam N N K n (fun x i => shift D x i) (fun y => shift D y 0))
    {acf : Fin r → Fin r → ℕ → ℝ} {η : ℝ} (hη1 : η ≤ 1 / 24)
    (hacf : ∀ c d, ∀ t < n, |acf c d t - circ n (x d) (x c) t| ≤ η)
    {load : Option ℝ} (hload : 0 ≤ load.getD 0) (a b : Fin K × Fin r) :
    |flBlockToeplitz n K (loadedDiag E load acf) a b - gramD (allShifts D K x) (load.getD 0) a b| ≤
        η + 2.1 * unit p * (1 + load.getD 0) ∧
      |gramD (allShifts D K x) (load.getD 0) a b| ≤ 1 + load.getD 0 := by
  have hu0 := unit_pos (p := p)
  have hKn := hF.K_le
  set μ := load.getD 0 with hμ
  obtain ⟨i, c⟩ := a
  obtain ⟨j, d⟩ := b
  have hi := i.isLt
  have hj := j.isLt
  have hent : gramD (allShifts D K x) μ (i, c) (j, d) = inner ℝ (shift D (x c) i) (shift D (x d) j) +
      if (i, c) = (j, d) then μ else 0 := by
    unfold gramD
    rw [Matrix.add_apply, Matrix.smul_apply, Matrix.one_apply]
    congr 1
    split <;> simp
  have hin : |inner ℝ (shift D (x c) i) (shift D (x d) j)| ≤ 1 := by
    have := abs_real_inner_le_norm (shift D (x c) i) (shift D (x d) j)
    have a1 : ‖shift D (x c) i‖ = 1 := shifts_norm hD (hx c) i
    have a2 : ‖shift D (x d) j‖ = 1 := shifts_norm hD (hx d) j
    rwa [a1, a2, mul_one] at this
  have hpos : 0 ≤ 2.1 * unit p * (1 + μ) := by positivity
  refine ⟨?_, ?_⟩
  · rw [hent]
    unfold flBlockToeplitz
    dsimp only
    by_cases hle : i ≤ j
    · have hle' : i.val ≤ j.val := hle
      rw [if_pos hle]
      have hg := hF.gram (x c) (x d) i j hle' hj
      rw [hg] at hin ⊢
      by_cases hab : (i, c) = (j, d)
      · obtain ⟨rfl, rfl⟩ := Prod.mk.inj hab
        rw [if_pos hab]
        have h0 := hacf c c 0 (by omega)
        rw [Nat.sub_self] at hin ⊢
        unfold loadedDiag
        rw [if_pos rfl]
        exact loaded_close hp hη1 h0 hin hload
      · rw [if_neg hab, add_zero]
        have h0 := hacf c d (j - i) (by omega)
        have : loadedDiag E load acf c d (j - i) = acf c d (j - i) := by
          unfold loadedDiag
          split
          · next hcd =>
            refine loaded_pos _ _ fun h => hab ?_
            subst hcd
            rw [Fin.ext (by omega : i.val = j.val)]
          · rfl
        rw [this]
        linarith
    · have hle' : ¬ i.val ≤ j.val := hle
      rw [if_neg hle]
      have hg := hF.gram (x d) (x c) j i (by omega) hi
      have hab : ¬ (i, c) = (j, d) := fun h => hle (Prod.mk.inj h).1.le
      rw [real_inner_comm, hg, if_neg hab, add_zero, ← circ_swap n (x c) (x d) (i - j) (by omega)]
      have h0 := hacf c d (n - (i - j)) (by omega)
      have : loadedDiag E load acf c d (n - (i - j)) = acf c d (n - (i - j)) := by
        unfold loadedDiag
        split
        · exact loaded_pos _ _ (by omega)
        · rfl
      rw [this]
      linarith
  · rw [hent]
    refine (abs_add_le _ _).trans (add_le_add hin ?_)
    split
    · rw [abs_of_nonneg hload]
    · rw [abs_zero]; exact hload

/-- The statistics. -/
theorem IsStats2.close {A : Accuracy} (hp : 11 ≤ p) (hK : 1 ≤ K) (hfit : FilterFits N K)
    {x x' : Fin r → Fin N → ℝ} {y y' : Fin e → Fin N → ℝ} (hx : ∀ c, sigNorm (x c) = 1) (hy : ∀ j, sigNorm (y j) = 1)
    {ρ : ℝ} (hρ : 1 ≤ ρ)
    (hx' : ∀ c, sigNorm (fun t => x' c t - x c t) ≤ 3 * ((A.k + 4) * ρ * unit p))
    (hy' : ∀ j, sigNorm (fun t => y' j t - y j t) ≤ 3 * ((A.k + 4) * ρ * unit p))
    (hη1 : corrErr p A.k ρ A.fft ≤ 1 / 24)
    {acf : Fin r → Fin r → ℕ → ℝ} {xcorr : Fin r → Fin e → ℕ → ℝ} (h : IsStats2 p A (fftSize N) x' y' acf xcorr) :
    (∀ c d, ∀ t < fftSize N, |acf c d t - circ (fftSize N) (x d) (x c) t| ≤ corrErr p A.k ρ A.fft) ∧
      ∀ c j, ∀ t < fftSize N, |xcorr c j t - circ (fftSize N) (x c) (y j) t| ≤ corrErr p A.k ρ A.fft := by
  obtain ⟨X, Y, hX, hY, hax, hay⟩ := h
  have hu0 := unit_pos (p := p)
  have hfits : K + N ≤ fftSize N + 1 := hfit
  have hn : fftSize N ≠ 0 := by unfold fftSize; positivity
  have hNn : N ≤ fftSize N := by omega
  have hbound := corr_bound (k := A.k) hp hρ A.fft_nonneg hη1 rfl
  refine ⟨fun c d t ht => ?_, fun c j t ht => ?_⟩
  · obtain ⟨Z, h1, h2⟩ := hax c d
    exact (corr_close hu0.le hn hNn (hX d) (hX c) h1 h2 (hx d).le (hx c).le (hx' d) (hx' c) le_rfl ht).trans hbound
  · obtain ⟨Z, h1, h2⟩ := hay c j
    exact (corr_close hu0.le hn hNn (hX c) (hY j) h1 h2 (hx c).le (hy j).le (hx' c) (hy' j) le_rfl ht).trans hbound

theorem IsFirCoherences.one {E : Machine p} {A : Accuracy} {load : Option ℝ} {x : Fin r → Fin N → ℝ} {y : Fin e → Fin N → ℝ}
    {cohSdr : Fin r → Fin e → ℝ} {cohSar : Fin e → ℝ} (h : IsFirCoherences E A K load x y cohSdr cohSar) (c : Fin r) (j : Fin e) :
    IsFirCoherence E A K load (x c) (y j) (cohSdr c j) := by
  obtain ⟨acf, xcorr, ⟨X, Y, hX, hY, hax, hay⟩, h1, -⟩ := h
  obtain ⟨s, h2, h3⟩ := h1 c j
  unfold loadedDiag at h2
  rw [if_pos rfl] at h2
  exact ⟨acf c c, xcorr c j, s, ⟨X c, Y j, hX c, hY j, hax c c, hay c j⟩, h2, h3⟩

/-- The coherence with all the references. -/
theorem IsFirCoherences.sar {E : Machine p} {A : Accuracy} (hp : 11 ≤ p) (hK : 2 ≤ K) (hfit : FilterFits N K) {load : Option ℝ}
    (hload : 0 ≤ load.getD 0) {x x' : Fin r → Fin N → ℝ} {y y' : Fin e → Fin N → ℝ} (hr : 1 ≤ r) (hx : ∀ c, sigNorm (x c) = 1)
    (hy : ∀ j, sigNorm (y j) = 1) {ρ : ℝ} (hρ : 1 ≤ ρ)
    (hx' : ∀ c, sigNorm (fun t => x' c t - x c t) ≤ 3 * ((A.k + 4) * ρ * unit p))
    (hy' : ∀ j, sigNorm (fun t => y' j t - y j t) ≤ 3 * ((A.k + 4) * ρ * unit p)) {l : ℝ} (hl : 0 < l) (hl1 : l ≤ 1 + load.getD 0)
    (hco : Coercive (allShifts (N + K - 1) K x) (load.getD 0) l)
    (hδ : firErr p A.k (K * r) ρ A.fft A.solve (load.getD 0) l ≤ 1 / 4)
    {cohSdr : Fin r → Fin e → ℝ} {cohSar : Fin e → ℝ} (h : IsFirCoherences E A K load x' y' cohSdr cohSar) (j : Fin e) :
    |cohSar j - quad (allShifts (N + K - 1) K x) (load.getD 0) (shift (N + K - 1) (y j) 0)| ≤
      firErr p A.k (K * r) ρ A.fft A.solve (load.getD 0) l := by
  obtain ⟨acf, xcorr, hst, -, h2⟩ := h
  obtain ⟨s, hsol, hdot⟩ := h2 j
  have hKr : 1 ≤ K * r := Nat.one_le_iff_ne_zero.2 (Nat.mul_ne_zero (by omega) (by omega))
  rw [firErr_eq] at hδ ⊢
  obtain ⟨f1, f2, f3, f4, f5⟩ := corrErr_facts hKr hρ hload hl hl1 hδ
  have hN : 0 < N := by
    rcases Nat.eq_zero_or_pos N with h0 | h0
    · subst h0
      have := hx ⟨0, hr⟩
      simp [sigNorm] at this
    · exact h0
  obtain ⟨g1, g2⟩ := hst.close hp (by omega) hfit hx hy hρ hx' hy' f4
  have hfits : K + N ≤ fftSize N + 1 := hfit
  have hF : Fam N N K (fftSize N) (fun x i => shift (N + K - 1) x i) (fun y => shift (N + K - 1) y 0) :=
    fam_shift hN hfits (by omega) (by omega) (by omega)
  have hB := fun a b => block_close (E := E) hp hx (by omega) hF f4 g1 hload a b
  have hK1 : (1 : ℝ) ≤ (K * r : ℕ) := by exact_mod_cast hKr
  have hyn : ‖shift (N + K - 1) (y j) 0‖ ≤ 1 := by
    have := hF.g_sq (by omega) (y j)
    have h1 : ∑ t, y j t ^ 2 = 1 := by
      have := Real.sq_sqrt (Finset.sum_nonneg fun t (_ : t ∈ Finset.univ) => sq_nonneg (y j t))
      rw [← this]
      change sigNorm (y j) ^ 2 = 1
      rw [hy, one_pow]
    rw [h1] at this
    have h0 : (0 : ℝ) ≤ ‖shift (N + K - 1) (y j) 0‖ := norm_nonneg _
    nlinarith
  have hd := hdot.err' (u := unit p) unit_pos.le f5
  rw [Equiv.sum_comp finProdFinEquiv.symm (fun a : Fin K × Fin r => xcorr a.2 j a.1 * s a),
    Equiv.sum_comp finProdFinEquiv.symm (fun a : Fin K × Fin r => |xcorr a.2 j a.1 * s a|)] at hd
  refine solve_close (A := A) (J := Fin K × Fin r) (v := allShifts (N + K - 1) K x)
    (fun a => (allShifts_norm (by omega) hx a).le) hyn hload hl
    hl1 hco f1 f2 f3 (by rw [Fintype.card_prod, Fintype.card_fin, Fintype.card_fin]) hK1 hδ (fun a b => (hB a b).1)
    (fun a b => (hB a b).2) (fun a => ?_) hsol hd
  have := g2 a.2 j a.1 (by have := a.1.isLt; omega)
  rw [← hF.cross (x a.2) (y j) a.1 a.1.isLt] at this
  exact this

theorem IsSolve.one_tap {A : Accuracy} {M : Matrix (Fin r) (Fin r) ℝ} {b s : Fin r → ℝ} (h : IsSolve A M b s) :
    IsSolve A (fun a a' : Fin 1 × Fin r => M a.2 a'.2) (fun a => b a.2) (fun a => s a.2) := by
  obtain ⟨D, h1, h2⟩ := h
  refine ⟨fun a a' => D a.2 a'.2, ?_, fun B hB a a' => h2 B (fun i j => hB (0, i) (0, j)) a.2 a'.2⟩
  funext a
  have := congrFun h1 a.2
  rw [← this]
  unfold mulVec dotProduct
  rw [Fintype.sum_prod_type, Fin.sum_univ_one]
  rfl

theorem inner_shift_zero (u w : Fin N → ℝ) : inner ℝ (shift (N + 1 - 1) u 0) (shift (N + 1 - 1) w 0) = ∑ t, u t * w t := by
  rw [inner_shift _ u w 0 0 le_rfl (by omega)]
  unfold corr
  refine Finset.sum_congr rfl fun t _ => ?_
  rw [Nat.sub_self, Nat.add_zero, zpad_val, mul_comm]

/-- Entries of the correlation matrix. -/
theorem oneTap_entries {A : Accuracy} {x x' : Fin r → Fin N → ℝ} (hx : ∀ c, sigNorm (x c) = 1) {ρ : ℝ} (hρ : 1 ≤ ρ)
    (hx' : ∀ c, sigNorm (fun t => x' c t - x c t) ≤ 3 * ((A.k + 4) * ρ * unit p)) (hB : (A.k + 4) * ρ * unit p ≤ 0.0053)
    {acm : Matrix (Fin r) (Fin r) ℝ} (ha : ∀ c d, IsDot (2 ^ (-p : ℤ)) (x' c) (x' d) A.k Finset.univ (acm c d))
    (a b : Fin 1 × Fin r) :
    |acm a.2 b.2 - gramD (allShifts (N + 1 - 1) 1 x) 0 a b| ≤ corrErr p A.k ρ A.fft + 2.1 * unit p * (1 + 0) ∧
      |gramD (allShifts (N + 1 - 1) 1 x) 0 a b| ≤ 1 + 0 := by
  have hu0 := unit_pos (p := p)
  have hk0 : (0 : ℝ) ≤ A.k := Nat.cast_nonneg _
  have hkρ : (A.k + 4) * unit p ≤ (A.k + 4) * ρ * unit p := by
    have : (A.k + 4 : ℝ) ≤ (A.k + 4) * ρ := le_mul_of_one_le_right (by linarith) hρ
    gcongr
  have h7 : 7.11 * ((A.k + 4) * ρ * unit p) ≤ corrErr p A.k ρ A.fft := by
    unfold corrErr
    have := A.fft_nonneg
    have : 0 ≤ (A.k + 4) * ρ * unit p := by positivity
    linarith
  have hg : gramD (allShifts (N + 1 - 1) 1 x) 0 a b = ∑ t, x a.2 t * x b.2 t := by
    rw [gramD_zero, ← inner_shift_zero]
    have e1 : (a.1 : ℕ) = 0 := by omega
    have e2 : (b.1 : ℕ) = 0 := by omega
    show inner ℝ (shift (N + 1 - 1) (x a.2) a.1) (shift (N + 1 - 1) (x b.2) b.1) = _
    rw [e1, e2]
  rw [hg]
  refine ⟨?_, ?_⟩
  · have := dot_close (hx a.2) (hx b.2) hkρ hB (hx' a.2) (hx' b.2) (ha a.2 b.2)
    linarith
  · have := sum_mul_le_sigNorm (x a.2) (x b.2)
    rw [hx, hx] at this
    linarith

theorem IsOneTapCoherences.sar {E : Machine p} {A : Accuracy} {x x' : Fin r → Fin N → ℝ} {y y' : Fin e → Fin N → ℝ} (hr : 1 ≤ r)
    (hx : ∀ c, sigNorm (x c) = 1) (hy : ∀ j, sigNorm (y j) = 1) {ρ : ℝ} (hρ : 1 ≤ ρ)
    (hx' : ∀ c, sigNorm (fun t => x' c t - x c t) ≤ 3 * ((A.k + 4) * ρ * unit p))
    (hy' : ∀ j, sigNorm (fun t => y' j t - y j t) ≤ 3 * ((A.k + 4) * ρ * unit p)) {l : ℝ} (hl : 0 < l) (hl1 : l ≤ 1 + 0)
    (hco : Coercive (allShifts (N + 1 - 1) 1 x) 0 l)
    (hδ : firErr p A.k (1 * r) ρ A.fft A.solve 0 l ≤ 1 / 4) (hB : (A.k + 4) * ρ * unit p ≤ 0.0053)
    {cohSdr : Fin r → Fin e → ℝ} {cohSar : Fin e → ℝ} (h : IsOneTapCoherences E A x' y' cohSdr cohSar) (j : Fin e) :
    |cohSar j - quad (allShifts (N + 1 - 1) 1 x) 0 (shift (N + 1 - 1) (y j) 0)| ≤
      firErr p A.k (1 * r) ρ A.fft A.solve 0 l := by
  obtain ⟨-, acm, xcorr, ha, hc, h2⟩ := h
  obtain ⟨s, hsol, hdot⟩ := h2 j
  have hKr : 1 ≤ 1 * r := by omega
  rw [firErr_eq] at hδ ⊢
  obtain ⟨f1, f2, f3, f4, f5⟩ := corrErr_facts hKr hρ le_rfl hl hl1 hδ
  have hK1 : (1 : ℝ) ≤ (1 * r : ℕ) := by exact_mod_cast hKr
  have hu0 := unit_pos (p := p)
  have hk0 : (0 : ℝ) ≤ A.k := Nat.cast_nonneg _
  have hkρ : (A.k + 4) * unit p ≤ (A.k + 4) * ρ * unit p := by
    have : (A.k + 4 : ℝ) ≤ (A.k + 4) * ρ := le_mul_of_one_le_right (by linarith) hρ
    gcongr
  have h7 : 7.11 * ((A.k + 4) * ρ * unit p) ≤ corrErr p A.k ρ A.fft := by
    unfold corrErr
    have := A.fft_nonneg
    have : 0 ≤ (A.k + 4) * ρ * unit p := by positivity
    linarith
  have hyn : ‖shift (N + 1 - 1) (y j) 0‖ ≤ 1 := (shifts_norm (K := 1) (by omega) (hy j) 0).le
  have hd := hdot.err' (u := unit p) unit_pos.le f5
  have hent := oneTap_entries hx hρ hx' hB ha
  have e1 : ∀ f : Fin r → ℝ, ∑ c, f c = ∑ a : Fin 1 × Fin r, f a.2 := fun f => by
    rw [Fintype.sum_prod_type, Fin.sum_univ_one]
  rw [e1, e1] at hd
  refine solve_close (A := A) (J := Fin 1 × Fin r) (v := allShifts (N + 1 - 1) 1 x)
    (fun a => (allShifts_norm (by omega) hx a).le) hyn le_rfl hl
    hl1 hco f1 f2 f3 (by rw [Fintype.card_prod, Fintype.card_fin, Fintype.card_fin]) hK1 hδ (fun a b => (hent a b).1)
    (fun a b => (hent a b).2) (fun a => ?_) hsol.one_tap hd
  have := dot_close (hx a.2) (hy j) hkρ hB (hx' a.2) (hy' j) (hc a.2 j)
  have e3 : coeffs (allShifts (N + 1 - 1) 1 x) (shift (N + 1 - 1) (y j) 0) a = ∑ t, x a.2 t * y j t := by
    rw [← inner_shift_zero]
    have e1 : (a.1 : ℕ) = 0 := by omega
    show inner ℝ (shift (N + 1 - 1) (x a.2) a.1) (shift (N + 1 - 1) (y j) 0) = _
    rw [e1]
  rw [e3]
  linarith

/-- The block Toeplitz matrix is nonsingular. -/
theorem IsStats2.det_ne_zero {E : Machine p} {A : Accuracy} (hp : 11 ≤ p) (hK : 2 ≤ K) (hfit : FilterFits N K) {load : Option ℝ}
    (hload : 0 ≤ load.getD 0) {x x' : Fin r → Fin N → ℝ} {y y' : Fin e → Fin N → ℝ} (hr : 1 ≤ r) (hx : ∀ c, sigNorm (x c) = 1)
    (hy : ∀ j, sigNorm (y j) = 1) {ρ : ℝ} (hρ : 1 ≤ ρ)
    (hx' : ∀ c, sigNorm (fun t => x' c t - x c t) ≤ 3 * ((A.k + 4) * ρ * unit p))
    (hy' : ∀ j, sigNorm (fun t => y' j t - y j t) ≤ 3 * ((A.k + 4) * ρ * unit p)) {l : ℝ} (hl : 0 < l) (hl1 : l ≤ 1 + load.getD 0)
    (hco : Coercive (allShifts (N + K - 1) K x) (load.getD 0) l)
    (hδ : firErr p A.k (K * r) ρ A.fft A.solve (load.getD 0) l ≤ 1 / 4)
    {acf : Fin r → Fin r → ℕ → ℝ} {xcorr : Fin r → Fin e → ℕ → ℝ} (hst : IsStats2 p A (fftSize N) x' y' acf xcorr) :
    (flBlockToeplitz (fftSize N) K (loadedDiag E load acf)).det ≠ 0 := by
  have hKr : 1 ≤ K * r := Nat.one_le_iff_ne_zero.2 (Nat.mul_ne_zero (by omega) (by omega))
  rw [firErr_eq] at hδ
  obtain ⟨f1, f2, f3, f4, f5⟩ := corrErr_facts hKr hρ hload hl hl1 hδ
  have hN : 0 < N := by
    rcases Nat.eq_zero_or_pos N with h0 | h0
    · subst h0
      have := hx ⟨0, hr⟩
      simp [sigNorm] at this
    · exact h0
  obtain ⟨g1, g2⟩ := hst.close hp (by omega) hfit hx hy hρ hx' hy' f4
  have hfits : K + N ≤ fftSize N + 1 := hfit
  have hF : Fam N N K (fftSize N) (fun x i => shift (N + K - 1) x i) (fun y => shift (N + K - 1) y 0) :=
    fam_shift hN hfits (by omega) (by omega) (by omega)
  have hB := fun a b => block_close (E := E) hp hx (by omega) hF f4 g1 hload a b
  have hK1 : (1 : ℝ) ≤ (K * r : ℕ) := by exact_mod_cast hKr
  exact solve_det (A := A) hload hl hl1 hco f1 f3 (by rw [Fintype.card_prod, Fintype.card_fin, Fintype.card_fin]) hK1 hδ
    (fun a b => (hB a b).1) (fun a b => (hB a b).2)

/-- The correlation matrix is nonsingular. -/
theorem oneTap_det {A : Accuracy} {x x' : Fin r → Fin N → ℝ} (hr : 1 ≤ r) (hx : ∀ c, sigNorm (x c) = 1) {ρ : ℝ} (hρ : 1 ≤ ρ)
    (hx' : ∀ c, sigNorm (fun t => x' c t - x c t) ≤ 3 * ((A.k + 4) * ρ * unit p)) {l : ℝ} (hl : 0 < l) (hl1 : l ≤ 1 + 0)
    (hco : Coercive (allShifts (N + 1 - 1) 1 x) 0 l)
    (hδ : firErr p A.k (1 * r) ρ A.fft A.solve 0 l ≤ 1 / 4) (hB : (A.k + 4) * ρ * unit p ≤ 0.0053)
    {acm : Matrix (Fin r) (Fin r) ℝ} (ha : ∀ c d, IsDot (2 ^ (-p : ℤ)) (x' c) (x' d) A.k Finset.univ (acm c d)) : acm.det ≠ 0 := by
  have hKr : 1 ≤ 1 * r := by omega
  rw [firErr_eq] at hδ
  obtain ⟨f1, f2, f3, f4, f5⟩ := corrErr_facts hKr hρ le_rfl hl hl1 hδ
  have hK1 : (1 : ℝ) ≤ (1 * r : ℕ) := by exact_mod_cast hKr
  have hent := oneTap_entries hx hρ hx' hB ha
  have h1 := solve_det (A := A) (M := acm.submatrix (Equiv.uniqueProd (Fin r) (Fin 1)) (Equiv.uniqueProd (Fin r) (Fin 1)))
    le_rfl hl hl1 hco f1 f3 (by rw [Fintype.card_prod, Fintype.card_fin, Fintype.card_fin]) hK1 hδ
    (fun a b => (hent a b).1) (fun a b => (hent a b).2)
  rwa [Matrix.det_submatrix_equiv_self] at h1

end FBE.Rounded
