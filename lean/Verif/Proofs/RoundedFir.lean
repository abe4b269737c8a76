import Verif.Proofs.RoundedPrep
import Verif.Proofs.Perturb
import Verif.Proofs.Projection
import Verif.Proofs.LeastSquares

/-!
# Rounding errors of the coherence of `sdr_loss`
-/

namespace FBE.Rounded

open Spec Matrix

variable {p N K : ℕ}

/-- The error of the correlations. -/
noncomputable def corrErr (p k : ℕ) (ρ ε : ℝ) : ℝ := 8 * ((k + 4) * ρ * unit p) + 4 * ε

theorem firErr_eq (p k K : ℕ) (ρ ε ε' μ l : ℝ) :
    firErr p k K ρ ε ε' μ l = K * (1 + μ) / l * (6 * corrErr p k ρ ε + 2 * ε') := by
  unfold firErr corrErr unit
  ring

/-- The family of the shifts of the normalised reference. -/
noncomputable def shifts (D K : ℕ) (x : Fin N → ℝ) : Fin K → Space D := fun i => shift D x i

theorem shifts_norm {D : ℕ} (hD : N + K ≤ D + 1) {x : Fin N → ℝ} (hx : sigNorm x = 1) (i : Fin K) : ‖shifts D K x i‖ = 1 := by
  have h := norm_shift_sq D x i (by have := i.isLt; omega)
  have h1 : ∑ t, x t ^ 2 = 1 := by
    have := Real.sq_sqrt (Finset.sum_nonneg fun t (_ : t ∈ Finset.univ) => sq_nonneg (x t))
    rw [← this]
    change sigNorm x ^ 2 = 1
    rw [hx, one_pow]
  rw [h1] at h
  have h0 : (0 : ℝ) ≤ ‖shift D x i‖ := norm_nonneg _
  show ‖shift D x i‖ = 1
  nlinarith

/-- The smallest eigenvalue is at most the diagonal. -/
theorem coercive_le {D : ℕ} (hD : N + K ≤ D + 1) (hK : 1 ≤ K) {x : Fin N → ℝ} (hx : sigNorm x = 1) {μ l : ℝ}
    (h : Coercive (shifts D K x) μ l) : l ≤ 1 + μ := by
  have h1 := h (Pi.single ⟨0, hK⟩ 1)
  rw [gramD_quad] at h1
  have h2 : ∑ i, (Pi.single ⟨0, hK⟩ 1 : Fin K → ℝ) i • shifts D K x i = shifts D K x ⟨0, hK⟩ := by
    rw [Finset.sum_eq_single (⟨0, hK⟩ : Fin K)]
    · simp
    · intro b _ hb; simp [hb]
    · intro hb; exact absurd (Finset.mem_univ _) hb
  rw [h2, shifts_norm hD hx] at h1
  simpa using h1

/-- Constants. -/
theorem corr_bound {k : ℕ} {ρ ε : ℝ} (hp : 11 ≤ p) (hρ : 1 ≤ ρ) (hε : 0 ≤ ε) (hη : corrErr p k ρ ε ≤ 1 / 24) {κ : ℝ}
    (hκ : κ = 3 * ((k + 4) * ρ * unit p) + ε * (1 + 3 * ((k + 4) * ρ * unit p))) :
    2 * κ + κ ^ 2 + 4 * unit p * (1 + κ) ^ 2 + ε * ((1 + 4 * unit p) * (1 + κ) ^ 2) ≤ corrErr p k ρ ε := by
  have hu0 := unit_pos (p := p)
  have hu := unit_le hp
  set u := unit p
  have hk0 : (0 : ℝ) ≤ k := Nat.cast_nonneg _
  unfold corrErr at *
  set A := (k + 4) * ρ * u with hA
  have hA4 : 4 * u ≤ A := by
    rw [hA]
    have : (4 : ℝ) * 1 ≤ (k + 4) * ρ := mul_le_mul (by linarith) hρ (by norm_num) (by linarith)
    have := mul_le_mul_of_nonneg_right this hu0.le
    linarith
  have hA0 : 0 ≤ A := by linarith
  have hA1 : A ≤ 0.0053 := by linarith
  have hε1 : ε ≤ 0.0105 := by linarith
  have hεA : ε * A ≤ ε * 0.0053 := by gcongr
  have hκ1 : κ ≤ 3 * A + 1.016 * ε := by rw [hκ]; linarith
  have hκ0 : 0 ≤ κ := by rw [hκ]; positivity
  have hκ2 : κ ≤ 0.027 := by linarith
  have hκκ : κ ^ 2 ≤ 0.027 * κ := by rw [sq]; gcongr
  have h1 : (1 + κ) ^ 2 ≤ 1.055 := by nlinarith
  have h2 : 4 * u * (1 + κ) ^ 2 ≤ 4 * u * 1.055 := by gcongr
  have h3 : (1 + 4 * u) * (1 + κ) ^ 2 ≤ 1.002 * 1.055 := mul_le_mul (by linarith) h1 (by positivity) (by norm_num)
  have h4 : ε * ((1 + 4 * u) * (1 + κ) ^ 2) ≤ ε * (1.002 * 1.055) := by gcongr
  linarith

/-- The loaded diagonal. -/
theorem loaded_close {E : Machine p} (hp : 11 ≤ p) {acf : ℕ → ℝ} {c η : ℝ} (hη1 : η ≤ 1 / 24) (h0 : |acf 0 - c| ≤ η)
    (hin : |c| ≤ 1) {load : Option ℝ} (hload : 0 ≤ load.getD 0) :
    |loaded E load acf 0 - (c + load.getD 0)| ≤ η + 2.1 * unit p * (1 + load.getD 0) := by
  have hu0 := unit_pos (p := p)
  have hu := unit_le hp
  set a := acf 0
  cases load with
  | none =>
    simp only [loaded]
    have : (none : Option ℝ).getD 0 = 0 := rfl
    rw [this, add_zero]
    refine h0.trans ?_
    nlinarith
  | some d =>
    have hd : (some d).getD 0 = d := rfl
    simp only [loaded, if_pos trivial]
    rw [hd] at hload ⊢
    have e1 : |E.fl d - d| ≤ unit p * |d| := E.fl_nearest.rel d
    rw [abs_of_nonneg hload] at e1
    have e2 : |E.fl (a + E.fl d) - (a + E.fl d)| ≤ unit p * |a + E.fl d| := E.fl_nearest.rel _
    have e3 : |a + E.fl d| ≤ 1.05 + 1.001 * d := by
      have a1 := abs_add_le a (E.fl d)
      have a2 : |a| ≤ |a - c| + |c| := by simpa using abs_add_le (a - c) c
      have a3 : |E.fl d| ≤ |E.fl d - d| + |d| := by simpa using abs_add_le (E.fl d - d) d
      rw [abs_of_nonneg hload] at a3
      have a4 : unit p * d ≤ 1 / 2048 * d := by gcongr
      linarith
    have e4 : unit p * |a + E.fl d| ≤ unit p * (1.05 + 1.001 * d) := by gcongr
    have e5 : |E.fl (a + E.fl d) - (c + d)| ≤ |E.fl (a + E.fl d) - (a + E.fl d)| + (|a - c| + |E.fl d - d|) := by
      have : E.fl (a + E.fl d) - (c + d) = (E.fl (a + E.fl d) - (a + E.fl d)) + ((a - c) + (E.fl d - d)) := by ring
      rw [this]
      exact (abs_add_le _ _).trans (by gcongr; exact abs_add_le _ _)
    have e6 : 0 ≤ unit p * d := by positivity
    calc _ ≤ unit p * (1.05 + 1.001 * d) + (η + unit p * d) := by linarith
      _ ≤ _ := by nlinarith

theorem loaded_pos {E : Machine p} (load : Option ℝ) (acf : ℕ → ℝ) {t : ℕ} (ht : t ≠ 0) : loaded E load acf t = acf t := by
  cases load with
  | none => rfl
  | some d => simp only [loaded, if_neg ht]

/-- Entries of the Toeplitz matrix. -/
theorem toeplitz_close {E : Machine p} (hp : 11 ≤ p) {D n : ℕ} {x : Fin N → ℝ} (hx : sigNorm x = 1)
    (hD : N + K ≤ D + 1) (hF : Fam N N K n (fun x i => shift D x i) (fun y => shift D y 0))
    {acf : ℕ → ℝ} {η : ℝ} (hη1 : η ≤ 1 / 24) (hacf : ∀ t < K, |acf t - circ n x x t| ≤ η)
    {load : Option ℝ} (hload : 0 ≤ load.getD 0) (i j : Fin K) :
    |flToeplitz K (loaded E load acf) i j - gramD (shifts D K x) (load.getD 0) i j| ≤
        η + 2.1 * unit p * (1 + load.getD 0) ∧
      |gramD (shifts D K x) (load.getD 0) i j| ≤ 1 + load.getD 0 := by
  have hu0 := unit_pos (p := p)
  have hu := unit_le hp
  set μ := load.getD 0 with hμ
  have hη0 : 0 ≤ η := (abs_nonneg _).trans (hacf 0 (by have := i.isLt; omega))
  have hent : gramD (shifts D K x) μ i j = inner ℝ (shift D x i) (shift D x j) + if i = j then μ else 0 := by
    unfold gramD
    rw [Matrix.add_apply, Matrix.smul_apply, Matrix.one_apply]
    congr 1
    split <;> simp
  have hin : |inner ℝ (shift D x i) (shift D x j)| ≤ 1 := by
    have := abs_real_inner_le_norm (shift D x i) (shift D x j)
    have a1 : ‖shift D x i‖ = 1 := shifts_norm hD hx i
    have a2 : ‖shift D x j‖ = 1 := shifts_norm hD hx j
    rwa [a1, a2, mul_one] at this
  refine ⟨?_, ?_⟩
  · rw [hent]
    unfold flToeplitz
    by_cases hij : i = j
    · subst hij
      rw [if_pos le_rfl, if_pos rfl, Nat.sub_self]
      have hg := hF.gram x x i i le_rfl i.isLt
      rw [Nat.sub_self] at hg
      rw [hg]
      rw [hg] at hin
      have h0 := hacf 0 (by have := i.isLt; omega)
      exact loaded_close hp hη1 h0 hin hload
    · have hnz : ∀ t, t ≠ 0 → loaded E load acf t = acf t := fun t ht => by
        cases load with
        | none => rfl
        | some d => simp only [loaded, if_neg ht]
      have hvij : i.val ≠ j.val := fun h => hij (Fin.ext h)
      have hpos : 0 ≤ 2.1 * unit p * (1 + μ) := by positivity
      rw [if_neg hij, add_zero]
      have hgoal : ∀ a c : ℕ, a < c → c < K → |loaded E load acf (c - a) - circ n x x (c - a)| ≤ η + 2.1 * unit p * (1 + μ) :=
        fun a c hac hc => by
          rw [hnz _ (by omega)]
          linarith [hacf (c - a) (by omega)]
      by_cases hle : i ≤ j
      · rw [if_pos hle, hF.gram x x i j hle j.isLt]
        exact hgoal i j (by have : i.val ≤ j.val := hle; omega) j.isLt
      · rw [if_neg hle, real_inner_comm, hF.gram x x j i (by have : ¬ i.val ≤ j.val := hle; omega) i.isLt]
        exact hgoal j i (by have : ¬ i.val ≤ j.val := hle; omega) i.isLt
  · rw [hent]
    refine (abs_add_le _ _).trans (add_le_add hin ?_)
    split
    · rw [abs_of_nonneg hload]
    · rw [abs_zero]; exact hload

/-- Constants. -/
theorem solve_const {n m l η e : ℝ} (hn1 : 1 ≤ n) (hm1 : 1 ≤ m) (hl : 0 < l) (hl1 : l ≤ m) (hη0 : 0 ≤ η) (he : 0 ≤ e)
    (hδ : n * m / l * (6 * η + 2 * e) ≤ 1 / 4) :
    1 ≤ n * m / l ∧ η ≤ 1 / 24 ∧ n * (m * (1.07 * η + 1.05 * e)) ≤ l / 6 ∧ √n * η ≤ √l / 24 ∧ √n / √l ≤ n * m / l := by
  have hC1 : 1 ≤ n * m / l := by
    rw [le_div_iff₀ hl, one_mul]
    nlinarith
  have h1 : n * m * (6 * η + 2 * e) ≤ l / 4 := by
    rw [div_mul_eq_mul_div, div_le_iff₀ hl] at hδ
    linarith
  obtain ⟨C, hC⟩ : ∃ C, n * m / l = C := ⟨_, rfl⟩
  have hr0 : 0 < √l := Real.sqrt_pos.2 hl
  have hsC : √n / √l ≤ C := by
    rw [← Real.sqrt_div (by linarith), Real.sqrt_le_left (by linarith)]
    have h1 : n / l ≤ n * m / l := by gcongr; nlinarith
    rw [hC] at h1 hC1
    calc n / l ≤ C := h1
      _ ≤ C ^ 2 := by rw [sq]; exact le_mul_of_one_le_left (by linarith) hC1
  rw [hC] at hδ hC1 ⊢
  refine ⟨hC1, ?_, ?_, ?_, hsC⟩
  · have : 1 * (6 * η) ≤ C * (6 * η + 2 * e) := mul_le_mul hC1 (by linarith) (by positivity) (by linarith)
    linarith
  · have h2 : n * (m * (1.07 * η + 1.05 * e)) = n * m * (1.07 * η + 1.05 * e) := by ring
    have h3 : n * m * (1.07 * η + 1.05 * e) ≤ n * m * (0.6 * (6 * η + 2 * e)) := by
      gcongr
      linarith
    linarith
  · have h1 : C * (6 * η) ≤ 1 / 4 := by
      have : 0 ≤ C * (2 * e) := by positivity
      linarith
    have h2 : √n / √l * (6 * η) ≤ 1 / 4 := (mul_le_mul_of_nonneg_right hsC (by positivity)).trans h1
    rw [div_mul_eq_mul_div, div_le_iff₀ hr0] at h2
    linarith

/-- One entry of the matrix that is solved for. -/
theorem entry_close {η u m e a b d : ℝ} (hη0 : 0 ≤ η) (hm1 : 1 ≤ m) (hu32 : 32 * u ≤ η) (hη1 : η ≤ 1 / 24)
    (h : |a - b| ≤ η + 2.1 * u * m) (hb : |b| ≤ m) (hd : |a| ≤ 1.05 * m → |d| ≤ e * (1.05 * m)) :
    |(a - b) + d| ≤ m * (1.07 * η + 1.05 * e) := by
  have h5 : η ≤ m * η := le_mul_of_one_le_left hη0 hm1
  have h6 : u * m ≤ η / 32 * m := by gcongr; linarith
  have h7 : η * m ≤ 1 / 24 * m := by gcongr
  have h1 : |a| ≤ 1.05 * m := by
    have := abs_add_le (a - b) b
    rw [sub_add_cancel] at this
    linarith
  have h4 := abs_add_le (a - b) d
  have h2 := hd h1
  linarith

/-- The coherence from computed correlations. -/
theorem solve_close {A : Accuracy} {J : Type} [Fintype J] [DecidableEq J] {D : ℕ} {v : J → Space D} (hv : ∀ i, ‖v i‖ ≤ 1)
    {y : Space D} (hy : ‖y‖ ≤ 1) {μ l : ℝ} (hμ : 0 ≤ μ) (hl : 0 < l) (hl1 : l ≤ 1 + μ) (hco : Coercive v μ l)
    {η : ℝ} (hη0 : 0 ≤ η) (hku : 8 * (A.k * unit p) ≤ η) (hu32 : 32 * unit p ≤ η)
    {n : ℝ} (hn : (Fintype.card J : ℝ) = n) (hn1 : 1 ≤ n)
    (hδ : n * (1 + μ) / l * (6 * η + 2 * A.solve) ≤ 1 / 4)
    {M : Matrix J J ℝ} {b s : J → ℝ}
    (hM : ∀ i j, |M i j - gramD v μ i j| ≤ η + 2.1 * unit p * (1 + μ)) (hM1 : ∀ i j, |gramD v μ i j| ≤ 1 + μ)
    (hb : ∀ i, |b i - coeffs v y i| ≤ η) (hs : IsSolve A M b s)
    {c : ℝ} (hc : |c - ∑ i, b i * s i| ≤ 1.01 * (A.k * unit p) * ∑ i, |b i * s i|) :
    |c - quad v μ y| ≤ n * (1 + μ) / l * (6 * η + 2 * A.solve) := by
  have hu0 := unit_pos (p := p)
  have hμ1 : 1 ≤ 1 + μ := by linarith
  have hs0 := A.solve_nonneg
  obtain ⟨hC1, hη1, hα, hβ, hsC⟩ := solve_const hn1 hμ1 hl hl1 hη0 hs0 hδ
  obtain ⟨Δ, hΔ, hΔb⟩ := hs
  have hMb : ∀ i j, |M i j| ≤ 1.05 * (1 + μ) := fun i j => by
    have h5 : 1 / 24 ≤ (1 + μ) / 24 := by linarith
    have h6 : unit p * (1 + μ) ≤ η / 32 * (1 + μ) := by gcongr; linarith
    have h7 : η * (1 + μ) ≤ 1 / 24 * (1 + μ) := by gcongr
    have := abs_add_le (M i j - gramD v μ i j) (gramD v μ i j)
    rw [sub_add_cancel] at this
    linarith [hM i j, hM1 i j]
  have hent : ∀ i j, |(M + Δ - gramD v μ) i j| ≤ (1 + μ) * (1.07 * η + 1.05 * A.solve) := fun i j => by
    have h3 : (M + Δ - gramD v μ) i j = (M i j - gramD v μ i j) + Δ i j := by
      rw [Matrix.sub_apply, Matrix.add_apply]; ring
    rw [h3]
    exact entry_close hη0 hμ1 hu32 hη1 (hM i j) (hM1 i j) fun _ => hΔb _ hMb i j
  have ha0 : 0 ≤ (1 + μ) * (1.07 * η + 1.05 * A.solve) := by positivity
  have hr0 : 0 < √l := Real.sqrt_pos.2 hl
  have hsn0 : 0 ≤ √n := Real.sqrt_nonneg _
  have hb' : nrm (b - coeffs v y) ≤ √n * η := by
    have := nrm_le_of_abs_le (e := b - coeffs v y) hη0 hb
    rwa [hn] at this
  obtain ⟨q1, q2⟩ := quad_perturbed v hμ hl hco hy hΔ (α := n * ((1 + μ) * (1.07 * η + 1.05 * A.solve))) (β := √n * η)
    (fun u w => by
      have := abs_bilin_le (D := M + Δ - gramD v μ) hent ha0 u w
      rwa [hn] at this) hb' (by positivity) hα hβ
  -- the last sum
  have hb0 : nrm (coeffs v y) ≤ √n * 1 := by
    have := nrm_le_of_abs_le (e := coeffs v y) zero_le_one fun i => by
      refine (abs_real_inner_le_norm _ _).trans ?_
      exact mul_le_one₀ (hv i) (norm_nonneg _) hy
    rwa [hn] at this
  have hbn : nrm b ≤ 1.05 * √n := by
    have h1 := nrm_add_le (b - coeffs v y) (coeffs v y)
    rw [sub_add_cancel] at h1
    have h2 : √n * η ≤ √n * (1 / 24) := by gcongr
    linarith
  have hsum : ∑ i, |b i * s i| ≤ 1.365 * (√n / √l) := by
    have h1 := sum_abs_mul_le b s
    simp only [← abs_mul] at h1
    refine h1.trans ((mul_le_mul hbn q1 (nrm_nonneg _) (by positivity)).trans_eq ?_)
    ring
  have t2 : n * ((1 + μ) * (1.07 * η + 1.05 * A.solve)) / l = n * (1 + μ) / l * (1.07 * η + 1.05 * A.solve) := by ring
  rw [t2] at q2
  have hku0 : 0 ≤ (A.k : ℝ) * unit p := by positivity
  have t3 := abs_sub_le c (b ⬝ᵥ s) (quad v μ y)
  have t1 : √n * η / √l ≤ n * (1 + μ) / l * η := by
    rw [mul_div_right_comm]; gcongr
  have hc' : |c - b ⬝ᵥ s| ≤ 1.01 * (A.k * unit p) * ∑ i, |b i * s i| := hc
  generalize n * (1 + μ) / l = C at *
  have hdot : |c - b ⬝ᵥ s| ≤ 0.18 * (C * η) := by
    refine hc'.trans ?_
    calc 1.01 * (A.k * unit p) * ∑ i, |b i * s i| ≤ 1.01 * (η / 8) * (1.365 * C) := by
          refine mul_le_mul (by linarith) (hsum.trans (by linarith)) (Finset.sum_nonneg fun _ _ => abs_nonneg _) (by positivity)
      _ ≤ _ := by nlinarith [mul_nonneg (by linarith : (0 : ℝ) ≤ C) hη0]
  have t4 : 0 ≤ C * η := by positivity
  have t5 : 0 ≤ C * A.solve := by positivity
  nlinarith

/-- The matrix that is solved for is nonsingular. -/
theorem solve_det {A : Accuracy} {J : Type} [Fintype J] [DecidableEq J] {D : ℕ} {v : J → Space D}
    {μ l : ℝ} (hμ : 0 ≤ μ) (hl : 0 < l) (hl1 : l ≤ 1 + μ) (hco : Coercive v μ l)
    {η : ℝ} (hη0 : 0 ≤ η) (hu32 : 32 * unit p ≤ η)
    {n : ℝ} (hn : (Fintype.card J : ℝ) = n) (hn1 : 1 ≤ n)
    (hδ : n * (1 + μ) / l * (6 * η + 2 * A.solve) ≤ 1 / 4)
    {M : Matrix J J ℝ}
    (hM : ∀ i j, |M i j - gramD v μ i j| ≤ η + 2.1 * unit p * (1 + μ)) (hM1 : ∀ i j, |gramD v μ i j| ≤ 1 + μ) :
    M.det ≠ 0 := by
  have hμ1 : 1 ≤ 1 + μ := by linarith
  have hs0 := A.solve_nonneg
  obtain ⟨hC1, hη1, hα, hβ, hsC⟩ := solve_const hn1 hμ1 hl hl1 hη0 hs0 hδ
  have hent : ∀ i j, |(M - gramD v μ) i j| ≤ (1 + μ) * (1.07 * η) := fun i j => by
    have h := entry_close (d := 0) (e := 0) hη0 hμ1 hu32 hη1 (hM i j) (hM1 i j) fun _ => by simp
    rw [Matrix.sub_apply]
    simpa using h
  intro h0
  obtain ⟨w, hw0, hw⟩ := Matrix.exists_mulVec_eq_zero_iff.2 h0
  have h1 := hco w
  have h2 := abs_bilin_le hent (by positivity) w w
  rw [Matrix.sub_mulVec, hw, zero_sub, dotProduct_neg, abs_neg, hn] at h2
  have h3 : nrm w * nrm w = w ⬝ᵥ w := by rw [← sq, nrm_sq]
  rw [h3] at h2
  have hwp : 0 < w ⬝ᵥ w := by
    rcases (dot_self_nonneg w).lt_or_eq with h | h
    · exact h
    · exact absurd (dotProduct_self_eq_zero.1 h.symm) hw0
  have h4 : l * (w ⬝ᵥ w) ≤ n * ((1 + μ) * (1.07 * η)) * (w ⬝ᵥ w) := h1.trans ((le_abs_self _).trans h2)
  have h5 : l ≤ n * ((1 + μ) * (1.07 * η)) := le_of_mul_le_mul_right h4 hwp
  have h6 : n * (1 + μ) / l * (6 * η) ≤ 1 / 4 := by
    refine le_trans ?_ hδ
    have : 0 ≤ n * (1 + μ) / l := by linarith
    exact mul_le_mul_of_nonneg_left (by linarith) this
  rw [div_mul_eq_mul_div, div_le_iff₀ hl] at h6
  nlinarith

/-- The statistics for several taps. -/
theorem IsStats.close {E : Machine p} {A : Accuracy} (hp : 11 ≤ p) (hK : 2 ≤ K) (hfit : FilterFits N K) {load : Option ℝ}
    (hload : 0 ≤ load.getD 0) {x y x' y' : Fin N → ℝ} (hx : sigNorm x = 1) (hy : sigNorm y = 1) {ρ : ℝ} (hρ : 1 ≤ ρ)
    (hx' : sigNorm (fun t => x' t - x t) ≤ 3 * ((A.k + 4) * ρ * unit p))
    (hy' : sigNorm (fun t => y' t - y t) ≤ 3 * ((A.k + 4) * ρ * unit p))
    (hη1 : corrErr p A.k ρ A.fft ≤ 1 / 24)
    {acf xcorr : ℕ → ℝ} (h : IsStats p A (fftSize N) x' y' acf xcorr) :
    (∀ i j, |flToeplitz K (loaded E load acf) i j - gramD (shifts (N + K - 1) K x) (load.getD 0) i j| ≤
        corrErr p A.k ρ A.fft + 2.1 * unit p * (1 + load.getD 0)) ∧
      (∀ i j, |gramD (shifts (N + K - 1) K x) (load.getD 0) i j| ≤ 1 + load.getD 0) ∧
      (∀ i : Fin K, |xcorr i - coeffs (shifts (N + K - 1) K x) (shift (N + K - 1) y 0) i| ≤ corrErr p A.k ρ A.fft) ∧
      ‖shift (N + K - 1) y 0‖ ≤ 1 := by
  obtain ⟨X, Y, hX, hY, ⟨Zx, hZx, hax⟩, ⟨Zy, hZy, hay⟩⟩ := h
  have hu0 := unit_pos (p := p)
  have hfft := A.fft_nonneg
  set η := corrErr p A.k ρ A.fft with hη
  have hN : 0 < N := by
    rcases Nat.eq_zero_or_pos N with h0 | h0
    · subst h0
      simp [sigNorm] at hx
    · exact h0
  have hfits : K + N ≤ fftSize N + 1 := hfit
  have hn : fftSize N ≠ 0 := by unfold fftSize; positivity
  have hNn : N ≤ fftSize N := by omega
  have hF : Fam N N K (fftSize N) (fun x i => shift (N + K - 1) x i) (fun y => shift (N + K - 1) y 0) :=
    fam_shift hN hfits (by omega) (by omega) (by omega)
  have hbound := corr_bound (k := A.k) hp hρ hfft hη1 rfl
  have c1 : ∀ t < K, |acf t - circ (fftSize N) x x t| ≤ η := fun t ht =>
    (corr_close hu0.le hn hNn hX hX hZx hax hx.le hx.le hx' hx' le_rfl (by omega)).trans hbound
  have c2 : ∀ t < K, |xcorr t - circ (fftSize N) x y t| ≤ η := fun t ht =>
    (corr_close hu0.le hn hNn hX hY hZy hay hx.le hy.le hx' hy' le_rfl (by omega)).trans hbound
  have hD : N + K ≤ N + K - 1 + 1 := by omega
  have hT := fun i j => toeplitz_close (E := E) hp hx hD hF hη1 c1 hload i j
  refine ⟨fun i j => (hT i j).1, fun i j => (hT i j).2, fun i => ?_, ?_⟩
  · have := c2 i i.isLt
    rw [← hF.cross x y i i.isLt] at this
    exact this
  · have := hF.g_sq hNn y
    have h1 : ∑ t, y t ^ 2 = 1 := by
      have := Real.sq_sqrt (Finset.sum_nonneg fun t (_ : t ∈ Finset.univ) => sq_nonneg (y t))
      rw [← this]
      change sigNorm y ^ 2 = 1
      rw [hy, one_pow]
    rw [h1] at this
    have h0 : (0 : ℝ) ≤ ‖shift (N + K - 1) y 0‖ := norm_nonneg _
    nlinarith

/-- Constants. -/
theorem corrErr_facts {A : Accuracy} {ρ μ l : ℝ} (hK : 1 ≤ K) (hρ : 1 ≤ ρ) (hμ : 0 ≤ μ) (hl : 0 < l) (hl1 : l ≤ 1 + μ)
    (hδ : K * (1 + μ) / l * (6 * corrErr p A.k ρ A.fft + 2 * A.solve) ≤ 1 / 4) :
    0 ≤ corrErr p A.k ρ A.fft ∧ 8 * (A.k * unit p) ≤ corrErr p A.k ρ A.fft ∧ 32 * unit p ≤ corrErr p A.k ρ A.fft ∧
      corrErr p A.k ρ A.fft ≤ 1 / 24 ∧ A.k * unit p ≤ 1 / 100 := by
  have hu0 := unit_pos (p := p)
  set η := corrErr p A.k ρ A.fft with hη
  have hk0 : (0 : ℝ) ≤ A.k := Nat.cast_nonneg _
  have hkρ : (A.k + 4) * unit p ≤ (A.k + 4) * ρ * unit p := by
    have : (A.k + 4 : ℝ) ≤ (A.k + 4) * ρ := le_mul_of_one_le_right (by linarith) hρ
    gcongr
  have hfft := A.fft_nonneg
  have hsol0 := A.solve_nonneg
  have hη8 : 8 * ((A.k + 4) * unit p) ≤ η := by rw [hη]; unfold corrErr; linarith
  have hku0 : 0 ≤ (A.k : ℝ) * unit p := by positivity
  have hη0 : 0 ≤ η := by linarith
  have hK1 : (1 : ℝ) ≤ K := by exact_mod_cast (by omega : 1 ≤ K)
  have hη1 : η ≤ 1 / 24 := by
    have hC1 : 1 ≤ (K : ℝ) * (1 + μ) / l := by
      rw [le_div_iff₀ hl, one_mul]
      nlinarith
    have : 1 * (6 * η) ≤ K * (1 + μ) / l * (6 * η + 2 * A.solve) :=
      mul_le_mul hC1 (by linarith) (by positivity) (by linarith)
    linarith
  exact ⟨hη0, by linarith, by linarith, hη1, by linarith⟩

/-- The coherence for several taps. -/
theorem IsFirCoherence.close {E : Machine p} {A : Accuracy} (hp : 11 ≤ p) (hK : 2 ≤ K) (hfit : FilterFits N K) {load : Option ℝ}
    (hload : 0 ≤ load.getD 0) {x y x' y' : Fin N → ℝ} (hx : sigNorm x = 1) (hy : sigNorm y = 1) {ρ : ℝ} (hρ : 1 ≤ ρ)
    (hx' : sigNorm (fun t => x' t - x t) ≤ 3 * ((A.k + 4) * ρ * unit p))
    (hy' : sigNorm (fun t => y' t - y t) ≤ 3 * ((A.k + 4) * ρ * unit p)) {l : ℝ} (hl : 0 < l) (hl1 : l ≤ 1 + load.getD 0)
    (hco : Coercive (shifts (N + K - 1) K x) (load.getD 0) l) (hδ : firErr p A.k K ρ A.fft A.solve (load.getD 0) l ≤ 1 / 4)
    {coh : ℝ} (h : IsFirCoherence E A K load x' y' coh) :
    |coh - quad (shifts (N + K - 1) K x) (load.getD 0) (shift (N + K - 1) y 0)| ≤
      firErr p A.k K ρ A.fft A.solve (load.getD 0) l := by
  obtain ⟨acf, xcorr, s, hst, hsol, hdot⟩ := h
  rw [firErr_eq] at hδ ⊢
  obtain ⟨f1, f2, f3, f4, f5⟩ := corrErr_facts (by omega) hρ hload hl hl1 hδ
  obtain ⟨g1, g2, g3, g4⟩ := hst.close (E := E) hp hK hfit hload hx hy hρ hx' hy' f4
  have hK1 : (1 : ℝ) ≤ K := by exact_mod_cast (by omega : 1 ≤ K)
  exact solve_close (A := A) (J := Fin K) (v := shifts (N + K - 1) K x) (fun i => (shifts_norm (by omega) hx i).le) g4 hload hl
    hl1 hco f1 f2 f3 (by rw [Fintype.card_fin]) hK1 hδ g1 g2 g3 hsol (hdot.err' (u := unit p) unit_pos.le f5)

/-- The solver does not fail. -/
theorem IsStats.det_ne_zero {E : Machine p} {A : Accuracy} (hp : 11 ≤ p) (hK : 2 ≤ K) (hfit : FilterFits N K) {load : Option ℝ}
    (hload : 0 ≤ load.getD 0) {x y x' y' : Fin N → ℝ} (hx : sigNorm x = 1) (hy : sigNorm y = 1) {ρ : ℝ} (hρ : 1 ≤ ρ)
    (hx' : sigNorm (fun t => x' t - x t) ≤ 3 * ((A.k + 4) * ρ * unit p))
    (hy' : sigNorm (fun t => y' t - y t) ≤ 3 * ((A.k + 4) * ρ * unit p)) {l : ℝ} (hl : 0 < l) (hl1 : l ≤ 1 + load.getD 0)
    (hco : Coercive (shifts (N + K - 1) K x) (load.getD 0) l) (hδ : firErr p A.k K ρ A.fft A.solve (load.getD 0) l ≤ 1 / 4)
    {acf xcorr : ℕ → ℝ} (h : IsStats p A (fftSize N) x' y' acf xcorr) :
    (flToeplitz K (loaded E load acf)).det ≠ 0 := by
  rw [firErr_eq] at hδ
  obtain ⟨f1, f2, f3, f4, f5⟩ := corrErr_facts (by omega) hρ hload hl hl1 hδ
  obtain ⟨g1, g2, g3, g4⟩ := h.close (E := E) hp hK hfit hload hx hy hρ hx' hy' f4
  have hK1 : (1 : ℝ) ≤ K := by exact_mod_cast (by omega : 1 ≤ K)
  exact solve_det (A := A) hload hl hl1 hco f1 f3 (by rw [Fintype.card_fin]) hK1 hδ g1 g2

end FBE.Rounded
