import Verif.Proofs.RoundedStats
import Verif.Proofs.RoundedSi
import Verif.Spec.FirError

/-!
# Rounding errors of mean removal and normalisation
-/

namespace FBE.Rounded

open Spec

variable {p N : ℕ}

theorem sigNorm_mono {x w : Fin N → ℝ} (h : ∀ t, |x t| ≤ w t) : sigNorm x ≤ sigNorm w :=
  Real.sqrt_le_sqrt (Finset.sum_le_sum fun t _ => by
    rw [← sq_abs]; exact pow_le_pow_left₀ (abs_nonneg _) (h t) 2)

theorem sigNorm_smul (a : ℝ) (x : Fin N → ℝ) : sigNorm (fun t => a * x t) = |a| * sigNorm x := by
  unfold sigNorm
  simp only [mul_pow]
  rw [← Finset.mul_sum, Real.sqrt_mul (sq_nonneg _), Real.sqrt_sq_eq_abs]

theorem sigNorm_abs (x : Fin N → ℝ) : sigNorm (fun t => |x t|) = sigNorm x := by
  unfold sigNorm
  simp only [sq_abs]

theorem sigNorm_const (a : ℝ) : sigNorm (fun _ : Fin N => a) = √N * |a| := by
  unfold sigNorm
  rw [Finset.sum_const, Finset.card_univ, Fintype.card_fin, nsmul_eq_mul, Real.sqrt_mul (Nat.cast_nonneg _),
    Real.sqrt_sq_eq_abs]

theorem sigNorm_unitSig {x : Fin N → ℝ} (hx : 0 < sigNorm x) : sigNorm (unitSig x) = 1 := by
  have : unitSig x = fun t => (sigNorm x)⁻¹ * x t := by funext t; unfold unitSig; rw [div_eq_inv_mul]
  rw [this, sigNorm_smul, abs_of_pos (by positivity)]
  field_simp

theorem sum_abs_le_sqrt (x : Fin N → ℝ) : ∑ t, |x t| ≤ √N * sigNorm x := by
  have := Real.sum_mul_le_sqrt_mul_sqrt Finset.univ (fun _ : Fin N => (1 : ℝ)) (fun t => |x t|)
  simpa [sigNorm] using this

/-- Mean removal. -/
theorem IsCentred.close {E : Machine p} {k : ℕ} {zm : Bool} {x x' : Fin N → ℝ} (hp : 11 ≤ p) (h : IsCentred E k zm x x')
    (hS : 0 < sigNorm (centred zm x)) {ρ : ℝ} (hρ : 1 ≤ ρ) (hρx : sigNorm x ≤ ρ * sigNorm (centred zm x))
    (hk : (k + 4) * ρ * unit p ≤ 0.0053) :
    sigNorm (fun t => x' t - centred zm x t) ≤ 1.1 * ((k + 4) * ρ * unit p) * sigNorm (centred zm x) := by
  have hu0 := unit_pos (p := p)
  have hu := unit_le hp
  set u := unit p with hu'
  set S := sigNorm (centred zm x)
  have hk0 : (0 : ℝ) ≤ k := Nat.cast_nonneg _
  have hku : (k + 4) * u ≤ (k + 4) * ρ * u := by
    have : (k + 4 : ℝ) ≤ (k + 4) * ρ := le_mul_of_one_le_right (by linarith) hρ
    gcongr
  cases zm with
  | false =>
    have h' : x' = x := h
    have : (fun t => x' t - centred false x t) = fun _ => (0 : ℝ) := by
      funext t; rw [h']; exact sub_self _
    rw [this, sigNorm_const, abs_zero, mul_zero]
    positivity
  | true =>
    obtain ⟨q, m, hq, hm, hx'⟩ : ∃ q m, IsDot (2 ^ (-p : ℤ)) x (fun _ => 1) k Finset.univ q ∧
      |m - q / N| ≤ 2 * 2 ^ (-p : ℤ) * |q / N| ∧ ∀ t, x' t = E.fl (x t - m) := h
    have hN : 0 < N := by
      rcases Nat.eq_zero_or_pos N with h0 | h0
      · subst h0
        exfalso
        have : S = 0 := by simp [S, sigNorm]
        linarith
      · exact h0
    have hNr : (0 : ℝ) < N := by exact_mod_cast hN
    have hsN : 0 < √(N : ℝ) := Real.sqrt_pos.2 hNr
    have hss : √(N : ℝ) * √(N : ℝ) = N := Real.mul_self_sqrt hNr.le
    have hk0u : (0 : ℝ) ≤ k * u := by positivity
    have hq' := hq.err' (u := u) hu0.le (by linarith)
    simp only [mul_one] at hq'
    set a := (∑ t, |x t|) / N with ha
    have ha0 : 0 ≤ a := div_nonneg (Finset.sum_nonneg fun _ _ => abs_nonneg _) hNr.le
    set M := (∑ t, x t) / N with hM
    have hMa : |M| ≤ a := by
      rw [hM, ha, abs_div, abs_of_pos hNr]
      gcongr
      exact Finset.abs_sum_le_sum_abs _ _
    have h1 : |q / N - M| ≤ 1.01 * (k * u) * a := by
      rw [hM, ← sub_div, abs_div, abs_of_pos hNr, ha, ← mul_div_assoc]
      gcongr
    have h2 : |q / N| ≤ 1.01 * a := by
      have := abs_add_le (q / N - M) M
      rw [sub_add_cancel] at this
      have : 1.01 * (k * u) * a ≤ 0.0054 * a := by gcongr; linarith
      linarith
    have h3 : |m - M| ≤ 1.02 * ((k + 2) * u) * a := by
      have e1 := abs_sub_le m (q / N) M
      have e2 : 2 * u * |q / N| ≤ 2 * u * (1.01 * a) := by gcongr
      have e3 : 0 ≤ k * u * a := by positivity
      have e4 : 0 ≤ u * a := by positivity
      have hm' : |m - q / N| ≤ 2 * u * |q / N| := hm
      nlinarith
    have h4 : √N * a ≤ sigNorm x := by
      rw [ha, ← mul_div_assoc, div_le_iff₀ hNr]
      have := mul_le_mul_of_nonneg_left (sum_abs_le_sqrt x) hsN.le
      calc _ ≤ √N * (√N * sigNorm x) := this
        _ = _ := by rw [← mul_assoc, hss, mul_comm]
    have h5 : ∀ t, |x' t - centred true x t| ≤ u * |centred true x t| + 1.01 * |m - M| := fun t => by
      have e0 : centred true x t = x t - M := rfl
      have e1 := E.fl_nearest.rel (x t - m)
      have e1' : |E.fl (x t - m) - (x t - m)| ≤ u * |x t - m| := e1
      rw [hx' t, e0]
      have e2 : |x t - m| ≤ |x t - M| + |m - M| := by
        have := abs_sub (x t - M) (m - M)
        rwa [sub_sub_sub_cancel_right] at this
      have e3 : |E.fl (x t - m) - (x t - M)| ≤ |E.fl (x t - m) - (x t - m)| + |m - M| := by
        have := abs_sub (E.fl (x t - m) - (x t - m)) (m - M)
        rwa [show E.fl (x t - m) - (x t - m) - (m - M) = E.fl (x t - m) - (x t - M) by ring] at this
      have e4 : u * |x t - m| ≤ u * (|x t - M| + |m - M|) := by gcongr
      have e5 : u * |m - M| ≤ 1 / 2048 * |m - M| := by gcongr
      linarith [abs_nonneg (m - M)]
    have h6 : sigNorm (fun t => x' t - centred true x t) ≤ u * S + √N * (1.01 * |m - M|) := by
      refine (sigNorm_mono h5).trans ((sigNorm_add_le _ _).trans_eq ?_)
      rw [sigNorm_smul, sigNorm_abs, sigNorm_const, abs_of_pos hu0, abs_of_nonneg (by positivity : (0 : ℝ) ≤ 1.01 * |m - M|)]
    have h7 : √N * (1.01 * |m - M|) ≤ 1.0302 * ((k + 2) * u) * (ρ * S) := by
      calc √N * (1.01 * |m - M|) ≤ √N * (1.01 * (1.02 * ((k + 2) * u) * a)) := by gcongr
        _ = 1.0302 * ((k + 2) * u) * (√N * a) := by ring
        _ ≤ 1.0302 * ((k + 2) * u) * (ρ * S) := mul_le_mul_of_nonneg_left (h4.trans hρx) (by positivity)
    have h8 : u * S ≤ ρ * u * S := by
      have : u ≤ ρ * u := le_mul_of_one_le_left hu0.le hρ
      gcongr
    have h9 : 0 ≤ ρ * u * S := by positivity
    have h10 : 0 ≤ (k : ℝ) * (ρ * u * S) := by positivity
    calc _ ≤ u * S + √N * (1.01 * |m - M|) := h6
      _ ≤ ρ * u * S + 1.0302 * ((k + 2) * u) * (ρ * S) := by linarith
      _ ≤ _ := by nlinarith

/-- Both signals scaled to norm one. -/
theorem unitSig_close {x x' : Fin N → ℝ} {ζ : ℝ} (hx : 0 < sigNorm x) (hx' : 0 < sigNorm x')
    (h : sigNorm (fun t => x' t - x t) ≤ ζ * sigNorm x) : sigNorm (fun t => unitSig x' t - unitSig x t) ≤ 2 * ζ := by
  set S := sigNorm x
  set S' := sigNorm x' with hS'
  have h1 : (fun t => unitSig x' t - unitSig x t) =
      fun t => S⁻¹ * (x' t - x t) + (S'⁻¹ - S⁻¹) * x' t := by
    funext t
    show x' t / S' - x t / S = _
    field_simp
    ring
  have h2 : |S - S'| ≤ ζ * S := by
    have a1 := sigNorm_le_of_sub x' x
    have a2 := sigNorm_le_of_sub x x'
    have a3 : sigNorm (fun t => x t - x' t) = sigNorm (fun t => x' t - x t) := by
      have := sigNorm_smul (-1) (fun t => x' t - x t)
      rw [abs_neg, abs_one, one_mul] at this
      rw [← this]
      congr 1
      funext t
      ring
    rw [a3] at a2
    rw [abs_le]
    constructor <;> linarith
  rw [h1]
  refine (sigNorm_add_le _ _).trans ?_
  rw [sigNorm_smul, sigNorm_smul, abs_of_pos (inv_pos.2 hx)]
  have h3 : |S'⁻¹ - S⁻¹| * S' = |S - S'| / S := by
    have : S'⁻¹ - S⁻¹ = (S - S') / (S' * S) := by field_simp
    rw [this, abs_div, abs_of_pos (mul_pos hx' hx)]
    field_simp
  rw [← hS', h3]
  have h4 : |S - S'| / S ≤ ζ := by rw [div_le_iff₀ hx]; exact h2
  have h5 : S⁻¹ * sigNorm (fun t => x' t - x t) ≤ ζ := by
    rw [inv_mul_le_iff₀ hx, mul_comm]; exact h
  linarith

/-- The preprocessed signal. -/
theorem prep_close {E : Machine p} {k : ℕ} {zm : Bool} {x xc x' : Fin N → ℝ} (hp : 11 ≤ p) (hc : IsCentred E k zm x xc)
    (hn : IsNormalized E k xc x') (hS : 3e-6 ≤ sigNorm (centred zm x)) {ρ : ℝ} (hρ : 1 ≤ ρ)
    (hρx : sigNorm x ≤ ρ * sigNorm (centred zm x)) (hk : (k + 4) * ρ * unit p ≤ 0.0053) :
    sigNorm (fun t => x' t - unitSig (centred zm x) t) ≤ 3 * ((k + 4) * ρ * unit p) := by
  have hS0 : 0 < sigNorm (centred zm x) := lt_of_lt_of_le (by norm_num) hS
  have hu0 := unit_pos (p := p)
  have hk0 : (0 : ℝ) ≤ k := Nat.cast_nonneg _
  have h1 := hc.close hp hS0 hρ hρx hk
  set ζ := 1.1 * ((k + 4) * ρ * unit p) with hζ
  have hku : (k + 4) * unit p ≤ (k + 4) * ρ * unit p := by
    have : (k + 4 : ℝ) ≤ (k + 4) * ρ := le_mul_of_one_le_right (by linarith) hρ
    gcongr
  have hS' : 2e-6 ≤ sigNorm xc := by
    have a2 := sigNorm_le_of_sub (centred zm x) xc
    have a3 : sigNorm (fun t => centred zm x t - xc t) = sigNorm (fun t => xc t - centred zm x t) := by
      have := sigNorm_smul (-1) (fun t => xc t - centred zm x t)
      rw [abs_neg, abs_one, one_mul] at this
      rw [← this]
      congr 1
      funext t
      ring
    rw [a3] at a2
    have a4 : ζ * sigNorm (centred zm x) ≤ 0.01 * sigNorm (centred zm x) := by gcongr; linarith
    norm_num at hS ⊢
    linarith
  have hS0' : 0 < sigNorm xc := lt_of_lt_of_le (by norm_num) hS'
  have h2 := unitSig_close hS0 hS0' h1
  have hku0 : (0 : ℝ) ≤ k * unit p := by positivity
  have h3 : sigNorm (fun t => x' t - unitSig xc t) ≤ 0.5306 * ((k + 4) * unit p) := by
    have a1 : ∀ t, |x' t - unitSig xc t| ≤ 0.5306 * ((k + 4) * unit p) * |unitSig xc t| := fun t => by
      refine (hn.close hp (by linarith) hS' t).trans ?_
      refine mul_le_mul_of_nonneg_right ?_ (abs_nonneg _)
      linarith
    refine (sigNorm_mono a1).trans ?_
    rw [sigNorm_smul, sigNorm_abs, sigNorm_unitSig hS0', mul_one, abs_of_nonneg (by positivity)]
  have h4 := sigNorm_add_le (fun t => x' t - unitSig xc t) (fun t => unitSig xc t - unitSig (centred zm x) t)
  simp only [sub_add_sub_cancel] at h4
  linarith

end FBE.Rounded
