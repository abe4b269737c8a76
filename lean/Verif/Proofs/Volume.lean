import Verif.Spec.Volume
import Verif.Proofs.Training

/-!
# Gradients of signals at another volume
-/

namespace FBE

open Classical FBE.Spec FBE.Backward XR

namespace Volume

variable {s : List ℕ} {r e c N M : ℕ} {o : Opts} {b : ℝ}

/-! ### division of extended numbers by a positive number -/

theorem div_add (hb : 0 < b) (x y : XR) : div (add x y) (fin b) = add (div x (fin b)) (div y (fin b)) := by
  cases x <;> cases y <;> simp [div, add, hb.ne', not_lt.2 hb.le, _root_.add_div]

theorem div_neg (hb : 0 < b) (x : XR) : div (neg x) (fin b) = neg (div x (fin b)) := by
  cases x <;> simp [div, neg, hb.ne', not_lt.2 hb.le, _root_.neg_div]

theorem div_signInf (hb : 0 < b) (a : ℝ) : div (signInf a) (fin b) = signInf a := by
  unfold signInf
  split_ifs <;> simp [div, not_lt.2 hb.le]

theorem signInf_div (hb : 0 < b) (a : ℝ) : signInf (a / b) = signInf a := by
  unfold signInf
  simp only [div_pos_iff_of_pos_right hb, div_neg_iff, hb, not_lt.2 hb.le, and_true, and_false, false_or]

theorem mul_div (hb : 0 < b) (x : XR) (a : ℝ) : mul (div x (fin b)) (fin a) = div (mul x (fin a)) (fin b) := by
  cases x with
  | fin x => simp [div, mul, hb.ne', div_mul_eq_mul_div]
  | pinf =>
    have : div pinf (fin b) = pinf := by simp [div, not_lt.2 hb.le]
    rw [this]
    exact (div_signInf hb a).symm
  | ninf =>
    have : div ninf (fin b) = ninf := by simp [div, not_lt.2 hb.le]
    rw [this]
    show neg (signInf a) = div (neg (signInf a)) (fin b)
    rw [div_neg hb, div_signInf hb]
  | nan => simp [div, mul]

theorem mul_fin_div (hb : 0 < b) (x : XR) (a : ℝ) : mul x (fin (a / b)) = div (mul x (fin a)) (fin b) := by
  cases x with
  | fin x => simp [div, mul, hb.ne', mul_div_assoc]
  | pinf => simp [mul, div_signInf hb, signInf_div hb]
  | ninf => simp [mul, div_signInf hb, signInf_div hb, div_neg hb]
  | nan => simp [div, mul]

theorem div_mul (hb : 0 < b) {n : ℝ} (hn : 0 < n) (x : XR) : div x (fin (b * n)) = div (div x (fin n)) (fin b) := by
  have := mul_pos hb hn
  cases x with
  | fin x => simp [div, hb.ne', hn.ne', div_div, mul_comm]
  | _ => simp [div, not_lt.2 hb.le, not_lt.2 hn.le, not_lt.2 this.le]

theorem div_comm (hb : 0 < b) {n : ℝ} (hn : 0 < n) (x : XR) : div (div x (fin b)) (fin n) = div (div x (fin n)) (fin b) := by
  rw [← div_mul hb hn, mul_comm, div_mul hn hb]

theorem div_foldl (hb : 0 < b) (l : List XR) (a : XR) :
    div (l.foldl add a) (fin b) = (l.map fun x => div x (fin b)).foldl add (div a (fin b)) := by
  induction l generalizing a with
  | nil => rfl
  | cons x l ih => rw [List.foldl_cons, ih, List.map_cons, List.foldl_cons, div_add hb]

theorem div_xsum (hb : 0 < b) {n : ℕ} (f : Fin n → XR) : div (xsum f) (fin b) = xsum fun k => div (f k) (fin b) := by
  unfold xsum
  rw [div_foldl hb, List.map_ofFn]
  congr 1
  simp [div, hb.ne']

/-! ### the normalisation -/

theorem normalizeGrad_volume (hb : 0 < b) {x : Fin N → ℝ} (h1 : 1e-6 ≤ sigNorm x) (h2 : 1e-6 ≤ b * sigNorm x) (g : Fin N → XR) (t : Fin N) :
    normalizeGrad (fun t => b * x t) g t = div (normalizeGrad x g t) (fin b) := by
  have hs : √(∑ u, (b * x u) ^ 2) = b * sigNorm x := by
    have := Props.sigNorm_smul b x
    rw [abs_of_pos hb] at this
    exact this
  have hn : 0 < sigNorm x := lt_of_lt_of_le (by norm_num) h1
  have hbn := mul_pos hb hn
  unfold normalizeGrad
  dsimp only
  rw [hs, show √(∑ u, x u ^ 2) = sigNorm x from rfl, max_eq_left h1, max_eq_left h2, if_pos h1, if_pos h2, if_neg hn.ne', if_neg hbn.ne',
    div_add hb, div_mul hb hn, ← mul_div hb, div_xsum hb]
  congr 2
  · congr 1
    funext u
    rw [← mul_fin_div hb]
    congr 2
    field_simp
  · congr 1
    field_simp

theorem meanGrad_div (hb : 0 < b) (g : Fin N → XR) (t : Fin N) :
    meanGrad (fun t => div (g t) (fin b)) t = div (meanGrad g t) (fin b) := by
  have hN : (0 : ℝ) < N := by exact_mod_cast t.pos
  unfold meanGrad
  rw [div_add hb, ← div_comm hb hN, div_xsum hb]
  simp only [div_neg hb]

theorem removeMean_line (x : Fin N → ℝ) (d : ℝ) : removeMean (fun t => b * x t + d) = fun t => b * removeMean x t := by
  funext t
  have hN : (N : ℝ) ≠ 0 := by exact_mod_cast t.pos.ne'
  unfold removeMean
  rw [Finset.sum_add_distrib, ← Finset.mul_sum]
  simp only [Finset.sum_const, Finset.card_univ, Fintype.card_fin, nsmul_eq_mul]
  field_simp
  ring

theorem centred_line {zm : Bool} {d : ℝ} (hd : zm = false → d = 0) {x y : Fin N → ℝ} (h : ∀ t, y t = b * x t + d) :
    centred zm y = fun t => b * centred zm x t := by
  rw [show y = fun t => b * x t + d from funext h]
  cases zm with
  | false =>
    rw [hd rfl]
    funext t
    show b * x t + 0 = b * x t
    rw [add_zero]
  | true => exact removeMean_line x d

variable {zm : Bool} {a : BIdx s → Fin c → ℝ} {x y : Sig s c N}

theorem norm_volume (h : AtVolume zm a x y) (m : BIdx s) (k : Fin c) :
    centred zm (y m k) = (fun t => a m k * centred zm (x m k) t) ∧ 1e-6 ≤ a m k * sigNorm (centred zm (x m k)) := by
  obtain ⟨d, hd, he⟩ := h.eq m k
  have := centred_line hd he
  refine ⟨this, ?_⟩
  have h2 := h.after m k
  rw [this, Props.sigNorm_smul, abs_of_pos (h.pos m k)] at h2
  exact h2

theorem preprocessGrad_volume (h : AtVolume zm a x y) (m : BIdx s) (k : Fin c) (g : Fin N → XR) :
    preprocessGrad zm (y m k) g = fun t => div (preprocessGrad zm (x m k) g t) (fin (a m k)) := by
  obtain ⟨h1, h2⟩ := norm_volume h m k
  have h3 := h.before m k
  have hb := h.pos m k
  funext t
  cases zm with
  | false =>
    show normalizeGrad (y m k) g t = div (normalizeGrad (x m k) g t) _
    rw [show y m k = fun t => a m k * x m k t from h1]
    exact normalizeGrad_volume hb h3 h2 g t
  | true =>
    show meanGrad (normalizeGrad (removeMean (y m k)) g) t = div (meanGrad (normalizeGrad (removeMean (x m k)) g) t) _
    rw [show removeMean (y m k) = fun t => a m k * removeMean (x m k) t from h1, ← meanGrad_div hb]
    congr 1
    funext u
    exact normalizeGrad_volume hb h3 h2 g u

theorem prep_volume (h : AtVolume o.zeroMean a x y) : prep o y = prep o x := by
  funext m k
  obtain ⟨h1, h2⟩ := norm_volume h m k
  have hb := h.pos m k
  have hn : 0 < sigNorm (centred o.zeroMean (x m k)) := lt_of_lt_of_le (by norm_num) (h.before m k)
  rw [prep_eq, prep_eq, h1]
  funext t
  unfold gain
  rw [Props.sigNorm_smul, abs_of_pos hb, max_eq_left h2, max_eq_left (h.before m k)]
  field_simp

end Volume

end FBE
