import Verif.Model.Rounded

/-!
# The scale-invariant SDR in floating point arithmetic

`filter_length=1`, `zero_mean=False`, `load_diag=None`: all roundings from the samples to the decibel value.  The
computations are relations, because neither numpy nor torch fixes the order of the summations, and both may use
fused multiply-add instructions or a wider accumulator.

Simplifications: as in `Model/Rounded.lean` the range of exponents is not bounded; signals have at least one sample;
one pair of a reference `x` and an estimate `y`.
-/

namespace FBE.Rounded

open XR

/-- `IsDot u x y k A a`: the number `a` is a possible result of summing the products `x t * y t` over the samples `t`
in `A`, in any order, every operation with a relative error of at most `u`, and with no sample passing through more than
`k` operations.  `np.einsum`, `torch.einsum`, and the sum of squares in `np.linalg.norm` and `Tensor.norm`
(numpy/metrics.py:56-62, torch/metrics.py:51-57, numpy/helpers.py:45, torch/helpers.py:37). -/
inductive IsDot {n : ℕ} (u : ℝ) (x y : Fin n → ℝ) : ℕ → Finset (Fin n) → ℝ → Prop
  /-- a rounded product -/
  | prod (t : Fin n) (a : ℝ) (h : |a - x t * y t| ≤ u * |x t * y t|) : IsDot u x y 1 {t} a
  /-- a fused multiply-add -/
  | fma {k : ℕ} {A : Finset (Fin n)} {b : ℝ} (t : Fin n) (a : ℝ) (ht : t ∉ A) (hb : IsDot u x y k A b)
      (h : |a - (x t * y t + b)| ≤ u * |x t * y t + b|) : IsDot u x y (k + 1) (insert t A) a
  /-- the sum of two partial sums -/
  | add {k l : ℕ} {A B : Finset (Fin n)} {b c : ℝ} (a : ℝ) (hAB : Disjoint A B) (hb : IsDot u x y k A b)
      (hc : IsDot u x y l B c) (h : |a - (b + c)| ≤ u * |b + c|) : IsDot u x y (max k l + 1) (A ∪ B) a
  /-- `k` is an upper bound -/
  | mono {k l : ℕ} {A : Finset (Fin n)} {a : ℝ} (hkl : k ≤ l) (ha : IsDot u x y k A a) : IsDot u x y l A a

variable {p n : ℕ}

/-- numpy/helpers.py:42-46, torch/helpers.py:34-38, `_normalize`: `x / clamp(norm(x), min=1e-6)`.  The square root has
a relative error of at most one unit. -/
def IsNormalized (E : Machine p) (k : ℕ) (x x' : Fin n → ℝ) : Prop :=
  ∃ q v, IsDot (2 ^ (-p : ℤ)) x x k Finset.univ q ∧ |v - √q| ≤ 2 ^ (-p : ℤ) * √q ∧
    ∀ t, x' t = E.fl (x t / max v (E.fl 1e-6))

/-- numpy/metrics.py:37-75, torch/metrics.py:32-73, `square_cosine_metrics_length_one_filter` with
`with_coh_sar=False`: one pair of a reference and an estimate. -/
def IsCoherence (E : Machine p) (k : ℕ) (x y : Fin n → ℝ) (coh : ℝ) : Prop :=
  ∃ x' y' c, IsNormalized E k x x' ∧ IsNormalized E k y y' ∧
    IsDot (2 ^ (-p : ℤ)) x' y' k Finset.univ c ∧ coh = E.fl (c * c)

/-- numpy/scale_invariant.py:7-21, torch/scale_invariant.py:7-21, `si_sdr_loss`: `v` is a possible result for the estimate
`y` of the reference `x`. -/
def IsSiSdrLoss (E : Machine p) (k : ℕ) (clampDb : Option ℝ) (y x : Fin n → ℝ) (v : XR) : Prop :=
  ∃ coh, IsCoherence E k x y coh ∧ v = coherenceToNegSdr E clampDb (fin coh)

end FBE.Rounded
