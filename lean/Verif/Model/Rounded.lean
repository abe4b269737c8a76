import Verif.Model.Helpers
import Mathlib.Algebra.Order.Archimedean.Basic
import Mathlib.Algebra.Order.Round

/-!
# The decibel stage in floating point arithmetic

The last stage of every metric (`_coherence_to_neg_sdr`) once more, with the rounding of every operation.
`p` is the number of bits of the data type of the signals: 24 for `float32`, 53 for `float64`, 11 for
`float16`.

Simplifications: the range of exponents is not bounded (no overflow, no underflow; the numbers of this stage
are far from both limits as long as `clamp_db` is below 300), and there is no signed zero.
-/

namespace FBE.Rounded

open XR

/-- The numbers of a floating point format with `p` bits.
The data types of the arrays at numpy/helpers.py:64-69, torch/helpers.py:58-63. -/
def Representable (p : ℕ) (x : ℝ) : Prop := ∃ m e : ℤ, |m| ≤ 2 ^ p ∧ x = m * 2 ^ e

/-- IEEE-754: the result of an operation is a number of the format closest to the exact result.  Nothing is
assumed about ties.  numpy/helpers.py:66, torch/helpers.py:60. -/
def IsNearest (p : ℕ) (fl : ℝ → ℝ) : Prop :=
  ∀ x, Representable p (fl x) ∧ ∀ y, Representable p y → |x - fl x| ≤ |x - y|

/-- What the stage needs from the machine and the library.  `fl` rounds to the data type of the signals and
`fl64` to Python's `float`.  `**` of Python and `log10` of numpy and torch are not correctly rounded in general;
they are assumed to be accurate to a few units in the last place.
numpy/helpers.py:50-51, 64-69, torch/helpers.py:42-43, 58-63. -/
structure Machine (p : ℕ) where
  fl : ℝ → ℝ
  fl64 : ℝ → ℝ
  /-- `10.0 ** x` in Python -/
  pow : ℝ → ℝ
  /-- `np.log10`, `torch.log10` on positive numbers -/
  lg : ℝ → ℝ
  fl_nearest : IsNearest p fl
  fl64_nearest : IsNearest 53 fl64
  pow_close : ∀ x, |pow x - (10 : ℝ) ^ x| ≤ 2 ^ (-51 : ℤ) * (10 : ℝ) ^ x
  lg_close : ∀ x, 0 < x → |lg x - Real.logb 10 x| ≤ 16 * 2 ^ (-p : ℤ) * |Real.logb 10 x|

variable {p : ℕ}

/-- numpy/helpers.py:49-52, torch/helpers.py:41-44, `_db_clamp_eps`: Python floats.  `-db_max / 10.0` is rounded,
too. -/
noncomputable def dbClampEps (E : Machine p) (d : ℝ) : ℝ :=
  let e := E.pow (E.fl64 (-d / 10))
  E.fl64 (e / E.fl64 (1 + e))

/-- A finite number is rounded.  numpy/helpers.py:66, 69, torch/helpers.py:60, 63. -/
noncomputable def round1 (E : Machine p) : XR → XR
  | fin x => fin (E.fl x)
  | x => x

/-- `log10` with the special values.  numpy/helpers.py:69, torch/helpers.py:63. -/
noncomputable def log10 (E : Machine p) : XR → XR
  | fin a => if 0 < a then fin (E.lg a) else if a = 0 then ninf else nan
  | x => XR.log10 x

/-- numpy/helpers.py:55-69, torch/helpers.py:47-63, `_coherence_to_neg_sdr` (one element).  The bounds are Python
floats; `np.maximum`, `np.minimum` and `torch.clamp` convert them to the data type of the array. -/
noncomputable def coherenceToNegSdr (E : Machine p) (clampDb : Option ℝ) (coh : XR) : XR :=
  let eps : ℝ := match clampDb with
    | some d => dbClampEps E d
    | none => 0
  let coh := clamp coh (fin (E.fl eps)) (fin (E.fl (E.fl64 (1 - eps))))
  let ratio := round1 E (div (round1 E (sub (fin 1) coh)) coh)
  round1 E (mul (fin 10) (log10 E ratio))

end FBE.Rounded
