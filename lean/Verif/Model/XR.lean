import Mathlib.Data.Real.Basic
import Mathlib.Analysis.SpecialFunctions.Log.Base
import Mathlib.Analysis.SpecialFunctions.Pow.Real

/-!
# Extended numbers

`XR` models the numbers that flow from the coherences to the decibel values and into the
permutation solver: real numbers plus `+inf`, `-inf` and `nan`, with the IEEE-754 rules for the
special values, as implemented by numpy and torch.

Simplifications: the finite numbers are exact reals (no rounding, no overflow); there is no signed
zero (`1 / 0 = +inf`).
-/

namespace FBE

open Classical

/-- The numbers in the arrays from numpy/helpers.py:64 to 149 and from torch/helpers.py:58 to 157. -/
inductive XR
  | fin (x : ℝ)
  | pinf
  | ninf
  | nan

namespace XR

/-- The entries of `zeros_like`, `new_zeros` at numpy/helpers.py:93-94, torch/helpers.py:87-88. -/
noncomputable instance : Zero XR := ⟨fin 0⟩

/-- IEEE addition.  numpy/helpers.py:141-145. -/
noncomputable def add : XR → XR → XR
  | nan, _ => nan
  | _, nan => nan
  | fin a, fin b => fin (a + b)
  | fin _, pinf => pinf
  | fin _, ninf => ninf
  | pinf, fin _ => pinf
  | ninf, fin _ => ninf
  | pinf, pinf => pinf
  | ninf, ninf => ninf
  | pinf, ninf => nan
  | ninf, pinf => nan

/-- Negation.  numpy/metrics.py:442, 675-677. -/
noncomputable def neg : XR → XR
  | fin a => fin (-a)
  | pinf => ninf
  | ninf => pinf
  | nan => nan

/-- Subtraction.  numpy/helpers.py:66, 141-145. -/
noncomputable def sub (a b : XR) : XR := add a (neg b)

/-- An infinity with the sign of `a` (`nan` for `0`): the value of `a / 0` and of `a * inf`.
numpy/helpers.py:66, numpy/metrics.py:584. -/
noncomputable def signInf (a : ℝ) : XR := if 0 < a then pinf else if a < 0 then ninf else nan

/-- IEEE multiplication.  numpy/helpers.py:69, 141-145. -/
noncomputable def mul : XR → XR → XR
  | nan, _ => nan
  | _, nan => nan
  | fin a, fin b => fin (a * b)
  | fin a, pinf => signInf a
  | fin a, ninf => neg (signInf a)
  | pinf, fin b => signInf b
  | ninf, fin b => neg (signInf b)
  | pinf, pinf => pinf
  | ninf, ninf => pinf
  | pinf, ninf => ninf
  | ninf, pinf => ninf

/-- IEEE division (no signed zero).  numpy/helpers.py:66, numpy/metrics.py:584. -/
noncomputable def div : XR → XR → XR
  | nan, _ => nan
  | _, nan => nan
  | fin a, fin b => if b = 0 then signInf a else fin (a / b)
  | fin _, pinf => fin 0
  | fin _, ninf => fin 0
  | pinf, fin b => if b < 0 then ninf else pinf
  | ninf, fin b => if b < 0 then pinf else ninf
  | pinf, pinf => nan
  | ninf, ninf => nan
  | pinf, ninf => nan
  | ninf, pinf => nan

/-- Absolute value.  numpy/helpers.py:141. -/
noncomputable def abs : XR → XR
  | fin a => fin |a|
  | pinf => pinf
  | ninf => pinf
  | nan => nan

/-- `numpy.maximum` / the lower bound of `torch.clamp`: NaN propagates.
numpy/helpers.py:30, 137, torch/helpers.py:58. -/
noncomputable def max2 : XR → XR → XR
  | nan, _ => nan
  | _, nan => nan
  | pinf, _ => pinf
  | _, pinf => pinf
  | ninf, b => b
  | a, ninf => a
  | fin a, fin b => fin (max a b)

/-- `numpy.minimum` / the upper bound of `torch.clamp`: NaN propagates.
numpy/helpers.py:33, 136, torch/helpers.py:58. -/
noncomputable def min2 : XR → XR → XR
  | nan, _ => nan
  | _, nan => nan
  | ninf, _ => ninf
  | _, ninf => ninf
  | pinf, b => b
  | a, pinf => a
  | fin a, fin b => fin (min a b)

/-- `log10`: `-inf` at `0`, NaN on negative numbers.  numpy/helpers.py:69, torch/helpers.py:63. -/
noncomputable def log10 : XR → XR
  | fin a => if 0 < a then fin (Real.logb 10 a) else if a = 0 then ninf else nan
  | pinf => pinf
  | ninf => nan
  | nan => nan

/-- `isneginf`, numpy/helpers.py:128, torch/helpers.py:128. -/
def isNegInf : XR → Bool
  | ninf => true
  | _ => false

/-- `isposinf`, numpy/helpers.py:129, torch/helpers.py:129. -/
def isPosInf : XR → Bool
  | pinf => true
  | _ => false

/-- `isnan`, torch/hungarian.py:82. -/
def isNan : XR → Bool
  | nan => true
  | _ => false

/-- `isinf`, numpy/helpers.py:135, 147, torch/helpers.py:141, 153. -/
def isInf : XR → Bool
  | pinf => true
  | ninf => true
  | _ => false

/-- The finite value, if any.
For the costs given to the solver at numpy/helpers.py:149, torch/helpers.py:155. -/
def toReal? : XR → Option ℝ
  | fin a => some a
  | _ => none

end XR
end FBE
