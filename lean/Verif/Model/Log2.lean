import Verif.Model.Cgd
import Mathlib.Analysis.SpecialFunctions.Log.Base

/-!
# The sizes of the transforms with a rounded logarithm

`2 ** math.ceil(math.log2(n))` once more: `lg n` is the number that `math.log2(n)` returns.
-/

namespace FBE.Rounded

/-- numpy/metrics.py:116-117, 166-167, torch/metrics.py:111-112, 162-163.  `2 ** k` is the float `1 / 2 ** -k` for negative `k`. -/
noncomputable def nFftLog (lg : ℕ → ℝ) (N M : ℕ) : Except PyErr ℝ :=
  if N + max N M ≤ 1 then .error .valueError else .ok (2 ^ ⌈lg (N + max N M - 1)⌉)

/-- numpy/cgd.py:226, torch/cgd.py:234, for `n ≥ 1`. -/
noncomputable def blockNfftLog (lg : ℕ → ℝ) (n : ℕ) : ℝ := 2 ^ ⌈lg (2 * n)⌉

end FBE.Rounded
