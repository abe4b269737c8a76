import Verif.Model.Helpers
import Mathlib.Analysis.SpecialFunctions.Pow.Real
import Mathlib.Analysis.Real.Sqrt

/-!
# Signals: mean removal and normalisation

`Sig s c n`: an array of shape `s + (c, n)`.  Reference and estimate share the batch shape here, and may
have different numbers of samples.  Broadcasting between different batch shapes is in `Model/Arrays.lean`.
-/

namespace FBE

/-- A multichannel signal with batch shape `s`, `c` channels and `n` samples.
The arguments documented at numpy/metrics.py:203-206, torch/metrics.py:199-202. -/
abbrev Sig (s : List ℕ) (c n : ℕ) := BIdx s → Fin c → Fin n → ℝ

/-- numpy/helpers.py:38-39, torch/helpers.py:30-31, `_remove_mean` along the last axis. -/
noncomputable def removeMean {n : ℕ} (x : Fin n → ℝ) : Fin n → ℝ :=
  fun t => x t - (∑ u, x u) / n

/-- numpy/helpers.py:42-46, torch/helpers.py:34-38, `_normalize` along the last axis, `eps=1e-6`. -/
noncomputable def normalize {n : ℕ} (x : Fin n → ℝ) : Fin n → ℝ :=
  fun t => x t / max (√(∑ u, x u ^ 2)) 1e-6

/-- numpy/metrics.py:49-54, 250-256, 511-517: optional mean removal, then normalisation. -/
noncomputable def preprocess {n : ℕ} (zeroMean : Bool) (x : Fin n → ℝ) : Fin n → ℝ :=
  normalize (if zeroMean then removeMean x else x)

end FBE
