import Mathlib.Data.List.FinRange

/-!
# Shared vocabulary of the model

Python exceptions become values of `PyErr`.  `outOfFuel` is not a Python exception:
it marks that a (fuelled) `while` loop has not finished; theorems show it never appears.
-/

namespace FBE

/-- The Python exceptions the modelled code can raise.
Raised explicitly at numpy/helpers.py:131, numpy/cgd.py:113, 154, torch/helpers.py:137, torch/hungarian.py:83, 86
(`ValueError`), by `assert` at numpy/metrics.py:652, numpy/cgd.py:105, 148, 194, 263, 313, torch/metrics.py:649
(`AssertionError`), and by the libraries (`LinAlgError` of numpy/metrics.py:69, 270, 545, 560). -/
inductive PyErr
  | valueError
  | linAlgError
  | assertionError
  | indexError
  | attributeError
  | typeError
  | runtimeError
  /-- the fuel given to a modelled `while` loop ran out (non-termination, if for every fuel) -/
  | outOfFuel
  /-- behaviour deliberately left out of the model -/
  | unmodelled
  deriving DecidableEq, Repr

/-- `numpy.ndarray.nonzero` / `torch.Tensor.nonzero` of a 2-D Boolean array:
the index pairs of the true entries in row-major order.
torch/hungarian.py:112, 155, 194, numpy/helpers.py:135. -/
def nonzero2 {n m : ℕ} (p : Fin n → Fin m → Bool) : List (Fin n × Fin m) :=
  (List.finRange n).flatMap fun i => ((List.finRange m).filter (p i)).map fun j => (i, j)

/-- `nonzero` of a 1-D Boolean array: the indices of the true entries, increasing.
torch/hungarian.py:203, 236, 248. -/
def nonzero1 {k : ℕ} (p : Fin k → Bool) : List (Fin k) :=
  (List.finRange k).filter p

/-- `x[i, j] = v` on a 2-D array.  torch/hungarian.py:157, 201, 259-261. -/
def set2 {n m : ℕ} {β : Type*} (x : Fin n → Fin m → β) (i : Fin n) (j : Fin m) (v : β) :
    Fin n → Fin m → β :=
  fun a b => if a = i ∧ b = j then v else x a b

/-- `x[i] = v` on a 1-D array.  torch/hungarian.py:158-159, 211-212. -/
def set1 {k : ℕ} {β : Type*} (x : Fin k → β) (i : Fin k) (v : β) : Fin k → β :=
  fun a => if a = i then v else x a

end FBE
