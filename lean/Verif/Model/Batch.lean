import Mathlib.Data.List.FinRange
import Mathlib.Data.Fintype.Prod
import Mathlib.Data.Fintype.Basic

/-!
# Batch indices

An array of shape `s + (c, n)` is a function `BIdx s → Fin c → Fin n → _`; `BIdx s` are the index
tuples of the leading ("batch") axes.
-/

namespace FBE

/-- Index tuples for the batch shape `s`.  `b_shape` in numpy/helpers.py:83, torch/helpers.py:77. -/
def BIdx : List ℕ → Type
  | [] => Unit
  | n :: s => Fin n × BIdx s

/-- Index tuples can be compared (`m` in numpy/helpers.py:97-104, torch/helpers.py:91-98). -/
instance BIdx.decEq : (s : List ℕ) → DecidableEq (BIdx s)
  | [] => inferInstanceAs (DecidableEq Unit)
  | n :: s => by
    have := BIdx.decEq s
    exact inferInstanceAs (DecidableEq (Fin n × BIdx s))

/-- There are finitely many index tuples (numpy/helpers.py:97, torch/helpers.py:91). -/
instance BIdx.fintype : (s : List ℕ) → Fintype (BIdx s)
  | [] => inferInstanceAs (Fintype Unit)
  | n :: s => by
    have := BIdx.fintype s
    exact inferInstanceAs (Fintype (Fin n × BIdx s))

/-- `numpy.ndindex(*s)`: all index tuples in row-major order (one empty tuple for `s = ()`).
numpy/helpers.py:97, torch/helpers.py:91. -/
def ndindex : (s : List ℕ) → List (BIdx s)
  | [] => [()]
  | n :: s => (List.finRange n).flatMap fun i => (ndindex s).map fun b => (i, b)

theorem mem_ndindex : ∀ {s : List ℕ} (b : BIdx s), b ∈ ndindex s
  | [], () => List.mem_singleton.2 rfl
  | _ :: _, (i, b) =>
    List.mem_flatMap.2 ⟨i, List.mem_finRange i, List.mem_map.2 ⟨b, mem_ndindex b, rfl⟩⟩

end FBE
