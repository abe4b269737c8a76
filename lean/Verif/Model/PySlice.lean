import Mathlib.Data.List.Range
import Mathlib.Data.Int.Basic

/-!
# Python slices with step `1` and `-1`

`slice.indices` of CPython: negative bounds are counted from the end, then bounds are clipped.
-/

namespace FBE

variable {α : Type*}

/-- Clip a bound for a positive step: into `[0, n]`.  The slices of `pySlice`.  numpy/metrics.py:129, 175. -/
def clipUp (n : ℕ) (i : ℤ) : ℕ :=
  let j := if i < 0 then i + n else i
  if j < 0 then 0 else if (n : ℤ) ≤ j then n else j.toNat

/-- `l[start:stop]`.  numpy/metrics.py:129, 134, 175, 180, numpy/linalg.py:55, torch/cgd.py:70-71. -/
def pySlice (l : List α) (start stop : Option ℤ) : List α :=
  let a := match start with
    | none => 0
    | some i => clipUp l.length i
  let b := match stop with
    | none => l.length
    | some i => clipUp l.length i
  (l.take b).drop a

/-- Clip a bound for a negative step: into `[-1, n-1]`, shifted by one, i.e. into `[0, n]`.
The slices of `pySliceRev`.  numpy/cgd.py:67-68. -/
def clipDown (n : ℕ) (i : ℤ) : ℕ :=
  let j := if i < 0 then i + n else i
  if j < 0 then 0 else if (n : ℤ) ≤ j then n else (j + 1).toNat

/-- `l[start:stop:-1]`: the elements with (shifted) positions in `(stop, start]`, last first.
numpy/linalg.py:36, numpy/cgd.py:67-68, 130, 234, 236. -/
def pySliceRev (l : List α) (start stop : Option ℤ) : List α :=
  let a := match start with
    | none => l.length
    | some i => clipDown l.length i
  let b := match stop with
    | none => 0
    | some i => clipDown l.length i
  ((l.take a).drop b).reverse

/-- Tests of the definitions against the documented CPython behaviour. -/
example : pySlice [0, 1, 2, 3, 4] (some (-2)) none = [3, 4] := rfl
example : pySlice [0, 1, 2, 3, 4] (some (-9)) none = [0, 1, 2, 3, 4] := rfl
example : pySlice [0, 1, 2, 3, 4] (some 0) none = [0, 1, 2, 3, 4] := rfl
example : pySlice [0, 1, 2, 3, 4] none (some 3) = [0, 1, 2] := rfl
example : pySlice [0, 1, 2, 3, 4] none (some 9) = [0, 1, 2, 3, 4] := rfl
example : pySlice [0, 1, 2, 3, 4] (some 1) (some 3) = [1, 2] := rfl
example : pySliceRev [0, 1, 2, 3, 4] none (some 0) = [4, 3, 2, 1] := rfl
example : pySliceRev [0, 1, 2, 3, 4] none (some (-3)) = [4, 3] := rfl
example : pySliceRev [0, 1, 2, 3, 4] (some 2) (some 0) = [2, 1] := rfl
example : pySliceRev [0, 1, 2, 3, 4] none none = [4, 3, 2, 1, 0] := rfl
example : pySliceRev [0, 1, 2, 3, 4] none (some (-1)) = ([] : List ℕ) := rfl
example : pySliceRev [0, 1, 2, 3, 4] (some 9) (some 3) = [4] := rfl

end FBE
