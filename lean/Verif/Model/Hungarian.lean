import Verif.Model.Basic
import Mathlib.Order.Lattice
import Mathlib.Algebra.Group.Defs
import Mathlib.Data.Fin.VecNotation
import Mathlib.Algebra.Order.Ring.Int

/-!
# Model of `fast_bss_eval/torch/hungarian.py`

Every step function of the file is modelled branch by branch.  The entries live in an
arbitrary linearly ordered type `α` with `0`, `+`, `-`; no law is assumed here, so the
definitions cover exact arithmetic as well as any rounded arithmetic on finite numbers.

Simplifications
* a tensor of shape `(n, m)` is a function `Fin n → Fin m → α`; in-place updates return the
  new state;
* the pre-allocated `state.path` array (only its first `count + 1` rows, just written, are
  ever read) is a list built inside `_step5`; writing past its `n + m` rows is an
  `indexError`, as in the code;
* `Z0_r, Z0_c` (initialised to `0, 0`, never read before being written) is an `Option`.
-/

namespace FBE.Hungarian

variable {α : Type*} [LinearOrder α] [Zero α] [Add α] [Sub α] {n m : ℕ}

/-- torch/hungarian.py:116-134, class `_Hungary`. Marks: 0 none, 1 starred, 2 primed. -/
structure State (α : Type*) (n m : ℕ) where
  C : Fin n → Fin m → α
  rowUncovered : Fin n → Bool
  colUncovered : Fin m → Bool
  z0 : Option (Fin n × Fin m)
  marked : Fin n → Fin m → ℕ

/-- The functions a step may return as the next one (`None` is `done`).
torch/hungarian.py:101-104, 162, 175, 197, 208, 266, 281. -/
inductive Next
  | step1 | step3 | step4 | step5 | step6 | done
  deriving DecidableEq, Repr

/-- torch/hungarian.py:125-134, `_Hungary.__init__`. -/
def initState (cost : Fin n → Fin m → α) : State α n m where
  C := cost
  rowUncovered := fun _ => true
  colUncovered := fun _ => true
  z0 := none
  marked := fun _ _ => 0

/-- torch/hungarian.py:136-139, `_clear_covers`. -/
def clearCovers (st : State α n m) : State α n m :=
  { st with rowUncovered := fun _ => true, colUncovered := fun _ => true }

/-- `t.min()` of a non-empty 1-D tensor (torch raises on an empty one).  torch/hungarian.py:278. -/
def listMin (l : List α) : Except PyErr α :=
  match l.min? with
  | some a => .ok a
  | none => .error .indexError

/-- `state.C.min(dim=-1).values[i]`, torch/hungarian.py:151.  The caller guarantees that the row
is not empty (torch/hungarian.py:101: `step = None if 0 in shape`); the value `0` on an empty
row is never observed. -/
def rowMin (C : Fin n → Fin m → α) (i : Fin n) : α :=
  (((List.finRange m).map (C i)).min?).getD 0

/-- Body of the `for i, j in (state.C == 0).nonzero()` loop, torch/hungarian.py:155-159. -/
def starZero (st : State α n m) (ij : Fin n × Fin m) : State α n m :=
  if st.colUncovered ij.2 && st.rowUncovered ij.1 then
    { st with
      marked := set2 st.marked ij.1 ij.2 1
      colUncovered := set1 st.colUncovered ij.2 false
      rowUncovered := set1 st.rowUncovered ij.1 false }
  else st

/-- torch/hungarian.py:146-162, `_step1`. -/
def step1 (st : State α n m) : State α n m × Next :=
  let C := fun i j => st.C i j - rowMin st.C i
  let st := { st with C := C }
  let st := (nonzero2 fun i j => decide (st.C i j = 0)).foldl starZero st
  (clearCovers st, .step3)

/-- torch/hungarian.py:165-175, `_step3`. -/
def step3 (st : State α n m) : State α n m × Next :=
  let st := { st with
    colUncovered := fun j =>
      if (List.finRange n).any (fun i => st.marked i j == 1) then false else st.colUncovered j }
  if (nonzero2 fun i j => st.marked i j == 1).length < n then (st, .step4) else (st, .done)

/-- The `while True` loop of `_step4`, torch/hungarian.py:192-214.
`C0` is the Boolean array `state.C == 0`, `cov` is `covered_C`. -/
def step4Loop (C0 : Fin n → Fin m → Bool) :
    ℕ → State α n m → (Fin n → Fin m → Bool) → Except PyErr (State α n m × Next)
  | 0, _, _ => .error .outOfFuel
  | fuel + 1, st, cov =>
    match (nonzero2 cov).head? with
    | none => .ok (st, .step6)
    | some (row, col) =>
      let st := { st with marked := set2 st.marked row col 2 }
      match (nonzero1 fun j => st.marked row j == 1).head? with
      | none => .ok ({ st with z0 := some (row, col) }, .step5)
      | some col' =>
        let st := { st with
          rowUncovered := set1 st.rowUncovered row false
          colUncovered := set1 st.colUncovered col' true }
        let cov := fun i j => if j = col' then C0 i j && st.rowUncovered i else cov i j
        let cov := fun i j => if i = row then false else cov i j
        step4Loop C0 fuel st cov

/-- torch/hungarian.py:178-214, `_step4`. -/
def step4 (fuel : ℕ) (st : State α n m) : Except PyErr (State α n m × Next) :=
  let C0 := fun i j => decide (st.C i j = 0)
  let cov := fun i j => C0 i j && st.rowUncovered i && st.colUncovered j
  step4Loop C0 fuel st cov

/-- The path-building `while True` loop of `_step5`, torch/hungarian.py:233-254.
`acc` holds `path[0..count]` (in order); its last cell is `cur = path[count]`.  The array has
`n + m` rows, so writing row `count + 1 ≥ n + m` raises `IndexError`; hence the recursion is
bounded by the array itself and `fuel` below is only its (never exhausted) structural measure. -/
def step5Path (marked : Fin n → Fin m → ℕ) :
    ℕ → List (Fin n × Fin m) → Fin n × Fin m → Except PyErr (List (Fin n × Fin m))
  | 0, _, _ => .error .outOfFuel
  | fuel + 1, acc, cur =>
    match (nonzero1 fun i => marked i cur.2 == 1).head? with
    | none => .ok acc
    | some row =>
      if acc.length < n + m then
        let acc := acc ++ [(row, cur.2)]
        match (nonzero1 fun j => marked row j == 2).head? with
        | none => .error .indexError
        | some col =>
          if acc.length < n + m then
            step5Path marked fuel (acc ++ [(row, col)]) (row, col)
          else .error .indexError
      else .error .indexError

/-- Body of the conversion loop of `_step5`, torch/hungarian.py:257-261. -/
def toggle (marked : Fin n → Fin m → ℕ) (ij : Fin n × Fin m) : Fin n → Fin m → ℕ :=
  if marked ij.1 ij.2 = 1 then set2 marked ij.1 ij.2 0 else set2 marked ij.1 ij.2 1

/-- torch/hungarian.py:217-266, `_step5`. -/
def step5 (st : State α n m) : Except PyErr (State α n m × Next) :=
  match st.z0 with
  | none => .error .indexError
  | some z0 =>
    match step5Path st.marked (n + m + 1) [z0] z0 with
    | .error e => .error e
    | .ok path =>
      let st := { st with marked := path.foldl toggle st.marked }
      let st := clearCovers st
      let st := { st with marked := fun i j => if st.marked i j = 2 then 0 else st.marked i j }
      .ok (st, .step3)

/-- torch/hungarian.py:269-281, `_step6`. -/
def step6 (st : State α n m) : Except PyErr (State α n m × Next) :=
  if (List.finRange n).any st.rowUncovered && (List.finRange m).any st.colUncovered then
    match (nonzero1 st.colUncovered).mapM
        (fun j => listMin ((nonzero1 st.rowUncovered).map fun i => st.C i j)) with
    | .error e => .error e
    | .ok colMins =>
      match listMin colMins with
      | .error e => .error e
      | .ok minval =>
        let C := fun i j => if st.rowUncovered i then st.C i j else st.C i j + minval
        let C := fun i j => if st.colUncovered j then C i j - minval else C i j
        .ok ({ st with C := C }, .step4)
  else .ok (st, .step4)

/-- One turn of `step = step(state)`, torch/hungarian.py:104. -/
def stepFn (fuel : ℕ) (nx : Next) (st : State α n m) : Except PyErr (State α n m × Next) :=
  match nx with
  | .step1 => .ok (step1 st)
  | .step3 => .ok (step3 st)
  | .step4 => step4 fuel st
  | .step5 => step5 st
  | .step6 => step6 st
  | .done => .ok (st, .done)

/-- `while step is not None: step = step(state)`, torch/hungarian.py:103-104.
`inner` is the fuel for the loop inside `_step4`. -/
def run (inner : ℕ) : ℕ → Next → State α n m → Except PyErr (State α n m)
  | _, .done, st => .ok st
  | 0, _, _ => .error .outOfFuel
  | fuel + 1, nx, st =>
    match stepFn inner nx st with
    | .error e => .error e
    | .ok (st', nx') => run inner fuel nx' st'

/-- torch/hungarian.py:97-104 for a matrix with at least as many columns as rows:
returns the final `marked` array. -/
def solveMarked (fuel : ℕ) (cost : Fin n → Fin m → α) : Except PyErr (Fin n → Fin m → ℕ) :=
  let st := initState cost
  let step := if n = 0 ∨ m = 0 then Next.done else Next.step1
  match run fuel fuel step st with
  | .error e => .error e
  | .ok st => .ok st.marked

/-- torch/hungarian.py:14-113, `linear_sum_assignment`, on a matrix of (finite) numbers.
The result is the list of `(row, col)` pairs, i.e. `zip(row_ind, col_ind)`. -/
def linearSumAssignment (fuel : ℕ) {r c : ℕ} (cost : Fin r → Fin c → α) :
    Except PyErr (List (Fin r × Fin c)) :=
  if c < r then
    match solveMarked fuel (fun j i => cost i j) with
    | .error e => .error e
    | .ok marked => .ok (nonzero2 fun i j => marked j i == 1)
  else
    match solveMarked fuel cost with
    | .error e => .error e
    | .ok marked => .ok (nonzero2 fun i j => marked i j == 1)

-- tests (not proofs): the docstring example of torch/hungarian.py:58-64 and a tall matrix
example : linearSumAssignment 200 (![![4, 1, 3], ![2, 0, 5], ![3, 2, 2]] : Fin 3 → Fin 3 → ℤ)
    = .ok [(0, 1), (1, 0), (2, 2)] := by decide +kernel
example : linearSumAssignment 200 (![![4, 1], ![2, 0], ![3, -2]] : Fin 3 → Fin 2 → ℤ)
    = .ok [(1, 0), (2, 1)] := by decide +kernel

end FBE.Hungarian
