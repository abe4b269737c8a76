import Mathlib.Logic.Function.Basic
import Mathlib.Data.List.Basic

/-!
# Arrays with memory: a small language of array statements

Used to model which statements allocate an array, which create a view of an existing one and which
write into one.  The contents of arrays are arbitrary; tests and loop counts are arbitrary choices; every
statement may raise.  Hence an execution of the Python code on any inputs is one of the executions
defined here.
-/

set_option linter.constructorNameAsVariable false

namespace Mem

/-- The local variables and object attributes of the modelled functions.  A new array bound to a
variable and a view of an array bound to another one are told apart by their buffers.
The variables of numpy/metrics.py:37-677, numpy/helpers.py:27-149, numpy/linalg.py:24-61, numpy/cgd.py:28-404,
of the same functions of torch and of torch/hungarian.py:14-281; `Model/Effects.lean` cites the lines of each function. -/
inductive Var
  | ref | est | x | y | coh | ratio | ret | norm | eps
  | lossMat | lossOut | item | dum | pOpt | pOpts | vals | cost
  | arg0 | arg1 | out0 | out1
  | twoX | H | T | out | vec | tail
  | col | b | w | circ | r | s1 | s2 | c | C | Cforward | Y | prod | lhs | z | p | rsold | rsnew
  | Ap | pAp | alpha | beta | sol | conj
  | preC | fwdC | x0 | acf | xcorr | XY | acm | Rmat | diag
  | cohSdr | cohSar | cohSir | acfSdr | xcorrSdr | negSdr | negSir | negSar | perm | sdr | sir | sar
  | rowUncovered | colUncovered | path | marked | coveredC | nz | minval | tmp
  deriving DecidableEq

/-- Statements.
The lines of each use are cited in `Model/Effects.lean`; for instance `new` at numpy/metrics.py:57, `view` at
numpy/metrics.py:60, `maybe` at numpy/linalg.py:59, `write` at numpy/metrics.py:264. -/
inductive Cmd
  | skip
  /-- `x = <operation that returns a new array>` -/
  | new (x : Var)
  /-- `x = None` -/
  | none (x : Var)
  /-- `x = y`, or `x = <view of y>` -/
  | view (x y : Var)
  /-- `x = <new array or view of one of ys>` (for instance `reshape`) -/
  | maybe (x : Var) (ys : List Var)
  /-- `x[...] = ...`, `x += ...` -/
  | write (x : Var)
  | seq (a b : Cmd)
  /-- `if ...: a else: b` -/
  | ite (a b : Cmd)
  /-- `for ...: a`, `while ...: a` -/
  | loop (a : Cmd)
  /-- a call with parameters bound to arguments; `outs` receive the values of `rets` -/
  | call (outs : List Var) (params : List (Var × Var)) (body : Cmd) (rets : List Var)

/-- A function: parameters, body, returned variables.  For instance numpy/linalg.py:32-39. -/
structure Func where
  params : List Var
  body : Cmd
  rets : List Var

/-- Statements in a row.  For instance numpy/linalg.py:36-39. -/
def block : List Cmd → Cmd
  | [] => .skip
  | a :: l => .seq a (block l)

/-- `if ...: a`.  For instance numpy/metrics.py:261-264. -/
def when (l : List Cmd) : Cmd := .ite (block l) .skip

/-- `outs = f(*args)`.  For instance numpy/metrics.py:259. -/
def Func.call (f : Func) (outs args : List Var) : Cmd :=
  .call outs (f.params.zip args) f.body f.rets

/-- The state: contents of the buffers, the first unused buffer, and the buffer each variable refers
to, if any.  The state of an execution of any function of numpy/metrics.py:37-677, torch/metrics.py:32-674. -/
structure State (V : Type*) where
  heap : ℕ → V
  next : ℕ
  env : Var → Option ℕ

variable {V : Type*}

/-- Bind the variables `outs` to the values of `rets` in `from`.  For instance numpy/metrics.py:259. -/
def bindOuts (env : Var → Option ℕ) (src : Var → Option ℕ) : List Var → List Var → Var → Option ℕ
  | o :: os, r :: rs => bindOuts (Function.update env o (src r)) src os rs
  | _, _ => env

/-- The environment at the start of a call.  For instance numpy/metrics.py:81-86, 259. -/
def bindParams (src : Var → Option ℕ) : List (Var × Var) → Var → Option ℕ
  | [] => fun _ => Option.none
  | (p, a) :: l => Function.update (bindParams src l) p (src a)

/-- Executions from one state to another; the flag tells whether the statement has finished
(`true`), or an exception was raised or the execution is observed in the middle (`false`).
Executions of the statements of numpy/metrics.py:37-677, torch/metrics.py:32-674 and of what they call. -/
inductive Exec : Cmd → State V → State V → Bool → Prop
  | stop (c : Cmd) (σ : State V) : Exec c σ σ false
  | skip (σ : State V) : Exec .skip σ σ true
  | new (x : Var) (σ : State V) (v : V) :
      Exec (.new x) σ ⟨Function.update σ.heap σ.next v, σ.next + 1,
        Function.update σ.env x (some σ.next)⟩ true
  | none (x : Var) (σ : State V) :
      Exec (.none x) σ ⟨σ.heap, σ.next, Function.update σ.env x Option.none⟩ true
  | view (x y : Var) (σ : State V) :
      Exec (.view x y) σ ⟨σ.heap, σ.next, Function.update σ.env x (σ.env y)⟩ true
  | maybeNew (x : Var) (ys : List Var) (σ : State V) (v : V) :
      Exec (.maybe x ys) σ ⟨Function.update σ.heap σ.next v, σ.next + 1,
        Function.update σ.env x (some σ.next)⟩ true
  | maybeView (x : Var) (ys : List Var) (σ : State V) (y : Var) (hy : y ∈ ys) :
      Exec (.maybe x ys) σ ⟨σ.heap, σ.next, Function.update σ.env x (σ.env y)⟩ true
  | write (x : Var) (σ : State V) (l : ℕ) (hl : σ.env x = some l) (v : V) :
      Exec (.write x) σ ⟨Function.update σ.heap l v, σ.next, σ.env⟩ true
  | seq {a b : Cmd} {σ τ υ : State V} {d : Bool} (h₁ : Exec a σ τ true) (h₂ : Exec b τ υ d) :
      Exec (.seq a b) σ υ d
  | seqStop {a b : Cmd} {σ τ : State V} (h₁ : Exec a σ τ false) : Exec (.seq a b) σ τ false
  | iteLeft {a b : Cmd} {σ τ : State V} {d : Bool} (h : Exec a σ τ d) : Exec (.ite a b) σ τ d
  | iteRight {a b : Cmd} {σ τ : State V} {d : Bool} (h : Exec b σ τ d) : Exec (.ite a b) σ τ d
  | loopDone (a : Cmd) (σ : State V) : Exec (.loop a) σ σ true
  | loopStep {a : Cmd} {σ τ υ : State V} {d : Bool} (h₁ : Exec a σ τ true)
      (h₂ : Exec (.loop a) τ υ d) : Exec (.loop a) σ υ d
  | loopStop {a : Cmd} {σ τ : State V} (h₁ : Exec a σ τ false) : Exec (.loop a) σ τ false
  | call {outs : List Var} {params : List (Var × Var)} {body : Cmd} {rets : List Var}
      {σ τ : State V} (h : Exec body ⟨σ.heap, σ.next, bindParams σ.env params⟩ τ true) :
      Exec (.call outs params body rets) σ
        ⟨τ.heap, τ.next, bindOuts σ.env τ.env outs rets⟩ true
  | callStop {outs : List Var} {params : List (Var × Var)} {body : Cmd} {rets : List Var}
      {σ τ : State V} (h : Exec body ⟨σ.heap, σ.next, bindParams σ.env params⟩ τ false) :
      Exec (.call outs params body rets) σ ⟨τ.heap, τ.next, σ.env⟩ false

end Mem
