import Verif.Model.Dispatch

/-!
# Model of `import fast_bss_eval`

The module bodies that run at import time: fast_bss_eval/__init__.py:271-297, numpy/__init__.py,
torch/__init__.py and torch/compatibility.py:30-99.  What the interpreter finds when it imports the
third-party packages is a parameter (`Python`).  Modules import each other in the order of the
source; a package that was imported before gives the same result again (`sys.modules`), so repeated
`import` statements are left out.  The standard library (`math`, `typing`) is always there.
-/

namespace FBE

/-- Classes of exceptions at import time; `other` stands for any class that is not a subclass of the
ones listed here.  `OSError` is what a broken shared library raises.
fast_bss_eval/__init__.py:281, torch/compatibility.py:32, 42. -/
inductive Exc
  | importError
  | moduleNotFoundError
  | typeError
  | valueError
  | osError
  | other (n : ℕ)
  deriving DecidableEq

/-- `isinstance(e, c)`: the only proper subclass is `ModuleNotFoundError` of `ImportError`.
fast_bss_eval/__init__.py:281, torch/compatibility.py:42. -/
def Exc.isA (e c : Exc) : Bool :=
  e = c || (e = .moduleNotFoundError && c = .importError)

/-- The expression after `except`: a class or a tuple of classes, or a list.
fast_bss_eval/__init__.py:281, torch/compatibility.py:32, 42. -/
inductive Handler
  | classes (cs : List Exc)
  | list (cs : List Exc)

/-- `try: body except h: handler`.  The expression `h` is looked at only if the body raises; Python 3
compares the exception with a class or a tuple of classes only, and raises `TypeError` for a list.
fast_bss_eval/__init__.py:275-294, torch/compatibility.py:30-33, 40-46. -/
def tryExcept {α : Type*} (body : Except Exc α) (h : Handler) (handler : Except Exc α) :
    Except Exc α :=
  match body with
  | .ok a => .ok a
  | .error e =>
    match h with
    | .classes cs => if cs.any e.isA then handler else .error e
    | .list _ => .error .typeError

/-- A version number: the numbers between the dots, and whether it sorts before the plain release
(`1.8.0a0`, `1.8.0rc1`, `1.8.0.dev20210101`; not `1.8.0+cu111`, `1.8.0.post1`).  Epochs are left out.
torch/compatibility.py:37. -/
structure Version where
  release : List ℕ
  early : Bool

/-- `Version` compares releases without the zeros at the end.  torch/compatibility.py:37. -/
def stripZeros (l : List ℕ) : List ℕ :=
  (l.reverse.dropWhile (· = 0)).reverse

/-- Python's `a < b` for tuples of integers.  torch/compatibility.py:37. -/
def tupleLt : List ℕ → List ℕ → Bool
  | _, [] => false
  | [], _ :: _ => true
  | a :: as, b :: bs => a < b || (a = b && tupleLt as bs)

/-- `Version(torch.__version__) >= Version("1.8.0")`, torch/compatibility.py:37. -/
def Version.is18Plus (v : Version) : Bool :=
  if tupleLt (stripZeros v.release) (stripZeros [1, 8, 0]) then false
  else if tupleLt (stripZeros [1, 8, 0]) (stripZeros v.release) then true
  else !v.early

/-- An installed torch: what `Version(torch.__version__)` gives (`ValueError` if the string is not a
version number) and what `import torch.fft` does.  torch/compatibility.py:37, 99. -/
structure TorchInfo where
  version : Except Exc Version
  fft : Except Exc Unit

/-- What importing each third-party package does.  fast_bss_eval/__init__.py:273, 276,
numpy/metrics.py:24-25, numpy/helpers.py:23-24, torch/compatibility.py:31-41. -/
structure Python where
  numpy : Except Exc Unit
  scipy : Except Exc Unit
  torch : Except Exc TorchInfo
  packaging : Except Exc Unit
  distutils : Except Exc Unit
  torchComplex : Except Exc Unit

/-- Which of the two sets of wrappers of torch/compatibility.py:49-148 is defined. -/
inductive Wrappers
  | recent
  | old
  deriving DecidableEq

/-- torch/compatibility.py:30-99 and the rest of the torch package (torch/__init__.py:24-39), whose
modules import nothing else. -/
def importTorchPkg (P : Python) (t : TorchInfo) : Except Exc Wrappers := do
  tryExcept P.packaging (.list [.importError, .moduleNotFoundError]) P.distutils
  let v ← t.version
  if !v.is18Plus then
    tryExcept P.torchComplex (.classes [.importError]) (.error .importError)
  if !v.is18Plus then
    return .old
  else
    t.fft
    return .recent

/-- numpy/__init__.py:24-39: the modules of the numpy package import numpy and scipy. -/
def importNumpyPkg (P : Python) : Except Exc Unit := do
  P.numpy
  P.scipy

/-- The global names bound by the import that the functions use: `has_torch`, and the subpackage
`torch` (`none`: the dummy class).  fast_bss_eval/__init__.py:275-294. -/
structure Loaded where
  hasTorch : Bool
  torch : Option Wrappers

/-- `import fast_bss_eval`, fast_bss_eval/__init__.py:271-297. -/
def importPackage (P : Python) : Except Exc Loaded := do
  P.numpy
  let l ← tryExcept
    (do
      let t ← P.torch
      let w ← importTorchPkg P t
      return { hasTorch := true, torch := some w })
    (.classes [.importError])
    (return { hasTorch := false, torch := none })
  importNumpyPkg P
  return l

/-- A call of a public function after the import; the bodies of the torch package depend on the
wrappers.  fast_bss_eval/__init__.py:300-808, torch/compatibility.py:49-148. -/
def callLoaded {ρ : Type*} (impl : Wrappers → Impl ρ) (l : Loaded) (f : Fn) (pos : List Val)
    (kw : List (String × Val)) : Except PyErr ρ :=
  callPublic l.hasTorch (impl (l.torch.getD .recent)) f pos kw

end FBE
