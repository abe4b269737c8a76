import Verif.Model.Metrics

/-!
# Model of `fast_bss_eval/__init__.py`

Python calls: argument binding, the attribute look-ups on the (possibly dummy) torch subpackage, and
the choice of a package.  A call is a list of positional values and a list of keyword values.  The
bodies of the functions of the two packages are a parameter (`Impl`); `modelImpl` instantiates it
with the functions of `Model/Metrics.lean`.
-/

namespace FBE

open Classical

/-- An array argument: an `ndarray` or a `torch.Tensor` (`tensor`) of shape
`(*shape, channels, samples)`.  fast_bss_eval/__init__.py:308-309. -/
structure Arr where
  tensor : Bool
  shape : List ℕ
  channels : ℕ
  samples : ℕ
  data : Sig shape channels samples

/-- The Python values passed as arguments.  fast_bss_eval/__init__.py:307-316. -/
inductive Val
  | none
  | bool (b : Bool)
  | int (i : ℤ)
  | float (x : ℝ)
  | arr (a : Arr)

/-- `isinstance(v, pt.Tensor)`, fast_bss_eval/__init__.py:301. -/
def Val.isTensor : Val → Bool
  | .arr a => a.tensor
  | _ => false

/-- The two subpackages, fast_bss_eval/__init__.py:279, 297. -/
inductive Pkg
  | numpy
  | torch
  deriving DecidableEq

/-- The public functions, fast_bss_eval/__init__.py:307-808. -/
inductive Fn
  | bssEvalSources
  | sdr
  | sdrLoss
  | sdrPitLoss
  | siBssEvalSources
  | siSdr
  | siSdrLoss
  | siSdrPitLoss
  deriving DecidableEq

/-- A parameter list: names with default values (`Option.none`: no default).
fast_bss_eval/__init__.py:307-316. -/
abbrev Signature := List (String × Option Val)

/-- The parameter lists of the public functions: fast_bss_eval/__init__.py:307-316, 379-389,
454-463, 523-531, 591-598, 650-657, 714-720, 763-768. -/
def publicSig : Fn → Signature
  | .bssEvalSources => [("ref", .none), ("est", .none), ("filter_length", some (.int 512)),
      ("use_cg_iter", some .none), ("zero_mean", some (.bool false)), ("clamp_db", some .none),
      ("compute_permutation", some (.bool true)), ("load_diag", some .none)]
  | .sdr => [("ref", .none), ("est", .none), ("filter_length", some (.int 512)),
      ("use_cg_iter", some .none), ("zero_mean", some (.bool false)), ("clamp_db", some .none),
      ("load_diag", some .none), ("return_perm", some (.bool false)),
      ("change_sign", some (.bool false))]
  | .sdrLoss => [("est", .none), ("ref", .none), ("filter_length", some (.int 512)),
      ("use_cg_iter", some .none), ("zero_mean", some (.bool false)), ("clamp_db", some .none),
      ("load_diag", some .none), ("pairwise", some (.bool false))]
  | .sdrPitLoss => [("est", .none), ("ref", .none), ("filter_length", some (.int 512)),
      ("use_cg_iter", some .none), ("zero_mean", some (.bool false)), ("clamp_db", some .none),
      ("load_diag", some .none)]
  | .siBssEvalSources => [("ref", .none), ("est", .none), ("zero_mean", some (.bool false)),
      ("clamp_db", some .none), ("compute_permutation", some (.bool true)),
      ("load_diag", some .none)]
  | .siSdr => [("ref", .none), ("est", .none), ("zero_mean", some (.bool false)),
      ("clamp_db", some .none), ("return_perm", some (.bool false)),
      ("change_sign", some (.bool false))]
  | .siSdrLoss => [("est", .none), ("ref", .none), ("zero_mean", some (.bool false)),
      ("clamp_db", some .none), ("pairwise", some (.bool false))]
  | .siSdrPitLoss => [("est", .none), ("ref", .none), ("zero_mean", some (.bool false)),
      ("clamp_db", some .none)]

/-- The parameter lists of the functions of the numpy package: numpy/metrics.py:185-194, 287-295,
369-379, 593-602, numpy/scale_invariant.py:7-13, 24-29, 50-57, 118-125. -/
def numpySig : Fn → Signature
  | .bssEvalSources => [("ref", .none), ("est", .none), ("filter_length", some (.int 512)),
      ("use_cg_iter", some .none), ("zero_mean", some (.bool false)), ("clamp_db", some .none),
      ("compute_permutation", some (.bool true)), ("load_diag", some .none)]
  | .sdr => [("ref", .none), ("est", .none), ("filter_length", some (.int 512)),
      ("use_cg_iter", some .none), ("zero_mean", some (.bool false)), ("clamp_db", some .none),
      ("load_diag", some .none), ("return_perm", some (.bool false)),
      ("change_sign", some (.bool false))]
  | .sdrLoss => [("est", .none), ("ref", .none), ("filter_length", some (.int 512)),
      ("use_cg_iter", some .none), ("zero_mean", some (.bool false)), ("clamp_db", some .none),
      ("load_diag", some .none), ("pairwise", some (.bool false))]
  | .sdrPitLoss => [("est", .none), ("ref", .none), ("filter_length", some (.int 512)),
      ("use_cg_iter", some .none), ("zero_mean", some (.bool false)), ("clamp_db", some .none),
      ("load_diag", some .none)]
  | .siBssEvalSources => [("ref", .none), ("est", .none), ("zero_mean", some (.bool false)),
      ("clamp_db", some .none), ("compute_permutation", some (.bool true)),
      ("load_diag", some .none)]
  | .siSdr => [("ref", .none), ("est", .none), ("zero_mean", some (.bool false)),
      ("clamp_db", some .none), ("return_perm", some (.bool false)),
      ("change_sign", some (.bool false))]
  | .siSdrLoss => [("est", .none), ("ref", .none), ("zero_mean", some (.bool false)),
      ("clamp_db", some .none), ("pairwise", some (.bool false))]
  | .siSdrPitLoss => [("est", .none), ("ref", .none), ("zero_mean", some (.bool false)),
      ("clamp_db", some .none)]

/-- The parameter lists of the functions of the torch package: torch/metrics.py:181-190, 283-291,
365-375, 590-599, torch/scale_invariant.py:7-13, 24-29, 50-57, 118-125. -/
def torchSig : Fn → Signature
  | .bssEvalSources => [("ref", .none), ("est", .none), ("filter_length", some (.int 512)),
      ("use_cg_iter", some .none), ("zero_mean", some (.bool false)), ("clamp_db", some .none),
      ("compute_permutation", some (.bool true)), ("load_diag", some .none)]
  | .sdr => [("ref", .none), ("est", .none), ("filter_length", some (.int 512)),
      ("use_cg_iter", some .none), ("zero_mean", some (.bool false)), ("clamp_db", some .none),
      ("load_diag", some .none), ("return_perm", some (.bool false)),
      ("change_sign", some (.bool false))]
  | .sdrLoss => [("est", .none), ("ref", .none), ("filter_length", some (.int 512)),
      ("use_cg_iter", some .none), ("zero_mean", some (.bool false)), ("clamp_db", some .none),
      ("load_diag", some .none), ("pairwise", some (.bool false))]
  | .sdrPitLoss => [("est", .none), ("ref", .none), ("filter_length", some (.int 512)),
      ("use_cg_iter", some .none), ("zero_mean", some (.bool false)), ("clamp_db", some .none),
      ("load_diag", some .none)]
  | .siBssEvalSources => [("ref", .none), ("est", .none), ("zero_mean", some (.bool false)),
      ("clamp_db", some .none), ("compute_permutation", some (.bool true)),
      ("load_diag", some .none)]
  | .siSdr => [("ref", .none), ("est", .none), ("zero_mean", some (.bool false)),
      ("clamp_db", some .none), ("return_perm", some (.bool false)),
      ("change_sign", some (.bool false))]
  | .siSdrLoss => [("est", .none), ("ref", .none), ("zero_mean", some (.bool false)),
      ("clamp_db", some .none), ("pairwise", some (.bool false))]
  | .siSdrPitLoss => [("est", .none), ("ref", .none), ("zero_mean", some (.bool false)),
      ("clamp_db", some .none)]

/-- The parameter lists of the functions of a package.  numpy/__init__.py:21-39, torch/__init__.py:21-39. -/
def pkgSig : Pkg → Fn → Signature
  | .numpy => numpySig
  | .torch => torchSig

/-- The value of each remaining parameter: from the keywords, else its default, else `TypeError`
(missing argument).  The calls at fast_bss_eval/__init__.py:365-376 and in numpy/scale_invariant.py:14-21. -/
def fillArgs (kw : List (String × Val)) : Signature → Except PyErr (List Val)
  | [] => .ok []
  | (name, dflt) :: rest =>
    match (kw.lookup name).or dflt with
    | Option.none => .error .typeError
    | some v => match fillArgs kw rest with
      | .error err => .error err
      | .ok vs => .ok (v :: vs)

/-- Python's binding of the arguments of a call to a parameter list (all parameters may be given by
position or by keyword, as in every function modelled here): the values of the parameters in order,
or `TypeError` for too many positional arguments, repeated keywords, keywords that are not
parameters or are already given by position, and missing arguments.
The calls at fast_bss_eval/__init__.py:302, 304, 365-376. -/
def bindArgs (sig : Signature) (pos : List Val) (kw : List (String × Val)) :
    Except PyErr (List Val) :=
  if sig.length < pos.length then .error .typeError
  else if ¬ (kw.map Prod.fst).Nodup then .error .typeError
  else if ¬ ∀ p ∈ kw, p.1 ∈ (sig.drop pos.length).map Prod.fst then .error .typeError
  else match fillArgs kw (sig.drop pos.length) with
    | .error err => .error err
    | .ok vs => .ok (pos ++ vs)

/-- The bodies of the functions of both packages, as functions of the values of their parameters.
numpy/__init__.py:21-39, torch/__init__.py:21-39. -/
abbrev Impl (ρ : Type*) := Pkg → Fn → List Val → Except PyErr ρ

variable {ρ : Type*}

/-- A call `fast_bss_eval.<pkg>.<f>(*pos, **kw)`.  fast_bss_eval/__init__.py:302, 304. -/
def callPkg (impl : Impl ρ) (p : Pkg) (f : Fn) (pos : List Val) (kw : List (String × Val)) :
    Except PyErr ρ :=
  match bindArgs (pkgSig p f) pos kw with
  | .error err => .error err
  | .ok vs => impl p f vs

/-- The arguments the public functions pass to `_dispatch_backend` (without the two functions), as a
function of the values of their parameters: fast_bss_eval/__init__.py:365-376, 439-451, 509-520,
578-588, 638-647, 702-711, 752-760, 801-808. -/
def forwarded : Fn → List Val → List Val × List (String × Val)
  | .bssEvalSources,
    [ref, est, filter_length, use_cg_iter, zero_mean, clamp_db, compute_permutation, load_diag] =>
    ([ref, est], [("filter_length", filter_length), ("use_cg_iter", use_cg_iter),
      ("zero_mean", zero_mean), ("clamp_db", clamp_db),
      ("compute_permutation", compute_permutation), ("load_diag", load_diag)])
  | .sdr,
    [ref, est, filter_length, use_cg_iter, zero_mean, clamp_db, load_diag, return_perm,
      change_sign] =>
    ([ref, est], [("filter_length", filter_length), ("use_cg_iter", use_cg_iter),
      ("zero_mean", zero_mean), ("clamp_db", clamp_db), ("load_diag", load_diag),
      ("return_perm", return_perm), ("change_sign", change_sign)])
  | .sdrLoss,
    [est, ref, filter_length, use_cg_iter, zero_mean, clamp_db, load_diag, pairwise] =>
    ([est, ref], [("filter_length", filter_length), ("use_cg_iter", use_cg_iter),
      ("zero_mean", zero_mean), ("clamp_db", clamp_db), ("pairwise", pairwise),
      ("load_diag", load_diag)])
  | .sdrPitLoss, [est, ref, filter_length, use_cg_iter, zero_mean, clamp_db, load_diag] =>
    ([est, ref], [("filter_length", filter_length), ("use_cg_iter", use_cg_iter),
      ("zero_mean", zero_mean), ("clamp_db", clamp_db), ("load_diag", load_diag)])
  | .siBssEvalSources, [ref, est, zero_mean, clamp_db, compute_permutation, load_diag] =>
    ([ref, est], [("zero_mean", zero_mean), ("clamp_db", clamp_db),
      ("compute_permutation", compute_permutation), ("load_diag", load_diag)])
  | .siSdr, [ref, est, zero_mean, clamp_db, return_perm, change_sign] =>
    ([ref, est], [("zero_mean", zero_mean), ("clamp_db", clamp_db), ("return_perm", return_perm),
      ("change_sign", change_sign)])
  | .siSdrLoss, [est, ref, zero_mean, clamp_db, pairwise] =>
    ([est, ref], [("zero_mean", zero_mean), ("clamp_db", clamp_db), ("pairwise", pairwise)])
  | .siSdrPitLoss, [est, ref, zero_mean, clamp_db] =>
    ([est, ref], [("zero_mean", zero_mean), ("clamp_db", clamp_db)])
  -- not reached: a bound call has one value per parameter
  | _, _ => ([], [])

/-- The attribute `torch.<f>` of fast_bss_eval/__init__.py:275-294: the functions of the torch package if
`import torch` succeeded (line 279); otherwise the dummy class of lines 291-294, with three
attributes equal to `None` (`Option.none` here) and no others. -/
def torchAttr (hasTorch : Bool) (f : Fn) : Except PyErr (Option Pkg) :=
  if hasTorch then .ok (some .torch)
  else match f with
    | .bssEvalSources => .ok Option.none
    | .sdr => .ok Option.none
    | .sdrLoss => .ok Option.none
    | _ => .error .attributeError

/-- Calling the value of an attribute; calling `None` raises `TypeError`.
fast_bss_eval/__init__.py:291-294, 302. -/
def callAttr (impl : Impl ρ) (f : Fn) (p : Option Pkg) (pos : List Val) (kw : List (String × Val)) :
    Except PyErr ρ :=
  match p with
  | Option.none => .error .typeError
  | some p => callPkg impl p f pos kw

/-- fast_bss_eval/__init__.py:300-304, `_dispatch_backend(f_numpy, f_torch, *args, **kwargs)`. -/
def dispatchBackend (hasTorch : Bool) (impl : Impl ρ) (f : Fn) (fNumpy fTorch : Option Pkg)
    (args : List Val) (kwargs : List (String × Val)) : Except PyErr ρ :=
  if hasTorch then
    match args with
    | [] => .error .indexError
    | a :: _ =>
      if a.isTensor then callAttr impl f fTorch args kwargs else callAttr impl f fNumpy args kwargs
  else callAttr impl f fNumpy args kwargs

/-- A call `fast_bss_eval.<f>(*pos, **kw)`, fast_bss_eval/__init__.py:307-808: binding, then the
attributes `numpy.<f>` and `torch.<f>` are read (in this order), then `_dispatch_backend`. -/
def callPublic (hasTorch : Bool) (impl : Impl ρ) (f : Fn) (pos : List Val)
    (kw : List (String × Val)) : Except PyErr ρ :=
  match bindArgs (publicSig f) pos kw with
  | .error err => .error err
  | .ok vs =>
    match torchAttr hasTorch f with
    | .error err => .error err
    | .ok ft => dispatchBackend hasTorch impl f (some .numpy) ft (forwarded f vs).1 (forwarded f vs).2

/-! ### The modelled functions as bodies -/

/-- The values returned by the public functions.  numpy/metrics.py:444-447, 671-677. -/
inductive Res
  | pair (s : List ℕ) (r e : ℕ) (loss : BIdx s → Fin r → Fin e → XR)
  | diag (s : List ℕ) (c : ℕ) (loss : BIdx s → Fin c → XR)
  | sdr (s : List ℕ) (n : ℕ) (out : SdrOut s n)
  | bss (s : List ℕ) (n : ℕ) (out : BssOut s n)

/-- `if v:` for a flag (`None` counts as false).  Arrays are not modelled here.
numpy/metrics.py:49, 442, 444, 651. -/
noncomputable def Val.truthy : Val → Except PyErr Bool
  | .none => .ok false
  | .bool b => .ok b
  | .int i => .ok (i ≠ 0)
  | .float x => .ok (x ≠ 0)
  | .arr _ => .error .unmodelled

/-- An optional number of iterations.  numpy/metrics.py:267, 542. -/
def Val.optNat : Val → Except PyErr (Option ℕ)
  | .none => .ok Option.none
  | .int (Int.ofNat n) => .ok (some n)
  | _ => .error .unmodelled

/-- A filter length.  numpy/metrics.py:238, 501. -/
def Val.nat : Val → Except PyErr ℕ
  | .int (Int.ofNat n) => .ok n
  | _ => .error .unmodelled

/-- An optional number.  numpy/metrics.py:261, numpy/helpers.py:59. -/
def Val.optReal : Val → Except PyErr (Option ℝ)
  | .none => .ok Option.none
  | .int i => .ok (some i)
  | .float x => .ok (some x)
  | _ => .error .unmodelled

/-- The options of the metrics from the values of the parameters.  numpy/metrics.py:185-194. -/
noncomputable def mkOpts (fl cg zm cl ld : Val) : Except PyErr Opts := do
  let fl ← fl.nat
  let cg ← cg.optNat
  let zm ← zm.truthy
  let cl ← cl.optReal
  let ld ← ld.optReal
  return { filterLength := fl, useCgIter := cg, zeroMean := zm, clampDb := cl, loadDiag := ld }

/-- Two array arguments of the right kind with equal batch shapes and lengths; anything else
(broadcasting of batch axes, arrays of the other package) is not modelled.
numpy/metrics.py:185-194, 593-602. -/
noncomputable def withArrays (tensor : Bool) (a b : Val)
    (k : (s : List ℕ) → (c d N : ℕ) → Sig s c N → Sig s d N → Except PyErr Res) :
    Except PyErr Res :=
  match a, b with
  | .arr ⟨ta, s, c, N, x⟩, .arr ⟨tb, s', d, N', y⟩ =>
    if h : ta = tensor ∧ tb = tensor ∧ s' = s ∧ N' = N then
      k s c d N x (h.2.2.1 ▸ h.2.2.2 ▸ y)
    else .error .unmodelled
  | _, _ => .error .unmodelled

/-- The functions of `Model/Metrics.lean` as bodies of the functions of the two packages, given what
is used from scipy and whether numpy is at least version 2.
numpy/metrics.py:185-677, numpy/scale_invariant.py:7-174, torch/metrics.py:181-674,
torch/scale_invariant.py:7-174. -/
noncomputable def modelImpl (scipyLsa : Lsa) (numpy2 : Bool) : Impl Res := fun p f vs =>
  let B := match p with
    | .numpy => numpyBackend scipyLsa numpy2
    | .torch => torchBackend
  let t := match p with
    | .numpy => false
    | .torch => true
  match f, vs with
  | .bssEvalSources, [ref, est, fl, cg, zm, cl, cp, ld] => do
    let o ← mkOpts fl cg zm cl ld
    let cp ← cp.truthy
    withArrays t ref est fun s _ _ _ ref est =>
      (bssEvalSources B o cp ref est).map (Res.bss s _)
  | .sdr, [ref, est, fl, cg, zm, cl, ld, rp, cs] => do
    let o ← mkOpts fl cg zm cl ld
    let rp ← rp.truthy
    let cs ← cs.truthy
    withArrays t ref est fun s _ _ _ ref est => (sdr B o rp cs ref est).map (Res.sdr s _)
  | .sdrLoss, [est, ref, fl, cg, zm, cl, ld, pw] => do
    let o ← mkOpts fl cg zm cl ld
    let pw ← pw.truthy
    withArrays t est ref fun s e r _ est ref =>
      if pw then (sdrLossPair B o est ref).map (Res.pair s r e)
      else if h : r = e then (sdrLossDiag B o est (h ▸ ref)).map (Res.diag s e)
      else .error .unmodelled
  | .sdrPitLoss, [est, ref, fl, cg, zm, cl, ld] => do
    let o ← mkOpts fl cg zm cl ld
    withArrays t est ref fun s _ _ _ est ref => (sdrPitLoss B o est ref).map (Res.sdr s _)
  | .siBssEvalSources, [ref, est, zm, cl, cp, ld] => do
    let zm ← zm.truthy
    let cl ← cl.optReal
    let cp ← cp.truthy
    let ld ← ld.optReal
    withArrays t ref est fun s _ _ _ ref est =>
      (siBssEvalSources B zm cl cp ld ref est).map (Res.bss s _)
  | .siSdr, [ref, est, zm, cl, rp, cs] => do
    let zm ← zm.truthy
    let cl ← cl.optReal
    let rp ← rp.truthy
    let cs ← cs.truthy
    withArrays t ref est fun s _ _ _ ref est => (siSdr B zm cl rp cs ref est).map (Res.sdr s _)
  | .siSdrLoss, [est, ref, zm, cl, pw] => do
    let zm ← zm.truthy
    let cl ← cl.optReal
    let pw ← pw.truthy
    withArrays t est ref fun s e r _ est ref =>
      if pw then (siSdrLossPair B zm cl est ref).map (Res.pair s r e)
      else if h : r = e then (siSdrLossDiag B zm cl est (h ▸ ref)).map (Res.diag s e)
      else .error .unmodelled
  | .siSdrPitLoss, [est, ref, zm, cl] => do
    let zm ← zm.truthy
    let cl ← cl.optReal
    withArrays t est ref fun s _ _ _ est ref => (siSdrPitLoss B zm cl est ref).map (Res.sdr s _)
  -- not reached: a bound call has one value per parameter
  | _, _ => .error .typeError

end FBE
