import Verif.Model.Heap
import Verif.Model.Dispatch

/-!
# The array statements of the modelled functions

Each function lists, in order, its statements that bind or write arrays (computations of shapes,
sizes and scalars are left out).  The classification of library operations:
* views: basic slices, `x[..., None]`, `swapaxes`, `moveaxis`, `transpose`, `as_strided`,
  `broadcast_arrays`, `broadcast_tensors`, `torch.diagonal`, `asarray`, torch `conj`;
* views or new arrays: `reshape`, numpy `conj`, `.to`;
* new arrays: arithmetic, `concatenate`/`cat`, `zeros_like`/`new_zeros`, `flip`, `einsum` of two
  operands, transforms, `solve`, `inv`, `copy`/`clone`, indexing with index arrays.
Branches on options and sizes become arbitrary choices.  The package is a parameter where the two
packages differ.  The branches for `x_true` and `verbose` of the solver (unused by the metrics, and
without writes) are left out, as is the code for torch < 1.8.
-/

set_option linter.constructorNameAsVariable false

namespace Mem

open FBE (Pkg Fn)

open Cmd Var

/-- numpy/helpers.py:27-35 (`torch.clamp` in the torch package returns a new tensor). -/
def clampF : Pkg → Func
  | .numpy => ⟨[x], block [when [new x], when [new x]], [x]⟩
  | .torch => ⟨[x], block [new x], [x]⟩

/-- numpy/helpers.py:38-39, torch/helpers.py:30-31. -/
def removeMeanF : Func := ⟨[x], block [new norm, new ret], [ret]⟩

/-- numpy/helpers.py:42-46, torch/helpers.py:34-38. -/
def normalizeF (k : Pkg) : Func :=
  ⟨[x], block [new norm, (clampF k).call [norm] [norm], new x], [x]⟩

/-- numpy/helpers.py:55-69, torch/helpers.py:47-63. -/
def cohToNegSdrF (k : Pkg) : Func :=
  ⟨[coh], block [(clampF k).call [coh] [coh], new tmp, new ratio, new tmp, new ret], [ret]⟩

/-- torch/hungarian.py:136-139, `_clear_covers`. -/
def clearCovers : Cmd := block [write rowUncovered, write colUncovered]

/-- torch/hungarian.py:146-162. -/
def step1C : Cmd := block [new minval, view minval minval, write C, new nz,
  loop (when [write marked, write colUncovered, write rowUncovered]), clearCovers]

/-- torch/hungarian.py:165-175. -/
def step3C : Cmd := block [new tmp, new nz, write colUncovered]

/-- torch/hungarian.py:178-214 (`C` there, a new Boolean array, is `c` here). -/
def step4C : Cmd := block [new c, view tmp rowUncovered, new coveredC, write coveredC,
  loop (block [new nz, when [view tmp nz, write marked, view tmp marked, new tmp, new nz,
    when [view tmp nz, write rowUncovered, write colUncovered, view tmp c,
      maybe y [rowUncovered], new tmp, write coveredC, write coveredC]]])]

/-- torch/hungarian.py:217-266; `path` is the attribute `state.path`. -/
def step5C : Cmd := block [view p path, write p, write p,
  loop (block [view tmp marked, new tmp, new nz,
    when [view tmp nz, write p, write p, view tmp marked, new tmp, new nz, view tmp nz, write p,
      write p]]),
  loop (block [.ite (write marked) (write marked)]), clearCovers, new tmp, write marked]

/-- torch/hungarian.py:269-281. -/
def step6C : Cmd := when [new tmp, new minval, new minval, new tmp, write C, write C]

/-- torch/hungarian.py:14-113, with `_Hungary.__init__` (lines 125-134).  The order of the steps is
left open. -/
def hungarianF : Func := ⟨[cost], block [new tmp, when [view cost cost],
  new C, new rowUncovered, new colUncovered, new path, new marked,
  loop (.ite step1C (.ite step3C (.ite step4C (.ite step5C step6C)))),
  .ite (view tmp marked) (view tmp marked), new tmp, new ret, view dum ret, view pOpt ret],
  [dum, pOpt]⟩

/-- numpy/helpers.py:115-149 (scipy's function reads its argument and returns new arrays),
torch/helpers.py:109-157. -/
def lsaInfF : Pkg → Func
  | .numpy => ⟨[cost], block [view cost cost, new tmp, new tmp,
      when [new cost, new tmp, new vals, new tmp, write cost], new dum, new pOpt], [dum, pOpt]⟩
  | .torch => ⟨[cost], .ite (block [new dum, new pOpt]) (block [new tmp, new tmp,
      when [new cost, new tmp, new vals, new tmp, write cost],
      hungarianF.call [dum, pOpt] [cost]]), [dum, pOpt]⟩

/-- numpy/helpers.py:72-112, torch/helpers.py:66-106, without extra matrices (as called by `sdr`). -/
def solvePermF (k : Pkg) : Func := ⟨[lossMat], block [view lossMat lossMat,
  when [view lossMat lossMat], new lossOut, new pOpts,
  loop (block [view item lossMat, (lsaInfF k).call [dum, pOpt] [item], new tmp, write lossOut,
    write pOpts])], [lossOut, pOpts]⟩

/-- numpy/helpers.py:72-112, torch/helpers.py:66-106, with two extra matrices (as called by
`bss_eval_sources`). -/
def solvePerm2F (k : Pkg) : Func := ⟨[lossMat, arg0, arg1], block [view lossMat lossMat,
  when [view lossMat lossMat, view arg0 arg0, view arg1 arg1],
  new lossOut, new out0, new out1, new pOpts,
  loop (block [view item lossMat, (lsaInfF k).call [dum, pOpt] [item], new tmp, write lossOut,
    new tmp, write out0, new tmp, write out1, write pOpts])], [lossOut, out0, out1, pOpts]⟩

/-- numpy/linalg.py:24-39, torch/linalg.py:24-40. -/
def toeplitzF : Pkg → Func
  | .numpy => ⟨[x], block [view tail x, new twoX, view H twoX, view T H], [T]⟩
  | .torch => ⟨[x], block [view tail x, new tail, new twoX, view H twoX, new T], [T]⟩

/-- numpy/linalg.py:42-61, torch/linalg.py:43-62. -/
def blockToeplitzF : Pkg → Func
  | .numpy => ⟨[x], block [new out, loop (block [view tail x, view tmp x, new vec, view T vec,
      view T T, write out]), maybe out [out]], [out]⟩
  | .torch => ⟨[x], block [new out, loop (block [view tail x, view tmp x, new vec, view T vec,
      new T, write out]), maybe out [out]], [out]⟩

/-- numpy/cgd.py:28-40, torch/cgd.py:29-41. -/
def symPrecondF : Pkg → Func
  | .numpy => ⟨[col], block [new b, new b, view tail col, view tmp b, new w, view tail col,
      view tmp w, new tmp, new circ], [circ]⟩
  | .torch => ⟨[col], block [new b, new b, view tail col, new tmp, new w, view tail col,
      new tmp, new tmp, new circ], [circ]⟩

/-- numpy/cgd.py:43-77, torch/cgd.py:44-80. -/
def nonsymPrecondF : Pkg → Func
  | .numpy => ⟨[r], block [when [view r r], new b, view s1 r, view s2 r, new w, view tail r, new c,
      when [view c c]], [c]⟩
  | .torch => ⟨[r], block [when [view r r], new b, view s1 r, new s1, view s2 r, new s2, new w,
      view tail r, new c, when [view c c]], [c]⟩

/-- numpy/cgd.py:85-92, torch/cgd.py:88-99: `CirculantPreconditionerOperator.__init__`. -/
def circInitF : Pkg → Func
  | .numpy => ⟨[col], block [(symPrecondF .numpy).call [circ] [col], new C, maybe conj [C],
      view tmp C, new tmp, (clampF .numpy).call [tmp] [tmp], new C], [C]⟩
  | .torch => ⟨[col], block [(symPrecondF .torch).call [circ] [col], new C, view tmp C, new tmp,
      (clampF .torch).call [tmp] [tmp], new C, view C C], [C]⟩

/-- numpy/cgd.py:102-110, torch/cgd.py:109-118. -/
def circMatmulF : Func := ⟨[C, lhs], block [view tmp C, new Y, new prod, new y], [y]⟩

/-- numpy/cgd.py:120-136, torch/cgd.py:128-144: `SymmetricToeplitzOperator.__init__`. -/
def symToepInitF : Pkg → Func
  | .numpy => ⟨[col], block [new tmp, view tail col, new circ, new Cforward], [Cforward]⟩
  | .torch => ⟨[col], block [new tmp, view tail col, new tail, new circ, new Cforward], [Cforward]⟩

/-- numpy/cgd.py:146-151, torch/cgd.py:154-159. -/
def symToepMatmulF : Func :=
  ⟨[Cforward, lhs], block [new Y, view tmp Cforward, new prod, new y, view y y], [y]⟩

/-- numpy/cgd.py:165-182, torch/cgd.py:173-190: `BlockCirculantPreconditionerOperator.__init__`. -/
def blockCircInitF (k : Pkg) : Func :=
  ⟨[col], block [(nonsymPrecondF k).call [circ] [col], new C, new C], [C]⟩

/-- numpy/cgd.py:192-205, torch/cgd.py:200-213. -/
def blockCircMatmulF : Func := ⟨[C, lhs], block [maybe lhs [lhs], new lhs, new prod, new y,
  maybe y [y]], [y]⟩

/-- numpy/cgd.py:214-252, torch/cgd.py:222-260: `BlockToeplitzOperator.__init__`. -/
def blockToepInitF : Pkg → Func
  | .numpy => ⟨[col], block [view s1 col, view s2 col, new tmp, view tail col, new circ,
      new Cforward], [Cforward]⟩
  | .torch => ⟨[col], block [view s1 col, view s2 col, new s2, new tmp, view tail col, new tail,
      new circ, new Cforward], [Cforward]⟩

/-- numpy/cgd.py:262-279, torch/cgd.py:270-287. -/
def blockToepMatmulF : Func := ⟨[Cforward, lhs], block [maybe lhs [lhs], new Y, new prod, new y,
  view y y, maybe y [y]], [y]⟩

/-- numpy/cgd.py:287-288, torch/cgd.py:295-296. -/
def innerProdF : Func := ⟨[x, y], block [maybe conj [x], new ret], [ret]⟩

/-- numpy/cgd.py:291-363, torch/cgd.py:299-371, for an operator and a preconditioner given by their
products; `x0` is the optional initial value. -/
def cgF (k : Pkg) (matA matP : Func) : Func := ⟨[fwdC, b, x0, preC], block [
  when [view b b], .ite (new x) (view x x0),
  matA.call [tmp] [fwdC, x], new r, matP.call [z] [preC, r], view p z,
  innerProdF.call [rsold] [r, z],
  loop (block [matA.call [Ap] [fwdC, p], innerProdF.call [pAp] [p, Ap],
    (clampF k).call [tmp] [pAp], new alpha, view alpha alpha, new tmp, new x,
    .ite (block [matA.call [tmp] [fwdC, x], new r]) (block [new tmp, new r]),
    matP.call [z] [preC, r], innerProdF.call [rsnew] [r, z], (clampF k).call [tmp] [rsold],
    new beta, new tmp, new p, view rsold rsnew]),
  when [view x x]], [x]⟩

/-- numpy/cgd.py:366-383, torch/cgd.py:374-391 (called without initial value). -/
def toeplitzCgF (k : Pkg) : Func := ⟨[acf, xcorr], block [(circInitF k).call [preC] [acf],
  (symToepInitF k).call [fwdC] [acf], none x0,
  (cgF k symToepMatmulF circMatmulF).call [sol] [fwdC, xcorr, x0, preC]], [sol]⟩

/-- numpy/cgd.py:386-404, torch/cgd.py:394-411. -/
def blockCgF (k : Pkg) : Func := ⟨[acf, xcorr, x0], block [(blockCircInitF k).call [preC] [acf],
  (blockToepInitF k).call [fwdC] [acf],
  (cgF k blockToepMatmulF blockCircMatmulF).call [sol] [fwdC, xcorr, x0, preC]], [sol]⟩

/-- numpy/metrics.py:37-78, torch/metrics.py:32-73. -/
def lengthOneF (k : Pkg) : Func := ⟨[ref, est], block [
  when [removeMeanF.call [ref] [ref], removeMeanF.call [est] [est]],
  (normalizeF k).call [ref] [ref], (normalizeF k).call [est] [est],
  when [new xcorr], .ite (view cohSdr xcorr) (new cohSdr), new cohSdr,
  .ite (block [new acm, when [new tmp, new acm], new sol, new cohSar,
      when [view cohSdr cohSdr, view cohSar cohSar]])
    (none cohSar)], [cohSdr, cohSar]⟩

/-- torch `conj` is a view, numpy's returns a new array (for real arrays the array itself).
numpy/metrics.py:127, 132, torch/metrics.py:123, 128. -/
def conjC : Pkg → Var → Var → Cmd
  | .numpy, dst, src => maybe dst [src]
  | .torch, dst, src => view dst src

/-- numpy/metrics.py:81-134, torch/metrics.py:76-130. -/
def computeStatsF (k : Pkg) : Func := ⟨[x, y], block [new C, new Y, view tmp C, new tmp, new acf,
  conjC k conj C, .ite (block [new XY, new xcorr]) (block [new XY, new xcorr]), view acf acf,
  view xcorr xcorr], [acf, xcorr]⟩

/-- numpy/metrics.py:137-182, torch/metrics.py:133-178. -/
def computeStats2F (k : Pkg) : Func := ⟨[x, y], block [new C, new Y, conjC k conj C, new prod,
  new acf, view s1 acf, view s2 acf, new acf, conjC k conj C, new XY, new xcorr,
  view xcorr xcorr], [acf, xcorr]⟩

/-- numpy/metrics.py:185-284, torch/metrics.py:181-280. -/
def sdrLossF (k : Pkg) : Func := ⟨[est, ref], block [
  .ite ((lengthOneF k).call [coh] [ref, est])
    (block [when [removeMeanF.call [est] [est], removeMeanF.call [ref] [ref]],
      (normalizeF k).call [est] [est], (normalizeF k).call [ref] [ref],
      (computeStatsF k).call [acf, xcorr] [ref, est],
      when [view diag acf, write diag],
      .ite (block [(toeplitzF k).call [Rmat] [acf], new sol])
        ((toeplitzCgF k).call [sol] [acf, xcorr]),
      new coh]),
  (cohToNegSdrF k).call [negSdr] [coh]], [negSdr]⟩

/-- numpy/metrics.py:369-447, torch/metrics.py:365-443. -/
def sdrF (k : Pkg) : Func := ⟨[ref, est], block [(sdrLossF k).call [negSdr] [est, ref],
  (solvePermF k).call [negSdr, perm] [negSdr], .ite (view sdr negSdr) (new sdr)], [sdr, perm]⟩

/-- numpy/metrics.py:287-306, torch/metrics.py:283-302; the permutation is not returned. -/
def sdrPitLossF (k : Pkg) : Func := ⟨[est, ref], block [(sdrF k).call [sdr] [ref, est]], [sdr]⟩

/-- numpy/metrics.py:524-534, torch/metrics.py:520-529: loading, and `acf_sdr`. -/
def loadAndDiag : Pkg → Cmd
  | .numpy => block [when [write acf], new acfSdr, view acfSdr acfSdr, view acfSdr acfSdr]
  | .torch => block [when [view diag acf, view diag diag, write diag], view acfSdr acf,
      view acfSdr acfSdr, view acfSdr acfSdr]

/-- numpy/metrics.py:536-539, torch/metrics.py:531-534: `xcorr_sdr`. -/
def xcorrSdrC : Pkg → Cmd
  | .numpy => .ite (view xcorrSdr xcorr) (block [new xcorrSdr, view xcorrSdr xcorrSdr])
  | .torch => .ite (view xcorrSdr xcorr) (block [view xcorrSdr xcorr, view xcorrSdr xcorrSdr])

/-- numpy/metrics.py:450-574, torch/metrics.py:446-571. -/
def sqCosF (k : Pkg) : Func := ⟨[ref, est], .ite ((lengthOneF k).call [cohSdr, cohSar] [ref, est])
  (block [when [removeMeanF.call [est] [est], removeMeanF.call [ref] [ref]],
    (normalizeF k).call [est] [est], (normalizeF k).call [ref] [ref],
    (computeStats2F k).call [acf, xcorr] [ref, est], loadAndDiag k, xcorrSdrC k,
    .ite (block [(toeplitzF k).call [Rmat] [acfSdr], new sol])
      ((toeplitzCgF k).call [sol] [acfSdr, xcorrSdr]),
    new cohSdr, maybe xcorr [xcorr],
    .ite (block [(blockToeplitzF k).call [Rmat] [acf], new sol])
      (block [.ite (block [view x0 sol, view x0 sol, maybe x0 [x0]]) (none x0),
        (blockCgF k).call [sol] [acf, xcorr, x0]]),
    new cohSar, when [view cohSdr cohSdr, view cohSar cohSar]]), [cohSdr, cohSar]⟩

/-- numpy/metrics.py:577-590, torch/metrics.py:574-587. -/
def baseMetricsF (k : Pkg) : Func := ⟨[cohSdr, cohSar], block [new cohSir,
  (cohToNegSdrF k).call [negSdr] [cohSdr], (cohToNegSdrF k).call [negSir] [cohSir],
  (cohToNegSdrF k).call [negSar] [cohSar]], [negSdr, negSir, negSar]⟩

/-- numpy/metrics.py:593-677, torch/metrics.py:590-674; without permutation `perm` is not
returned. -/
def bssEvalF (k : Pkg) : Func := ⟨[ref, est], block [
  (sqCosF k).call [cohSdr, cohSar] [ref, est],
  (baseMetricsF k).call [negSdr, negSir, negSar] [cohSdr, cohSar],
  .ite (block [(solvePerm2F k).call [negSir, negSdr, negSar, perm] [negSir, negSdr, negSar],
      new sdr, new sir, new sar])
    (block [new sdr, new sir, new sar, none perm])], [sdr, sir, sar, perm]⟩

/-- The functions of `metrics.py` and `scale_invariant.py` (each `si_*` function is one call:
numpy/scale_invariant.py and torch/scale_invariant.py:14-21, 30-38, 106-115, 165-174). -/
def funcOf (k : Pkg) : Fn → Func
  | .bssEvalSources => bssEvalF k
  | .sdr => sdrF k
  | .sdrLoss => sdrLossF k
  | .sdrPitLoss => sdrPitLossF k
  | .siBssEvalSources => ⟨[ref, est],
      block [(bssEvalF k).call [sdr, sir, sar, perm] [ref, est]], [sdr, sir, sar, perm]⟩
  | .siSdr => ⟨[ref, est], block [(sdrF k).call [sdr, perm] [ref, est]], [sdr, perm]⟩
  | .siSdrLoss => ⟨[est, ref], block [(sdrLossF k).call [negSdr] [est, ref]], [negSdr]⟩
  | .siSdrPitLoss => ⟨[est, ref], block [(sdrF k).call [sdr] [ref, est]], [sdr]⟩

/-- The functions that the metrics are built of, for callers that import them from the modules: numpy/helpers.py:27-149,
numpy/linalg.py:24-61, numpy/cgd.py:28-404, numpy/metrics.py:37-182, 450-590, the same of torch, and `linear_sum_assignment`
(torch/hungarian.py:14-113).  The products of the operators and `inner_prod` are among them. -/
def partsOf (k : Pkg) : List Func :=
  [clampF k, removeMeanF, normalizeF k, cohToNegSdrF k, hungarianF, lsaInfF k, solvePermF k, solvePerm2F k, toeplitzF k,
    blockToeplitzF k, symPrecondF k, nonsymPrecondF k, circInitF k, circMatmulF, symToepInitF k, symToepMatmulF,
    blockCircInitF k, blockCircMatmulF, blockToepInitF k, blockToepMatmulF, innerProdF, toeplitzCgF k, blockCgF k,
    cgF k symToepMatmulF circMatmulF, cgF k blockToepMatmulF blockCircMatmulF, lengthOneF k, computeStatsF k,
    computeStats2F k, sqCosF k, baseMetricsF k]

end Mem
