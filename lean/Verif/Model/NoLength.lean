import Verif.Model.Metrics

/-!
# Model of the metrics with `filter_length=None`

`filter_length` is declared `Optional[int]`.  With `None` the shortcut for length one is not taken
(`None == 1` is false) and `compute_stats`, `compute_stats_2` replace the length by the number of
samples of the references.  Line numbers are those of the numpy package, as in `Model/Metrics.lean`.
The field `filterLength` of the options is ignored here.
-/

namespace FBE

open Classical

variable {s : List ℕ} {r e c N M : ℕ}

/-- numpy/metrics.py:113-114, 163-164, torch/metrics.py:108-109, 159-160: `if length is None: length = x.shape[-1]`. -/
def Opts.atLength (o : Opts) (N : ℕ) : Opts := { o with filterLength := N }

/-- numpy/metrics.py:185-284, `sdr_loss(est, ref, filter_length=None, ..., pairwise=True)`. -/
noncomputable def sdrLossPairNone (B : Backend) (o : Opts) (est : Sig s e M) (ref : Sig s r N) :
    Except PyErr (BIdx s → Fin r → Fin e → XR) :=
  match sdrCohPairGen B (o.atLength N) ref est with
  | .error err => .error err
  | .ok coh => .ok fun m k j => coherenceToNegSdr o.clampDb (.fin (coh m k j))

/-- numpy/metrics.py:185-284, `sdr_loss(est, ref, filter_length=None, ..., pairwise=False)`. -/
noncomputable def sdrLossDiagNone (B : Backend) (o : Opts) (est : Sig s c M) (ref : Sig s c N) :
    Except PyErr (BIdx s → Fin c → XR) :=
  match sdrCohDiagGen B (o.atLength N) ref est with
  | .error err => .error err
  | .ok coh => .ok fun m k => coherenceToNegSdr o.clampDb (.fin (coh m k))

/-- numpy/metrics.py:369-447, `sdr(ref, est, filter_length=None, ...)`. -/
noncomputable def sdrNone (B : Backend) (o : Opts) (returnPerm changeSign : Bool) (ref : Sig s r N)
    (est : Sig s e M) : Except PyErr (SdrOut s (min r e)) :=
  match sdrLossPairNone B o est ref with
  | .error err => .error err
  | .ok negSdr =>
    match solvePermutation B negSdr (nArgs := 0) (fun i => i.elim0) with
    | .error err => .error err
    | .ok out =>
      let v := if changeSign then out.loss else fun m k => (out.loss m k).neg
      .ok ⟨v, if returnPerm then some out.perm else none⟩

/-- The sizes of the lag axes of `acf_sdr` and `xcorr` in numpy/metrics.py:522-536 (and of the systems in
543-548) with `filter_length=None`, for transform size `n` and `N > 0`: `acf` has the first and the last
`N` lags, and `acf_sdr[..., :None]` keeps all of them; `xcorr` has `N` lags. -/
def noneSizes (N n : ℕ) : ℕ × ℕ := (min N n + min N n, min N n)

/-- numpy/metrics.py:450-574, `square_cosine_metrics(..., filter_length=None, pairwise=True)` up to the
solution of the first systems, which are larger than the right-hand sides.  (Not modelled: references
without samples; code after this point, never reached.) -/
noncomputable def sqCosPairNone (B : Backend) (o : Opts) (N M : ℕ) : PyErr :=
  match nFft N M with
  | .error err => err
  | .ok n => if N = 0 ∨ (noneSizes N n).1 = (noneSizes N n).2 then .unmodelled else sizeErr B o.useCgIter

/-- The same with `pairwise=False` and `c` channels.  With as many channels as lags, `linalg.solve` may read
the vectors as a matrix (not modelled).  numpy/metrics.py:511-548, torch/metrics.py:507-543. -/
noncomputable def sqCosDiagNone (B : Backend) (o : Opts) (c N M : ℕ) : PyErr :=
  match nFft N M with
  | .error err => err
  | .ok n =>
    if N = 0 ∨ (noneSizes N n).1 = (noneSizes N n).2 ∨ o.useCgIter = none ∧ c = (noneSizes N n).1 then .unmodelled
    else sizeErr B o.useCgIter

/-- numpy/metrics.py:593-677, `bss_eval_sources(ref, est, filter_length=None, ...)`. -/
noncomputable def bssEvalSourcesNone (B : Backend) (o : Opts) (computePermutation : Bool)
    (_ref : Sig s r N) (_est : Sig s e M) : Except PyErr (BssOut s (min r e)) :=
  if computePermutation then .error (sqCosPairNone B o N M)
  else if r ≠ e then .error .assertionError
  else .error (sqCosDiagNone B o r N M)

end FBE
