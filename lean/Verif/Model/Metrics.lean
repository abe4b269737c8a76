import Verif.Model.Cgd

/-!
# Model of `metrics.py` and `scale_invariant.py` (both packages)

Line numbers are those of the numpy package; torch/metrics.py and torch/scale_invariant.py have the
same statements in the same order.  Python functions with a `pairwise` flag become two functions
(`…Pair`, `…Diag`) because the result shapes differ.  `filter_length = 0` is not modelled.
-/

namespace FBE

open Classical Matrix

/-- Optional arguments shared by the metric functions (defaults of numpy/metrics.py:185-194). -/
structure Opts where
  filterLength : ℕ := 512
  useCgIter : Option ℕ := none
  zeroMean : Bool := false
  clampDb : Option ℝ := none
  loadDiag : Option ℝ := none

variable {s : List ℕ} {r e c N M : ℕ}

/-- `einsum("...n,...n->...")`, numpy/metrics.py:57, 62, 66. -/
def dot {n : ℕ} (x y : Fin n → ℝ) : ℝ := ∑ t, x t * y t

/-- Preprocessed signals (numpy/metrics.py:49-54, 250-256, 511-517). -/
noncomputable def prep (o : Opts) (x : Sig s c N) : Sig s c N :=
  fun m k => preprocess o.zeroMean (x m k)

/-! ### `square_cosine_metrics_length_one_filter` -/

/-- The sums over the time axis in numpy/metrics.py:57-66 and torch/metrics.py:52-61 need signals of the
same length: `einsum` raises `ValueError` (numpy) or `RuntimeError` (torch).  (An axis of length one is
broadcast; this is not modelled.) -/
noncomputable def sameLength (B : Backend) (N : ℕ) (x : Sig s c M) : Except PyErr (Sig s c N) :=
  if h : M = N then .ok fun m k t => x m k (Fin.cast h.symm t)
  else if M = 1 ∨ N = 1 then .error .unmodelled
  else .error B.shapeErr

/-- numpy/metrics.py:56-63, `pairwise=True`: `coh_sdr`. -/
noncomputable def cohSdrOnePair (o : Opts) (ref : Sig s r N) (est : Sig s e N) :
    BIdx s → Fin r → Fin e → ℝ :=
  fun m k j => dot (prep o ref m k) (prep o est m j) ^ 2

/-- numpy/metrics.py:62-63, `pairwise=False`: `coh_sdr`. -/
noncomputable def cohSdrOneDiag (o : Opts) (ref est : Sig s c N) : BIdx s → Fin c → ℝ :=
  fun m k => dot (prep o ref m k) (prep o est m k) ^ 2

/-- numpy/metrics.py:56-57, 65-70: `coh_sar` (before broadcasting). -/
noncomputable def cohSarOne (o : Opts) (ref : Sig s r N) (est : Sig s e N) :
    Except PyErr (BIdx s → Fin e → ℝ) :=
  let xcorr : BIdx s → Fin e → Fin r → ℝ := fun m j k => dot (prep o ref m k) (prep o est m j)
  let acm : BIdx s → Matrix (Fin r) (Fin r) ℝ := fun m k l => dot (prep o ref m k) (prep o ref m l)
  let acm : BIdx s → Matrix (Fin r) (Fin r) ℝ := match o.loadDiag with
    | some d => fun m => acm m + d • (1 : Matrix (Fin r) (Fin r) ℝ)
    | none => acm
  match solveStack acm xcorr with
  | .error err => .error err
  | .ok sol => .ok fun m j => ∑ k, xcorr m j k * sol m j k

/-! ### `sdr_loss` -/

/-- `acf` of numpy/metrics.py:259-264 for transform size `n`. -/
noncomputable def sdrAcf (o : Opts) (n : ℕ) (ref : Sig s r N) : BIdx s → Fin r → List ℝ :=
  fun m k => addHead o.loadDiag (acf1 n o.filterLength (List.ofFn (prep o ref m k)))

/-- `xcorr` of numpy/metrics.py:259 (and of 522) for transform size `n`. -/
noncomputable def sdrXcorr (o : Opts) (n : ℕ) (ref : Sig s r N) (est : Sig s e M) :
    BIdx s → Fin r → Fin e → List ℝ :=
  fun m k j => xcorr1 n o.filterLength (List.ofFn (prep o ref m k)) (List.ofFn (prep o est m j))

/-- numpy/metrics.py:250-279: the code of `sdrCohPair` after the shortcut for length one. -/
noncomputable def sdrCohPairGen (B : Backend) (o : Opts) (ref : Sig s r N) (est : Sig s e M) :
    Except PyErr (BIdx s → Fin r → Fin e → ℝ) :=
  match nFft N M with
  | .error err => .error err
  | .ok n =>
    let K := min o.filterLength n
    let acf := sdrAcf o n ref
    let xc : BIdx s → Fin r → Fin e → Fin K → ℝ := fun m k j => vec K (sdrXcorr o n ref est m k j)
    let sol : Except PyErr (BIdx s × Fin r → Fin e → Fin K → ℝ) := match o.useCgIter with
      | none => solveStack (fun i => toeplitz B K (acf i.1 i.2)) (fun i j => xc i.1 i.2 j)
      | some it => .ok fun i j => toeplitzCg B K (acf i.1 i.2) (xc i.1 i.2 j) it
    match sol with
    | .error err => .error err
    | .ok sol => .ok fun m k j => ∑ l, xc m k j l * sol (m, k) j l

/-- numpy/metrics.py:238-279 with `pairwise=True`: the coherences of `sdr_loss`. -/
noncomputable def sdrCohPair (B : Backend) (o : Opts) (ref : Sig s r N) (est : Sig s e M) :
    Except PyErr (BIdx s → Fin r → Fin e → ℝ) :=
  if o.filterLength = 0 then .error .unmodelled
  else if o.filterLength = 1 then (sameLength B N est).map (cohSdrOnePair o ref)
  else sdrCohPairGen B o ref est

/-- numpy/metrics.py:250-279: the code of `sdrCohDiag` after the shortcut for length one. -/
noncomputable def sdrCohDiagGen (B : Backend) (o : Opts) (ref : Sig s c N) (est : Sig s c M) :
    Except PyErr (BIdx s → Fin c → ℝ) :=
  match nFft N M with
  | .error err => .error err
  | .ok n =>
    let K := min o.filterLength n
    let acf := sdrAcf o n ref
    let xc : BIdx s → Fin c → Fin K → ℝ := fun m k => vec K (sdrXcorr o n ref est m k k)
    let sol : Except PyErr (BIdx s × Fin c → Fin K → ℝ) := match o.useCgIter with
      | none => solveVecs B c (fun i => toeplitz B K (acf i.1 i.2)) (fun i => xc i.1 i.2)
      | some it => .ok fun i => toeplitzCg B K (acf i.1 i.2) (xc i.1 i.2) it
    match sol with
    | .error err => .error err
    | .ok sol => .ok fun m k => ∑ l, xc m k l * sol (m, k) l

/-- numpy/metrics.py:238-279 with `pairwise=False`: the coherences of `sdr_loss`.
(Both signals must have the same number of channels; numpy broadcasting of a single channel is not
modelled.) -/
noncomputable def sdrCohDiag (B : Backend) (o : Opts) (ref : Sig s c N) (est : Sig s c M) :
    Except PyErr (BIdx s → Fin c → ℝ) :=
  if o.filterLength = 0 then .error .unmodelled
  else if o.filterLength = 1 then (sameLength B N est).map (cohSdrOneDiag o ref)
  else sdrCohDiagGen B o ref est

/-- numpy/metrics.py:185-284, `sdr_loss(est, ref, ..., pairwise=True)`. -/
noncomputable def sdrLossPair (B : Backend) (o : Opts) (est : Sig s e M) (ref : Sig s r N) :
    Except PyErr (BIdx s → Fin r → Fin e → XR) :=
  match sdrCohPair B o ref est with
  | .error err => .error err
  | .ok coh => .ok fun m k j => coherenceToNegSdr o.clampDb (.fin (coh m k j))

/-- numpy/metrics.py:185-284, `sdr_loss(est, ref, ..., pairwise=False)`. -/
noncomputable def sdrLossDiag (B : Backend) (o : Opts) (est : Sig s c M) (ref : Sig s c N) :
    Except PyErr (BIdx s → Fin c → XR) :=
  match sdrCohDiag B o ref est with
  | .error err => .error err
  | .ok coh => .ok fun m k => coherenceToNegSdr o.clampDb (.fin (coh m k))

/-- numpy/metrics.py:309-366, `pairwise_sdr_loss`. -/
noncomputable def pairwiseSdrLoss (B : Backend) (o : Opts) (est : Sig s e M) (ref : Sig s r N) :
    Except PyErr (BIdx s → Fin r → Fin e → XR) :=
  sdrLossPair B o est ref

/-! ### `sdr`, `sdr_pit_loss` -/

/-- Value of `sdr`: the SDR vector and, if `return_perm`, the permutation.
numpy/metrics.py:444-447, torch/metrics.py:440-443. -/
structure SdrOut (s : List ℕ) (n : ℕ) where
  sdr : BIdx s → Fin n → XR
  perm : Option (BIdx s → Fin n → ℕ)

/-- numpy/metrics.py:369-447, `sdr(ref, est, ..., return_perm, change_sign)`. -/
noncomputable def sdr (B : Backend) (o : Opts) (returnPerm changeSign : Bool) (ref : Sig s r N)
    (est : Sig s e M) : Except PyErr (SdrOut s (min r e)) :=
  match sdrLossPair B o est ref with
  | .error err => .error err
  | .ok negSdr =>
    match solvePermutation B negSdr (nArgs := 0) (fun i => i.elim0) with
    | .error err => .error err
    | .ok out =>
      let v := if changeSign then out.loss else fun m k => (out.loss m k).neg
      .ok ⟨v, if returnPerm then some out.perm else none⟩

/-- numpy/metrics.py:287-306, `sdr_pit_loss(est, ref, ...)`. -/
noncomputable def sdrPitLoss (B : Backend) (o : Opts) (est : Sig s e M) (ref : Sig s r N) :
    Except PyErr (SdrOut s (min r e)) :=
  sdr B o false true ref est

/-! ### `square_cosine_metrics` -/

/-- `acf` of numpy/metrics.py:522-529: all pairs of references, first and last lags, loaded
diagonal. -/
noncomputable def bssAcf (o : Opts) (n : ℕ) (ref : Sig s r N) : BIdx s → Fin r → Fin r → List ℝ :=
  fun m k l =>
    let a := acf2 n o.filterLength (List.ofFn (prep o ref m k)) (List.ofFn (prep o ref m l))
    if k = l then addHead o.loadDiag a else a

/-- `acf_sdr` of numpy/metrics.py:532-534. -/
noncomputable def bssAcfSdr (o : Opts) (n : ℕ) (ref : Sig s r N) : BIdx s → Fin r → List ℝ :=
  fun m k => pySlice (bssAcf o n ref m k k) none (some o.filterLength)

/-- numpy/metrics.py:557: `xcorr` with lags and reference channels flattened. -/
noncomputable def xcorrFlat (o : Opts) (n K : ℕ) (ref : Sig s r N) (est : Sig s e M) :
    BIdx s → Fin e → Fin K × Fin r → ℝ :=
  fun m j p => vec K (sdrXcorr o n ref est m p.2 j) p.1

/-- numpy/metrics.py:557-569: `coh_sar` given the initial value `x0` for the iterative solver. -/
noncomputable def cohSar (B : Backend) (o : Opts) (n K : ℕ) (ref : Sig s r N) (est : Sig s e M)
    (x0 : BIdx s → Fin e → Fin K × Fin r → ℝ) : Except PyErr (BIdx s → Fin e → ℝ) :=
  let xc := xcorrFlat o n K ref est
  let sol : Except PyErr (BIdx s → Fin e → Fin K × Fin r → ℝ) := match o.useCgIter with
    | none => match blockToeplitz B K (bssAcf o n ref) with
      | .error err => .error err
      | .ok R => solveStack R xc
    | some it => blockCg B K (bssAcf o n ref) xc x0 it
  match sol with
  | .error err => .error err
  | .ok sol => .ok fun m j => ∑ p, xc m j p * sol m j p

/-- The exception for systems and right-hand sides of different sizes: `linalg.solve`, or the
assertion in numpy/cgd.py:313, torch/cgd.py:321. -/
def sizeErr (B : Backend) : Option ℕ → PyErr
  | none => B.shapeErr
  | some _ => .assertionError

/-- numpy/metrics.py:511-574: the code of `sqCosPair` after the shortcut for length one. -/
noncomputable def sqCosPairGen (B : Backend) (o : Opts) (ref : Sig s r N) (est : Sig s e M) :
    Except PyErr ((BIdx s → Fin r → Fin e → ℝ) × (BIdx s → Fin e → ℝ)) :=
  match nFft N M with
  | .error err => .error err
  | .ok n =>
    -- sizes of the lag axes of `xcorr` and of `acf_sdr`
    let K := min o.filterLength n
    let Ks := min o.filterLength (K + K)
    if Ks ≠ K then .error (sizeErr B o.useCgIter) else
    let acf := bssAcfSdr o n ref
    let xc : BIdx s → Fin r → Fin e → Fin K → ℝ := fun m k j => vec K (sdrXcorr o n ref est m k j)
    let sol : Except PyErr (BIdx s × Fin r → Fin e → Fin K → ℝ) := match o.useCgIter with
      | none => solveStack (fun i => toeplitz B K (acf i.1 i.2)) (fun i j => xc i.1 i.2 j)
      | some it => .ok fun i j => toeplitzCg B K (acf i.1 i.2) (xc i.1 i.2 j) it
    match sol with
    | .error err => .error err
    | .ok sol =>
      match cohSar B o n K ref est (fun m j p => sol (m, p.2) j p.1) with
      | .error err => .error err
      | .ok sar => .ok (fun m k j => ∑ l, xc m k j l * sol (m, k) j l, sar)

/-- numpy/metrics.py:450-574, `square_cosine_metrics(..., pairwise=True)` (before broadcasting
`coh_sar` over the references, lines 571-572). -/
noncomputable def sqCosPair (B : Backend) (o : Opts) (ref : Sig s r N) (est : Sig s e M) :
    Except PyErr ((BIdx s → Fin r → Fin e → ℝ) × (BIdx s → Fin e → ℝ)) :=
  if o.filterLength = 0 then .error .unmodelled
  else if o.filterLength = 1 then
    match sameLength B N est with
    | .error err => .error err
    | .ok est => match cohSarOne o ref est with
      | .error err => .error err
      | .ok sar => .ok (cohSdrOnePair o ref est, sar)
  else sqCosPairGen B o ref est

/-- numpy/metrics.py:511-574: the code of `sqCosDiag` after the shortcut for length one. -/
noncomputable def sqCosDiagGen (B : Backend) (o : Opts) (ref : Sig s c N) (est : Sig s c M) :
    Except PyErr ((BIdx s → Fin c → ℝ) × (BIdx s → Fin c → ℝ)) :=
  match nFft N M with
  | .error err => .error err
  | .ok n =>
    let K := min o.filterLength n
    let Ks := min o.filterLength (K + K)
    -- with as many channels as lags, `linalg.solve` may read the vectors as a matrix (not modelled)
    if Ks ≠ K then .error (if o.useCgIter = none ∧ c = Ks then .unmodelled else sizeErr B o.useCgIter) else
    let acf := bssAcfSdr o n ref
    let xc : BIdx s → Fin c → Fin K → ℝ := fun m k => vec K (sdrXcorr o n ref est m k k)
    let sol : Except PyErr (BIdx s × Fin c → Fin K → ℝ) := match o.useCgIter with
      | none => solveVecs B c (fun i => toeplitz B K (acf i.1 i.2)) (fun i => xc i.1 i.2)
      | some it => .ok fun i => toeplitzCg B K (acf i.1 i.2) (xc i.1 i.2) it
    match sol with
    | .error err => .error err
    | .ok sol =>
      match cohSar B o n K ref est (fun _ _ _ => 0) with
      | .error err => .error err
      | .ok sar => .ok (fun m k => ∑ l, xc m k l * sol (m, k) l, sar)

/-- numpy/metrics.py:450-574, `square_cosine_metrics(..., pairwise=False)`. -/
noncomputable def sqCosDiag (B : Backend) (o : Opts) (ref : Sig s c N) (est : Sig s c M) :
    Except PyErr ((BIdx s → Fin c → ℝ) × (BIdx s → Fin c → ℝ)) :=
  if o.filterLength = 0 then .error .unmodelled
  else if o.filterLength = 1 then
    match sameLength B N est with
    | .error err => .error err
    | .ok est => match cohSarOne o ref est with
      | .error err => .error err
      | .ok sar => .ok (cohSdrOneDiag o ref est, sar)
  else sqCosDiagGen B o ref est

/-! ### `bss_eval_sources` -/

/-- numpy/metrics.py:577-590, `_base_metrics_bss_eval` (one element): negative SDR, SIR, SAR. -/
noncomputable def baseMetrics (clampDb : Option ℝ) (cohSdr cohSar : ℝ) : XR × XR × XR :=
  let cohSir := XR.div (.fin cohSdr) (.fin cohSar)
  (coherenceToNegSdr clampDb (.fin cohSdr), coherenceToNegSdr clampDb cohSir,
    coherenceToNegSdr clampDb (.fin cohSar))

/-- Value of `bss_eval_sources`; `perm` only with `compute_permutation`.
numpy/metrics.py:671-677, torch/metrics.py:668-674. -/
structure BssOut (s : List ℕ) (n : ℕ) where
  sdr : BIdx s → Fin n → XR
  sir : BIdx s → Fin n → XR
  sar : BIdx s → Fin n → XR
  perm : Option (BIdx s → Fin n → ℕ)

/-- numpy/metrics.py:657-675: `bss_eval_sources` with `compute_permutation=True`. -/
noncomputable def bssEvalPerm (B : Backend) (o : Opts) (ref : Sig s r N) (est : Sig s e M) :
    Except PyErr (BssOut s (min r e)) :=
  match sqCosPair B o ref est with
  | .error err => .error err
  | .ok (sdr, sar) =>
    let base := fun m k j => baseMetrics o.clampDb (sdr m k j) (sar m j)
    match solvePermutation B (fun m k j => (base m k j).2.1) (nArgs := 2)
      ![fun m k j => (base m k j).1, fun m k j => (base m k j).2.2] with
    | .error err => .error err
    | .ok out => .ok ⟨fun m k => (out.args 0 m k).neg, fun m k => (out.loss m k).neg,
        fun m k => (out.args 1 m k).neg, some out.perm⟩

/-- numpy/metrics.py:657-669, 677: `bss_eval_sources` with `compute_permutation=False`, after the
assertion. -/
noncomputable def bssEvalNoPerm (B : Backend) (o : Opts) (ref : Sig s c N) (est : Sig s c M) :
    Except PyErr (BssOut s c) :=
  match sqCosDiag B o ref est with
  | .error err => .error err
  | .ok (sdr, sar) =>
    let base := fun m k => baseMetrics o.clampDb (sdr m k) (sar m k)
    .ok ⟨fun m k => (base m k).1.neg, fun m k => (base m k).2.1.neg, fun m k => (base m k).2.2.neg,
      none⟩

/-- numpy/metrics.py:593-677, `bss_eval_sources`.  After the assertion `r = e`, `min r e` is the
number of channels of both. -/
noncomputable def bssEvalSources (B : Backend) (o : Opts) (computePermutation : Bool)
    (ref : Sig s r N) (est : Sig s e M) : Except PyErr (BssOut s (min r e)) :=
  if computePermutation then bssEvalPerm B o ref est
  else if r ≠ e then .error .assertionError
  else bssEvalNoPerm B o (fun m k => ref m (k.castLE (min_le_left r e)))
    (fun m k => est m (k.castLE (min_le_right r e)))

/-! ### `scale_invariant.py` -/

/-- The options passed on by the `si_*` functions: `filter_length=1`, no iterative solver.
numpy/scale_invariant.py:14-21, 30-38, 106-115, 165-174. -/
noncomputable def siOpts (zeroMean : Bool) (clampDb loadDiag : Option ℝ) : Opts :=
  { filterLength := 1, useCgIter := none, zeroMean := zeroMean, clampDb := clampDb,
    loadDiag := loadDiag }

/-- numpy/scale_invariant.py:7-21, `si_sdr_loss(..., pairwise=False)`. -/
noncomputable def siSdrLossDiag (B : Backend) (zeroMean : Bool) (clampDb : Option ℝ)
    (est : Sig s c M) (ref : Sig s c N) : Except PyErr (BIdx s → Fin c → XR) :=
  sdrLossDiag B (siOpts zeroMean clampDb none) est ref

/-- numpy/scale_invariant.py:7-21, `si_sdr_loss(..., pairwise=True)`. -/
noncomputable def siSdrLossPair (B : Backend) (zeroMean : Bool) (clampDb : Option ℝ)
    (est : Sig s e M) (ref : Sig s r N) : Except PyErr (BIdx s → Fin r → Fin e → XR) :=
  sdrLossPair B (siOpts zeroMean clampDb none) est ref

/-- numpy/scale_invariant.py:24-38, `si_sdr_pit_loss`. -/
noncomputable def siSdrPitLoss (B : Backend) (zeroMean : Bool) (clampDb : Option ℝ)
    (est : Sig s e M) (ref : Sig s r N) : Except PyErr (SdrOut s (min r e)) :=
  sdr B (siOpts zeroMean clampDb none) false true ref est

/-- numpy/scale_invariant.py:41-47, `pairwise_si_sdr_loss`. -/
noncomputable def pairwiseSiSdrLoss (B : Backend) (zeroMean : Bool) (clampDb : Option ℝ)
    (est : Sig s e M) (ref : Sig s r N) : Except PyErr (BIdx s → Fin r → Fin e → XR) :=
  siSdrLossPair B zeroMean clampDb est ref

/-- numpy/scale_invariant.py:50-115, `si_sdr`. -/
noncomputable def siSdr (B : Backend) (zeroMean : Bool) (clampDb : Option ℝ)
    (returnPerm changeSign : Bool) (ref : Sig s r N) (est : Sig s e M) :
    Except PyErr (SdrOut s (min r e)) :=
  sdr B (siOpts zeroMean clampDb none) returnPerm changeSign ref est

/-- numpy/scale_invariant.py:118-174, `si_bss_eval_sources`. -/
noncomputable def siBssEvalSources (B : Backend) (zeroMean : Bool) (clampDb : Option ℝ)
    (computePermutation : Bool) (loadDiag : Option ℝ) (ref : Sig s r N) (est : Sig s e M) :
    Except PyErr (BssOut s (min r e)) :=
  bssEvalSources B (siOpts zeroMean clampDb loadDiag) computePermutation ref est

end FBE
