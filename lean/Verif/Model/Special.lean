import Verif.Model.Metrics
import Mathlib.Data.Option.NAry

/-!
# Samples that are not finite, and energies beyond the range of the data type

Signals with samples in `XR`.  The preprocessing follows the IEEE rules, with the largest finite number `Ω` of the data type in the
sum of squares.  From the transforms on, an array of one channel is either finite (`some`) or NaN (`none`): every entry of a
transform, of a product or of a solution depends on all samples of the channels it is made of, and an operation with a NaN
operand is NaN.  Results of operations on finite arrays are exact.

Simplifications
* the sum of the samples in the mean and the difference with the mean do not overflow;
* `linalg.solve` and `linalg.inv` do not raise for a matrix all of whose entries are NaN; for a matrix with some NaN entries
  they may raise (`q = true`) or not (`q = false`);
* numpy < 2 or torch for the stacks of vectors of `pairwise=False`.
-/

namespace FBE.Special

open Classical XR Matrix

variable {s : List ℕ} {r e c N M : ℕ}

/-- The signals of numpy/metrics.py:203-206, torch/metrics.py:199-202 with samples that may be special values. -/
abbrev XSig (s : List ℕ) (c n : ℕ) := BIdx s → Fin c → Fin n → XR

/-- The sum in `x.mean`.  numpy/helpers.py:39, torch/helpers.py:31. -/
noncomputable def total {n : ℕ} (x : Fin n → XR) : XR := (List.ofFn x).foldl add (fin 0)

/-- numpy/helpers.py:38-39, torch/helpers.py:30-31, `_remove_mean`. -/
noncomputable def removeMeanX {n : ℕ} (x : Fin n → XR) : Fin n → XR :=
  fun t => sub (x t) (div (total x) (fin n))

/-- Overflow of a number that is not negative: numpy/helpers.py:45, torch/helpers.py:37. -/
noncomputable def upTo (Ω : ℝ) : XR → XR
  | fin a => if Ω < a then pinf else fin a
  | a => a

/-- The sum of squares in `linalg.norm`.  numpy/helpers.py:45, torch/helpers.py:37. -/
noncomputable def energyX (Ω : ℝ) {n : ℕ} (x : Fin n → XR) : XR :=
  (List.ofFn x).foldl (fun a t => upTo Ω (add a (upTo Ω (mul t t)))) (fin 0)

/-- `sqrt` of a number that is not negative.  numpy/helpers.py:45, torch/helpers.py:37. -/
noncomputable def sqrtX : XR → XR
  | fin a => fin √a
  | a => a

/-- numpy/helpers.py:42-46, torch/helpers.py:34-38, `_normalize`. -/
noncomputable def normalizeX (Ω : ℝ) {n : ℕ} (x : Fin n → XR) : Fin n → XR :=
  fun t => div (x t) (max2 (sqrtX (energyX Ω x)) (fin 1e-6))

/-- numpy/metrics.py:49-54, 250-256, 511-517: preprocessing of one channel. -/
noncomputable def preprocessX (Ω : ℝ) {n : ℕ} (zeroMean : Bool) (x : Fin n → XR) : Fin n → XR :=
  normalizeX Ω (if zeroMean then removeMeanX x else x)

/-- `some` if all are finite.  The arrays of numpy/metrics.py:49-54, 250-256, 511-517. -/
noncomputable def allSome {ι α : Type} (f : ι → Option α) : Option (ι → α) :=
  if h : ∀ i, (f i).isSome then some fun i => (f i).get (h i) else none

/-- The preprocessed channels: `none` if a sample is not finite.  numpy/metrics.py:49-54, 250-256, 511-517. -/
noncomputable def prepX (Ω : ℝ) (o : Opts) (x : XSig s c N) : BIdx s → Fin c → Option (Fin N → ℝ) :=
  fun m k => allSome fun t => (preprocessX Ω o.zeroMean (x m k) t).toReal?

/-- The entry of an array: NaN for `none`.  numpy/metrics.py:281, 584-588. -/
noncomputable def toX : Option ℝ → XR
  | some a => fin a
  | none => nan

/-- `linalg.solve` for a stack of matrices and of matrices of right-hand sides, see `solveStack`; `q`: whether it raises for a
matrix with NaN.  numpy/metrics.py:69, 270, 545, 560, torch/metrics.py:64, 266, 540, 557. -/
noncomputable def solveX {ι κ J : Type} [Fintype J] [DecidableEq J] (q : Bool) (A : ι → Option (Matrix J J ℝ))
    (b : ι → κ → Option (J → ℝ)) : Except PyErr (ι → κ → Option (J → ℝ)) :=
  if (∃ i R, A i = some R ∧ R.det = 0) ∨ (q ∧ ∃ i, A i = none) then .error .linAlgError
  else .ok fun i k => Option.map₂ (fun R v => R⁻¹ *ᵥ v) (A i) (b i k)

/-- `einsum` of two vectors of coefficients.  numpy/metrics.py:277-279, 549-554, 567-569. -/
noncomputable def dotX {J : Type} [Fintype J] (x y : Option (J → ℝ)) : Option ℝ :=
  Option.map₂ (fun a b => ∑ l, a l * b l) x y

/-! ### `sdr_loss` -/

/-- `acf` of numpy/metrics.py:259-264, see `sdrAcf`. -/
noncomputable def sdrAcfX (o : Opts) (n : ℕ) (x : BIdx s → Fin r → Option (Fin N → ℝ)) : BIdx s → Fin r → Option (List ℝ) :=
  fun m k => (x m k).map fun v => addHead o.loadDiag (acf1 n o.filterLength (List.ofFn v))

/-- `xcorr` of numpy/metrics.py:259 and of 522, see `sdrXcorr`. -/
noncomputable def sdrXcorrX (o : Opts) (n K : ℕ) (x : BIdx s → Fin r → Option (Fin N → ℝ))
    (y : BIdx s → Fin e → Option (Fin M → ℝ)) : BIdx s → Fin r → Fin e → Option (Fin K → ℝ) :=
  fun m k j => Option.map₂ (fun v w => vec K (xcorr1 n o.filterLength (List.ofFn v) (List.ofFn w))) (x m k) (y m j)

/-- numpy/metrics.py:259-279, see `sdrCohPairGen`. -/
noncomputable def sdrCohPairGenX (B : Backend) (o : Opts) (x : BIdx s → Fin r → Option (Fin N → ℝ))
    (y : BIdx s → Fin e → Option (Fin M → ℝ)) : Except PyErr (BIdx s → Fin r → Fin e → Option ℝ) :=
  match nFft N M with
  | .error err => .error err
  | .ok n =>
    let K := min o.filterLength n
    let acf := sdrAcfX o n x
    let xc := sdrXcorrX o n K x y
    let sol : Except PyErr (BIdx s × Fin r → Fin e → Option (Fin K → ℝ)) := match o.useCgIter with
      | none => solveX false (fun i => (acf i.1 i.2).map (toeplitz B K)) (fun i j => xc i.1 i.2 j)
      | some it => .ok fun i j => Option.map₂ (fun a b => toeplitzCg B K a b it) (acf i.1 i.2) (xc i.1 i.2 j)
    match sol with
    | .error err => .error err
    | .ok sol => .ok fun m k j => dotX (xc m k j) (sol (m, k) j)

/-- numpy/metrics.py:56-63 for signals of the same length, see `sameLength` and `cohSdrOnePair`. -/
noncomputable def dotOneX (h : M = N) (v : Option (Fin N → ℝ)) (w : Option (Fin M → ℝ)) : Option ℝ :=
  Option.map₂ (fun v w => dot v fun t => w (Fin.cast h.symm t)) v w

/-- numpy/metrics.py:238-279 with `pairwise=True`, see `sdrCohPair`. -/
noncomputable def sdrCohPairX (Ω : ℝ) (B : Backend) (o : Opts) (ref : XSig s r N) (est : XSig s e M) :
    Except PyErr (BIdx s → Fin r → Fin e → Option ℝ) :=
  let x := prepX Ω o ref
  let y := prepX Ω o est
  if o.filterLength = 0 then .error .unmodelled
  else if o.filterLength = 1 then
    if h : M = N then .ok fun m k j => (dotOneX h (x m k) (y m j)).map (· ^ 2)
    else if M = 1 ∨ N = 1 then .error .unmodelled
    else .error B.shapeErr
  else sdrCohPairGenX B o x y

/-- numpy/metrics.py:185-284, `sdr_loss(est, ref, ..., pairwise=True)`. -/
noncomputable def sdrLossPairX (Ω : ℝ) (B : Backend) (o : Opts) (est : XSig s e M) (ref : XSig s r N) :
    Except PyErr (BIdx s → Fin r → Fin e → XR) :=
  match sdrCohPairX Ω B o ref est with
  | .error err => .error err
  | .ok coh => .ok fun m k j => coherenceToNegSdr o.clampDb (toX (coh m k j))

/-- numpy/metrics.py:259-279, see `sdrCohDiagGen`. -/
noncomputable def sdrCohDiagGenX (B : Backend) (o : Opts) (x : BIdx s → Fin c → Option (Fin N → ℝ))
    (y : BIdx s → Fin c → Option (Fin M → ℝ)) : Except PyErr (BIdx s → Fin c → Option ℝ) :=
  match nFft N M with
  | .error err => .error err
  | .ok n =>
    let K := min o.filterLength n
    let acf := sdrAcfX o n x
    let xc : BIdx s → Fin c → Option (Fin K → ℝ) := fun m k => sdrXcorrX o n K x y m k k
    let sol : Except PyErr (BIdx s × Fin c → Unit → Option (Fin K → ℝ)) := match o.useCgIter with
      | none => if B.stackedVectors then
          solveX false (fun i => (acf i.1 i.2).map (toeplitz B K)) (fun i _ => xc i.1 i.2)
        else .error .unmodelled
      | some it => .ok fun i _ => Option.map₂ (fun a b => toeplitzCg B K a b it) (acf i.1 i.2) (xc i.1 i.2)
    match sol with
    | .error err => .error err
    | .ok sol => .ok fun m k => dotX (xc m k) (sol (m, k) ())

/-- numpy/metrics.py:238-279 with `pairwise=False`, see `sdrCohDiag`. -/
noncomputable def sdrCohDiagX (Ω : ℝ) (B : Backend) (o : Opts) (ref : XSig s c N) (est : XSig s c M) :
    Except PyErr (BIdx s → Fin c → Option ℝ) :=
  let x := prepX Ω o ref
  let y := prepX Ω o est
  if o.filterLength = 0 then .error .unmodelled
  else if o.filterLength = 1 then
    if h : M = N then .ok fun m k => (dotOneX h (x m k) (y m k)).map (· ^ 2)
    else if M = 1 ∨ N = 1 then .error .unmodelled
    else .error B.shapeErr
  else sdrCohDiagGenX B o x y

/-- numpy/metrics.py:185-284, `sdr_loss(est, ref, ..., pairwise=False)`. -/
noncomputable def sdrLossDiagX (Ω : ℝ) (B : Backend) (o : Opts) (est : XSig s c M) (ref : XSig s c N) :
    Except PyErr (BIdx s → Fin c → XR) :=
  match sdrCohDiagX Ω B o ref est with
  | .error err => .error err
  | .ok coh => .ok fun m k => coherenceToNegSdr o.clampDb (toX (coh m k))

/-- numpy/metrics.py:369-447, `sdr(ref, est, ..., return_perm, change_sign)`. -/
noncomputable def sdrX (Ω : ℝ) (B : Backend) (o : Opts) (returnPerm changeSign : Bool) (ref : XSig s r N)
    (est : XSig s e M) : Except PyErr (SdrOut s (min r e)) :=
  match sdrLossPairX Ω B o est ref with
  | .error err => .error err
  | .ok negSdr =>
    match solvePermutation B negSdr (nArgs := 0) (fun i => i.elim0) with
    | .error err => .error err
    | .ok out =>
      let v := if changeSign then out.loss else fun m k => (out.loss m k).neg
      .ok ⟨v, if returnPerm then some out.perm else none⟩

/-! ### `bss_eval_sources` -/

/-- numpy/metrics.py:56-57, 65-70: `coh_sar` for one tap, see `cohSarOne`. -/
noncomputable def cohSarOneX (q : Bool) (o : Opts) (h : M = N) (x : BIdx s → Fin r → Option (Fin N → ℝ))
    (y : BIdx s → Fin e → Option (Fin M → ℝ)) : Except PyErr (BIdx s → Fin e → Option ℝ) :=
  let xcorr : BIdx s → Fin e → Option (Fin r → ℝ) := fun m j => allSome fun k => dotOneX h (x m k) (y m j)
  let acm : BIdx s → Option (Matrix (Fin r) (Fin r) ℝ) := fun m => (allSome (x m)).map fun x =>
    match o.loadDiag with
    | some d => Matrix.of (fun k l => dot (x k) (x l)) + d • (1 : Matrix (Fin r) (Fin r) ℝ)
    | none => Matrix.of fun k l => dot (x k) (x l)
  match solveX q acm xcorr with
  | .error err => .error err
  | .ok sol => .ok fun m j => dotX (xcorr m j) (sol m j)

/-- `acf` of numpy/metrics.py:522-529 of one batch item, see `bssAcf`. -/
noncomputable def bssAcfX (o : Opts) (n : ℕ) (x : Fin r → Fin N → ℝ) : Fin r → Fin r → List ℝ :=
  fun k l =>
    let a := acf2 n o.filterLength (List.ofFn (x k)) (List.ofFn (x l))
    if k = l then addHead o.loadDiag a else a

/-- `acf_sdr` of numpy/metrics.py:532-534, see `bssAcfSdr`. -/
noncomputable def bssAcfSdrX (o : Opts) (n : ℕ) (x : Option (Fin N → ℝ)) : Option (List ℝ) :=
  x.map fun v => pySlice (addHead o.loadDiag (acf2 n o.filterLength (List.ofFn v) (List.ofFn v))) none (some o.filterLength)

/-- The matrix of numpy/linalg.py:55-61, torch/linalg.py:56-62, see `blockToeplitz`. -/
noncomputable def blockMat (K : ℕ) (a : Fin r → Fin r → List ℝ) : Matrix (Fin K × Fin r) (Fin K × Fin r) ℝ :=
  fun p l => (hankelView (blockVec K (a p.2 l.2)) (K - 1 - p.1) l.1).getD 0

/-- `block_toeplitz(acf)` followed by `solve`, or `block_toeplitz_conjugate_gradient`; then numpy/metrics.py:557-569, see `cohSar`. -/
noncomputable def cohSarX (q : Bool) (B : Backend) (o : Opts) (n K : ℕ) (x : BIdx s → Fin r → Option (Fin N → ℝ))
    (y : BIdx s → Fin e → Option (Fin M → ℝ)) (x0 : BIdx s → Fin e → Fin r → Option (Fin K → ℝ)) :
    Except PyErr (BIdx s → Fin e → Option ℝ) :=
  let acf : BIdx s → Option (Fin r → Fin r → List ℝ) := fun m => (allSome (x m)).map (bssAcfX o n)
  let xc : BIdx s → Fin e → Option (Fin K × Fin r → ℝ) := fun m j =>
    (allSome fun k => sdrXcorrX o n K x y m k j).map fun v p => v p.2 p.1
  let sol : Except PyErr (BIdx s → Fin e → Option (Fin K × Fin r → ℝ)) := match o.useCgIter with
    | none =>
      -- the sizes do not depend on the values
      match blockToeplitz B K fun (_ : BIdx s) => bssAcfX (r := r) (N := N) o n fun _ _ => 0 with
      | .error err => .error err
      | .ok _ => solveX q (fun m => (acf m).map (blockMat K)) xc
    | some it =>
      if (∃ m a, acf m = some a ∧ ∃ f ≤ K / 2, (blockPrecondSpec B a f).det = 0) ∨ (q ∧ ∃ m, acf m = none) then
        .error .linAlgError
      else .ok fun m j => (acf m).bind fun a => Option.map₂ (fun b x0 =>
          conjugateGradient (blockToeplitzOp B K a) (blockPrecond B K a) b (fun p => x0 p.2 p.1) it) (xc m j) (allSome (x0 m j))
  match sol with
  | .error err => .error err
  | .ok sol => .ok fun m j => dotX (xc m j) (sol m j)

/-- numpy/metrics.py:518-574 with `pairwise=True`, see `sqCosPairGen`. -/
noncomputable def sqCosPairGenX (q : Bool) (B : Backend) (o : Opts) (x : BIdx s → Fin r → Option (Fin N → ℝ))
    (y : BIdx s → Fin e → Option (Fin M → ℝ)) :
    Except PyErr ((BIdx s → Fin r → Fin e → Option ℝ) × (BIdx s → Fin e → Option ℝ)) :=
  match nFft N M with
  | .error err => .error err
  | .ok n =>
    let K := min o.filterLength n
    let Ks := min o.filterLength (K + K)
    if Ks ≠ K then .error (sizeErr B o.useCgIter) else
    let acf := fun m k => bssAcfSdrX o n (x m k)
    let xc := sdrXcorrX o n K x y
    let sol : Except PyErr (BIdx s × Fin r → Fin e → Option (Fin K → ℝ)) := match o.useCgIter with
      | none => solveX false (fun i => (acf i.1 i.2).map (toeplitz B K)) (fun i j => xc i.1 i.2 j)
      | some it => .ok fun i j => Option.map₂ (fun a b => toeplitzCg B K a b it) (acf i.1 i.2) (xc i.1 i.2 j)
    match sol with
    | .error err => .error err
    | .ok sol =>
      match cohSarX q B o n K x y (fun m j k => sol (m, k) j) with
      | .error err => .error err
      | .ok sar => .ok (fun m k j => dotX (xc m k j) (sol (m, k) j), sar)

/-- numpy/metrics.py:450-574, `square_cosine_metrics(..., pairwise=True)`, see `sqCosPair`. -/
noncomputable def sqCosPairX (Ω : ℝ) (q : Bool) (B : Backend) (o : Opts) (ref : XSig s r N) (est : XSig s e M) :
    Except PyErr ((BIdx s → Fin r → Fin e → Option ℝ) × (BIdx s → Fin e → Option ℝ)) :=
  let x := prepX Ω o ref
  let y := prepX Ω o est
  if o.filterLength = 0 then .error .unmodelled
  else if o.filterLength = 1 then
    if h : M = N then
      match cohSarOneX q o h x y with
      | .error err => .error err
      | .ok sar => .ok (fun m k j => (dotOneX h (x m k) (y m j)).map (· ^ 2), sar)
    else if M = 1 ∨ N = 1 then .error .unmodelled
    else .error B.shapeErr
  else sqCosPairGenX q B o x y

/-- numpy/metrics.py:577-590, `_base_metrics_bss_eval` (one element). -/
noncomputable def baseMetricsX (clampDb : Option ℝ) (cohSdr cohSar : XR) : XR × XR × XR :=
  (coherenceToNegSdr clampDb cohSdr, coherenceToNegSdr clampDb (XR.div cohSdr cohSar), coherenceToNegSdr clampDb cohSar)

/-- numpy/metrics.py:657-675: `bss_eval_sources` with `compute_permutation=True`. -/
noncomputable def bssEvalPermX (Ω : ℝ) (q : Bool) (B : Backend) (o : Opts) (ref : XSig s r N) (est : XSig s e M) :
    Except PyErr (BssOut s (min r e)) :=
  match sqCosPairX Ω q B o ref est with
  | .error err => .error err
  | .ok (sdr, sar) =>
    let base := fun m k j => baseMetricsX o.clampDb (toX (sdr m k j)) (toX (sar m j))
    match solvePermutation B (fun m k j => (base m k j).2.1) (nArgs := 2)
      ![fun m k j => (base m k j).1, fun m k j => (base m k j).2.2] with
    | .error err => .error err
    | .ok out => .ok ⟨fun m k => (out.args 0 m k).neg, fun m k => (out.loss m k).neg,
        fun m k => (out.args 1 m k).neg, some out.perm⟩

/-- numpy/metrics.py:518-574 with `pairwise=False`, see `sqCosDiagGen`. -/
noncomputable def sqCosDiagGenX (q : Bool) (B : Backend) (o : Opts) (x : BIdx s → Fin c → Option (Fin N → ℝ))
    (y : BIdx s → Fin c → Option (Fin M → ℝ)) :
    Except PyErr ((BIdx s → Fin c → Option ℝ) × (BIdx s → Fin c → Option ℝ)) :=
  match nFft N M with
  | .error err => .error err
  | .ok n =>
    let K := min o.filterLength n
    let Ks := min o.filterLength (K + K)
    if Ks ≠ K then .error (if o.useCgIter = none ∧ c = Ks then .unmodelled else sizeErr B o.useCgIter) else
    let acf := fun m k => bssAcfSdrX o n (x m k)
    let xc : BIdx s → Fin c → Option (Fin K → ℝ) := fun m k => sdrXcorrX o n K x y m k k
    let sol : Except PyErr (BIdx s × Fin c → Unit → Option (Fin K → ℝ)) := match o.useCgIter with
      | none => if B.stackedVectors then
          solveX false (fun i => (acf i.1 i.2).map (toeplitz B K)) (fun i _ => xc i.1 i.2)
        else .error .unmodelled
      | some it => .ok fun i _ => Option.map₂ (fun a b => toeplitzCg B K a b it) (acf i.1 i.2) (xc i.1 i.2)
    match sol with
    | .error err => .error err
    | .ok sol =>
      match cohSarX q B o n K x y (fun _ _ _ => some 0) with
      | .error err => .error err
      | .ok sar => .ok (fun m k => dotX (xc m k) (sol (m, k) ()), sar)

/-- numpy/metrics.py:450-574, `square_cosine_metrics(..., pairwise=False)`, see `sqCosDiag`. -/
noncomputable def sqCosDiagX (Ω : ℝ) (q : Bool) (B : Backend) (o : Opts) (ref : XSig s c N) (est : XSig s c M) :
    Except PyErr ((BIdx s → Fin c → Option ℝ) × (BIdx s → Fin c → Option ℝ)) :=
  let x := prepX Ω o ref
  let y := prepX Ω o est
  if o.filterLength = 0 then .error .unmodelled
  else if o.filterLength = 1 then
    if h : M = N then
      match cohSarOneX q o h x y with
      | .error err => .error err
      | .ok sar => .ok (fun m k => (dotOneX h (x m k) (y m k)).map (· ^ 2), sar)
    else if M = 1 ∨ N = 1 then .error .unmodelled
    else .error B.shapeErr
  else sqCosDiagGenX q B o x y

/-- numpy/metrics.py:657-669, 677: `bss_eval_sources` with `compute_permutation=False`. -/
noncomputable def bssEvalNoPermX (Ω : ℝ) (q : Bool) (B : Backend) (o : Opts) (ref : XSig s c N) (est : XSig s c M) :
    Except PyErr (BssOut s c) :=
  match sqCosDiagX Ω q B o ref est with
  | .error err => .error err
  | .ok (sdr, sar) =>
    let base := fun m k => baseMetricsX o.clampDb (toX (sdr m k)) (toX (sar m k))
    .ok ⟨fun m k => (base m k).1.neg, fun m k => (base m k).2.1.neg, fun m k => (base m k).2.2.neg, none⟩

end FBE.Special
