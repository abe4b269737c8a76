import Verif.Model.BackwardPit

/-!
# The backward pass of torch through `bss_eval_sources` (direct solver)

`loss.backward()` for a loss that is a weighted sum of the values returned by `bss_eval_sources`: torch/metrics.py:32-73, 159-178,
508-587, 658-674 and torch/linalg.py:24-62 in reverse order.  A value that the loss does not use is not part of the backward pass.  As in
`Model/BackwardFir.lean`, the formulas between the coherences and the normalised signals are linear and run on exact numbers; a gradient
of a coherence that is not finite makes all samples that it reaches NaN (`lift`).
-/

namespace FBE.Backward

open Classical XR Complex Matrix

variable {s : List ℕ} {r e c N M K : ℕ}

/-! ### from the decibel values to the coherences -/

/-- The gradients that arrive at SDR, SIR and SAR, `none` for values that the loss does not use.
torch/metrics.py:580-587. -/
structure BssWeights (ι : Type) where
  sdr : Option (ι → ℝ)
  sir : Option (ι → ℝ)
  sar : Option (ι → ℝ)

/-- `decibelGrad` for a quotient that may be infinite or NaN: it is then not between the bounds of the clamp at torch/helpers.py:58,
and the gradient is zero. -/
noncomputable def decibelGradX (clampDb : Option ℝ) (coh : XR) (g : XR) : XR :=
  match coh with
  | fin v => decibelGrad clampDb v g
  | _ => fin 0

/-- torch/metrics.py:581, 584 in reverse: the gradient of `coh_sir`. -/
noncomputable def sirGrad (clampDb : Option ℝ) (cohSdr cohSar w : ℝ) : XR :=
  decibelGradX clampDb (div (fin cohSdr) (fin cohSar)) (fin w)

/-- torch/metrics.py:581-585 in reverse, one element: the gradient of `coh_sdr`, from `neg_sdr` and from the quotient (`g / y`). -/
noncomputable def baseGradSdr (clampDb : Option ℝ) (cohSdr cohSar : ℝ) (wSdr wSir : Option ℝ) : XR :=
  add (match wSdr with
    | some w => decibelGrad clampDb cohSdr (fin w)
    | none => fin 0)
    (match wSir with
    | some w => div (sirGrad clampDb cohSdr cohSar w) (fin cohSar)
    | none => fin 0)

/-- torch/metrics.py:581-585 in reverse, one element: the gradient of `coh_sar`, from `neg_sar` and from the quotient
(`-g * ((x / y) / y)`). -/
noncomputable def baseGradSar (clampDb : Option ℝ) (cohSdr cohSar : ℝ) (wSir wSar : Option ℝ) : XR :=
  add (match wSar with
    | some w => decibelGrad clampDb cohSar (fin w)
    | none => fin 0)
    (match wSir with
    | some w => mul (neg (sirGrad clampDb cohSdr cohSar w)) (div (div (fin cohSdr) (fin cohSar)) (fin cohSar))
    | none => fin 0)

/-! ### from the coherences to the normalised signals -/

/-- The forward pass and the formulas of the backward pass between the coherences and the normalised signals: `cohSdr` and `cohSar` of
torch/metrics.py:60-67, 546-566; `est m j g h` is the gradient of the normalised estimate `j` for gradients `g k` of its `coh_sdr` and `h`
of its `coh_sar`; `ref m g h k` is that of the normalised reference `k` for gradients of all coherences. -/
structure BssPass (s : List ℕ) (r e N M : ℕ) where
  cohSdr : BIdx s → Fin r → Fin e → ℝ
  cohSar : BIdx s → Fin e → ℝ
  est : BIdx s → Fin e → (Fin r → ℝ) → ℝ → Fin M → ℝ
  ref : BIdx s → (Fin r → Fin e → ℝ) → (Fin e → ℝ) → Fin r → Fin N → ℝ

/-- The gradient of the right-hand side `b` of `∑ b * solve(A, b)`, torch/metrics.py:64-65, 557, 566 in reverse: from the product with `sol`,
and from `solve` (`solve(Aᵀ, g)`). -/
noncomputable def rhsGrad {J : Type} [Fintype J] [DecidableEq J] (A : Matrix J J ℝ) (b sol : J → ℝ) (g : ℝ) : J → ℝ :=
  fun l => g * sol l + (Aᵀ⁻¹ *ᵥ fun i => g * b i) l

/-- The gradient of the matrix `A` of `∑ b * solve(A, b)`, torch/metrics.py:64-65, 557, 566 in reverse: `-solve(Aᵀ, g) solᵀ`, summed over the
right-hand sides. -/
noncomputable def lhsGrad {J : Type} [Fintype J] [DecidableEq J] (A : Matrix J J ℝ) (b sol : Fin e → J → ℝ) (g : Fin e → ℝ) : Matrix J J ℝ :=
  fun p q => -∑ j, (Aᵀ⁻¹ *ᵥ fun i => g j * b j i) p * sol j q

/-- The normalised estimates, torch/metrics.py:53 in reverse. -/
noncomputable def estBackOne (x : Fin r → Fin N → ℝ) (gxc : Fin r → ℝ) : Fin N → ℝ :=
  fun t => ∑ k, gxc k * x k t

/-- The normalised references, torch/metrics.py:53, 61 in reverse. -/
noncomputable def refBackOne (x : Fin r → Fin N → ℝ) (y : Fin e → Fin N → ℝ) (gxc : Fin r → Fin e → ℝ) (gacm : Matrix (Fin r) (Fin r) ℝ) :
    Fin r → Fin N → ℝ :=
  fun k t => ∑ j, gxc k j * y j t + (∑ l, gacm k l * x l t + ∑ l, gacm l k * x l t)

/-- torch/metrics.py:44-73 (`filter_length=1`) and its reverse.  `load_diag` is added to the matrix `acm`. -/
noncomputable def passOne (o : Opts) (ref : Sig s r N) (est : Sig s e N) : Except PyErr (BssPass s r e N N) :=
  let x := prep o ref
  let y := prep o est
  let xc : BIdx s → Fin e → Fin r → ℝ := fun m j k => dot (x m k) (y m j)
  let acm : BIdx s → Matrix (Fin r) (Fin r) ℝ := fun m k l => dot (x m k) (x m l)
  let acm : BIdx s → Matrix (Fin r) (Fin r) ℝ := match o.loadDiag with
    | some d => fun m => acm m + d • (1 : Matrix (Fin r) (Fin r) ℝ)
    | none => acm
  match solveStack acm xc with
  | .error err => .error err
  | .ok sol => .ok
    { cohSdr := fun m k j => xc m j k ^ 2
      cohSar := fun m j => ∑ k, xc m j k * sol m j k
      est := fun m j g h => estBackOne (x m) fun k => g k * (2 * xc m j k) + rhsGrad (acm m) (xc m j) (sol m j) h k
      ref := fun m g h => refBackOne (x m) (y m)
        (fun k j => g k j * (2 * xc m j k) + rhsGrad (acm m) (xc m j) (sol m j) (h j) k) (lhsGrad (acm m) (xc m) (sol m) h) }

/-- torch/linalg.py:53-58 in reverse, one pair of channels: the gradient of element `p` of the `2 K` lags of `x`, from
`vec = cat((x[-K + 1:], x[:K]))` and the view of `vec` as a matrix. -/
noncomputable def blockGrad (gR : Matrix (Fin K) (Fin K) ℝ) (p : ℕ) : ℝ :=
  (if p < K then twoGrad gR (K - 1 + p) else 0) + if K + 1 ≤ p then twoGrad gR (p - (K + 1)) else 0

/-- torch/metrics.py:171 in reverse: the gradient of lag `t` of `n`, from `cat([acf[:K], acf[-K:]])`. -/
noncomputable def acf2Grad (n K : ℕ) (g : ℕ → ℝ) (t : Fin n) : ℝ :=
  (if t.val < K then g t else 0) + if n - K ≤ t.val then g (K + (t - (n - K))) else 0

/-- The gradient of the `2 K` lags of `acf` of the references `k` and `l`: torch/metrics.py:531-540 (the diagonal) and 556 in reverse. -/
noncomputable def acfGrad (gR : Fin r → Matrix (Fin K) (Fin K) ℝ) (gB : Matrix (Fin K × Fin r) (Fin K × Fin r) ℝ) (k l : Fin r) (p : ℕ) : ℝ :=
  blockGrad (fun a b => gB (a, k) (b, l)) p + if h : p < K ∧ k = l then toeplitzGrad (gR k) ⟨p, h.1⟩ else 0

/-- The normalised references, torch/metrics.py:165-176 in reverse.  `X * conj(X)` for all pairs: `g * X` for the first factor,
`conj(g) * X` for the second. -/
noncomputable def refBackAll (n : ℕ) (x : Fin r → Fin N → ℝ) (y : Fin e → Fin M → ℝ) (gxc : Fin r → Fin e → Fin K → ℝ)
    (gacf : Fin r → Fin r → ℕ → ℝ) : Fin r → Fin N → ℝ :=
  fun k t => rfftGrad n (fun f =>
    ∑ j, (starRingEnd ℂ) (irfftGrad n K (gxc k j) f * (starRingEnd ℂ) (spectrum n (y j) f)) +
      (∑ l, irfftGrad n n (acf2Grad n K (gacf k l)) f * spectrum n (x l) f +
        ∑ l, (starRingEnd ℂ) (irfftGrad n n (acf2Grad n K (gacf l k)) f) * spectrum n (x l) f)) t

/-- torch/metrics.py:508-566 with `use_cg_iter=None` (`filter_length >= 2`) and its reverse. -/
noncomputable def passFir (o : Opts) (ref : Sig s r N) (est : Sig s e M) : Except PyErr (BssPass s r e N M) :=
  match nFft N M with
  | .error err => .error err
  | .ok n =>
    let K := min o.filterLength n
    if min o.filterLength (K + K) ≠ K then .error torchBackend.shapeErr else
    let R : BIdx s → Fin r → Matrix (Fin K) (Fin K) ℝ := fun m k => toeplitz torchBackend K (bssAcfSdr o n ref m k)
    let xc : BIdx s → Fin r → Fin e → Fin K → ℝ := fun m k j => vec K (sdrXcorr o n ref est m k j)
    match solveStack (fun i : BIdx s × Fin r => R i.1 i.2) (fun i j => xc i.1 i.2 j) with
    | .error err => .error err
    | .ok sol =>
      match blockToeplitz torchBackend K (bssAcf o n ref) with
      | .error err => .error err
      | .ok RB =>
        let xb := xcorrFlat o n K ref est
        match solveStack RB xb with
        | .error err => .error err
        | .ok solB => .ok
          { cohSdr := fun m k j => ∑ l, xc m k j l * sol (m, k) j l
            cohSar := fun m j => ∑ p, xb m j p * solB m j p
            est := fun m j g h => estBack n (prep o ref m) fun k l =>
              xcorrGrad (R m k) (xc m k j) (sol (m, k) j) (g k) l + rhsGrad (RB m) (xb m j) (solB m j) h (l, k)
            ref := fun m g h => refBackAll n (prep o ref m) (prep o est m)
              (fun k j l => xcorrGrad (R m k) (xc m k j) (sol (m, k) j) (g k j) l + rhsGrad (RB m) (xb m j) (solB m j) (h j) (l, k))
              (acfGrad (fun k => matGrad (R m k) (xc m k) (sol (m, k)) (g k)) (lhsGrad (RB m) (xb m) (solB m) h)) }

/-- torch/metrics.py:497-566 (`use_cg_iter=None`, any filter length) and its reverse.  Signals of different lengths as in `sameLength`. -/
noncomputable def bssPass (o : Opts) (ref : Sig s r N) (est : Sig s e M) : Except PyErr (BssPass s r e N M) :=
  if o.filterLength = 0 then .error .unmodelled
  else if o.filterLength = 1 then
    if h : M = N then by
      subst h
      exact passOne o ref est
    else if M = 1 ∨ N = 1 then .error .unmodelled
    else .error torchBackend.shapeErr
  else passFir o ref est

/-! ### the whole pass -/

/-- The gradient of `coh_sdr` for `pairwise=True`, torch/metrics.py:581-585 in reverse. -/
noncomputable def pairSdr (o : Opts) (P : BssPass s r e N M) (W : BssWeights (BIdx s × Fin r × Fin e)) (m : BIdx s) (k : Fin r) (j : Fin e) : XR :=
  baseGradSdr o.clampDb (P.cohSdr m k j) (P.cohSar m j) (W.sdr.map (· (m, k, j))) (W.sir.map (· (m, k, j)))

/-- The gradient of `coh_sar` for `pairwise=True`: torch/metrics.py:569-570, 581-585 in reverse (sum over the references). -/
noncomputable def pairSar (o : Opts) (P : BssPass s r e N M) (W : BssWeights (BIdx s × Fin r × Fin e)) (m : BIdx s) (j : Fin e) : XR :=
  xsum fun k => baseGradSar o.clampDb (P.cohSdr m k j) (P.cohSar m j) (W.sir.map (· (m, k, j))) (W.sar.map (· (m, k, j)))

/-- The gradient of the estimates for the matrices of SDR, SIR and SAR used with weights `W` (`compute_permutation=True` before the
selection): torch/metrics.py:658-666 in reverse. -/
noncomputable def gradEstBss (o : Opts) (P : BssPass s r e N M) (est : Sig s e M) (W : BssWeights (BIdx s × Fin r × Fin e)) :
    BIdx s → Fin e → Fin M → XR :=
  fun m j => preprocessGrad o.zeroMean (est m j) <|
    lift (fun i : Option (Fin r) => match i with
      | some k => pairSdr o P W m k j
      | none => pairSar o P W m j) fun g => P.est m j (fun k => g (some k)) (g none)

/-- The gradient of the references for the matrices of SDR, SIR and SAR: torch/metrics.py:658-666 in reverse.  Reference `k` is reached by
its own `coh_sdr` and by all `coh_sar`. -/
noncomputable def gradRefBss (o : Opts) (P : BssPass s r e N M) (ref : Sig s r N) (W : BssWeights (BIdx s × Fin r × Fin e)) :
    BIdx s → Fin r → Fin N → XR :=
  fun m k => preprocessGrad o.zeroMean (ref m k) <|
    lift (fun i : Fin e ⊕ Fin e => match i with
      | .inl j => pairSdr o P W m k j
      | .inr j => pairSar o P W m j) fun g => P.ref m (fun k' j => if k' = k then g (.inl j) else 0) (fun j => g (.inr j)) k

/-- The gradient of `coh_sdr` for `compute_permutation=False`, torch/metrics.py:581-585 in reverse. -/
noncomputable def diagSdr (o : Opts) (P : BssPass s c c N M) (W : BssWeights (BIdx s × Fin c)) (m : BIdx s) (k : Fin c) : XR :=
  baseGradSdr o.clampDb (P.cohSdr m k k) (P.cohSar m k) (W.sdr.map (· (m, k))) (W.sir.map (· (m, k)))

/-- The gradient of `coh_sar` for `compute_permutation=False`, torch/metrics.py:581-585 in reverse. -/
noncomputable def diagSar (o : Opts) (P : BssPass s c c N M) (W : BssWeights (BIdx s × Fin c)) (m : BIdx s) (k : Fin c) : XR :=
  baseGradSar o.clampDb (P.cohSdr m k k) (P.cohSar m k) (W.sir.map (· (m, k))) (W.sar.map (· (m, k)))

/-- The gradient of the estimates for `compute_permutation=False`: torch/metrics.py:658-666, 674 in reverse.  Only the pairs
`(k, k)` have a `coh_sdr` (torch/metrics.py:534, 551). -/
noncomputable def gradEstBssDiag (o : Opts) (P : BssPass s c c N M) (est : Sig s c M) (W : BssWeights (BIdx s × Fin c)) :
    BIdx s → Fin c → Fin M → XR :=
  fun m j => preprocessGrad o.zeroMean (est m j) <|
    lift (fun i : Bool => match i with
      | true => diagSdr o P W m j
      | false => diagSar o P W m j) fun g => P.est m j (fun k => if k = j then g true else 0) (g false)

/-- The gradient of the references for `compute_permutation=False`: torch/metrics.py:658-666, 674 in reverse. -/
noncomputable def gradRefBssDiag (o : Opts) (P : BssPass s c c N M) (ref : Sig s c N) (W : BssWeights (BIdx s × Fin c)) :
    BIdx s → Fin c → Fin N → XR :=
  fun m k => preprocessGrad o.zeroMean (ref m k) <|
    lift (fun i : Unit ⊕ Fin c => match i with
      | .inl _ => diagSdr o P W m k
      | .inr j => diagSar o P W m j) fun g =>
        P.ref m (fun k' j => if k' = k ∧ j = k then g (.inl ()) else 0) (fun j => g (.inr j)) k

/-- torch/metrics.py:668-672 in reverse: the weights of the matrices for weights `v` of the returned values, whose signs are changed;
the selection as in `permGrad`. -/
noncomputable def permWeights (perm : BIdx s → Fin (min r e) → ℕ) (v : BssWeights (BIdx s × Fin (min r e))) :
    BssWeights (BIdx s × Fin r × Fin e) :=
  let f : (BIdx s × Fin (min r e) → ℝ) → BIdx s × Fin r × Fin e → ℝ := fun w i => permGrad perm (fun m c => -w (m, c)) i.1 i.2.1 i.2.2
  ⟨v.sdr.map f, v.sir.map f, v.sar.map f⟩

/-- torch/metrics.py:674 in reverse: the signs of the returned values. -/
noncomputable def negWeights (v : BssWeights (BIdx s × Fin c)) : BssWeights (BIdx s × Fin c) :=
  ⟨v.sdr.map fun w i => -w i, v.sir.map fun w i => -w i, v.sar.map fun w i => -w i⟩

/-- The gradients of estimates and references for weights `v` of the values of `bss_eval_sources(compute_permutation=True)`:
torch/metrics.py:650-672 in reverse, after the forward pass. -/
noncomputable def bssBackward (o : Opts) (ref : Sig s r N) (est : Sig s e M) (v : BssWeights (BIdx s × Fin (min r e))) :
    Except PyErr ((BIdx s → Fin e → Fin M → XR) × (BIdx s → Fin r → Fin N → XR)) :=
  match bssPass o ref est with
  | .error err => .error err
  | .ok P =>
    let base := fun m k j => baseMetrics o.clampDb (P.cohSdr m k j) (P.cohSar m j)
    match solvePermutation torchBackend (fun m k j => (base m k j).2.1) (nArgs := 2)
      ![fun m k j => (base m k j).1, fun m k j => (base m k j).2.2] with
    | .error err => .error err
    | .ok out => .ok (gradEstBss o P est (permWeights out.perm v), gradRefBss o P ref (permWeights out.perm v))

/-- The gradients of estimates and references for weights `v` of the values of `bss_eval_sources(compute_permutation=False)`:
torch/metrics.py:643-666, 674 in reverse, after the forward pass.  The systems that are solved are those of
`compute_permutation=True`. -/
noncomputable def bssBackwardDiag (o : Opts) (ref : Sig s c N) (est : Sig s c M) (v : BssWeights (BIdx s × Fin c)) :
    Except PyErr ((BIdx s → Fin c → Fin M → XR) × (BIdx s → Fin c → Fin N → XR)) :=
  match bssPass o ref est with
  | .error err => .error err
  | .ok P => .ok (gradEstBssDiag o P est (negWeights v), gradRefBssDiag o P ref (negWeights v))

end FBE.Backward
