# A formal model of fast_bss_eval in Lean 4

The subject is the source in `/repo` (package `fast_bss_eval`, both the numpy and the torch
subpackage).  The properties are in `properties.jsonl` (C01, C02, …), the map from properties to
theorems is `MANIFEST.json`.

| directory (under `lean/Verif`) | content |
|---|---|
| `Model/` | the code, function by function, each definition with file and lines of `/repo` |
| `Spec/` | small specifications that do not mention the model's helpers |
| `Proofs/` | lemmas |
| `Props/` | the property theorems, beside each a concrete case that meets its hypotheses |

`../seeded/LOG.jsonl` records the wrong programs tried: an edit of the model, the claim it breaks and
the theorems that stop proving.

## 1. Trusted base

* **Lean 4.33.0** (kernel), and Mathlib as a library of checked proofs.
* **Axioms.**  `#print axioms` for every theorem of `MANIFEST.json` gives `propext`, `Classical.choice`,
  `Quot.sound` (`C44_inputs_unchanged`: only `propext`, `Quot.sound`).  There are no further axioms, no
  `sorry`, no `native_decide`/`bv_decide`.
* **The model is a faithful reading of the code.**  This is not checked by a machine.  Each definition
  cites the lines it models, and the simplifications are the ones listed below and in the comments.
* **The external libraries behave as follows** (they are not in `/repo`).
  * `rfft`, `irfft`: the defining sums (`Model/Fft.lean`).
  * `numpy.linalg.solve`, `torch.linalg.solve`, `linalg.inv`: the exact solution; `LinAlgError` exactly if
    some matrix of the batch is singular; `ValueError` for sizes that do not fit.  The two readings of a
    stack of vectors (numpy < 2 and numpy ≥ 2) are both modelled (C43).
  * `scipy.optimize.linear_sum_assignment`: *any* function with the property `LsaCorrect` (returns an
    optimal complete assignment for a finite matrix, rows increasing; raises `ValueError` if there is a
    NaN).  The torch replacement `torch/hungarian.py` is modelled in full, and proved to have this property
    (C18–C20).
  * `numpy` elementwise functions on special values: IEEE-754 rules (`Model/XR.lean`).
  * Python: argument binding of calls, slices, attribute look-up (`Model/PySlice.lean`, `Model/Dispatch.lean`).
  * C70 only: data type and device of the result of each library operation (first section of `Model/Tags.lean`).
  * C71 to C73, C75, C85, C88 and C96 to C99 only: the derivative formula that torch runs for each operation (listed in `Model/Backward.lean`, `Model/BackwardPit.lean`,
    `Model/BackwardFir.lean`, `Model/BackwardCg.lean`, `Model/BackwardBss.lean` and `Model/BackwardBssCg.lean`).
  * C86 only: `math.log2` is exact for powers of two and accurate to one unit in the last place.
  * C87 only: an FFT, product or solution made from a channel with a NaN sample is NaN throughout, and `solve` does not raise for a
    matrix all of whose entries are NaN.
  * C69 only: `try`/`except` (`Model/Import.lean`).
  * C44 only: which library operation allocates, creates a view or writes (list in `Model/Effects.lean`).
    Operations for which this depends on the memory layout (`reshape`, `.to`, numpy `conj`) may do either.

## 2. What is modelled

| file of `/repo/fast_bss_eval` | model |
|---|---|
| `__init__.py` | `Model/Import.lean`: the import; `Model/Dispatch.lean`: dummy class, signatures and defaults of the eight public functions, `isinstance` tests, forwarded arguments |
| `numpy/metrics.py`, `torch/metrics.py` | `Model/Metrics.lean`, `Model/Fft.lean` (`compute_stats`, `compute_stats_2`): all functions; `Model/NoLength.lean`: `filter_length=None` |
| `numpy/scale_invariant.py`, `torch/scale_invariant.py` | `Model/Metrics.lean`: all functions |
| `numpy/helpers.py`, `torch/helpers.py` | `Model/Signal.lean`, `Model/Helpers.lean`, `Model/XR.lean`: all functions; `Model/Rounded.lean`, `Model/RoundedSi.lean`: the decibel stage and the SI-SDR with rounding; `Model/RoundedLsa.lean`: `_linear_sum_assignment_with_inf` (torch) with rounding |
| `numpy/linalg.py`, `torch/linalg.py` | `Model/Linalg.lean`: all functions |
| `numpy/cgd.py`, `torch/cgd.py` | `Model/Cgd.lean`: preconditioner columns, the four operators, `conjugate_gradient`, `toeplitz_conjugate_gradient`, `block_toeplitz_conjugate_gradient` |
| `torch/hungarian.py` | `Model/Hungarian.lean`: all functions, branch by branch; `Model/RoundedLsa.lean`: on the numbers of a floating point format |
| `numpy/helpers.py`, `numpy/linalg.py`, `numpy/cgd.py`, `numpy/metrics.py` and the torch files, once more on arrays with axes | `Model/Tensor.lean` (array operations), `Model/Arrays.lean` (the statements) |
| `torch/compatibility.py` | `Model/Import.lean`: the choice of the version; `Model/Compat.lean`: `rfft`, `irfft`, `solve`, `einsum_complex` for torch < 1.8, and the functions of torch ≥ 1.8 and numpy they stand for |
| `2 ** math.ceil(math.log2(…))` in `metrics.py` and `cgd.py`, with a rounded logarithm | `Model/Log2.lean` (C86) |
| `sdr_loss`, `sdr`, `bss_eval_sources` for samples that are infinite or NaN, overflow of the sum of squares in `_normalize` | `Model/Special.lean` (C87) |
| data types and devices in the computations above | `Model/Tags.lean` (C70) |
| `torch/helpers.py`, `torch/metrics.py` (`filter_length=1`), in the reverse order of `backward()` | `Model/Backward.lean` (C71) |
| `torch/metrics.py:107-130, 244-280`, `torch/linalg.py:24-40` (direct solver), in the reverse order of `backward()` | `Model/BackwardFir.lean` (C72) |
| `torch/helpers.py:66-106`, `torch/metrics.py:424-443`, in the reverse order of `backward()` | `Model/BackwardPit.lean` (C73) |
| `torch/cgd.py:29-41, 83-165, 295-371`, `torch/metrics.py:244-280` (iterative solver), in the reverse order of `backward()` | `Model/BackwardCg.lean` (C75) |
| `torch/metrics.py:32-73, 159-178, 508-587, 658-674`, `torch/linalg.py:24-62` (direct solver), in the reverse order of `backward()` | `Model/BackwardBss.lean` (C85) |
| `torch/metrics.py:508-566`, `torch/cgd.py:44-80, 168-287, 295-371, 394-411`, in the reverse order of `backward()` | `Model/BackwardBssCg.lean` (C88) |
| the computations above, as array statements with memory | `Model/Heap.lean`, `Model/Effects.lean` (C44) |

The two packages have the same statements in the same order up to the points collected in the structure
`Backend` (order of the flipped vector in `toeplitz`, assignment routine, stacked vectors in `solve`,
exception kinds).  `torchBackend` and `numpyBackend scipyLsa numpy2` are its instances.  Theorems assume
`Covered B`: the torch package, or the numpy package with a correct assignment routine.

### Two models of the computation

* **Indexed families** (`Model/Metrics.lean` and what it uses).  Batch items, channels and samples are typed
  indices, axes of lags are lists.  C01–C60 are about this model.
* **Arrays with axes** (`Model/Arrays.lean`).  The same statements on arrays that are a shape and entries: axis
  numbers, transpositions, broadcasting, einsum, reshape with `-1`, and every check of a shape.  Its parameter
  `Api` has three instances: numpy, torch ≥ 1.8, torch < 1.8.
* `Proofs/ArrayAgree.lean` proves that they agree: same exceptions, and the arrays hold the values of the
  families.  Conditions are those of C61; outside of them the array model is the reference (C62).
* One known difference: for `bss_eval_sources` with more than one tap, and no estimate or no batch item, the
  families are empty while the code raises (C62_empty_bss_eval).  Theorems C01–C60 say nothing of interest
  about this case.

### Numbers

* Signals, transforms, linear systems, conjugate gradient: exact real and complex numbers.  Rounding and
  overflow are not modelled here.  Samples that are infinite or NaN, and overflow in the normalisation, are in
  `Model/Special.lean` (C87).
* From coherences to decibels, and in the permutation solver: `XR`, the real numbers with `+inf`, `-inf` and
  `nan`, and the IEEE rules for these (no signed zero).
* The decibel stage once more with the rounding of every operation (`Model/Rounded.lean`, C65), and the whole
  computation of the SI-SDR without mean removal (`Model/RoundedSi.lean`, C67), for any format, without limits of
  the exponent.
* The assignment solver of the torch package is defined over any linearly ordered type with `0 + -`.
  Termination and validity use only `a - a = 0`, which also holds for finite floating-point numbers;
  optimality (C19) uses exact arithmetic.  C76 is about the same machine with rounded operations
  (`Model/RoundedLsa.lean`), and both together (`Model/RoundedPerm.lean`, C77).

### Arrays

* In the first model an array of shape `s + (c, n)` is a function `BIdx s → Fin c → Fin n → ℝ`, for all batch shapes `s`
  (also empty, also with zero-sized axes) and all sizes.
* Axes of lags and frequencies are lists, so that the slices of the code (`[:0:-1]`, `[-n+1:]`, `[:L]`) are
  modelled with Python's rules for out-of-range bounds.
* References and estimates may have different numbers of samples (C53).  Theorems about projections, limits,
  continuity and gradients are about equal numbers (`Proofs/Equal.lean` gives the form of the model for this case).
* Flattening `(lag, channel)` gives the index type `Fin K × Fin r`.
* Exceptions are values (`Except PyErr`).  `while` loops have fuel; the theorems show that it never runs out.

### Not modelled

* Underflow, and overflow other than in the sum of squares of the normalisation (C87; afterwards all energies are at most 1).
  Explicit error bounds for `use_cg_iter` (C80 to C82 have them for the direct solver; C83 and C84 are
  limits).  In all of these the FFT, `linalg.solve` and `linalg.inv` enter through error bounds.  Rounding in gradients (C59 is about the
  derivative of the function itself, C71 to C73, C75, C85, C88 and C96 to C99 about the gradients that torch computes, both in exact arithmetic).  Data types and devices are modelled
  apart from the values (C70).
* Signals of one sample against longer ones with `filter_length=1` (broadcast in time) are in the array model only (C91), and so is
  `pairwise=False` with one reference against several estimates (C74).
* `bss_eval_sources(compute_permutation=False)` with a filter longer than the transform and exactly as many
  channels as lags (`linalg.solve` may then read the vectors as a matrix).
* `filter_length` zero or negative and negative `use_cg_iter` are in the array model only (C64); a mixture of numpy
  arrays and tensors is in neither.
* Complex inputs to `conjugate_gradient` (not reachable from the metrics) are modelled for one matrix and any columns (C104); complex inputs to the Toeplitz operators and preconditioners are not.
* Version numbers with an epoch, and import hooks (C69).
* The scripts, examples and tests of the repository.

## 3. Properties

Statements hold for all signals, batch shapes, channel numbers and lengths unless something else is said.
"Direct" means `use_cg_iter=None` or `filter_length=1`.  "Fits" means `filter_length` is at most
`n_fft - n_samples + 1`; longer filters wrap around in the FFT (C31 shows the bound is sharp for the
cross-correlation).

| id | theorems say | proof |
|---|---|---|
| C01 | direct, fits: the returned SDR is `10 log10 (|P e|² / |e - P e|²)`, `P` the orthogonal projection onto the shifts of the reference (Mathlib's `starProjection`); infinities included | correlation theorem for the DFT, Gram matrix, normal equations |
| C02 | the same for SDR, SIR, SAR of `bss_eval_sources`, in terms of projections onto one and onto all references | the same, block Toeplitz |
| C03 | `si_*` functions compute the classical SI-SDR | one-dimensional projection |
| C04 | SDR ≤ SIR and SDR ≤ SAR; counterexample for `filter_length=1` with `load_diag > 0` | energies of nested projections, loaded Gram matrices |
| C05, C06 | clamping: range, and equality with clipping the unclamped value (at the chosen permutation) | monotonicity of the decibel map on `XR` |
| C07, C08 | scaling and offsets; counterexample below the normalisation threshold `1e-6` | `Proofs/Related`: calls whose correlations agree up to factors |
| C09 | longer filters never lower the SDR/SAR, any lengths | `quad_mono`: quadratic form of a sub-family of a Gram matrix |
| C10 | FIR-filtered references give SDR `+inf` | projection of a member of the span |
| C11, C12, C15, C16 | the reported values are the entries at a best pairing; ranking with infinities (fewest `+inf`, most `-inf`, then least finite rest); least total as extended real | loop invariant over batch items; arithmetic of the place holder; `LsaCorrect` |
| C13 | permutation: no repetition, range | same |
| C14 | reordering of channels | `Related`, uniqueness of optima (`Spec/Unique`) |
| C17 | exactly which matrices of losses make the calls raise; perfect separation without `clamp_db` | case analysis of the code |
| C18, C19, C20 | torch solver: terminates, complete assignment, optimal; NaN raises | structural invariant, lexicographic measure, dual variables |
| C21 | numpy and torch give the same values where both return | all of the above; unique optimum or totals |
| C22 | a batch item gets what a call on it alone gives | pointwise form of all computations |
| C23, C24, C25 | variants of the functions agree | comparison of code paths |
| C26 | the tracked residual is the true residual, also with restarts | induction over the iterations |
| C27, C28 | textbook PCG (`Spec/Pcg`), exact after as many iterations as unknowns, monotone lower bound | conjugacy, energy minimisation; the safeguards are inactive under the hypothesis `CgQuiet` |
| C29 | FFT operators multiply by the (block) Toeplitz matrices | circulant embedding |
| C30 | the preconditioner column is the unique closest circulant in the Frobenius norm | least squares per diagonal |
| C31 | FFT statistics are the correlations if the filter fits; failure otherwise | DFT, wrap-around |
| C32, C33, C34 | loading, silent estimates, exactly when the direct solver raises | definiteness of Gram matrices, independence of shifts |
| C35, C36 | behaviour with and without torch, dispatch, forwarding of all arguments, for every implementation of the packages; every accepted call runs the modelled function with the options as given | symbolic evaluation of binding |
| C37 | Toeplitz builders produce the stated matrices, stay in bounds | index arithmetic |
| C38, C39 | `sdr` vs `bss_eval_sources`; SAR does not depend on the pairing | optimality; `Related` |
| C40, C47 | trailing / leading silence; counterexample with `zero_mean` | `Same`: equal correlations |
| C41, C42, C43 | `load_diag` at length one; shortcut vs general code; numpy ≥ 2 | evaluation of the model |
| C44 | no execution writes to a buffer of an input; results share no buffer with the inputs | abstract interpretation of the array statements, proved sound for all executions |
| C45 | coherences in [0,1] | Schur-type inequality |
| C46 | preconditioners solve the closest circulant system and stay definite | diagonalisation by the DFT |
| C48 | `zero_mean` = removing the means before the call, failures included | equality of the preprocessed signals |
| C49 | `1 + 1/SDR = (1 + 1/SIR)(1 + 1/SAR)` whenever finite, all options | algebra on `XR` |
| C50 | symmetry of SI-SDR | symmetry of the inner product, transposed pairings |
| C51 | more sources: SDR unchanged, SAR grows, SIR shrinks; more candidates never lower the total | `quad_mono`, sub-pairings |
| C52 | iterative solver: error never grows, results tend to those of the direct solver, safeguards active or not; permutation eventually the same | gain per step in the energy norm, bounds of the search directions uniform in the iteration (`Proofs/CgDescent`, `CgConverge`), continuity of the decibel map, stability of a unique optimum (`PermLimit`) |
| C53 | references and estimates of different lengths: the shorter signals are silently followed by zeros (longer estimates: if the filters fit); the `si_*` functions raise | the transform only depends on the extended signals; correlations of short references do not wrap around; position `-L` of the lists is not used |
| C54 | filters longer than the transform: results do not depend on the length any more; `sdr_loss` reports every audible estimate as perfect; `bss_eval_sources` raises; bounds for the default 512 | the cyclic shifts fill the space; sizes of the lists |
| C55 | more taps than samples: `bss_eval_sources` raises or all SARs are infinite | dimension of the space of filtered signals |
| C56 | `filter_length=None`: as `filter_length=n_samples` in `sdr`, `sdr_loss`; `bss_eval_sources` raises | `Model/NoLength`; C01, C34; sizes |
| C57 | when the iterative solver raises | C30's spectrum of the preconditioner is a Gram matrix of filtered references; a filtered signal vanishes only with the signal |
| C58 | the metrics depend continuously on the signals, the permutation is locally constant where it is unique | determinants and inverses are continuous; every iteration of the loop is (its divisors are at least 1e-6); `perm_stable` |
| C59 | the loss is smooth where it is not clamped; its gradient, and where it vanishes | `sdrCohPair_smooth` (inverse matrices are analytic), C01 turns the loss into a ratio of energies, derivative of squared norms |
| C60 | filtered copies of the references, in any order: values +inf or clamp_db, permutation = order | every best pairing only selects the least possible loss (`best_of_least`); spans of the shifts of different references meet in zero |
| C61 | leading axes are a batch, broadcast between references and estimates; the items are the calls on the items | `Proofs/ArrayAgree`: the array program agrees with the program on indexed families, for every installation; C22 |
| C62 | leading axes that do not fit, fewer axes on the references, empty batches: which exception | evaluation of the array program up to the statement that raises |
| C63 | old torch = current torch on arrays, exceptions included; any two installations agree | `Api.Lawful` (laws of the wrappers) for the three installations, `Proofs/ArrayAgree` |
| C64 | `filter_length` 0, negative; `use_cg_iter` 0, negative | evaluation of the array program: slices with negative ends, systems without rows, loops without iterations |
| C65 | the decibel stage with all roundings: `clamp_db` holds up to one decibel below a limit, is lost above another one; accuracy; order | `Model/Rounded`: rounding to nearest with any ties, `Proofs/Rounded` (relative and absolute error, no number between `1 - 2^-p` and 1), error propagation through the logarithm |
| C66 | the three metrics from the energies left by least squares filters (`Spec/LeastSquares`: plain sums over samples, no projections); lower bound of the SDR from any filter | C01, C02, C12 and the minimality of orthogonal projections (`Proofs/LeastSquares`) |
| C67 | SI-SDR with all roundings from the samples on: error bound in dB, order of clearly different estimates, perfect estimates | `Model/RoundedSi`: sums as a relation (any tree, fused multiply-add); induction over the tree, Cauchy–Schwarz, C65 for the last stage |
| C68 | arrays with one axis: the value of the call with a channel axis, or rejected | `Model/Arrays` for shapes `(n,)`; equality with the index model for one channel through `solve` on a vector |
| C69 | outcome of `import fast_bss_eval` on every installation | `Model/Import`: module bodies with `try`/`except`, versions as in `packaging`; composed with the dispatch of C35, C36 |
| C70 | device and data type of every result; the calls that fail because of them | `Model/Tags`: the operations of each function on (device, data type); induction over the iterations |
| C71 | the gradients of `loss.backward()` are finite, zero, NaN or the derivative of the loss, as stated | `Model/Backward`: the derivative formulas of torch in reverse order on extended numbers; NaN spreads through every formula; chain rule for the rest |
| C72 | the statements of C71 for filters of several taps with the direct solver | `Model/BackwardFir`: formulas of torch for `solve`, `toeplitz`, `rfft`, `irfft` in reverse; they are the adjoint maps (half spectra of real signals, sums over the diagonals); derivative of `b · A⁻¹ b` from `A x = b` |
| C73 | gradients of `sdr` and `sdr_pit_loss` are those of the returned values if the best permutation is unique, else of a function touching the total from above; finite with `clamp_db`; NaN from infinite losses of unused pairs | `Model/BackwardPit`: the gradients are scattered to the selected pairs; the selected pairing is constant nearby (`perm_stable`), the rest is C71 and C72 |
| C74 | `pairwise=False` broadcasts channels (one reference for several estimates) where the solver takes the stack; elsewhere the exception, or the array with an axis too many | `Proofs/ArrayExpand`: array model against the index model on repeated signals, for every solver |
| C75 | the statements of C71 to C73 through the conjugate gradient iterations | `Model/BackwardCg`: the loop in reverse with the formulas of torch for `max`, division, products of spectra, `rfft`, `irfft`; forward tangents of the loop are its derivative (`tanRun_der`), and the backward loop is the adjoint of the tangent loop (`cgLoopGrad_adjoint`), by induction over the iterations |
| C76 | the assignment found with rounded arithmetic is complete and close to the optimum; infinities are handled exactly | `Model/RoundedLsa`: the machine of `Model/Hungarian` instantiated with the numbers of a format; invariant `NumR`: approximate dual potentials with error `u (t+1)² D q^t` after `t` calls of `_step6` (at most `k²` calls, `κ`), entries of unstarred columns do not grow; then duality for the matrix rebuilt from the potentials |
| C77 | `si_sdr` with `clamp_db` in floating point: values and choice of the permutation, from the samples on | `Model/RoundedPerm` (`_solve_permutation` around the rounded solver); the clamp is 1-Lipschitz in the coherence and its two bounds, so the error of the coherence (C67) carries over to the limited decibels (`Spec/Limited`) for every estimate; then C76 |
| C78 | `conjugate_gradient` called by the user: dense `A` and `precond`, starting point, `n_iter=None`, `x_true`, `verbose` | `Model/ArraysCg` (array program with the recorded errors and the printed numbers); an invariant of the loop over arrays `V` ties every column to the iteration `cgRun`; then C48's convergence and the invariance under shifts (`Proofs/CgCallOutcome`) |
| C79 | a change of an estimate by a fraction `δ` turns the angle of its SDR by at most `arcsin δ`; decibel bounds with `clamp_db`; totals; changed references | the documented ratios (C01, C02) are cotangents of angles between the estimate and a subspace; triangle inequality for angles; mean value theorem for the decibels (`Proofs/Angle`); C66 for references |
| C80 | all roundings of `sdr_loss` and (torch) `sdr` with filters of any length, the means and `load_diag`: distance to the SDR of the least squares filter limited to `[-d, d]`; the computed matrix is nonsingular; near-optimal pairing; `float64` numbers | relative error bounds stage by stage (`Proofs/RoundedPrep`, `RoundedStats` with Parseval, `RoundedFir`), perturbation of a coercive quadratic form (`Proofs/Perturb`), then C77's decibel stage and assignment; FFT and solver are relations with error bounds |
| C81 | all roundings of `bss_eval_sources` (direct solver): distance of SDR, SIR and SAR to those of the least squares filters limited to `[-d, d]`; the block Toeplitz matrix is nonsingular; pairing of nearly the best total SIR; `float64` numbers | C80's stages with the shifts of all the references as one family (`Proofs/RoundedBss`: entries of the block Toeplitz matrix against Gram entries), quotient of coherences, C77's assignment with further gathers (`Proofs/RoundedBssDoc`) |
| C82 | `clamp_db=None` with all roundings: a value limited to `[-d, d]` afterwards is near the documented one limited to `[-d, d]`; permutation if all deciding values are inside the range | the coherences of C67, C80, C81; the decibel stage without limits (`Proofs/RoundedNone`): limited decibels are Lipschitz in the coherence, and a relative error outside the range does not lead back into it |
| C83 | the values computed with all roundings, limited to `[-d, d]`, tend to those of exact arithmetic, for both solvers and any number of iterations; no hypotheses on the signals | `Model/RoundedCg` (preconditioner, loop, operators with relative errors); every operation is continuous at the exact values (`Proofs/RoundedCg`, `RoundedLimit`: limits along filters), from limits to a uniform fineness by the filter of all executions (`RoundedFine`); executions exist (`RoundedCgExists`) |
| C84 | `use_cg_iter` with all roundings: for all large enough numbers of iterations, in fine enough arithmetic, values within `ε` of the documented ones and a pairing within `ε` of the best | C83's limits, convergence of the iteration in exact arithmetic (`Proofs/CgLimit`), the least-squares characterisation of the exact coherences (`sdrCoh_doc`, `bssCoh_doc`), decibels and permutation as in C82 |
| C85 | gradients through `bss_eval_sources`: derivative of the returned values, finite with `clamp_db`, NaN where stated, SDR only as in `sdr_loss` | `Model/BackwardBss`: the formulas of torch for `block_toeplitz`, `solve`, all products of spectra, the quotient of coherences and the permutation in reverse; adjoint identities for the two quadratic forms (`Proofs/BackwardBss`: `PassAt`), for one tap and for filters (`covers`), chain rule through normalisation and decibels (`Proofs/BackwardBssTotal`) |
| C86 | `2 ** ceil(log2(n))` with a rounded `log2` is the least sufficient power of two for `n ≤ 2^45`; false for larger `n` | `Model/Log2`: `log2` is a parameter; specification `Log2` (exact for powers of two, one unit in the last place otherwise); `log2(1+t) ≥ t`, `log2(1-t) ≤ -t` keep the logarithm away from integers |
| C87 | NaN and infinite samples: NaN in exactly the entries concerned, the functions with permutation raise; an energy beyond the range of the data type acts like silence | `Model/Special`: preprocessing with IEEE rules and overflow of the sum of squares, from then on channels are `some` finite array or `none` (NaN); every stage commutes with masking channels; specification `StandsFor` |
| C88 | gradients through `bss_eval_sources` with `use_cg_iter`: derivative of the returned values for any number of iterations, finite with `clamp_db`, NaN where stated, SDR only as in `sdr_loss` | `Model/BackwardBssCg`: the loop in reverse for any operator and preconditioner with a spectrum, the block operators, the start from the solutions for the SDR; adjoint of the tangent of the iterations by induction on the number of iterations (`Proofs/BackwardRun`), adjoints of the block operators and of the inverse of a matrix per frequency (`Proofs/BackwardBlk`), both coherences (`Proofs/BackwardBssCgCore`), local versions of the chain rule of C85 |
| C89 | which signals have infinite SDR, SIR, SAR without `clamp_db`; which inputs make the permutation functions raise | coherences as energies of projections (as C01, C02); projection zero iff uncorrelated with all delays, whole iff in the span, i.e. filtered without truncation (`Proofs/Infinite`); with C17 and C34 for the calls that return |
| C90 | SAR unchanged by an invertible remix of the references; singular remixes raise | the delayed remixed references span the same space (`Proofs/Remix`), independence by dimension; SAR as energy of the projection (C02) |
| C91 | one sample against several with `filter_length=1`: the value of every pair, `zero_mean`, pairing, `LinAlgError` | array model; `einsum` with a label of size one on one side (`Proofs/ArrayOneSample`); a normalised sample is 1 or -1; the Gram matrix of numbers has rank one |
| C92 | estimates given as target + interference + artefact (Spec/Parts: sums over samples) | the parts are the projections of C01/C02 (`Proofs/Parts`: membership in the spans and orthogonality); existence and uniqueness of the parts; energies of uncorrelated sources add up |
| C93 | two calls on signals with the same correlations (Spec/Correlations), samples in another order, orthonormal transforms, recordings played twice | the FFT statistics are the correlations (C31), the normalisation depends on energies only; results and exceptions are functions of these statistics (`Proofs/Same`); the repeated recording has the correlations of the recording times √2 (C07) |
| C94 | two runs: references passed through filters or estimates delayed (Spec/Late), and a longer filter_length | best least squares filters (C66): the filter in a row with the filter of the room, or delayed, leaves the same residual (`Proofs/Late`) |
| C95 | totals of two permutation searches | optimality (C11) of the second pairing against the first pairing; sums of extended reals are monotone |
| C96 | one step of gradient descent (Spec/Training) with the gradients of C71-C73, C75, C85, C88 | derivative along the step; the loss is unchanged along the ray of an estimate and along constants (C07, C40), so the gradient is orthogonal to both; C59 for the strict decrease |
| C97 | two backward passes (models of C71-C73, C75, C85, C88) on signals at different volumes (Spec/Volume) | the passes depend on the normalised signals except for the last stage, the derivative of the normalisation, which scales (`Proofs/Volume`, extended numbers) |
| C98 | norms of the gradients of the models of C71-C73 against a formula in the loss in dB (Spec/Steepness) | the derivative of the normalisation projects (`Proofs/Steepness`: part of the gradient of a squared cosine orthogonal to the signal has the norm `2 sqrt(v (1 - v))`); with longer filters a quadratic form of the inverse of the loaded autocorrelation, bounded by it |
| C99 | sequences of gradient steps (Spec/Run) with the gradients of the models of C71-C73, C75, C85, C88 | induction over the steps: a finite gradient is a finite gradient sent through the derivative of the normalisation, which is orthogonal to the channel (`Proofs/Run`); lengths from C98 |
| C100 | the model of the metrics, on concatenated signals (Spec/Segments) | the residual of fixed filters over the whole is the sum of those over the segments (`Proofs/Segments`), and the best filters for the whole are candidates in each segment (C66); independence of the shifts as uniqueness of the zero filter |
| C101 | the model of the losses, on weighted sums of estimates (Spec/Ensemble) | projections are linear, so the targets add up and the errors satisfy the triangle inequality, or Pythagoras if uncorrelated (`Proofs/Ensemble`); values by C01 and C03 |
| C102 | the models of the losses and of the permutation search; correlation of references over all filters in Spec/Owners | the energies of the projections onto two spans add up to at most 1+c times the energy; a best pairing in the sense of C16 cannot avoid the only low entry of a column (`Proofs/Owners`); float64: a pairing with one wrong pair would miss the best total by more than C80 allows |
| C103 | the models of the losses and of the permutation search; shares and mixtures in Spec/Shares | projections onto n spans that are correlated at most by c have energies that add up to at most 1+(n-1)c times the energy (Cauchy-Schwarz on the sum of the projections, `Proofs/Shares`); mixtures by orthogonality; the SIR through the same inequality for the projection onto all references |
| C104 | `Model/CgComplex`: the loop with conjugated inner products and numpy's maximum of complex numbers | simulation by the real loop on (re, im) with the block matrix (re, -im; im, re) (`complex_run`), C52 for that; finite termination by conjugacy over ℂ (`complex_inv`) |
| C105 | the models of the backward pass (C59, C72, C73, C85, C88) | every formula of the backward pass is odd or even in each signal (`Proofs/Polarity`); for `use_cg_iter` the reversed iterations commute with the change of sign (`cgBodyGrad_neg`, by induction `cgLoopGrad_neg`); the whole pass of `bss_eval_sources` with signs (`bssPass_sgn`, `passCg_sgn`) |
| C106 | the models of the backward pass | solvers for stacks of matrices restricted to one item (`solveStack_sub`, `blockToeplitz_sub`), permutation loop restricted to one item (C22, `solvePermutation_item`) |
| C107 | the models of the backward pass | sums over channels are invariant under reordering, also with NaN and infinities (`xsum_perm`); solver for reordered stacks (`solveStack_surj`); the best pairing of reordered channels is the reordered pairing (C14); the whole pass of `bss_eval_sources` for reordered channels (`bssPass_perm`, `passCg_perm`); the iterations in reverse under a change of coordinates (`runGrad_map`) |
| C108 | the models of the backward pass | by the adjoint formulas (`estBack_adjoint`, `refBack_adjoint`) a gradient at one sample is a correlation with a unit pulse, which does not depend on the transform length (`circ_padded`); statistics of padded signals (`stats_padded`); the normalisation in reverse sums zeros at the appended samples, as the arriving gradients are finite or all NaN (`decibelGrad_tame`, `xsum_lift`); the pass of `bss_eval_sources` (`passFir_padded`, `passCg_padded`): the lag at which the lists of padded signals differ receives no gradient |
| C109 | the models of the backward pass | as C108, with the pulse and the signals delayed together (`circ_lead`, from `circ_delayed` of C47 and the correlation without wrap-around); sums over the delayed signal reduce to the original samples (`sum_lead`) |

No property of `properties.jsonl` was found inexpressible in the model.

### Hypotheses that occur often

* `Covered B`: see above.  Satisfied by both packages.
* `FilterFits`: true for the default `filter_length=512` from 512 samples on (C31_filter_fits).
* `Audible`: norm at least `1e-6` (or a zero signal); needed where normalisation with its threshold matters.
* `CgQuiet` (C27, C28): no curvature and no residual met by the solver falls below the `1e-6` safeguards
  of the code, until the exact solution is reached; `Proofs/ExampleCg.lean` has a case.
* `B.stackedVectors` : torch or numpy < 2 (C43 shows what happens otherwise).

## 4. Observations about the code made on the way

Proved as theorems where a property is named.

* Permutation entries are estimate indices if there are at most as many references as estimates; the
  documentation says "index of the corresponding reference signal" (C13).
* `perfect separation` without `clamp_db`: losses are `-inf`, and `sdr` raises if all losses are infinite, or
  losses of both signs occur (C17).
* A silent estimate makes SIR `0/0 = nan`, and `bss_eval_sources` with permutation raises `ValueError` (C33).
* Signals of norm below `1e-6` are not normalised to one: no scale invariance there (C07).
* Filters longer than `n_fft - n_samples + 1` give aliased correlations (C31).  If they are longer than `n_fft`,
  `sdr` silently uses `n_fft` taps, and `bss_eval_sources` raises.
* `load_diag` does not influence the SDR for `filter_length=1`, but the SAR, so that SDR > SAR can occur (C04, C41).
* numpy ≥ 2: `np.linalg.solve` reads a stack of vectors as a matrix; `pairwise=False` and
  `compute_permutation=False` raise or mix channels (C43).
* With the iterative solver, SIR and SAR of `bss_eval_sources` depend on `compute_permutation` (different
  initial values).
* `(epoch + 1 % 5 == 0)` in `conjugate_gradient` is never true for `epoch ≥ 0`; the residual is always updated
  recursively.  C26 holds for both.
* `block_toeplitz` and the slices `-n+1:` are wrong for `n = 1`; this is not reachable (C37).
* The dummy class used without torch lacks `sdr_pit_loss` and the `si_*` functions (C35).
* `clamp_db` of 80 dB or more has no effect on perfect estimates in `float32`: `1 - eps` rounds to one (C65).
* With `zero_mean=True`, silence at the end of the signals changes the result (C40).
* torch raises `RuntimeError` where numpy raises `ValueError` for a matrix without finite entry.
* `torch/compatibility.py:32` has a list in an `except` clause: a missing `packaging` package would give a
  `TypeError`.
