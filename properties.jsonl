{"id": "C01", "title": "SDR is the documented projection ratio", "statement": "For the direct solver, every entry of sdr_loss(est, ref, filter_length=L, pairwise=True) is -10*log10(||P_k s||^2 / ||s - P_k s||^2), where P_k is the orthogonal projection onto the span of the L shifts of reference k (zero-padded to n_samples+L-1) and s is the estimate.", "quantifier": "all real reference/estimate signals of any channel counts and lengths, any L with L+N-1 <= n_fft, any batch shape, whenever the call returns and the estimate norm is at least 1e-6", "why_tests_cant": "the code goes through an FFT, a Toeplitz view and a linear solve; the identity with an orthogonal projection is an algebraic fact about all signals, tests compare a few random ones to mir_eval up to 1e-5", "anchors": ["fast_bss_eval/numpy/metrics.py:sdr_loss", "fast_bss_eval/numpy/metrics.py:compute_stats", "fast_bss_eval/torch/metrics.py:sdr_loss", "fast_bss_eval/__init__.py:183-194"]}
{"id": "C02", "title": "SDR/SIR/SAR of bss_eval_sources are the documented projection ratios", "statement": "bss_eval_sources(ref, est, filter_length=L, compute_permutation=False) returns for each channel the documented SDR, SIR and SAR: ratios of the energies of P_k s, P s - P_k s and s - P s, with P the projection onto the span of the L shifts of all references.", "quantifier": "all signals, channel counts, lengths, L with L+N-1 <= n_fft, direct solver without load_diag, estimates of norm at least 1e-6 (for filter_length=1 also references of norm at least 1e-6 or silent), whenever the call returns a value", "why_tests_cant": "same as C01; SIR and SAR additionally go through a block Toeplitz system", "anchors": ["fast_bss_eval/numpy/metrics.py:square_cosine_metrics", "fast_bss_eval/numpy/metrics.py:_base_metrics_bss_eval", "fast_bss_eval/numpy/metrics.py:bss_eval_sources", "fast_bss_eval/__init__.py:188-194"]}
{"id": "C03", "title": "SI-SDR is the classical scale-invariant SDR", "statement": "si_sdr_loss(est, ref, pairwise=True)[k,m] is -10*log10(||a s_k||^2/||a s_k - est_m||^2) with a = <est_m,s_k>/||s_k||^2, and every si_* function returns what the corresponding function with filter_length=1 returns.", "quantifier": "all signals with norms at least 1e-6", "why_tests_cant": "universal algebraic identity", "anchors": ["fast_bss_eval/numpy/scale_invariant.py", "fast_bss_eval/numpy/metrics.py:square_cosine_metrics_length_one_filter", "fast_bss_eval/torch/scale_invariant.py"]}
{"id": "C04", "title": "SDR never exceeds SIR or SAR", "statement": "With the direct solver and load_diag None or >= 0, every SDR reported by bss_eval_sources is at most the SIR and at most the SAR reported for the same pair, except for filter_length=1 with load_diag > 0 (where the SDR ignores the loading and can exceed the SAR).", "quantifier": "all inputs and options (direct solver), with or without permutation, whenever the call returns numbers", "why_tests_cant": "an inequality for all signals; random tests cannot exclude a corner", "anchors": ["fast_bss_eval/numpy/metrics.py:bss_eval_sources", "fast_bss_eval/numpy/metrics.py:_base_metrics_bss_eval"]}
{"id": "C05", "title": "clamp_db bounds the metrics", "statement": "With clamp_db = d >= 0, every non-NaN SDR/SIR/SAR value returned by any function lies in [-d, d]; the SDR functions never return NaN or an infinity.", "quantifier": "all inputs, all options, both backends, also for the iterative solver", "why_tests_cant": "a range guarantee over all inputs including silent or perfect signals", "anchors": ["fast_bss_eval/numpy/helpers.py:_coherence_to_neg_sdr", "fast_bss_eval/numpy/helpers.py:_db_clamp_eps", "fast_bss_eval/torch/helpers.py:_coherence_to_neg_sdr"]}
{"id": "C06", "title": "clamp_db is exactly clipping", "statement": "The metric computed with clamp_db = d >= 0 equals the metric computed without clamp_db clipped to [-d, d] (with -inf/+inf clipped to -d/+d). With permutation this holds for the pairs chosen (the choice compares clipped totals).", "quantifier": "all coherence values (finite, infinite), all d >= 0", "why_tests_cant": "continuum of values; the code clips the coherence, not the decibel value", "anchors": ["fast_bss_eval/numpy/helpers.py:_coherence_to_neg_sdr", "fast_bss_eval/torch/helpers.py:_coherence_to_neg_sdr"]}
{"id": "C07", "title": "Scale invariance", "statement": "Multiplying each estimate and each reference channel by any non-zero factor (either sign) leaves every metric unchanged as long as all signal norms stay at or above 1e-6. Below that threshold invariance fails.", "quantifier": "all signals, all factor choices per channel, all options", "why_tests_cant": "quantifies over all real factors; the failing region is at norms tests never use", "anchors": ["fast_bss_eval/numpy/helpers.py:_normalize", "fast_bss_eval/numpy/metrics.py:sdr_loss", "fast_bss_eval/numpy/metrics.py:square_cosine_metrics"]}
{"id": "C08", "title": "Offset invariance with zero_mean", "statement": "With zero_mean=True adding any constant to each channel of ref and est leaves every output unchanged.", "quantifier": "all signals, all per-channel constants, all options", "why_tests_cant": "all real offsets", "anchors": ["fast_bss_eval/numpy/helpers.py:_remove_mean", "fast_bss_eval/numpy/metrics.py:sdr_loss", "fast_bss_eval/numpy/metrics.py:square_cosine_metrics"]}
{"id": "C09", "title": "SDR is monotone in filter_length", "statement": "With the direct solver and no load_diag, sdr_loss with a longer filter never reports a lower SDR for any pair.", "quantifier": "all signals, all L <= L' with L'+N-1 <= n_fft", "why_tests_cant": "needs subspace inclusion for all signals", "anchors": ["fast_bss_eval/numpy/metrics.py:sdr_loss"]}
{"id": "C10", "title": "A filtered reference is a perfect estimate", "statement": "If an estimate is the convolution of reference k with at most L taps (and fits in the signal length), sdr_loss with filter_length=L reports the maximal SDR (+inf, or clamp_db) for that pair.", "quantifier": "all references, all filters of length <= L that fit in the transform, estimates of norm at least 1e-6, direct solver without load_diag", "why_tests_cant": "all filters and signals", "anchors": ["fast_bss_eval/numpy/metrics.py:sdr_loss", "fast_bss_eval/__init__.py:173-186"]}
{"id": "C11", "title": "sdr() picks the assignment with maximal total SDR", "statement": "The assignment returned by sdr(..., return_perm=True) maximises the sum of SDRs over all injective assignments, and sdr_pit_loss is the minimum over assignments.", "quantifier": "all loss matrices with no NaN and not both infinities, any channel counts, both backends", "why_tests_cant": "number of assignments is factorial; tests compare a few random matrices with scipy", "anchors": ["fast_bss_eval/numpy/helpers.py:_solve_permutation", "fast_bss_eval/torch/helpers.py:_solve_permutation", "fast_bss_eval/numpy/metrics.py:sdr", "fast_bss_eval/torch/hungarian.py"]}
{"id": "C12", "title": "bss_eval_sources picks the assignment with maximal total SIR", "statement": "The perm returned by bss_eval_sources maximises the sum of SIRs and the SDR, SIR and SAR vectors are all read at that same assignment.", "quantifier": "all inputs for which the call returns", "why_tests_cant": "as C11", "anchors": ["fast_bss_eval/numpy/metrics.py:bss_eval_sources", "fast_bss_eval/numpy/helpers.py:_solve_permutation"]}
{"id": "C13", "title": "Permutation output is a valid injective assignment of the right size", "statement": "perm has length min(n_ref, n_est), has no repeated entries, and indexes estimates when n_ref <= n_est (perm[k] is the estimate given to reference k) and references when n_ref > n_est. In particular for n_ref <= n_est it is not 'the index of the corresponding reference' documented.", "quantifier": "all channel counts, all loss matrices, both backends", "why_tests_cant": "all shapes and matrices", "anchors": ["fast_bss_eval/numpy/helpers.py:_solve_permutation", "fast_bss_eval/torch/helpers.py:_solve_permutation", "fast_bss_eval/__init__.py:360-362"]}
{"id": "C14", "title": "PIT total is permutation invariant", "statement": "Permuting the estimate channels and the reference channels arbitrarily does not change the total of sdr() nor of the SIRs of bss_eval_sources.", "quantifier": "all permutations, all channel counts, all inputs for which the call returns", "why_tests_cant": "all permutations of all sizes", "anchors": ["fast_bss_eval/numpy/helpers.py:_solve_permutation", "fast_bss_eval/numpy/metrics.py:sdr"]}
{"id": "C15", "title": "Reported values are entries of the pairwise matrix", "statement": "The values returned after permutation solving are exactly the pairwise metrics at the returned assignment; an infinite metric is reported as infinite, never as the finite place-holder used while solving.", "quantifier": "all loss matrices including infinite entries", "why_tests_cant": "all matrices and infinity patterns", "anchors": ["fast_bss_eval/numpy/helpers.py:_solve_permutation", "fast_bss_eval/numpy/helpers.py:_linear_sum_assignment_with_inf"]}
{"id": "C16", "title": "Infinite losses are ranked correctly", "statement": "If the loss matrix contains +inf the returned assignment uses as few +inf entries as possible and minimises the finite rest among those; if it contains -inf it uses as many -inf entries as possible and minimises the finite rest among those.", "quantifier": "all matrices with infinities of one sign and at least one finite entry", "why_tests_cant": "all finite values relative to the place-holder arithmetic", "anchors": ["fast_bss_eval/numpy/helpers.py:_linear_sum_assignment_with_inf", "fast_bss_eval/torch/helpers.py:_linear_sum_assignment_with_inf"]}
{"id": "C17", "title": "Exact characterisation of when permutation solving fails", "statement": "The PIT functions raise on a non-empty loss matrix exactly when it contains a NaN, or both +inf and -inf, or only infinities. In particular without clamp_db a perfect estimate of one source, or of two orthogonal sources, makes sdr raise instead of returning +inf; with clamp_db sdr never fails in permutation solving.", "quantifier": "all loss matrices; all signals for the clamp_db part", "why_tests_cant": "all matrices; perfect separation is never tested", "anchors": ["fast_bss_eval/numpy/helpers.py:_linear_sum_assignment_with_inf", "fast_bss_eval/torch/helpers.py:_linear_sum_assignment_with_inf", "fast_bss_eval/torch/hungarian.py:82-83"]}
{"id": "C18", "title": "The torch assignment solver always terminates with a complete assignment", "statement": "linear_sum_assignment of the torch backend terminates on every finite matrix, never raises, and returns min(r,c) pairs with sorted distinct rows and distinct columns. This does not depend on exact arithmetic: it holds for any rounding of + and - with a - a = 0.", "quantifier": "all finite cost matrices of all shapes, all arithmetic with a-a=0", "why_tests_cant": "non-termination (bug fixed in 0.1.1) cannot be excluded by testing", "anchors": ["fast_bss_eval/torch/hungarian.py"]}
{"id": "C19", "title": "The torch assignment solver is optimal", "statement": "The assignment returned by the torch linear_sum_assignment has minimal total cost among all complete assignments, for square and rectangular matrices.", "quantifier": "all cost matrices over any ordered abelian group", "why_tests_cant": "factorially many alternatives for each of infinitely many matrices", "anchors": ["fast_bss_eval/torch/hungarian.py"]}
{"id": "C20", "title": "NaN never hangs and never yields a permutation", "statement": "If any entry of the loss matrix is NaN every permutation-solving function raises in both backends and never returns a permutation. The exception is ValueError, except that in a batch with torch an earlier item consisting only of infinities of one sign raises RuntimeError first.", "quantifier": "all matrices with a NaN anywhere, with or without infinities", "why_tests_cant": "all positions and combinations with infinities", "anchors": ["fast_bss_eval/torch/hungarian.py:82-83", "fast_bss_eval/numpy/helpers.py:_linear_sum_assignment_with_inf"]}
{"id": "C21", "title": "numpy and torch agree", "statement": "For every input, the numpy and the torch versions return the same pairwise losses, fail together, and return the same PIT total; if the optimal assignment is unique they return the same permutation.", "quantifier": "all inputs and options; every scipy assignment routine that is optimal", "why_tests_cant": "all inputs", "anchors": ["fast_bss_eval/numpy/metrics.py", "fast_bss_eval/torch/metrics.py", "fast_bss_eval/numpy/helpers.py", "fast_bss_eval/torch/helpers.py"]}
{"id": "C22", "title": "Batch items do not influence each other", "statement": "A batched call that returns gives for each batch item exactly the result of calling the function on that item alone; and it returns whenever every single call does.", "quantifier": "all batch shapes, all inputs, all options", "why_tests_cant": "all batch shapes and contents", "anchors": ["fast_bss_eval/numpy/helpers.py:_solve_permutation", "fast_bss_eval/numpy/helpers.py:_normalize", "fast_bss_eval/numpy/metrics.py"]}
{"id": "C23", "title": "Non-pairwise is the diagonal of pairwise", "statement": "sdr_loss(pairwise=False)[k] equals sdr_loss(pairwise=True)[k,k] for direct and iterative solver.", "quantifier": "all inputs with n_ref = n_est, all options", "why_tests_cant": "two different code paths, all inputs", "anchors": ["fast_bss_eval/numpy/metrics.py:sdr_loss"]}
{"id": "C24", "title": "compute_permutation=False is the identity alignment", "statement": "With the direct solver bss_eval_sources(compute_permutation=False) returns the pairwise SDR/SIR/SAR at (k,k), so re-evaluating the estimates reordered by the returned perm without permutation reproduces the reported metrics.", "quantifier": "all inputs with n_ref = n_est", "why_tests_cant": "all inputs", "anchors": ["fast_bss_eval/numpy/metrics.py:bss_eval_sources", "fast_bss_eval/numpy/metrics.py:square_cosine_metrics"]}
{"id": "C25", "title": "Loss, PIT and pairwise variants are consistent", "statement": "sdr_pit_loss(est, ref) = -sdr(ref, est); change_sign only flips the sign and leaves perm unchanged; pairwise_sdr_loss = sdr_loss(pairwise=True); returning perm does not change the SDR.", "quantifier": "all inputs and options", "why_tests_cant": "all inputs", "anchors": ["fast_bss_eval/numpy/metrics.py:sdr_pit_loss", "fast_bss_eval/numpy/metrics.py:pairwise_sdr_loss", "fast_bss_eval/numpy/metrics.py:sdr"]}
{"id": "C26", "title": "Iterative solver: the tracked residual is the true residual", "statement": "At every iteration the residual kept by conjugate_gradient equals b - A x (so the never-executed periodic recomputation, `epoch + 1 % 5 == 0`, changes nothing in exact arithmetic).", "quantifier": "all linear A, all b, x0, preconditioners, iteration counts", "why_tests_cant": "all iterations", "anchors": ["fast_bss_eval/numpy/cgd.py:conjugate_gradient", "fast_bss_eval/torch/cgd.py:conjugate_gradient"]}
{"id": "C27", "title": "Iterative solver: exact after L iterations", "statement": "With n_iter >= L the conjugate gradient returns the direct solution, unless the 1e-6 guards on p'Ap or r'z become active on the way.", "quantifier": "all symmetric positive definite systems and preconditioners of any size", "why_tests_cant": "all systems and sizes", "anchors": ["fast_bss_eval/numpy/cgd.py:conjugate_gradient"]}
{"id": "C28", "title": "Iterative solver never over-reports", "statement": "For sdr_loss with use_cg_iter=n the coherence is a lower bound of the direct one and is non-decreasing in n, as long as the 1e-6 guards are inactive.", "quantifier": "all inputs, all n", "why_tests_cant": "all inputs and iteration counts", "anchors": ["fast_bss_eval/numpy/cgd.py:conjugate_gradient", "fast_bss_eval/numpy/metrics.py:sdr_loss"]}
{"id": "C29", "title": "Fast operators multiply by the matrices of the direct path", "statement": "SymmetricToeplitzOperator(acf) @ v = toeplitz(acf) v and BlockToeplitzOperator(acf) @ v = block_toeplitz(acf) v.", "quantifier": "all acf, all v, all sizes (block: filter length >= 2)", "why_tests_cant": "all sizes and values", "anchors": ["fast_bss_eval/numpy/cgd.py:SymmetricToeplitzOperator", "fast_bss_eval/numpy/cgd.py:BlockToeplitzOperator", "fast_bss_eval/numpy/linalg.py:toeplitz", "fast_bss_eval/numpy/linalg.py:block_toeplitz"]}
{"id": "C30", "title": "Preconditioner is the Frobenius-closest circulant", "statement": "optimal_(non)symmetric_circulant_precond_column returns the first column of the circulant matrix minimising the Frobenius distance to the Toeplitz matrix.", "quantifier": "all Toeplitz matrices of all sizes, all circulant competitors", "why_tests_cant": "continuum of competitors", "anchors": ["fast_bss_eval/numpy/cgd.py:optimal_symmetric_circulant_precond_column", "fast_bss_eval/numpy/cgd.py:optimal_nonsymmetric_circulant_precond_column"]}
{"id": "C31", "title": "FFT statistics are the true correlations", "statement": "The statistics used are exactly the linear auto/cross-correlations at lags 0..L-1 when L+N-1 <= n_fft (implied by L <= N). For longer filters they are wrong: aliased negative lags appear.", "quantifier": "all signals and lengths", "why_tests_cant": "all lengths; the aliasing case is undocumented and untested", "anchors": ["fast_bss_eval/numpy/metrics.py:compute_stats", "fast_bss_eval/numpy/metrics.py:compute_stats_2"]}
{"id": "C32", "title": "Diagonal loading regularises", "statement": "With load_diag > 0 the direct solver never fails in sdr_loss / bss_eval_sources, whatever the signals (silent references, duplicated references), and the reported SDR never exceeds the unloaded one.", "quantifier": "all inputs, all load_diag > 0; bss_eval_sources: filters not longer than the transform (see C54), and numpy < 2 or torch without permutation (see C43)", "why_tests_cant": "all singular inputs", "anchors": ["fast_bss_eval/numpy/metrics.py:sdr_loss", "fast_bss_eval/numpy/metrics.py:square_cosine_metrics"]}
{"id": "C33", "title": "Silent estimates", "statement": "For an all-zero estimate sdr_loss reports SDR -inf (or -clamp_db). bss_eval_sources instead hits 0/0: it returns NaN SIR without permutation and raises ValueError with permutation, even with clamp_db or load_diag.", "quantifier": "all references with independent shifts, all options", "why_tests_cant": "property about all references", "anchors": ["fast_bss_eval/numpy/metrics.py:_base_metrics_bss_eval", "fast_bss_eval/numpy/helpers.py:_coherence_to_neg_sdr"]}
{"id": "C34", "title": "When the direct solver raises", "statement": "sdr_loss with filter_length >= 2, direct solver and no load_diag raises LinAlgError exactly when some reference is silent; bss_eval_sources raises exactly when the shifts of all references are linearly dependent (e.g. duplicated references).", "quantifier": "all inputs with L+N-1 <= n_fft", "why_tests_cant": "all inputs", "anchors": ["fast_bss_eval/numpy/metrics.py:sdr_loss", "fast_bss_eval/numpy/metrics.py:square_cosine_metrics"]}
{"id": "C35", "title": "Missing torch", "statement": "When torch is not importable, bss_eval_sources, sdr and sdr_loss work on numpy arrays; sdr_pit_loss and the four si_* functions raise AttributeError for every input because the dummy torch class lacks them.", "quantifier": "all arguments", "why_tests_cant": "CI always installs torch", "anchors": ["fast_bss_eval/__init__.py:275-294", "fast_bss_eval/__init__.py:_dispatch_backend"]}
{"id": "C36", "title": "Backend dispatch", "statement": "With torch present, a call uses the torch implementation iff its first positional argument is a torch tensor; all options are forwarded unchanged.", "quantifier": "all public functions and arguments", "why_tests_cant": "all argument combinations", "anchors": ["fast_bss_eval/__init__.py:_dispatch_backend"]}
{"id": "C37", "title": "Toeplitz builders are correct and memory safe", "statement": "toeplitz(acf)[i,j] = acf[|i-j|]; block_toeplitz(acf)[(i,r),(j,c)] = s_{j-i}[r,c]; the strided views never address memory outside their buffer. block_toeplitz fails for size 1, which no public function requests.", "quantifier": "all sizes", "why_tests_cant": "all sizes; as_strided is unchecked", "anchors": ["fast_bss_eval/numpy/linalg.py"]}
{"id": "C38", "title": "sdr never scores below bss_eval_sources in total SDR", "statement": "The total SDR returned by sdr is at least the total of the SDRs returned by bss_eval_sources for the same options.", "quantifier": "all inputs for which both return finite values", "why_tests_cant": "all inputs", "anchors": ["fast_bss_eval/numpy/metrics.py:sdr", "fast_bss_eval/numpy/metrics.py:bss_eval_sources"]}
{"id": "C39", "title": "SAR does not depend on the reference", "statement": "Before permutation the SAR of estimate m is the same for every reference; permuting or rescaling the references does not change it.", "quantifier": "all inputs", "why_tests_cant": "all inputs", "anchors": ["fast_bss_eval/numpy/metrics.py:square_cosine_metrics"]}
{"id": "C40", "title": "Trailing silence does not matter", "statement": "Appending any number of zero samples to both ref and est (zero_mean False) does not change any metric.", "quantifier": "all signals, all paddings, all L with L+N-1 <= n_fft", "why_tests_cant": "n_fft changes with the padding; all lengths", "anchors": ["fast_bss_eval/numpy/metrics.py:compute_stats", "fast_bss_eval/numpy/metrics.py:compute_stats_2"]}
{"id": "C41", "title": "load_diag has no effect on the SDR for filter_length=1", "statement": "sdr_loss/sdr with filter_length=1 ignore load_diag, and bss_eval_sources with filter_length=1 applies it to SIR/SAR only.", "quantifier": "all inputs", "why_tests_cant": "all inputs", "anchors": ["fast_bss_eval/numpy/metrics.py:238-246", "fast_bss_eval/numpy/metrics.py:65-70"]}
{"id": "C42", "title": "The length-one shortcut agrees with the general algorithm", "statement": "For references of norm at least 1e-6 and no load_diag, sdr_loss with filter_length=1 gives what the general FFT/solve algorithm would give for length 1. For bss_eval_sources the shortcut is necessary: the general code would raise ValueError (RuntimeError in torch) at length 1.", "quantifier": "all signals", "why_tests_cant": "all signals; the general path is never run at length 1", "anchors": ["fast_bss_eval/numpy/metrics.py:square_cosine_metrics_length_one_filter", "fast_bss_eval/numpy/metrics.py:sdr_loss"]}
{"id": "C43", "title": "numpy >= 2 breaks non-pairwise direct solves", "statement": "Under numpy >= 2 stacked-vector right-hand sides are no longer accepted by numpy.linalg.solve: sdr_loss(pairwise=False) and bss_eval_sources(compute_permutation=False) with filter_length >= 2 raise ValueError for every input with n_channels != filter_length, while pairwise functions are unaffected.", "quantifier": "all inputs whose filter fits in the transform", "why_tests_cant": "depends on the installed numpy; install_requires does not pin it", "anchors": ["fast_bss_eval/numpy/metrics.py:270", "fast_bss_eval/numpy/metrics.py:545", "setup.py"]}
{"id": "C44", "title": "Inputs are not modified", "statement": "No public function modifies its input arrays: in-place updates (load_diag, inf replacement, Hungarian reductions) only touch fresh arrays. The same holds for the functions that the metrics are built of when they are called directly (linear_sum_assignment, toeplitz, the conjugate gradient solvers, ...).", "quantifier": "all inputs and options", "why_tests_cant": "all inputs and aliasing patterns", "anchors": ["fast_bss_eval/numpy/helpers.py:134", "fast_bss_eval/numpy/metrics.py:264", "fast_bss_eval/torch/hungarian.py:126"]}
{"id": "C45", "title": "Coherences lie in [0,1]", "statement": "With the direct solver and load_diag None or >= 0, all square cosines are in [0,1] and the one of the SDR is at most the one of the SAR (the latter except for filter_length=1 with load_diag > 0), so the clamp without clamp_db is a no-op and no metric is NaN except SIR at 0/0.", "quantifier": "all inputs", "why_tests_cant": "all inputs", "anchors": ["fast_bss_eval/numpy/helpers.py:_coherence_to_neg_sdr", "fast_bss_eval/numpy/metrics.py:square_cosine_metrics"]}
{"id": "C46", "title": "Preconditioners solve the circulant systems and keep definiteness", "statement": "Applying CirculantPreconditionerOperator / BlockCirculantPreconditionerOperator solves the system of the closest (block) circulant matrix (scalar case: unless a squared modulus of the spectrum is below the 1e-6 safeguard), and whenever the Toeplitz system is positive definite the preconditioner is a symmetric positive definite linear operator and its constructor does not fail.", "quantifier": "all correlations of all sizes, all right-hand sides", "why_tests_cant": "all sizes and values", "anchors": ["fast_bss_eval/numpy/cgd.py:CirculantPreconditionerOperator", "fast_bss_eval/numpy/cgd.py:BlockCirculantPreconditionerOperator", "fast_bss_eval/torch/cgd.py"]}
{"id": "C47", "title": "Leading silence changes nothing", "statement": "Without zero_mean, putting the same number of zero samples in front of all references and estimates changes no metric and no permutation, for every solver, as long as filter_length fits the FFT of the unpadded signals; moving the silence from the end to the front never changes anything.", "quantifier": "all signals, amounts of silence, options without zero_mean", "why_tests_cant": "any length and any values; tests check a few", "anchors": ["fast_bss_eval/numpy/metrics.py:sdr", "fast_bss_eval/numpy/metrics.py:bss_eval_sources", "fast_bss_eval/numpy/scale_invariant.py"]}
{"id": "C48", "title": "zero_mean=True is the same as removing the means first", "statement": "Every function called with zero_mean=True returns (or raises) exactly what it returns with zero_mean=False for the signals with their means removed.", "quantifier": "all inputs and options", "why_tests_cant": "equality of two calls for all inputs, including failures", "anchors": ["fast_bss_eval/numpy/helpers.py:_normalize", "fast_bss_eval/numpy/metrics.py", "fast_bss_eval/numpy/scale_invariant.py"]}
{"id": "C49", "title": "SDR, SIR and SAR are tied together", "statement": "Without clamp_db, whenever the three metrics that bss_eval_sources reports for a source are finite, 1 + 10^(-SDR/10) = (1 + 10^(-SIR/10)) (1 + 10^(-SAR/10)), whatever the solver; with the direct solver an infinite SAR means SDR = SIR and an infinite SIR means SDR = SAR.", "quantifier": "all inputs, solvers, loadings and filter lengths", "why_tests_cant": "an identity between three outputs for all inputs", "anchors": ["fast_bss_eval/numpy/metrics.py:_base_metrics_bss_eval", "fast_bss_eval/numpy/metrics.py:bss_eval_sources"]}
{"id": "C50", "title": "SI-SDR is symmetric in reference and estimate", "statement": "Exchanging references and estimates transposes the pairwise SI-SDR matrix, does not change the aligned SI-SDR, and does not change the total SI-SDR of the best permutation (nor whether si_sdr returns).", "quantifier": "all inputs", "why_tests_cant": "all inputs", "anchors": ["fast_bss_eval/numpy/scale_invariant.py:si_sdr", "fast_bss_eval/numpy/scale_invariant.py:si_sdr_loss"]}
{"id": "C51", "title": "Adding sources", "statement": "Direct solver, load_diag None or >= 0 (0 for filter_length=1), no permutation: if bss_eval_sources returns for some sources it returns for any selection of them; the SDR of a source does not depend on which others are present, its SAR can only grow and its SIR can only shrink when sources are added. For every solver, pairwise SDRs of a selection of channels are entries of the full matrix, and adding candidate channels that do not change the number of pairs never lowers the total SDR of sdr (for estimates: the total SIR of bss_eval_sources).", "quantifier": "all signals, all selections of channels", "why_tests_cant": "all inputs; monotonicity in the set of sources", "anchors": ["fast_bss_eval/numpy/metrics.py:bss_eval_sources", "fast_bss_eval/numpy/metrics.py:square_cosine_metrics", "fast_bss_eval/numpy/metrics.py:sdr"]}
{"id": "C52", "title": "Iterative solver: convergence to the direct solver", "statement": "If a call with the direct solver returns, then the same call with use_cg_iter=n returns for every n (without permutation solving), and its SDR, SIR and SAR tend to the values of the direct solver as n grows, whether or not the 1e-6 guards of the loop become active. With permutation solving the same holds from some n on, with the same permutation, if the values that decide it are finite and the best pairing is unique. The error in the norm of the system never grows with n.", "quantifier": "all inputs, all numbers of iterations, all options with load_diag >= 0; references and estimates of equal length (other lengths: see C53)", "why_tests_cant": "a limit over the number of iterations; all inputs", "anchors": ["fast_bss_eval/numpy/cgd.py:conjugate_gradient", "fast_bss_eval/torch/cgd.py:conjugate_gradient", "fast_bss_eval/numpy/metrics.py:sdr_loss", "fast_bss_eval/numpy/metrics.py:bss_eval_sources"]}
{"id": "C53", "title": "References and estimates of different lengths", "statement": "If the estimates have fewer samples than the references, sdr, sdr_loss, pairwise_sdr_loss, sdr_pit_loss and bss_eval_sources with filter_length >= 2 raise nothing of their own: they return exactly what they return for the estimates followed by zeros (after removal of the means with zero_mean). If the references have fewer samples, the same holds for the references followed by zeros, provided the filters fit into the transform. The si_* functions reject signals of different lengths (neither of length one): RuntimeError with torch, ValueError with numpy.", "quantifier": "all lengths, signals, batch shapes, numbers of channels and options (also the iterative solver), both packages", "why_tests_cant": "unbounded lengths and values; equality of the whole result including failures", "anchors": ["fast_bss_eval/numpy/metrics.py:compute_stats", "fast_bss_eval/numpy/metrics.py:compute_stats_2", "fast_bss_eval/torch/metrics.py:compute_stats", "fast_bss_eval/torch/metrics.py:compute_stats_2", "fast_bss_eval/numpy/metrics.py:square_cosine_metrics_length_one_filter", "fast_bss_eval/numpy/scale_invariant.py:si_sdr"]}
{"id": "C54", "title": "Filters longer than the transform", "statement": "Let n_fft be the least power of two that is at least n_ref + max(n_ref, n_est) - 1. All filter_length >= max(2, n_fft) give the same results in sdr, sdr_loss, pairwise_sdr_loss and sdr_pit_loss. For signals of equal length, with the direct solver and without load_diag, these results are meaningless: whenever sdr_loss returns, every audible estimate is reported as perfect (SDR +inf, or clamp_db) for every reference, and without clamp_db sdr and sdr_pit_loss never return if all estimates of some batch item are audible. bss_eval_sources always raises for filter_length > n_fft: RuntimeError (torch) or ValueError (numpy), AssertionError with the iterative solver. With the default filter_length=512 this concerns signals of at most 256 (SDR) and 128 (bss_eval_sources) samples.", "quantifier": "all signals, lengths, batch shapes, channel numbers, filter lengths above the bound, both packages", "why_tests_cant": "quantifies over all signals and all lengths", "anchors": ["fast_bss_eval/numpy/metrics.py:compute_stats", "fast_bss_eval/numpy/metrics.py:compute_stats_2", "fast_bss_eval/numpy/metrics.py:sdr_loss", "fast_bss_eval/numpy/metrics.py:square_cosine_metrics", "fast_bss_eval/torch/metrics.py:compute_stats", "fast_bss_eval/torch/metrics.py:compute_stats_2", "fast_bss_eval/torch/metrics.py:square_cosine_metrics"]}
{"id": "C55", "title": "More filter taps than samples", "statement": "Direct solver, no load_diag, filter_length L <= n_fft, n_ref references of n_samples samples: if n_ref * L > n_samples + L - 1, bss_eval_sources raises LinAlgError whatever the signals are; if n_ref * L >= n_samples + L - 1 every SAR it returns for audible estimates is +inf (or clamp_db). With the defaults, n_ref references need more than 512 * (n_ref - 1) samples.", "quantifier": "all signals, lengths, batch shapes, channel numbers, filter lengths, both packages; references and estimates of equal length (other lengths: see C53)", "why_tests_cant": "quantifies over all signals (in exact arithmetic; in floating point the singularity shows up as noise)", "anchors": ["fast_bss_eval/numpy/metrics.py:compute_stats", "fast_bss_eval/numpy/metrics.py:compute_stats_2", "fast_bss_eval/numpy/metrics.py:sdr_loss", "fast_bss_eval/numpy/metrics.py:square_cosine_metrics", "fast_bss_eval/torch/metrics.py:compute_stats", "fast_bss_eval/torch/metrics.py:compute_stats_2", "fast_bss_eval/torch/metrics.py:square_cosine_metrics"]}
{"id": "C56", "title": "filter_length=None", "statement": "filter_length is declared optional. For references of N >= 2 samples filter_length=None gives in sdr_loss and sdr what filter_length=N gives; with the direct solver and without load_diag sdr_loss returns exactly if no reference is silent, and its values are minus the documented SDRs for N taps. bss_eval_sources(filter_length=None) always raises (RuntimeError for torch, ValueError for numpy, AssertionError with the iterative solver).", "quantifier": "all signals, lengths, batch shapes, channel numbers, both packages (bss_eval_sources without permutation and with the direct solver: unless the number of channels is twice the number of samples)", "why_tests_cant": "quantifies over all signals", "anchors": ["fast_bss_eval/numpy/metrics.py:compute_stats", "fast_bss_eval/numpy/metrics.py:compute_stats_2", "fast_bss_eval/numpy/metrics.py:sdr_loss", "fast_bss_eval/numpy/metrics.py:square_cosine_metrics", "fast_bss_eval/torch/metrics.py:compute_stats", "fast_bss_eval/torch/metrics.py:compute_stats_2", "fast_bss_eval/torch/metrics.py:square_cosine_metrics"]}
{"id": "C57", "title": "When the iterative solver raises", "statement": "With use_cg_iter and filter_length >= 2, sdr_loss returns for all signals, also for silent or repeated references; a silent reference gets an SDR of -inf (-clamp_db) with every estimate (the direct solver raises LinAlgError). bss_eval_sources with use_cg_iter and without load_diag raises LinAlgError exactly if the references of some batch item (after removal of the mean if asked for) are linearly dependent; delayed copies of the references, which make the direct solver raise, do not matter. With load_diag > 0 it never raises LinAlgError.", "quantifier": "all signals, lengths, batch shapes, channel numbers, filter lengths that fit into the transform, iteration numbers, both packages", "why_tests_cant": "quantifies over all signals; exact condition for a failure inside the preconditioner", "anchors": ["fast_bss_eval/numpy/cgd.py:BlockCirculantPreconditionerOperator", "fast_bss_eval/numpy/cgd.py:optimal_nonsymmetric_circulant_precond_column", "fast_bss_eval/torch/cgd.py:BlockCirculantPreconditionerOperator", "fast_bss_eval/numpy/metrics.py:square_cosine_metrics", "fast_bss_eval/numpy/metrics.py:sdr_loss", "fast_bss_eval/torch/metrics.py:square_cosine_metrics"]}
{"id": "C58", "title": "The metrics depend continuously on the signals", "statement": "If a call of sdr_loss or bss_eval_sources(compute_permutation=False) returns for some signals, then it returns for all signals close enough, with either solver, and the reported values (on the extended real line) tend to the ones for the given signals as the signals do; the SIR is included where it is not NaN (with the iterative solver: where the SAR is not the lowest reportable one). If in addition all losses are finite and the best pairing is unique, sdr and bss_eval_sources with permutation solving return the same permutation for all signals close enough, and their values are continuous.", "quantifier": "all signals at which the call returns, lengths, batch shapes, channel numbers, filter lengths, clamp_db, load_diag, zero_mean, both solvers, both packages; references and estimates of equal length (other lengths: see C53)", "why_tests_cant": "quantifies over all signals and neighbourhoods of them", "anchors": ["fast_bss_eval/numpy/metrics.py:sdr_loss", "fast_bss_eval/numpy/metrics.py:square_cosine_metrics", "fast_bss_eval/numpy/metrics.py:sdr", "fast_bss_eval/numpy/metrics.py:bss_eval_sources", "fast_bss_eval/numpy/cgd.py:conjugate_gradient", "fast_bss_eval/numpy/helpers.py:_normalize", "fast_bss_eval/torch/metrics.py:sdr_loss", "fast_bss_eval/torch/cgd.py:conjugate_gradient"]}
{"id": "C59", "title": "sdr_loss is smooth where it is not clamped, with an explicit gradient", "statement": "Let sdr_loss (direct solver) return a finite loss strictly between the bounds of clamp_db for some pair of reference and estimate. If no (centred) signal has norm exactly 1e-6, that loss is an infinitely differentiable (analytic) function of the samples of references and estimates near the given ones. Without load_diag and for an audible estimate, its derivative when the estimates change by v is 20/ln(10) * (<e,v>/|e|^2 - <t,v>/|t|^2), with t the projection of the estimate onto the shifts of the reference and e the rest. Hence it vanishes for changes of other channels, along the estimate itself, and (zero_mean) along constant offsets; along the reference it is a negative multiple of the correlation of estimate and reference. With filter_length=1 the gradient is never zero; with longer filters it is zero exactly if the first samples of t are a multiple of the estimate.", "quantifier": "all signals, lengths, batch shapes, channel numbers, filter lengths that fit the transform, zero_mean, clamp_db, directions of change, both packages; references and estimates of equal length (other lengths: see C53)", "why_tests_cant": "a gradient check samples finitely many points and directions", "anchors": ["fast_bss_eval/torch/metrics.py:sdr_loss", "fast_bss_eval/numpy/metrics.py:sdr_loss", "fast_bss_eval/torch/helpers.py:_coherence_to_neg_sdr", "fast_bss_eval/torch/helpers.py:_normalize"]}
{"id": "C60", "title": "A perfect separation is recognised", "statement": "If, for each reference, one of the estimates (a different one for each) is a filtered copy of it with a filter of at most filter_length taps, then sdr reports +inf (clamp_db if given) for every reference, whatever the order and whatever other estimates there are, and the permutation is that order as soon as no other estimate is equally good, in particular without clamp_db if all the shifts of the references are linearly independent. bss_eval_sources likewise reports +inf (clamp_db) for all of SDR, SIR and SAR, with the same permutation, and returns exactly when sdr does.", "quantifier": "all references, filters, orders of the estimates, further estimates, lengths, batch shapes, channel numbers, filter lengths that fit the transform, zero_mean, clamp_db >= 0, both packages, direct solver, load_diag None or 0; references and estimates of equal length (other lengths: see C53)", "why_tests_cant": "a test can only separate a few signals, and rounding makes the exact values unreachable", "anchors": ["fast_bss_eval/torch/metrics.py:sdr", "fast_bss_eval/torch/metrics.py:bss_eval_sources", "fast_bss_eval/numpy/metrics.py:sdr", "fast_bss_eval/numpy/metrics.py:bss_eval_sources"]}
{"id": "C61", "title": "Leading axes are a batch, and are broadcast", "statement": "Arrays of shape (..., channels, samples) may have any leading axes, and the leading axes of references and estimates are broadcast against each other. The results of sdr_loss, sdr and bss_eval_sources have the broadcast leading axes, and at every position of these axes they are the arrays which the call on the corresponding items alone returns; if the batch is not empty and the calls on all items return, so does the call on the batch. With the iterative solver the references need as many leading axes as the result; channel by channel (pairwise=False, compute_permutation=False) only the estimates may be broadcast.", "quantifier": "all arrays, numbers and sizes of the leading axes (also different for references and estimates), channel numbers, lengths (also different for references and estimates; for filter_length=1 not one sample together with several), filter lengths, all options, numpy, torch >= 1.8, torch < 1.8", "why_tests_cant": "tests try a few shapes; the axis numbers, transpositions and reshapes of the code have to be right for every number of axes", "anchors": ["fast_bss_eval/torch/metrics.py:sdr_loss", "fast_bss_eval/torch/metrics.py:sdr", "fast_bss_eval/torch/metrics.py:bss_eval_sources", "fast_bss_eval/numpy/metrics.py:sdr_loss", "fast_bss_eval/numpy/metrics.py:sdr", "fast_bss_eval/numpy/metrics.py:bss_eval_sources", "fast_bss_eval/torch/cgd.py:conjugate_gradient", "fast_bss_eval/numpy/cgd.py:conjugate_gradient"]}
{"id": "C62", "title": "Arrays that do not fit are rejected", "statement": "If the leading axes of references and estimates cannot be broadcast, sdr_loss, sdr and bss_eval_sources raise (ValueError on numpy, RuntimeError on torch; AssertionError for different numbers of channels with compute_permutation=False). If the result has more leading axes than the references, the iterative solver raises AssertionError, and the calls for channels one by one (pairwise=False, compute_permutation=False) raise with both solvers unless the number of channels equals the number of taps; current torch in addition rejects there, with the direct solver, references that would have to be expanded along an axis of size one. With more than one tap bss_eval_sources raises if there is no estimate or no batch item.", "quantifier": "all arrays with at least one sample, all shapes, filter lengths and options, numpy, torch >= 1.8, torch < 1.8", "why_tests_cant": "tests cannot cover all combinations of shapes; silent broadcasting of the wrong axes would give plausible numbers", "anchors": ["fast_bss_eval/torch/metrics.py:sdr_loss", "fast_bss_eval/torch/metrics.py:sdr", "fast_bss_eval/torch/metrics.py:bss_eval_sources", "fast_bss_eval/numpy/metrics.py:sdr_loss", "fast_bss_eval/numpy/metrics.py:sdr", "fast_bss_eval/numpy/metrics.py:bss_eval_sources", "fast_bss_eval/torch/cgd.py:conjugate_gradient", "fast_bss_eval/numpy/cgd.py:conjugate_gradient"]}
{"id": "C63", "title": "The wrappers for older versions of torch and all installations agree", "statement": "On arrays with any leading axes the torch package gives the same results and the same exceptions with torch < 1.8 (through the wrappers for rfft, irfft, solve of compatibility.py) as with current torch, for sdr_loss, sdr and bss_eval_sources; and for any two installations (numpy, current torch, older torch) sdr_loss and bss_eval_sources(compute_permutation=False) both raise or return the same arrays. The wrapper einsum_complex, four real products, is the complex product.", "quantifier": "all arrays, leading axes that can be broadcast, lengths (for filter_length=1 not one sample together with several), filter lengths (also None), options", "why_tests_cant": "the old versions cannot be installed beside the current ones, and tests compare a few arrays up to tolerances", "anchors": ["fast_bss_eval/torch/compatibility.py:rfft", "fast_bss_eval/torch/compatibility.py:irfft", "fast_bss_eval/torch/compatibility.py:solve", "fast_bss_eval/torch/compatibility.py:einsum_complex", "fast_bss_eval/torch/metrics.py:sdr_loss", "fast_bss_eval/torch/metrics.py:sdr", "fast_bss_eval/torch/metrics.py:bss_eval_sources", "fast_bss_eval/numpy/metrics.py:sdr_loss", "fast_bss_eval/numpy/metrics.py:sdr", "fast_bss_eval/numpy/metrics.py:bss_eval_sources"]}
{"id": "C64", "title": "filter_length and use_cg_iter that are zero or negative", "statement": "filter_length=0 makes sdr_loss, sdr and bss_eval_sources raise with every other option. sdr_loss and sdr do not reject filter_length=-k: they return (or raise) exactly as with n-k taps, where n is the size of the transform, hence they raise from k=n on. bss_eval_sources with permutation raises for filter_length=-k unless n=2k, when the result is the one for filter_length=k; without permutation it raises if 3k >= 2n. A negative use_cg_iter gives exactly the results of use_cg_iter=0. With use_cg_iter=0 and more than one tap every loss of sdr_loss is +inf (clamp_db if given) whatever the signals, sdr without clamp_db raises, and bss_eval_sources with permutation raises: it never returns a permutation found from empty filters.", "quantifier": "all arrays, leading axes, lengths, options, numpy, torch >= 1.8, torch < 1.8; all k > 0", "why_tests_cant": "no argument checks exist; what happens follows from slices and loops on empty ranges for every size, tests do not try such arguments", "anchors": ["fast_bss_eval/torch/metrics.py:sdr_loss", "fast_bss_eval/torch/metrics.py:sdr", "fast_bss_eval/torch/metrics.py:bss_eval_sources", "fast_bss_eval/torch/metrics.py:compute_stats", "fast_bss_eval/torch/metrics.py:compute_stats_2", "fast_bss_eval/numpy/metrics.py:sdr_loss", "fast_bss_eval/numpy/metrics.py:sdr", "fast_bss_eval/numpy/metrics.py:bss_eval_sources", "fast_bss_eval/numpy/metrics.py:compute_stats", "fast_bss_eval/numpy/metrics.py:compute_stats_2", "fast_bss_eval/torch/cgd.py:conjugate_gradient", "fast_bss_eval/numpy/cgd.py:conjugate_gradient"]}
{"id": "C65", "title": "clamp_db in floating point arithmetic", "statement": "With every operation of the decibel stage rounded to the data type of the signals (p bits) and the bounds computed in Python floats: if 10^(clamp_db/10) <= 2^(p-4) (60 dB for float32, 147 dB for float64) every reported value is finite and within one decibel of [-clamp_db, clamp_db], whatever the coherence before this stage (rounded above one, negative, infinite). If 10^(clamp_db/10) >= 2^(p+2) (from 78.3 dB on for float32) clamp_db is lost: 1 - eps rounds to one, and a coherence of at least one gives an infinite SDR in spite of clamp_db. Without clamp_db the rounding of this stage changes a value of x dB by at most 2^(5-p)(|x|+1) dB. Rounding never reverses the order of two coherences.", "quantifier": "all coherences, all clamp_db, all precisions from 11 to 53 bits, all tie-breaking rules, all log10 routines accurate to 8 ulp", "why_tests_cant": "the test suite only tries clamp_db=30; the limit depends on the format and the rounding of every operation", "anchors": ["fast_bss_eval/numpy/helpers.py:_coherence_to_neg_sdr", "fast_bss_eval/numpy/helpers.py:_db_clamp_eps", "fast_bss_eval/numpy/helpers.py:clamp", "fast_bss_eval/torch/helpers.py:_coherence_to_neg_sdr", "fast_bss_eval/torch/helpers.py:_db_clamp_eps"]}
{"id": "C66", "title": "The metrics are those of least squares filters", "statement": "With the direct solver and load_diag=None, let f be any filter of filter_length taps such that no other one leaves less of the estimate's energy after subtracting the filtered reference, and g any such set of filters, one per reference. With E the energy of the estimate, D1 the energy left by f and D2 the energy left by g: SDR = 10 log10((E-D1)/D1), SIR = 10 log10((E-D1)/(D1-D2)), SAR = 10 log10((E-D2)/D2), clipped if clamp_db is given. Hence every filter h gives a lower bound for the SDR: if the estimate is the filtered reference plus noise of energy d <= E, the SDR is at least 10 log10((E-d)/d).", "quantifier": "all signals, channels, batches, filter lengths that fit the transform, all best filters, with and without permutation; estimates of norm at least 1e-6 (for filter_length=1 also references of norm at least 1e-6 or silent)", "why_tests_cant": "the minimum runs over all filters and all signals; the tests only compare with another implementation on random signals", "anchors": ["fast_bss_eval/torch/metrics.py:sdr_loss", "fast_bss_eval/torch/metrics.py:bss_eval_sources", "fast_bss_eval/numpy/metrics.py:sdr_loss", "fast_bss_eval/numpy/metrics.py:bss_eval_sources", "fast_bss_eval/torch/metrics.py:square_cosine_metrics"]}
{"id": "C67", "title": "Accuracy of the scale-invariant SDR in floating point arithmetic", "statement": "si_sdr_loss computed with p bits (zero_mean=False, clamp_db=None, signals of norm at least 2e-6), for every order of the summations, with or without fused multiply-add or wider accumulators: if the documented SI-SDR is 10 log10 R and no sample passes through more than k operations of a sum, the result is finite and off by at most 10 d (2 + R + 1/R) + 2^(5-p) (|10 log10 R| + 1) dB with d = 5 (k+2) 2^-p, as long as d (1+R) and d (1+1/R) are at most 1/2. float64: at most 10^7 samples and an SI-SDR within 50 dB of zero give 0.01 dB. float32: k <= 1000 and within 20 dB give 0.5 dB. An estimate whose share of distortion is smaller by 2 d is never ranked behind the other one. A multiple of the reference gets +inf or at least about 10 log10((1-d)/d) dB.", "quantifier": "all signals, all lengths, all orders of summation, all precisions from 11 bits on, all tie-breaking rules, all log10 routines accurate to 8 ulp", "why_tests_cant": "tests compare floats for a few random signals; the worst case over signals and summation orders cannot be sampled", "anchors": ["fast_bss_eval/numpy/scale_invariant.py:si_sdr_loss", "fast_bss_eval/torch/scale_invariant.py:si_sdr_loss", "fast_bss_eval/numpy/metrics.py:square_cosine_metrics_length_one_filter", "fast_bss_eval/torch/metrics.py:square_cosine_metrics_length_one_filter", "fast_bss_eval/numpy/helpers.py:_normalize", "fast_bss_eval/torch/helpers.py:_normalize"]}
{"id": "C68", "title": "Signals without a channel axis", "statement": "sdr_loss(est, ref) with arrays of one axis returns a number: the entry of the 1 x 1 matrix of sdr_loss(est[None], ref[None], pairwise=True), and the entry of sdr_loss(est[None], ref[None]) where that call is available; the calls raise the same exceptions. This holds on every installation, also numpy >= 2, where the one-channel call raises ValueError (C43). All pairwise calls (sdr_loss(pairwise=True), sdr, sdr_pit_loss, bss_eval_sources) reject arrays of one axis as reference or as estimate: RuntimeError (torch), ValueError (numpy); bss_eval_sources(compute_permutation=False) raises IndexError.", "quantifier": "all signals, all lengths of reference and estimate, all options, all installations", "why_tests_cant": "the tests always pass arrays with a channel axis", "anchors": ["fast_bss_eval/numpy/metrics.py:sdr_loss", "fast_bss_eval/torch/metrics.py:sdr_loss", "fast_bss_eval/numpy/metrics.py:compute_stats", "fast_bss_eval/torch/metrics.py:compute_stats", "fast_bss_eval/torch/compatibility.py:solve", "fast_bss_eval/numpy/metrics.py:bss_eval_sources"]}
{"id": "C69", "title": "What importing the package does on every installation", "statement": "With numpy and scipy: if torch is missing (ImportError), `import fast_bss_eval` succeeds and the torch functions are replaced (C35). If torch is installed but `packaging` cannot be imported, `import fast_bss_eval` raises TypeError, whatever the version of torch and whether distutils is there. With torch >= 1.8 and packaging, the torch functions are loaded; with an older torch and torch_complex also. With an older torch without torch_complex the import succeeds as if torch were missing: calls with tensors run the numpy functions, or raise AttributeError. A torch whose import raises anything but ImportError makes the import fail with that exception. No other outcome exists.", "quantifier": "all combinations of installed, missing and broken packages, all version numbers (also pre-releases), all calls", "why_tests_cant": "the tests run on one installation, with everything installed", "anchors": ["fast_bss_eval/__init__.py:has_torch", "fast_bss_eval/__init__.py:_dispatch_backend", "fast_bss_eval/torch/compatibility.py:is_torch_1_8_plus", "setup.py:install_requires"]}
{"id": "C70", "title": "Data types and devices of the results", "statement": "torch: all metrics, losses and permutations are returned on the device of the signals, metrics and losses with their data type (32 or 64 bit), permutations as int64, and no call fails because of devices or data types, with one exception: si_bss_eval_sources and bss_eval_sources(filter_length=1) with load_diag raise RuntimeError when the signals are not on the default device (for instance on a GPU) or when the default data type exceeds theirs. With the iterative solver the default data type must not exceed that of the signals. Signals on two devices, or integers, raise RuntimeError. numpy: every mixture of integers, half, single and double precision is accepted; the precision of the result is the larger one of the signals (integers as double), at least single for filters of more than one tap, double if the iterative solver runs; for one tap SIR and SAR are double with load_diag, and half precision can raise TypeError in bss_eval_sources.", "quantifier": "all devices, default devices and default data types, all data types, all options and numbers of iterations, numpy before and from version 2", "why_tests_cant": "tests run on the CPU with the default data type, one precision at a time", "anchors": ["fast_bss_eval/torch/metrics.py:square_cosine_metrics_length_one_filter", "fast_bss_eval/torch/cgd.py:optimal_symmetric_circulant_precond_column", "fast_bss_eval/torch/helpers.py:_solve_permutation", "fast_bss_eval/numpy/metrics.py:square_cosine_metrics_length_one_filter", "fast_bss_eval/numpy/cgd.py:optimal_symmetric_circulant_precond_column", "fast_bss_eval/numpy/metrics.py:sdr_loss"]}
{"id": "C71", "title": "Gradients computed by torch for the scale-invariant loss", "statement": "loss.backward() on sdr_loss(filter_length=1) or si_sdr_loss, pairwise or not, with any weights of the losses: with clamp_db all gradients of estimates and references are finite for all signals, silence and perfect estimates included, and zero for an estimate whose losses all lie beyond the bounds. Without clamp_db, an infinite loss of a pair makes all gradients of its estimate and of its reference NaN, even with the weight zero (a pair that the permutation does not select); a zero estimate and a perfect estimate do so; channels whose losses are all finite have finite gradients. Whenever no loss is at a bound and no norm equals 1e-6, the gradients are the derivative of the weighted sum of the losses.", "quantifier": "all signals, numbers of channels and samples, batch shapes, weights of the losses, zero_mean and clamp_db", "why_tests_cant": "gradient checks run at random signals, where neither NaN nor clamping occurs", "anchors": ["fast_bss_eval/torch/helpers.py:_coherence_to_neg_sdr", "fast_bss_eval/torch/helpers.py:_normalize", "fast_bss_eval/torch/helpers.py:_remove_mean", "fast_bss_eval/torch/metrics.py:square_cosine_metrics_length_one_filter", "fast_bss_eval/torch/metrics.py:sdr_loss", "fast_bss_eval/torch/scale_invariant.py:si_sdr_loss"]}
{"id": "C72", "title": "Gradients computed by torch for distortion filters of several taps", "statement": "loss.backward() on sdr_loss with filter_length >= 2 and the direct solver, pairwise or not, for references and estimates of any lengths and with any weights of the losses: whenever the loss is returned the backward pass succeeds. With clamp_db all gradients of estimates and references are finite, and those of an estimate whose losses all lie beyond the bounds are zero. Without clamp_db an infinite loss of a pair makes all gradients of its estimate and of its reference NaN, whatever its weight; a zero estimate does so; channels whose losses are all finite have finite gradients. Whenever no loss is at a bound and no norm equals 1e-6, the gradients (through the linear systems, the Toeplitz matrices and the Fourier transforms) are the derivative of the weighted sum of the losses.", "quantifier": "all signals, lengths, numbers of channels, batch shapes, filter lengths, weights of the losses, zero_mean, clamp_db, load_diag (nonnegative for the statement about infinite losses)", "why_tests_cant": "gradient checks compare finite differences at random signals with a tolerance; they reach neither NaN, nor clamping, nor all lengths", "anchors": ["fast_bss_eval/torch/metrics.py:sdr_loss", "fast_bss_eval/torch/metrics.py:compute_stats", "fast_bss_eval/torch/linalg.py:toeplitz", "fast_bss_eval/torch/linalg.py:hankel_view", "fast_bss_eval/torch/helpers.py:_coherence_to_neg_sdr", "fast_bss_eval/torch/helpers.py:_normalize"]}
{"id": "C73", "title": "Gradients computed by torch through the permutation", "statement": "backward() on sdr_pit_loss and on sdr (direct solver or filter_length=1), with any weights of the returned values: whenever the value is returned the backward pass succeeds. If the best permutation is unique, no loss is at a bound of clamp_db (no loss is infinite without clamp_db) and no norm equals 1e-6, the gradients of estimates and references are the derivative of the weighted sum of the returned values, although the permutation itself is solved without gradients. If several permutations are best, the gradients of the estimates are the derivative of a function that equals the total loss at the estimates and is nowhere below it nearby. With clamp_db all gradients are finite. Without clamp_db an infinite loss of any pair, also of a pair the permutation does not use, makes all gradients of its estimate and its reference NaN; the returned values can all be finite then.", "quantifier": "all signals, lengths, numbers of references and estimates (equal or not), batch shapes, filter lengths, weights, zero_mean, clamp_db, load_diag", "why_tests_cant": "the choice of the permutation is discrete; tests see neither its stability nor ties nor unused infinite losses", "anchors": ["fast_bss_eval/torch/metrics.py:sdr", "fast_bss_eval/torch/metrics.py:sdr_pit_loss", "fast_bss_eval/torch/helpers.py:_solve_permutation", "fast_bss_eval/torch/helpers.py:_linear_sum_assignment_with_inf"]}
{"id": "C74", "title": "One reference for several estimates with pairwise=False", "statement": "sdr_loss(est, ref, pairwise=False) where the channel axis or other leading axes of one argument have size one. With filter_length=1, with the iterative solver (references having all axes of the result), and with the direct solver of numpy < 2 and torch < 1.8, the result is the one for arrays repeated before the call, and for one reference it is the only row of the result with pairwise=True. With the direct solver of torch >= 1.8 this holds if only estimates are repeated; if references are repeated RuntimeError is raised unless the number of channels equals the number of taps; numpy >= 2 raises ValueError unless the number of channels equals the number of taps. For one reference and as many estimates as taps torch >= 1.8 returns an array with one axis too many.", "quantifier": "all arrays, shapes, lengths, filter lengths, options and installations", "why_tests_cant": "the outcome depends on the installed versions and on coincidences between the number of channels and the number of taps", "anchors": ["fast_bss_eval/numpy/metrics.py:sdr_loss", "fast_bss_eval/torch/metrics.py:sdr_loss", "fast_bss_eval/torch/compatibility.py:solve", "fast_bss_eval/numpy/metrics.py:compute_stats", "fast_bss_eval/torch/metrics.py:compute_stats"]}
{"id": "C75", "title": "Gradients computed by torch through the iterative solver", "statement": "Gradients computed by loss.backward() on sdr_loss(..., use_cg_iter=n) with filter_length >= 2, for references and estimates, pairwise or not, and through the permutation of sdr and sdr_pit_loss. With clamp_db all gradients are finite whenever a value is returned. Without clamp_db the gradients of an estimate (a reference) are finite if all of its losses are, and all NaN for a silent estimate and the references compared with it. Away from the thresholds of the safeguards (of the divisions, the preconditioner, the normalisation and clamp_db) the gradients are the derivatives of the returned losses, also when the safeguards are active and when the iterations have not converged or continue after convergence. An estimate or a reference all of whose losses exceed the bounds of clamp_db gets the gradient zero. Where several permutations are best, the gradients of the estimates for sdr_pit_loss with a non-negative weight per mixture are the derivatives of a function that touches the total loss from above.", "quantifier": "all signals, shapes, lengths (references of at least one sample), numbers of iterations, filter lengths, options and weights of the losses", "why_tests_cant": "the gradient runs through every iteration of a loop with branches on the data; finite differences check single points", "anchors": ["fast_bss_eval/torch/cgd.py:conjugate_gradient", "fast_bss_eval/torch/cgd.py:toeplitz_conjugate_gradient", "fast_bss_eval/torch/cgd.py:SymmetricToeplitzOperator", "fast_bss_eval/torch/cgd.py:CirculantPreconditionerOperator", "fast_bss_eval/torch/metrics.py:sdr_loss", "fast_bss_eval/torch/metrics.py:sdr"]}
{"id": "C76", "title": "Torch permutation solver in floating point", "statement": "The cost matrix the torch back end solves consists of floating point numbers, and every addition and subtraction of the solver is rounded. For p bits and k = min(rows, columns), the assignment returned for a finite matrix is complete and its total is at most 4 k (k^2+1)^2 2^-p D above the optimum, D being the spread of the entries; an assignment better than all others by more than that is the one returned; losses known up to eps add 2 k eps; entries on a grid coarser than the bound are solved exactly. With infinite entries (perfect or silent estimates without clamp_db) the numbers of +inf and -inf selected are exactly optimal in spite of the rounded place-holder, as long as 100 k (k^2+1)^2 <= 2^p (11 sources in float32), and the finite rest is within 36 k^2 (k^2+1)^2 2^-p (A+1) of the best for entries up to A. NaN, mixed infinities and only infinities are rejected as before.", "quantifier": "all matrices of finite floating point numbers and infinities, all shapes, all formats with p bits, all roundings to nearest", "why_tests_cant": "the path of the solver depends on equality tests of rounded numbers; tests compare with scipy on a few well separated matrices", "anchors": ["fast_bss_eval/torch/hungarian.py:linear_sum_assignment", "fast_bss_eval/torch/hungarian.py:_step1", "fast_bss_eval/torch/hungarian.py:_step6", "fast_bss_eval/torch/helpers.py:_linear_sum_assignment_with_inf"]}
{"id": "C77", "title": "SI-SDR with permutation in floating point, end to end", "statement": "si_sdr(ref, est, clamp_db=d, return_perm=True) of the torch back end, computed with p bits, succeeds whenever no signal is nearly silent, and returns the values of a complete pairing. Every value is within eps = 10 (5 (k+2) 2^-p + 2^-40) (10^(d/10)+3) + 2^(5-p) (d+1) of the documented SI-SDR limited to [-d, d], whatever the quality of the estimates (perfect and orthogonal ones included), and the total SI-SDR of the returned pairing is within 2 K eps + 8 K (K^2+1)^2 2^-p (d+eps) of the best pairing. float64, 10^7 samples, clamp_db <= 50, 20 sources: values within 0.01 dB, mean within 0.021 dB of the best mean; float32 with blocked summation, clamp_db <= 20, 6 sources: 0.04 dB and 0.1 dB.", "quantifier": "all signals that are not nearly silent, all numbers of references and estimates, all formats, all summation orders, all clamp_db in the range", "why_tests_cant": "tests compare float64 values with a tolerance on random signals; they do not bound the effect of roundings on the choice of the permutation", "anchors": ["fast_bss_eval/torch/scale_invariant.py:si_sdr", "fast_bss_eval/torch/metrics.py:sdr", "fast_bss_eval/torch/metrics.py:square_cosine_metrics_length_one_filter", "fast_bss_eval/torch/helpers.py:_coherence_to_neg_sdr", "fast_bss_eval/torch/helpers.py:_solve_permutation"]}
{"id": "C78", "title": "conjugate_gradient called directly", "statement": "conjugate_gradient(A, b, x, n_iter, precond, verbose, x_true) with A an array of symmetric positive definite matrices (or an operator): without the safeguards becoming active n iterations solve n equations, and for every starting point the solution converges and the error in the norm of A never grows; the right-hand sides and the items of the batch do not influence one another; without n_iter there are as many iterations as b has in its last axis (which is the number of unknowns only if b is a vector); verbose and x_true have no influence on the solution; with x_true the function returns the n_iter + 1 mean Euclidean distances of the iterates to x_true, and with verbose it prints one mean of the preconditioned squared residual for each iteration; started at a solution it returns the solution; a starting point is equivalent to its residual as the right-hand side; shapes that do not match raise AssertionError. For a right-hand side given as a vector, a starting point given as a vector is misread.", "quantifier": "all batch shapes, numbers of unknowns and right-hand sides, all symmetric positive definite matrices and preconditioners, all starting points and all numbers of iterations", "why_tests_cant": "no test calls the function directly; any test could only try some systems, starting points and numbers of iterations", "anchors": ["fast_bss_eval/torch/cgd.py:conjugate_gradient", "fast_bss_eval/numpy/cgd.py:conjugate_gradient"]}
{"id": "C79", "title": "Small changes of the signals change the metrics little", "statement": "If an estimate is changed by at most the fraction delta < 1 of its norm, the angles that belong to its SDR and its SAR change by at most arcsin delta (an SDR of v dB is the angle with cotangent 10^(v/20)), and the angle of the SIR by at most arcsin(delta / kappa), kappa the amplitude of the part explained by all the references. With clamp_db = d no SDR changes by more than (20 / ln 10)(10^(d/20) + 10^(-d/20)) arcsin delta dB and the total of sdr() over the best pairing by at most this for each source. The bounds depend neither on the references nor on the length of the filters nor on the condition of the linear systems. If a reference is changed, the distortion grows at most by the l1 norm of the best filter times the norm of the change. Example: estimates stored with 16 bits at -20 dB of full scale, clamp_db=30: no SDR changes by more than 0.07 dB.", "quantifier": "all signals, all changes, all filter lengths, all batch shapes (bss_eval_sources with more than one tap: numpy < 2 or torch)", "why_tests_cant": "the bound is over all pairs of signals at a given distance; tests can only perturb some signals", "anchors": ["fast_bss_eval/numpy/metrics.py:sdr_loss", "fast_bss_eval/torch/metrics.py:sdr_loss", "fast_bss_eval/numpy/metrics.py:sdr", "fast_bss_eval/numpy/metrics.py:bss_eval_sources"]}
{"id": "C80", "title": "SDR for filters of any length in floating point, from the samples to the permutation", "statement": "With every operation rounded (removal of the mean, normalisation, FFTs, products of spectra, load_diag, solution of the Toeplitz system, decibels), sdr_loss with clamp_db=d returns a finite value within 10 (delta + 2^-40)(10^(d/10) + 3) + 2^(5-p)(d + 1) dB of the negative SDR of the best filter with K taps limited to [-d, d], where delta = K (1 + mu)/l (48 (k + 4) rho 2^-p + 24 eps + 2 eps'), mu is load_diag, l a lower bound for the energy that filters of norm one leave of the reference, k the depth of the sums, rho the ratio of the norms before and after the removal of the mean, eps and eps' the errors of the FFTs and of the solver. With load_diag the bound holds with l = mu for every reference. The computed Toeplitz matrix is then nonsingular, so that the solver does not fail, and sdr returns values of a pairing whose total is within a stated bound of the best. Example: float64, 512 taps, l = 0.001, clamp_db=20: 0.012 dB.", "quantifier": "all signals, lengths, filter lengths that fit, all roundings to nearest, all orders of the summations, all FFTs and solvers with the stated errors", "why_tests_cant": "the bound is over all signals and all ways of rounding; tests see one implementation on some signals", "anchors": ["fast_bss_eval/numpy/metrics.py:sdr_loss", "fast_bss_eval/torch/metrics.py:sdr_loss", "fast_bss_eval/numpy/metrics.py:compute_stats", "fast_bss_eval/torch/metrics.py:compute_stats", "fast_bss_eval/torch/metrics.py:sdr", "fast_bss_eval/numpy/helpers.py:_remove_mean", "fast_bss_eval/torch/helpers.py:_remove_mean", "fast_bss_eval/numpy/linalg.py:toeplitz", "fast_bss_eval/torch/linalg.py:toeplitz"]}
{"id": "C81", "title": "SDR, SIR, SAR and permutation of bss_eval_sources in floating point, from the samples", "statement": "With every operation rounded (removal of the mean, normalisation, FFTs, products of spectra, load_diag, the Toeplitz and the block Toeplitz system, quotient of the coherences, decibels), bss_eval_sources with clamp_db=d returns finite values: SDR and SAR within 10 (delta + 2^-40)(10^(d/10) + 3) + 2^(5-p)(d + 1) dB of those of the best filters limited to [-d, d], SIR within the same bound with 3 delta/sigma in place of delta. Here delta = K r (1 + mu)/l (48 (k + 4) rho 2^-p + 24 eps + 2 eps') for r references and K taps, mu is load_diag, l a lower bound for the energy that filters of norm one for all the references together leave, and sigma the part of an estimate that the references explain. The computed block Toeplitz matrix is nonsingular. The values belong to a pairing whose total SIR is within a stated bound of the best. Example: float64, 4 references, 512 taps, l = 0.01, sigma = 0.1, clamp_db=20: 0.005 dB for SDR and SAR, 0.15 dB for SIR.", "quantifier": "all signals, numbers of sources, lengths, filter lengths that fit, all roundings to nearest, all orders of the summations, all FFTs and solvers with the stated errors", "why_tests_cant": "the bound is over all signals and all ways of rounding; tests see one implementation on some signals", "anchors": ["fast_bss_eval/numpy/metrics.py:bss_eval_sources", "fast_bss_eval/torch/metrics.py:bss_eval_sources", "fast_bss_eval/numpy/metrics.py:square_cosine_metrics", "fast_bss_eval/torch/metrics.py:square_cosine_metrics", "fast_bss_eval/numpy/metrics.py:compute_stats_2", "fast_bss_eval/torch/metrics.py:compute_stats_2", "fast_bss_eval/numpy/metrics.py:_base_metrics_bss_eval", "fast_bss_eval/torch/metrics.py:_base_metrics_bss_eval", "fast_bss_eval/numpy/linalg.py:block_toeplitz", "fast_bss_eval/torch/linalg.py:block_toeplitz", "fast_bss_eval/torch/helpers.py:_solve_permutation"]}
{"id": "C82", "title": "The default clamp_db=None in floating point", "statement": "With every operation rounded and clamp_db=None, no value of si_sdr, sdr or bss_eval_sources is a NaN for audible signals, and every value limited to [-d, d] afterwards is within 9 delta (10^(d/10) + 3) + 2^(5-p)(d + 1) dB of the documented one limited to [-d, d], where delta is the error of the coherence (of C77, C80 or C81; for the SIR 3 delta/sigma of C81) and 2 delta (10^(d/10) + 1) <= 1; so infinities and huge numbers appear only where the exact value is near or outside the ends of the range. If for all pairs of references and estimates the deciding value is inside [-d, d], the functions with permutation succeed, the deciding values are finite, and the returned pairing is within 2 m eps + 8 m (m^2 + 1)^2 2^-p (d + eps) of the best total. Examples: float64, 10^7 samples: 0.01 dB for SI-SDR up to 50 dB; a perfect estimate is reported with at least 49.99 dB.", "quantifier": "all signals, numbers of sources, lengths, filter lengths that fit, ranges d, all roundings to nearest, all orders of the summations, all FFTs and solvers with the stated errors", "why_tests_cant": "without clamp_db the rounding errors are amplified without limit near perfect estimates; a test sees one implementation on some signals", "anchors": ["fast_bss_eval/numpy/helpers.py:_coherence_to_neg_sdr", "fast_bss_eval/torch/helpers.py:_coherence_to_neg_sdr", "fast_bss_eval/numpy/scale_invariant.py:si_sdr", "fast_bss_eval/torch/scale_invariant.py:si_sdr", "fast_bss_eval/numpy/metrics.py:sdr", "fast_bss_eval/torch/metrics.py:sdr", "fast_bss_eval/numpy/metrics.py:bss_eval_sources", "fast_bss_eval/torch/metrics.py:bss_eval_sources", "fast_bss_eval/torch/helpers.py:_solve_permutation"]}
{"id": "C83", "title": "Floating point values tend to those of exact arithmetic, for both solvers", "statement": "Let the filter length be at most the size of the transform. Whenever sdr_loss or bss_eval_sources(compute_permutation=False) succeeds in exact arithmetic, then for every range d and every eps > 0 there is a fineness of the arithmetic from which on every value that can be computed with roundings, limited to [-d, d], is within eps of the exact value limited to [-d, d] (the SIR if the SAR is not -inf). This holds for the direct solver and for use_cg_iter with any number of iterations, without hypotheses on the conditioning or the levels of the signals. sdr_loss with use_cg_iter never fails; bss_eval_sources with use_cg_iter has an outcome if the arithmetic is fine enough.", "quantifier": "all signals, batch shapes, numbers of channels, options, both back ends, numbers of iterations, all roundings, orders of summation, FFTs and solvers with the stated errors, mixed precision of signals, weights and decibels", "why_tests_cant": "a test compares two implementations with each other on some signals, up to a tolerance that is chosen by hand; the limit is about all precisions", "anchors": ["fast_bss_eval/numpy/metrics.py:sdr_loss", "fast_bss_eval/torch/metrics.py:sdr_loss", "fast_bss_eval/numpy/metrics.py:square_cosine_metrics", "fast_bss_eval/torch/metrics.py:square_cosine_metrics", "fast_bss_eval/numpy/metrics.py:bss_eval_sources", "fast_bss_eval/torch/metrics.py:bss_eval_sources", "fast_bss_eval/numpy/cgd.py:toeplitz_conjugate_gradient", "fast_bss_eval/torch/cgd.py:toeplitz_conjugate_gradient", "fast_bss_eval/numpy/cgd.py:block_toeplitz_conjugate_gradient", "fast_bss_eval/torch/cgd.py:block_toeplitz_conjugate_gradient", "fast_bss_eval/numpy/cgd.py:conjugate_gradient", "fast_bss_eval/torch/cgd.py:conjugate_gradient"]}
{"id": "C84", "title": "The documented values with use_cg_iter in floating point", "statement": "For audible signals whose reference system is nonsingular and filters that fit (bss_eval_sources: estimates correlated with some delayed reference): for every range d and eps > 0 there is a number of iterations such that, for it and all larger numbers, in fine enough arithmetic every SDR, SIR and SAR computed with use_cg_iter, limited to [-d, d], is within eps of the documented least-squares value. With the permutation (torch), if the deciding values of all pairs are inside [-d, d], sdr and bss_eval_sources succeed, return a pairing of references and estimates, values within eps, and no pairing has a total better by more than eps.", "quantifier": "all signals, numbers of sources, lengths, filter lengths that fit, load_diag >= 0, zero_mean, ranges, all sufficiently large numbers of iterations, all roundings, orders of summation, FFTs and solvers with the stated errors", "why_tests_cant": "the iterative solver is compared with the direct one in tests on random signals only; that it converges in rounded arithmetic for all signals is a limit statement", "anchors": ["fast_bss_eval/numpy/metrics.py:sdr_loss", "fast_bss_eval/torch/metrics.py:sdr_loss", "fast_bss_eval/numpy/metrics.py:square_cosine_metrics", "fast_bss_eval/torch/metrics.py:square_cosine_metrics", "fast_bss_eval/numpy/metrics.py:bss_eval_sources", "fast_bss_eval/torch/metrics.py:bss_eval_sources", "fast_bss_eval/numpy/cgd.py:toeplitz_conjugate_gradient", "fast_bss_eval/torch/cgd.py:toeplitz_conjugate_gradient", "fast_bss_eval/numpy/cgd.py:block_toeplitz_conjugate_gradient", "fast_bss_eval/torch/cgd.py:block_toeplitz_conjugate_gradient", "fast_bss_eval/numpy/cgd.py:conjugate_gradient", "fast_bss_eval/torch/cgd.py:conjugate_gradient", "fast_bss_eval/torch/helpers.py:_solve_permutation"]}
{"id": "C85", "title": "Gradients of losses made of SDR, SIR and SAR (bss_eval_sources)", "statement": "Let a loss be a weighted sum of values returned by bss_eval_sources with the direct solver; metrics that the loss does not use are ignored. If the values it uses are off the bounds of the clamp and no used SIR is NaN (with the permutation: for all pairs, and the best permutation is unique), loss.backward() produces the derivative of the returned value with respect to the estimates and to the references. With clamp_db all gradients are finite whenever the call succeeds (compute_permutation=False: provided that no used SIR is NaN). Without clamp_db a used SDR that is infinite makes the gradients of its estimate and its reference NaN, a used SIR (unless filter_length=1 with load_diag) or SAR that is infinite those of its estimate and of all references; with the permutation already if this happens for a pair that is not selected. A silent estimate makes the gradients of its SIR NaN for all references even with clamp_db. A loss that uses only the SDRs of compute_permutation=False has the gradients of sdr_loss.", "quantifier": "all signals, batch shapes, numbers of channels, lengths (references of at least one sample), filter lengths, clamp_db, zero_mean, load_diag >= 0, weights of the loss, choices of the metrics used", "why_tests_cant": "gradcheck compares with finite differences at some signals; it cannot show which signals make gradients NaN, nor that there are no others with clamp_db", "anchors": ["fast_bss_eval/torch/metrics.py:bss_eval_sources", "fast_bss_eval/torch/metrics.py:square_cosine_metrics", "fast_bss_eval/torch/metrics.py:_base_metrics_bss_eval", "fast_bss_eval/torch/metrics.py:square_cosine_metrics_length_one_filter", "fast_bss_eval/torch/metrics.py:compute_stats_2", "fast_bss_eval/torch/linalg.py:block_toeplitz", "fast_bss_eval/torch/helpers.py:_solve_permutation", "fast_bss_eval/torch/helpers.py:_coherence_to_neg_sdr", "fast_bss_eval/torch/helpers.py:_normalize"]}
{"id": "C86", "title": "Size of the transforms despite the rounding of math.log2", "statement": "The size 2 ** math.ceil(math.log2(n)) of the FFT is the least power of two that holds the linear correlation of references and estimates (and, in the products with the block Toeplitz matrix of the iterative solver, twice the filter length), although math.log2 returns a rounded number, for n up to 2 ** 45. It suffices that math.log2 is exact for powers of two and otherwise accurate to one unit in the last place; the correctly rounded logarithm is an example. The limit is not artificial: with the correctly rounded logarithm, signals of 2 ** 48 + 1 samples get a transform that is too short.", "quantifier": "all numbers of samples of references and estimates, all filter lengths, all implementations of log2 with this accuracy", "why_tests_cant": "an error would occur only just above or below a power of two, and for some mathematical library only", "anchors": ["fast_bss_eval/numpy/metrics.py:compute_stats", "fast_bss_eval/numpy/metrics.py:compute_stats_2", "fast_bss_eval/torch/metrics.py:compute_stats", "fast_bss_eval/torch/metrics.py:compute_stats_2", "fast_bss_eval/numpy/cgd.py:block_toeplitz_conjugate_gradient", "fast_bss_eval/torch/cgd.py:block_toeplitz_conjugate_gradient"]}
{"id": "C87", "title": "NaN or infinite samples, and signals too loud for the data type", "statement": "A NaN or infinite sample never turns into a plausible number. sdr_loss returns NaN in exactly the entries that belong to a channel with such a sample; all other entries are the same as without it. bss_eval_sources(compute_permutation=False) returns a NaN SDR for exactly these channels, and NaN SIR and SAR for such an estimate, or for all estimates of the batch item if a reference is concerned. sdr and bss_eval_sources with the permutation raise. A channel whose sum of squares (after mean removal, if asked for) exceeds the largest number of the data type is treated as silence: as an estimate it gets the lowest SDR even if it equals its reference, as a reference it makes sdr_loss with the direct solver raise LinAlgError (filters of at least two taps, no load_diag); nothing else raises there.", "quantifier": "all signals with samples that are numbers, infinities or NaN, batch shapes, numbers of channels, lengths, options, ranges of the data type", "why_tests_cant": "tests use finite signals of moderate level; which entries a special sample contaminates depends on its position in the batch, on the options and on the solver", "anchors": ["fast_bss_eval/numpy/helpers.py:_normalize", "fast_bss_eval/numpy/helpers.py:_remove_mean", "fast_bss_eval/torch/helpers.py:_normalize", "fast_bss_eval/numpy/metrics.py:sdr_loss", "fast_bss_eval/numpy/metrics.py:sdr", "fast_bss_eval/numpy/metrics.py:bss_eval_sources", "fast_bss_eval/numpy/metrics.py:square_cosine_metrics", "fast_bss_eval/torch/metrics.py:sdr_loss", "fast_bss_eval/torch/metrics.py:bss_eval_sources"]}
{"id": "C88", "title": "Gradients through bss_eval_sources with use_cg_iter", "statement": "Let a loss be a weighted sum of values returned by bss_eval_sources with use_cg_iter and a filter of at least two taps, with any number of iterations (converged or not); metrics that the loss does not use are ignored. Where no denominator of the iterations and no squared eigenvalue of a preconditioner equals 1e-6 exactly, the values used are off the bounds of the clamp and no SIR is a quotient by zero (with the permutation: for all pairs, and the best permutation is unique), loss.backward() produces the derivative of the values returned with that number of iterations, with respect to the estimates and to the references. With clamp_db all gradients are finite whenever the call succeeds and no used SIR is a quotient by zero; if the SIR of an estimate is one (compute_permutation=False), its gradients and those of all references are NaN even with clamp_db. A loss that uses only the SDRs of compute_permutation=False has the gradients of sdr_loss with use_cg_iter.", "quantifier": "all signals, batch shapes, numbers of channels, lengths (references of at least one sample), filter lengths of at least 2, numbers of iterations, clamp_db, zero_mean, load_diag, weights of the loss, choices of the metrics used", "why_tests_cant": "gradcheck compares at some signals and numbers of iterations; the gradient through unrolled iterations, a shared preconditioner and a start that is itself a solution is only right if every accumulated term is, and NaN appears on sets that random signals do not hit", "anchors": ["fast_bss_eval/torch/metrics.py:bss_eval_sources", "fast_bss_eval/torch/metrics.py:square_cosine_metrics", "fast_bss_eval/torch/cgd.py:block_toeplitz_conjugate_gradient", "fast_bss_eval/torch/cgd.py:toeplitz_conjugate_gradient", "fast_bss_eval/torch/cgd.py:conjugate_gradient", "fast_bss_eval/torch/cgd.py:BlockToeplitzOperator", "fast_bss_eval/torch/cgd.py:BlockCirculantPreconditionerOperator"]}
{"id": "C89", "title": "Exactly which signals have infinite metrics, and when the permutation functions fail on them", "statement": "Direct solver, no load_diag, no clamp_db. The SDR of an estimate is +inf exactly if the estimate is an FIR-filtered copy of the reference (filter_length taps, nothing cut off) of norm at least 1e-6, and -inf exactly if the estimate is uncorrelated with the reference delayed by 0 ... filter_length - 1 samples. The SAR is +inf exactly if the estimate is a sum of filtered references of norm at least 1e-6, and -inf exactly if the estimate is uncorrelated with all delayed references. The SIR is NaN exactly in that last case, -inf exactly if the estimate is uncorrelated with its own reference but not with all, and +inf exactly if it is correlated with it and some filter for its reference leaves no more of the estimate than any filters for all references. SDR and SAR are never NaN. Consequently sdr and sdr_pit_loss return exactly if no reference is silent (unless filter_length=1) and no batch item has both a perfect and an uncorrelated pair, nor only such pairs; bss_eval_sources returns exactly if the delayed references are independent, every estimate is correlated with some reference, and the same holds for the pairs of infinite SIR. In particular a perfect separation of uncorrelated sources is an exception without clamp_db.", "quantifier": "all signals, batch shapes, numbers of references and estimates, lengths, filter lengths that fit, zero_mean, numpy (pairwise=False with more than one tap: numpy < 2) and torch; at least one sample; for filter_length=1 references of norm at least 1e-6 or zero", "why_tests_cant": "the exceptional signals have measure zero and cannot be enumerated; a test can show single cases but not that no other signal gives an infinity or an exception", "anchors": ["fast_bss_eval/numpy/metrics.py:sdr_loss", "fast_bss_eval/numpy/metrics.py:bss_eval_sources", "fast_bss_eval/numpy/metrics.py:sdr", "fast_bss_eval/torch/metrics.py:sdr_loss", "fast_bss_eval/torch/metrics.py:bss_eval_sources", "fast_bss_eval/torch/metrics.py:sdr", "fast_bss_eval/numpy/helpers.py:_coherence_to_neg_sdr", "fast_bss_eval/numpy/metrics.py:_base_metrics_bss_eval"]}
{"id": "C90", "title": "Remixing the references", "statement": "Direct solver, no load_diag. If the references are replaced by linear combinations of them (one matrix for each batch item), bss_eval_sources without permutation returns exactly if it does for the references themselves and all matrices are invertible, and the SARs are then the same. With permutation solving every estimate has one SAR, whatever the invertible matrices; a singular matrix gives LinAlgError, with and without permutation solving.", "quantifier": "all signals, mixing matrices, batch shapes, numbers of references and estimates, lengths, filter lengths that fit, clamp_db, zero_mean, numpy (compute_permutation=False with more than one tap: numpy < 2) and torch; at least one sample", "why_tests_cant": "an invariance under all matrices; a test multiplies by some matrices and compares with a tolerance", "anchors": ["fast_bss_eval/numpy/metrics.py:square_cosine_metrics", "fast_bss_eval/torch/metrics.py:square_cosine_metrics", "fast_bss_eval/numpy/metrics.py:bss_eval_sources", "fast_bss_eval/torch/metrics.py:bss_eval_sources"]}
{"id": "C91", "title": "A signal of one sample is broadcast along the other one when filter_length=1", "statement": "With filter_length=1 (and so with the si_ functions) references of one sample are accepted together with estimates of any length, and conversely; no exception is raised. Without zero_mean the score does not depend on the value of the single sample (if its magnitude is at least 1e-6): it is the ratio, in decibel, of the square of the sum of the samples of the other signal and the rest of its energy, and +inf (or clamp_db) if the square of the sum exceeds the energy. It is never less than with the sample repeated, so it overrates. With zero_mean every such pair gets the score of silence, -inf (or -clamp_db). sdr returns the best pairing for these scores, and always returns with clamp_db. bss_eval_sources without load_diag raises LinAlgError if there are two or more references of one sample, or one with zero_mean.", "quantifier": "all signals, batch shapes (broadcast), numbers of references and estimates, lengths, clamp_db, numpy and all versions of torch", "why_tests_cant": "tests use signals of equal lengths; that no combination of shapes raises, and the value for all signals, is a statement about all inputs", "anchors": ["fast_bss_eval/numpy/metrics.py:square_cosine_metrics_length_one_filter", "fast_bss_eval/numpy/metrics.py:sdr_loss", "fast_bss_eval/numpy/metrics.py:sdr", "fast_bss_eval/numpy/metrics.py:bss_eval_sources", "fast_bss_eval/torch/metrics.py:square_cosine_metrics_length_one_filter", "fast_bss_eval/torch/metrics.py:sdr_loss", "fast_bss_eval/torch/metrics.py:sdr", "fast_bss_eval/torch/metrics.py:bss_eval_sources"]}
{"id": "C92", "title": "An estimate made of known parts is scored by the energies of the parts", "statement": "Direct solver, no load_diag. Every estimate can be divided in exactly one way into a target (its reference passed through a filter of filter_length taps), an interference (a sum of filtered references, uncorrelated with its reference delayed by 0 ... filter_length - 1 samples) and an artefact (uncorrelated with all delayed references). SDR, SIR and SAR are 10 log10 of the ratios of the energies of target and rest, target and interference, and target plus interference and artefact, in sdr_loss and in bss_eval_sources with and without permutation. If no two references correlate and an estimate is a sum of the filtered references and of noise that correlates with none of them, SDR, SIR and SAR are the ratios of the energies that went into the sum. In the plainest case, a scaled reference plus noise uncorrelated with the delayed reference, the SDR is the signal-to-noise ratio, whatever the filter length.", "quantifier": "all signals, filters, batch shapes, numbers of references and estimates, lengths, filter lengths that fit, clamp_db, zero_mean, numpy (compute_permutation=False with more than one tap: numpy < 2) and torch; estimates of norm at least 1e-6 (for filter_length=1 also references of norm at least 1e-6 or silent)", "why_tests_cant": "a test mixes a few random signals and compares with a tolerance, because random noise is not exactly uncorrelated; the exact identity for all decompositions is a theorem", "anchors": ["fast_bss_eval/numpy/metrics.py:sdr_loss", "fast_bss_eval/numpy/metrics.py:bss_eval_sources", "fast_bss_eval/numpy/metrics.py:square_cosine_metrics", "fast_bss_eval/numpy/metrics.py:compute_stats", "fast_bss_eval/numpy/metrics.py:compute_stats_2", "fast_bss_eval/torch/metrics.py:sdr_loss", "fast_bss_eval/torch/metrics.py:bss_eval_sources", "fast_bss_eval/torch/metrics.py:square_cosine_metrics", "fast_bss_eval/torch/metrics.py:compute_stats", "fast_bss_eval/torch/metrics.py:compute_stats_2"]}
{"id": "C93", "title": "Only the correlations below filter_length count", "statement": "Two pairs of references and estimates (of possibly different lengths) with the same correlations at the lags 0 ... filter_length - 1, among references and between references and estimates, and with estimates of the same energies, give the same results or raise the same exception in every function, whatever the solver and the options. With filter_length=1 and in the si_ functions, only the inner products count: the samples of all signals may be taken in any other order, backwards for instance (also with zero_mean), or be replaced by an orthonormal transform of the samples (without zero_mean). Without zero_mean, every recording played twice with a pause of at least filter_length - 1 samples in between is scored like the recording (channels of norm at least 1e-6, or silent).", "quantifier": "all signals of at least one sample, batch shapes, numbers of references and estimates, lengths, filter lengths >= 1 that fit into the transforms for both lengths, solvers, load_diag, clamp_db, zero_mean, permutations of the samples, orthonormal matrices and pauses; numpy before and after version 2 and torch", "why_tests_cant": "that two different recordings are scored exactly alike for every option and every solver is a statement on all pairs of signals with the same correlations; a test compares a few pairs up to a tolerance", "anchors": ["fast_bss_eval/numpy/metrics.py:sdr_loss", "fast_bss_eval/numpy/metrics.py:bss_eval_sources", "fast_bss_eval/numpy/metrics.py:square_cosine_metrics", "fast_bss_eval/numpy/metrics.py:compute_stats", "fast_bss_eval/numpy/metrics.py:compute_stats_2", "fast_bss_eval/numpy/metrics.py:square_cosine_metrics_length_one_filter", "fast_bss_eval/torch/metrics.py:sdr_loss", "fast_bss_eval/torch/metrics.py:bss_eval_sources", "fast_bss_eval/torch/metrics.py:square_cosine_metrics", "fast_bss_eval/torch/metrics.py:compute_stats", "fast_bss_eval/torch/metrics.py:compute_stats_2", "fast_bss_eval/torch/metrics.py:square_cosine_metrics_length_one_filter"]}
{"id": "C94", "title": "Longer filters make up for reverberant references and late estimates", "statement": "Direct solver, no load_diag. If the references are other, dry references passed through filters of K taps (nothing cut off at the end), the SDR with filter_length=L against them is never better than the SDR with filter_length=L+K-1 against the dry references; the SAR neither, and for the SAR the references may even be sums of filtered dry references. If the estimates come d samples later (nothing cut off), SDR and SAR with filter_length=L+d are at least as good as those of the original estimates with filter_length=L. In sdr_loss and in bss_eval_sources without permutation.", "quantifier": "all signals, filters, delays, batch shapes, numbers of references and estimates (bss_eval_sources: as many of both), lengths, filter lengths for which the longer filter fits, clamp_db, zero_mean (filtered or late after the removal of the means), numpy (bss_eval_sources with compute_permutation=False and more than one tap: numpy < 2) and torch; calls that return; estimates of norm at least 1e-6, and references of norm at least 1e-6 or silent where filter_length is 1", "why_tests_cant": "an inequality between two runs with different signals and filter lengths for all filters and delays; tests compare single examples", "anchors": ["fast_bss_eval/numpy/metrics.py:sdr_loss", "fast_bss_eval/numpy/metrics.py:bss_eval_sources", "fast_bss_eval/numpy/metrics.py:square_cosine_metrics", "fast_bss_eval/numpy/metrics.py:compute_stats", "fast_bss_eval/numpy/metrics.py:compute_stats_2", "fast_bss_eval/torch/metrics.py:sdr_loss", "fast_bss_eval/torch/metrics.py:bss_eval_sources", "fast_bss_eval/torch/metrics.py:square_cosine_metrics", "fast_bss_eval/torch/metrics.py:compute_stats", "fast_bss_eval/torch/metrics.py:compute_stats_2"]}
{"id": "C95", "title": "The total of a permutation search follows the pairs", "statement": "Take two calls of sdr (or sdr_pit_loss) that return, of whatever back ends and with whatever options and signals. If in the second call no pair of a reference and an estimate has a larger loss, the total SDR is not smaller (infinities included). If all losses are finite and differ by at most e, the totals differ by at most e times the number of pairs, even if the permutations differ. Hence for the direct solver longer filters never lower the total SDR; the iterative solver never reports a higher total than the direct one (conditions of C28); and for reverberant references and late estimates the total SDR with accordingly longer filters is at least as good (C94).", "quantifier": "all pairs of calls that return, numpy and torch, all options, signals, batch shapes, numbers of references and estimates (the same in both calls); consequences under the conditions of C09, C28 and C94", "why_tests_cant": "compares optima over all permutations of two runs with arbitrary losses; tests compare a few runs", "anchors": ["fast_bss_eval/numpy/metrics.py:sdr", "fast_bss_eval/numpy/metrics.py:sdr_pit_loss", "fast_bss_eval/numpy/metrics.py:pairwise_sdr_loss", "fast_bss_eval/numpy/helpers.py:_solve_permutation", "fast_bss_eval/numpy/helpers.py:_linear_sum_assignment_with_inf", "fast_bss_eval/torch/metrics.py:sdr", "fast_bss_eval/torch/metrics.py:sdr_pit_loss", "fast_bss_eval/torch/metrics.py:pairwise_sdr_loss", "fast_bss_eval/torch/helpers.py:_solve_permutation", "fast_bss_eval/torch/helpers.py:_linear_sum_assignment_with_inf"]}
{"id": "C96", "title": "A step of gradient descent lowers the loss and never makes an estimate quieter", "statement": "Use the values of sdr_loss, si_sdr_loss, their pairwise and permutation-invariant versions, or the SDR, SIR and SAR of bss_eval_sources, with arbitrary weights as a training loss in torch and let autograd compute the gradients of the estimates. If all values are finite (or away from the limits of clamp_db) and no estimate lies exactly on the threshold of the normalisation, the gradients are finite and a step against them with any learning rate that is small enough lowers the loss, by at least the fraction a of the learning rate times the squared norm of the gradient for every a < 1 - also for sdr_pit_loss with one non-negative weight per mixture where several permutations are best. A step of whatever size never makes an estimate quieter: its energy grows by exactly the energy of the step. With zero_mean no step changes the mean of an estimate. For filter_length=1 a loss that counts and is not clamped never has gradient zero, so the step makes it strictly smaller.", "quantifier": "all options, weights, batch shapes, numbers of channels and samples, all learning rates; direct solver and use_cg_iter (for which the iterations must not meet a clamp), loud and quiet estimates, the energy statement for estimates louder than 1e-6", "why_tests_cant": "a statement about all signals and all learning rates; tests run a few steps on random signals", "anchors": ["fast_bss_eval/torch/metrics.py:sdr_loss", "fast_bss_eval/torch/scale_invariant.py:si_sdr_loss", "fast_bss_eval/torch/metrics.py:pairwise_sdr_loss", "fast_bss_eval/torch/scale_invariant.py:pairwise_si_sdr_loss", "fast_bss_eval/torch/metrics.py:sdr_pit_loss", "fast_bss_eval/torch/scale_invariant.py:si_sdr_pit_loss", "fast_bss_eval/torch/metrics.py:bss_eval_sources", "fast_bss_eval/torch/helpers.py:_normalize", "fast_bss_eval/torch/helpers.py:_remove_mean"]}
{"id": "C97", "title": "Gradients at another volume", "statement": "Play every estimate and every reference at a volume of its own (with zero_mean also at an offset of its own), all channels at least as loud as 1e-6 before and after. Then the gradients torch computes for a loss made of the values of sdr_loss, si_sdr_loss, their pairwise and permutation-invariant versions, sdr or bss_eval_sources are those of the original signals, those of each channel divided by the factor of its volume - whether they are finite, infinite or NaN - and the same exceptions are raised. Changing the volume of the references does not change the gradients of the estimates. A step of gradient descent from estimates at b times the volume with b squared times the learning rate leads to the same estimates at b times the volume.", "quantifier": "all options, weights, batch shapes, numbers of channels and samples, positive factors per channel; filter_length=1, direct solver and use_cg_iter; any values of the losses, also infinite or NaN ones and several best permutations", "why_tests_cant": "a statement about two backward passes on arbitrary signals, special values included", "anchors": ["fast_bss_eval/torch/metrics.py:sdr_loss", "fast_bss_eval/torch/scale_invariant.py:si_sdr_loss", "fast_bss_eval/torch/metrics.py:pairwise_sdr_loss", "fast_bss_eval/torch/scale_invariant.py:pairwise_si_sdr_loss", "fast_bss_eval/torch/metrics.py:sdr", "fast_bss_eval/torch/metrics.py:sdr_pit_loss", "fast_bss_eval/torch/scale_invariant.py:si_sdr_pit_loss", "fast_bss_eval/torch/metrics.py:bss_eval_sources", "fast_bss_eval/torch/helpers.py:_normalize", "fast_bss_eval/torch/helpers.py:_remove_mean"]}
{"id": "C98", "title": "Size of the gradients", "statement": "How hard a loss pulls at an estimate depends on the value of the loss and on the loudness of the estimate only. For si_sdr_loss, and sdr_loss with filter_length=1, the Euclidean norm of the gradient torch computes for a channel is exactly the weight of its loss times (20/ln 10)(10^(y/20) + 10^(-y/20)), where y is the loss in dB, divided by the norm of the channel; beyond the limits of clamp_db it is zero. The same holds for the gradients of the references. So within the limits the gradient is never shorter than weight times 40/ln 10 over the norm: there are no flat regions. With longer filters and the direct solver this is an upper bound for the gradients of the estimates, for a pairwise loss the sum over the references is, and with clamp_db=d no gradient is longer than weight times the value at y = d over the norm, whatever the references are. For sdr, si_sdr and the permutation-invariant losses the formula holds for each matched channel with its partner, and channels without partner have the gradient zero.", "quantifier": "all batch shapes, numbers of channels and samples, weights, options; signals with (centred) norms of at least 1e-6; without clamp_db, finite losses; load_diag at least zero for longer filters", "why_tests_cant": "an exact formula and bounds for the norms of gradients at arbitrary signals", "anchors": ["fast_bss_eval/torch/metrics.py:sdr_loss", "fast_bss_eval/torch/scale_invariant.py:si_sdr_loss", "fast_bss_eval/torch/metrics.py:pairwise_sdr_loss", "fast_bss_eval/torch/scale_invariant.py:pairwise_si_sdr_loss", "fast_bss_eval/torch/metrics.py:sdr", "fast_bss_eval/torch/scale_invariant.py:si_sdr", "fast_bss_eval/torch/metrics.py:sdr_pit_loss", "fast_bss_eval/torch/scale_invariant.py:si_sdr_pit_loss", "fast_bss_eval/torch/helpers.py:_normalize", "fast_bss_eval/torch/helpers.py:_remove_mean", "fast_bss_eval/torch/helpers.py:_coherence_to_neg_sdr"]}
{"id": "C99", "title": "Loudness of the estimates during training", "statement": "Train the samples of the estimates by gradient descent with any learning rates, on losses made of the values of any of the functions; losses, references and weights may change from step to step, as long as the gradients are finite. Then no channel ever becomes quieter, and with zero_mean no channel changes its mean. For si_sdr_loss, and sdr_loss with filter_length=1, the energy after a step is the energy before plus the square of the learning rate times the length of the gradient of C98; so, while the losses are within the limits of clamp_db (always, without clamp_db), the fourth power of the norm grows by at least 2(w 40/ln 10)^2 times the square of the learning rate at every step. With clamp_db=d the estimates do not run away: the fourth power of the norm grows by at most 2a + a^2/n^4 per step, with a the square of learning rate times weight times the steepness at d dB and n the norm at the start, whatever the references.", "quantifier": "all numbers of steps, learning rates, estimates at the start (norm of the centred channel at least 1e-6), references, weights, options, batch shapes; the last bound: one tap, or longer filters with the direct solver and load_diag at least zero, with all pairs, channel by channel or the best permutation", "why_tests_cant": "an invariant and growth rates of arbitrarily long executions from arbitrary signals", "anchors": ["fast_bss_eval/torch/metrics.py:sdr_loss", "fast_bss_eval/torch/scale_invariant.py:si_sdr_loss", "fast_bss_eval/torch/metrics.py:pairwise_sdr_loss", "fast_bss_eval/torch/scale_invariant.py:pairwise_si_sdr_loss", "fast_bss_eval/torch/metrics.py:sdr", "fast_bss_eval/torch/scale_invariant.py:si_sdr", "fast_bss_eval/torch/metrics.py:sdr_pit_loss", "fast_bss_eval/torch/scale_invariant.py:si_sdr_pit_loss", "fast_bss_eval/torch/metrics.py:bss_eval_sources", "fast_bss_eval/torch/helpers.py:_normalize", "fast_bss_eval/torch/helpers.py:_remove_mean", "fast_bss_eval/torch/helpers.py:_coherence_to_neg_sdr"]}
{"id": "C100", "title": "A recording and its segments", "statement": "Evaluate two segments of a recording and the whole recording (the segments one after the other), with the same options and without zero_mean. If the references of the first segment end with filter_length - 1 zeros (nothing to ask for one tap), then the SDR of the whole is never above the better of the two SDRs of the segments, and the same holds for the SAR; so reporting the better segment never underrates the whole. Without clamp_db the distortion 1/(1 + 10^(SDR/10)), as part of the energy of the estimate, adds up at least: distortion of the whole times its energy is at least the sum over the segments. There is no bound in the other direction: for every audible reference there is an estimate with SI-SDR +inf in both segments and -inf for the whole. bss_eval_sources succeeds for the whole if it does for one of the segments.", "quantifier": "all lengths of the two segments, signals (estimates audible in both), filter lengths, batch shapes, limits clamp_db; direct solver, no load_diag, filters that fit the FFT; compute_permutation=False or losses of pairs", "why_tests_cant": "an inequality between three evaluations on arbitrary signals of arbitrary lengths", "anchors": ["fast_bss_eval/torch/metrics.py:sdr_loss", "fast_bss_eval/torch/scale_invariant.py:si_sdr_loss", "fast_bss_eval/torch/metrics.py:pairwise_sdr_loss", "fast_bss_eval/torch/scale_invariant.py:pairwise_si_sdr_loss", "fast_bss_eval/torch/metrics.py:bss_eval_sources", "fast_bss_eval/torch/scale_invariant.py:si_bss_eval_sources", "fast_bss_eval/numpy/metrics.py:square_cosine_metrics", "fast_bss_eval/numpy/metrics.py:sdr_loss"]}
{"id": "C101", "title": "Sums of several estimates", "statement": "Add several estimates of the same source with weights that are not negative. The SI-SDR of the sum is at least the worst of the SI-SDRs if every estimate is positively correlated with the reference (after removal of the means, with zero_mean). For longer filters the same holds for the SDR if the filters that fit the reference to the estimates best are the same up to positive gains. If moreover the gains are equal and the errors of the estimates are uncorrelated with each other and equally strong, then the average of e estimates has exactly 10 log10 e dB more than each of them. Without the condition on the signs nothing holds: two estimates with arbitrarily good SI-SDR (20 log10(1/eps)) have a sum with SI-SDR -inf.", "quantifier": "all numbers of estimates, weights, signals (estimates and their sum audible), filter lengths, batch shapes, limits clamp_db (none for the gain of averages); direct solver, no load_diag, filters that fit the FFT", "why_tests_cant": "a bound over arbitrary numbers of arbitrary signals and weights", "anchors": ["fast_bss_eval/torch/metrics.py:sdr_loss", "fast_bss_eval/torch/metrics.py:pairwise_sdr_loss", "fast_bss_eval/torch/scale_invariant.py:si_sdr_loss", "fast_bss_eval/torch/scale_invariant.py:pairwise_si_sdr_loss", "fast_bss_eval/numpy/metrics.py:sdr_loss", "fast_bss_eval/numpy/scale_invariant.py:si_sdr_loss"]}
{"id": "C102", "title": "High values settle the permutation", "statement": "Let the references be correlated at most by c<1, whatever filters of filter_length taps are applied to them, and let T = 10 log10((1+c)/(1-c)) (0 dB for uncorrelated references). An estimate with an SDR above T for one reference has an SDR below T for all others. If every estimate has an SDR above T for some reference, different ones for different estimates, then the permutation returned by sdr joins every estimate with this reference, and all SDRs reported are above T. The same holds for bss_eval_sources with the SIR in place of the SDR. T cannot be lowered: for every c there are two references correlated by c and an estimate with SI-SDR exactly T for both. In float64 (filters of up to 512 taps, up to 20 sources, clamp_db up to 20, well conditioned references) the permutation returned by sdr is still this one if the SDRs exceed T by 0.025 dB per source, and if the returned values exceed T by 0.012 dB then each estimate is joined with the only reference for which its exact SDR is not below T.", "quantifier": "all signals (estimates audible), numbers of channels, filter lengths, batch shapes, limits clamp_db; direct solver, no load_diag, filters that fit the FFT; both packages", "why_tests_cant": "the result of a search over all permutations, for arbitrary signals; the threshold depends on a supremum over all filters", "anchors": ["fast_bss_eval/torch/metrics.py:sdr", "fast_bss_eval/torch/metrics.py:sdr_loss", "fast_bss_eval/torch/metrics.py:pairwise_sdr_loss", "fast_bss_eval/torch/metrics.py:sdr_pit_loss", "fast_bss_eval/torch/metrics.py:bss_eval_sources", "fast_bss_eval/torch/scale_invariant.py:si_sdr", "fast_bss_eval/torch/scale_invariant.py:si_sdr_loss", "fast_bss_eval/torch/scale_invariant.py:si_bss_eval_sources", "fast_bss_eval/torch/helpers.py:_solve_permutation", "fast_bss_eval/numpy/metrics.py:sdr", "fast_bss_eval/numpy/metrics.py:bss_eval_sources"]}
{"id": "C103", "title": "One estimate for several references", "statement": "An SDR of v dB stands for the share 1/(1+10^(-v/10)) of the estimate. For any n references correlated at most by c, whatever filters of filter_length taps are applied to them, the shares of one estimate add up to at most 1+(n-1)c, to at most one if they are uncorrelated. So for one of any n>=2 references the SDR is at most 10 log10((1+(n-1)c)/((n-1)(1-c))), which is -10 log10(n-1) without correlation. The baseline of separation, every estimate equal to the mixture of uncorrelated references with any gains: sdr succeeds, and reports for every reference the energy of its part of the mixture against that of all other parts, whatever filter_length is and whichever permutation is returned; the shares then add up to exactly one and with parts of equal energy all values are -10 log10(n-1). In bss_eval_sources without permutation the shares of the SIRs (and of the SDRs) of one estimate compared with several references are bounded in the same way; for the baseline, bss_eval_sources succeeds, SDR and SIR are equal and have the values above, and the SAR is +inf (clamp_db if given).", "quantifier": "all signals (estimates audible), sets of references, gains, numbers of channels, filter lengths, batch shapes; direct solver, no load_diag, filters that fit the FFT; the bound on the SDR for all clamp_db; both packages", "why_tests_cant": "a bound over all signals, with a supremum over all filters", "anchors": ["fast_bss_eval/torch/metrics.py:sdr", "fast_bss_eval/torch/metrics.py:sdr_loss", "fast_bss_eval/torch/metrics.py:pairwise_sdr_loss", "fast_bss_eval/torch/metrics.py:sdr_pit_loss", "fast_bss_eval/torch/scale_invariant.py:si_sdr", "fast_bss_eval/torch/scale_invariant.py:si_sdr_loss", "fast_bss_eval/torch/helpers.py:_solve_permutation", "fast_bss_eval/numpy/metrics.py:sdr", "fast_bss_eval/numpy/metrics.py:sdr_loss", "fast_bss_eval/numpy/metrics.py:bss_eval_sources", "fast_bss_eval/torch/metrics.py:bss_eval_sources"]}
{"id": "C104", "title": "conjugate_gradient for complex systems", "statement": "conjugate_gradient called with complex arrays. The numpy version solves a Hermitian positive definite system of size n with a Hermitian positive definite preconditioner in n iterations, if its two safeguards take no effect. Whether they do or not, the iterates tend to the solution and the error measured by the matrix never grows; every iterate is that of the real system of twice the size for real and imaginary parts, for any Hermitian matrices. Real systems stored as complex arrays give the same results as real arrays. The torch version raises a RuntimeError for complex tensors as soon as one iteration is asked for.", "quantifier": "all Hermitian (positive definite where stated) matrices and preconditioners, right-hand sides, starts, numbers of columns and iterations", "why_tests_cant": "all sizes and matrices; a limit; the role of the conjugation and of the order of complex numbers in the safeguards", "anchors": ["fast_bss_eval/numpy/cgd.py:conjugate_gradient", "fast_bss_eval/numpy/cgd.py:inner_prod", "fast_bss_eval/torch/cgd.py:conjugate_gradient", "fast_bss_eval/torch/cgd.py:inner_prod", "fast_bss_eval/numpy/helpers.py:clamp"]}
{"id": "C105", "title": "Gradients of signals with the polarity inverted", "statement": "Inverting the polarity of any channels of the references and of the estimates changes the sign of the gradients of exactly these channels, for losses made of the values of torch sdr_loss, sdr and sdr_pit_loss (filter_length=1, several taps with the direct solver, or use_cg_iter with any number of iterations; all pairs, channel by channel, or through the permutation), and for losses made of SDR, SIR and SAR of torch bss_eval_sources (direct solver with any filter_length, or use_cg_iter with filter_length>=2 and any number of iterations; with and without the permutation) whenever its gradients are computed without an exception. The gradients of the other channels, NaN and infinities stay the same, for sdr_loss, sdr and sdr_pit_loss also the exceptions: no channel has to be loud, and clamp_db, load_diag and zero_mean are free.", "quantifier": "all signals, batch shapes, numbers of channels, options, weights of the values, numbers of iterations, and all choices of channels", "why_tests_cant": "all choices of channels, all signals including silent ones, all numbers of iterations", "anchors": ["fast_bss_eval/torch/metrics.py:sdr_loss", "fast_bss_eval/torch/metrics.py:sdr", "fast_bss_eval/torch/scale_invariant.py:si_sdr_loss", "fast_bss_eval/torch/metrics.py:sdr_pit_loss", "fast_bss_eval/torch/cgd.py:toeplitz_conjugate_gradient", "fast_bss_eval/torch/metrics.py:bss_eval_sources"]}
{"id": "C106", "title": "Gradients of batch items and of aligned channels do not influence each other", "statement": "If the backward pass of torch returns for a batch, the gradients of every item are those of a call on this item alone: sdr_loss (filter_length=1, several taps with the direct solver, use_cg_iter), sdr and sdr_pit_loss through the permutation, and losses made of the SDR, SIR and SAR of bss_eval_sources with and without permutation and use_cg_iter. With pairwise=False the gradients of every channel of sdr_loss are even those of a call on this channel alone. NaN or infinite gradients of one item do not reach the others. With the direct solver sdr_loss raises for a batch only if it raises for one of its items.", "quantifier": "all batch shapes, items, signals, numbers of channels, options, weights and numbers of iterations", "why_tests_cant": "all batch shapes and all contents of the other items, including silent and non-finite cases", "anchors": ["fast_bss_eval/torch/metrics.py:sdr_loss", "fast_bss_eval/torch/metrics.py:sdr", "fast_bss_eval/torch/scale_invariant.py:si_sdr_loss", "fast_bss_eval/torch/metrics.py:sdr_pit_loss", "fast_bss_eval/torch/metrics.py:bss_eval_sources", "fast_bss_eval/torch/helpers.py:_solve_permutation"]}
{"id": "C107", "title": "Gradients follow the order of the channels", "statement": "Reordering the references and the estimates of every item (and the weights of the pairs with them) reorders the gradients that the backward pass of torch returns for sdr_loss with pairwise=True, for filter_length=1, longer filters with the direct solver, and use_cg_iter, in the same way, exceptions included. For sdr and sdr_pit_loss with one weight for every item, where the weights of the pairs come from the permutation, the same holds if every item has only one best pairing; this also holds for losses made of the SDR, SIR and SAR of bss_eval_sources with the direct solver and with use_cg_iter; with compute_permutation=False its references, estimates and weights may be reordered together without this condition. The order in which speakers are listed does not influence training.", "quantifier": "all batch shapes, signals, numbers of channels, options, numbers of iterations, weights and all reorderings that may differ between items", "why_tests_cant": "all reorderings for all signals; includes silent channels with NaN gradients and raised exceptions", "anchors": ["fast_bss_eval/torch/metrics.py:sdr_loss", "fast_bss_eval/torch/metrics.py:sdr", "fast_bss_eval/torch/scale_invariant.py:si_sdr_loss", "fast_bss_eval/torch/metrics.py:sdr_pit_loss", "fast_bss_eval/torch/helpers.py:_solve_permutation", "fast_bss_eval/torch/metrics.py:bss_eval_sources"]}
{"id": "C108", "title": "Trailing silence does not change gradients", "statement": "With zero_mean=False, appending any number of zero samples to references and estimates leaves the gradients that the backward pass of torch returns at the original samples unchanged, for si_sdr_loss, sdr_loss (pairwise or channel by channel), sdr and sdr_pit_loss, with filter_length=1, longer filters with the direct solver, and use_cg_iter, exceptions and NaN included. The same holds for losses made of the SDR, SIR and SAR of bss_eval_sources (with and without compute_permutation, direct solver and use_cg_iter) whenever the gradients of the original signals exist. Padding recordings to a common length does not influence training.", "quantifier": "all batch shapes, signals, numbers of channels, numbers of appended samples, options with zero_mean=False, numbers of iterations, weights; all N >= 1 and filter lengths L >= 2 with L+N-1 <= n_fft, and L = 1", "why_tests_cant": "the transform length, and with it every step of the backward pass, changes with the padding; all signals and paddings, silent channels with NaN gradients and raised exceptions included", "anchors": ["fast_bss_eval/torch/metrics.py:sdr_loss", "fast_bss_eval/torch/metrics.py:compute_stats", "fast_bss_eval/torch/scale_invariant.py:si_sdr_loss", "fast_bss_eval/torch/metrics.py:sdr", "fast_bss_eval/torch/metrics.py:sdr_pit_loss", "fast_bss_eval/torch/helpers.py:_normalize", "fast_bss_eval/torch/metrics.py:bss_eval_sources", "fast_bss_eval/torch/metrics.py:compute_stats_2"]}
{"id": "C109", "title": "Leading silence does not change gradients", "statement": "With zero_mean=False, inserting any number of zero samples in front of references and estimates leaves the gradients that the backward pass of torch returns at the original samples unchanged, for si_sdr_loss, sdr_loss (pairwise or channel by channel), sdr and sdr_pit_loss, with filter_length=1, longer filters with the direct solver, and use_cg_iter, exceptions and NaN included. The same holds for losses made of the SDR, SIR and SAR of bss_eval_sources (with and without compute_permutation, direct solver and use_cg_iter) whenever the gradients of the original signals exist. Aligning recordings by a common delay does not influence training.", "quantifier": "all batch shapes, signals, numbers of channels, numbers of inserted samples, options with zero_mean=False, numbers of iterations, weights; all N >= 1 and filter lengths L >= 2 with L+N-1 <= n_fft, and L = 1", "why_tests_cant": "the transform length, and with it every step of the backward pass, changes with the delay; all signals and delays, silent channels with NaN gradients and raised exceptions included", "anchors": ["fast_bss_eval/torch/metrics.py:sdr_loss", "fast_bss_eval/torch/metrics.py:compute_stats", "fast_bss_eval/torch/scale_invariant.py:si_sdr_loss", "fast_bss_eval/torch/metrics.py:sdr", "fast_bss_eval/torch/metrics.py:sdr_pit_loss", "fast_bss_eval/torch/helpers.py:_normalize", "fast_bss_eval/torch/metrics.py:bss_eval_sources", "fast_bss_eval/torch/metrics.py:compute_stats_2"]}
