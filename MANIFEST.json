{
 "claims": [
  {
   "property": "C01",
   "status": "proved",
   "theorems": [
    "FBE.Props.C01_sdr_loss_pairwise",
    "FBE.Props.C01_sdr_loss"
   ],
   "note": "exact arithmetic; filter_length=1 additionally needs reference norms >= 1e-6 (or silent)"
  },
  {
   "property": "C02",
   "status": "proved",
   "theorems": [
    "FBE.Props.C02_bss_eval",
    "FBE.Props.C12_bss_eval_documented"
   ],
   "note": "exact arithmetic"
  },
  {
   "property": "C03",
   "status": "proved",
   "theorems": [
    "FBE.Props.C03_si_sdr_loss",
    "FBE.Props.C03_si_functions"
   ],
   "note": ""
  },
  {
   "property": "C04",
   "status": "proved",
   "theorems": [
    "FBE.Props.C04_sdr_le_sir_sar",
    "FBE.Props.C04_fails_loaded_length_one"
   ],
   "note": "true except for filter_length=1 with load_diag > 0, where a counterexample is proved"
  },
  {
   "property": "C05",
   "status": "proved",
   "theorems": [
    "FBE.Props.C05_sdr_loss_pairwise",
    "FBE.Props.C05_sdr_loss",
    "FBE.Props.C05_sdr",
    "FBE.Props.C05_bss_eval"
   ],
   "note": ""
  },
  {
   "property": "C06",
   "status": "proved",
   "theorems": [
    "FBE.Props.C06_sdr_loss_pairwise",
    "FBE.Props.C06_sdr_loss",
    "FBE.Props.C06_sdr",
    "FBE.Props.C06_bss_eval",
    "FBE.Props.C06_bss_eval_permutation"
   ],
   "note": "with permutation: values are the clipped unclamped values at the assignment chosen"
  },
  {
   "property": "C07",
   "status": "proved",
   "theorems": [
    "FBE.Props.C07_scale_invariance",
    "FBE.Props.C07_scale_invariance_aligned",
    "FBE.Props.C07_fails_below_threshold"
   ],
   "note": "channels with norm >= 1e-6 (or zero) before and after, as in the statement; the failure below the threshold is proved as well"
  },
  {
   "property": "C08",
   "status": "proved",
   "theorems": [
    "FBE.Props.C08_offset_invariance",
    "FBE.Props.C08_offset_invariance_aligned"
   ],
   "note": ""
  },
  {
   "property": "C09",
   "status": "proved",
   "theorems": [
    "FBE.Props.C09_longer_filters",
    "FBE.Props.C09_longer_filters_bss_eval"
   ],
   "note": "no restriction on the lengths"
  },
  {
   "property": "C10",
   "status": "proved",
   "theorems": [
    "FBE.Props.C10_filtered_reference",
    "FBE.Props.C10_convolution"
   ],
   "note": ""
  },
  {
   "property": "C11",
   "status": "proved",
   "theorems": [
    "FBE.Props.C11_sdr_best_pairing",
    "FBE.Props.C11_sdr_pit_loss_minimum"
   ],
   "note": ""
  },
  {
   "property": "C12",
   "status": "proved",
   "theorems": [
    "FBE.Props.C12_bss_eval_best_pairing",
    "FBE.Props.C12_bss_eval_documented"
   ],
   "note": ""
  },
  {
   "property": "C13",
   "status": "proved",
   "theorems": [
    "FBE.Props.C13_permutation_valid",
    "FBE.Props.C11_sdr_best_pairing",
    "FBE.Props.C12_bss_eval_best_pairing"
   ],
   "note": ""
  },
  {
   "property": "C14",
   "status": "proved",
   "theorems": [
    "FBE.Props.C14_pairwise_reordered",
    "FBE.Props.C14_sdr_total",
    "FBE.Props.C14_sdr_follows",
    "FBE.Props.C14_bss_eval_sir_total",
    "FBE.Props.C14_aligned"
   ],
   "note": ""
  },
  {
   "property": "C15",
   "status": "proved",
   "theorems": [
    "FBE.Props.C11_sdr_best_pairing",
    "FBE.Props.C12_bss_eval_best_pairing"
   ],
   "note": ""
  },
  {
   "property": "C16",
   "status": "proved",
   "theorems": [
    "FBE.Props.C11_sdr_best_pairing",
    "FBE.Props.C12_bss_eval_best_pairing"
   ],
   "note": ""
  },
  {
   "property": "C17",
   "status": "proved",
   "theorems": [
    "FBE.Props.C17_sdr_returns_iff",
    "FBE.Props.C17_bss_eval_returns_iff",
    "FBE.Props.C17_sdr_clamped_never_fails",
    "FBE.Props.C17_perfect_single_source",
    "FBE.Props.C17_perfect_orthogonal_sources"
   ],
   "note": ""
  },
  {
   "property": "C18",
   "status": "proved",
   "theorems": [
    "FBE.Props.C18_torch_assignment_terminates"
   ],
   "note": "all step functions of torch/hungarian.py; any arithmetic with a - a = 0"
  },
  {
   "property": "C19",
   "status": "proved",
   "theorems": [
    "FBE.Props.C19_torch_assignment_optimal"
   ],
   "note": "exact arithmetic"
  },
  {
   "property": "C20",
   "status": "proved",
   "theorems": [
    "FBE.Props.C20_unsolvable_raises",
    "FBE.Props.C20_nan_raises_valueError",
    "FBE.Props.C20_nan_never_returns"
   ],
   "note": ""
  },
  {
   "property": "C21",
   "status": "proved",
   "theorems": [
    "FBE.Props.C21_pairwise",
    "FBE.Props.C21_aligned",
    "FBE.Props.C21_bss_eval_aligned",
    "FBE.Props.C21_sdr",
    "FBE.Props.C21_bss_eval"
   ],
   "note": "results of calls that return; the kinds of exceptions are not compared; aligned calls with the direct solver need numpy < 2 (see C43)"
  },
  {
   "property": "C22",
   "status": "proved",
   "theorems": [
    "FBE.Props.C22_sdr_loss_item",
    "FBE.Props.C22_sdr_loss_aligned_item",
    "FBE.Props.C22_sdr_item",
    "FBE.Props.C22_bss_eval_item",
    "FBE.Props.C22_sdr_loss_returns",
    "FBE.Props.C22_sdr_loss_aligned_returns",
    "FBE.Props.C22_sdr_returns",
    "FBE.Props.C22_bss_eval_returns",
    "FBE.Props.C22_si_sdr_loss_item",
    "FBE.Props.C22_si_sdr_item",
    "FBE.Props.C22_si_bss_eval_item",
    "FBE.Props.C22_si_sdr_returns",
    "FBE.Props.C22_si_bss_eval_returns"
   ],
   "note": "the converse for nonempty batches (an empty batch of too short signals raises)"
  },
  {
   "property": "C23",
   "status": "proved",
   "theorems": [
    "FBE.Props.C23_diagonal",
    "FBE.Props.C23_other_estimates"
   ],
   "note": "numpy < 2 or torch for the direct solver (see C43)"
  },
  {
   "property": "C24",
   "status": "proved",
   "theorems": [
    "FBE.Props.C24_reevaluation",
    "FBE.Props.C24_identity",
    "FBE.Props.C24_diagonal",
    "FBE.Props.C24_other_estimates"
   ],
   "note": ""
  },
  {
   "property": "C25",
   "status": "proved",
   "theorems": [
    "FBE.Props.C25_variants"
   ],
   "note": ""
  },
  {
   "property": "C26",
   "status": "proved",
   "theorems": [
    "FBE.Props.C26_residual",
    "FBE.Props.C26_schedule",
    "FBE.Props.C26_toeplitz"
   ],
   "note": ""
  },
  {
   "property": "C27",
   "status": "proved",
   "theorems": [
    "FBE.Props.C27_exact",
    "FBE.Props.C27_sdr_loss",
    "FBE.Props.C27_bss_eval",
    "FBE.Props.C27_bss_eval_no_permutation"
   ],
   "note": "safeguards inactive, as in the statement"
  },
  {
   "property": "C28",
   "status": "proved",
   "theorems": [
    "FBE.Props.C28_lower_bound",
    "FBE.Props.C28_monotone"
   ],
   "note": "safeguards inactive, as in the statement"
  },
  {
   "property": "C29",
   "status": "proved",
   "theorems": [
    "FBE.Props.C29_toeplitz",
    "FBE.Props.C29_block_toeplitz"
   ],
   "note": ""
  },
  {
   "property": "C30",
   "status": "proved",
   "theorems": [
    "FBE.Props.C30_symmetric",
    "FBE.Props.C30_nonsymmetric"
   ],
   "note": "strict minimum"
  },
  {
   "property": "C31",
   "status": "proved",
   "theorems": [
    "FBE.Props.C31_cross_correlation_iff",
    "FBE.Props.C31_cross_correlation_lengths_iff",
    "FBE.Props.C31_autocorrelation",
    "FBE.Props.C31_all_pairs",
    "FBE.Props.C31_filter_fits"
   ],
   "note": ""
  },
  {
   "property": "C32",
   "status": "proved",
   "theorems": [
    "FBE.Props.C32_loaded_sdr_loss",
    "FBE.Props.C32_loaded_bss_eval",
    "FBE.Props.C32_loading_lowers_sdr",
    "FBE.Props.C32_loading_lowers_square_cosines"
   ],
   "note": ""
  },
  {
   "property": "C33",
   "status": "proved",
   "theorems": [
    "FBE.Props.C33_silent_sdr_loss",
    "FBE.Props.C33_silent_bss_eval_no_permutation",
    "FBE.Props.C33_silent_bss_eval",
    "FBE.Props.C33_silent_bss_eval_valueError"
   ],
   "note": ""
  },
  {
   "property": "C34",
   "status": "proved",
   "theorems": [
    "FBE.Props.C34_sdr_loss",
    "FBE.Props.C34_sdr_loss_length_one",
    "FBE.Props.C34_bss_eval",
    "FBE.Props.C34_bss_eval_no_permutation",
    "FBE.Props.C34_duplicated_references"
   ],
   "note": ""
  },
  {
   "property": "C35",
   "status": "proved",
   "theorems": [
    "FBE.Props.C35_available",
    "FBE.Props.C35_unavailable"
   ],
   "note": "for every implementation of the packages; AttributeError for calls whose arguments bind, TypeError otherwise"
  },
  {
   "property": "C36",
   "status": "proved",
   "theorems": [
    "FBE.Props.C36_dispatch",
    "FBE.Props.C36_arguments",
    "FBE.Props.C36_default_calls",
    "FBE.Props.C36_bss_eval_sources",
    "FBE.Props.C36_sdr",
    "FBE.Props.C36_sdr_loss_pairwise",
    "FBE.Props.C36_sdr_loss",
    "FBE.Props.C36_sdr_pit_loss",
    "FBE.Props.C36_si_bss_eval_sources",
    "FBE.Props.C36_si_sdr",
    "FBE.Props.C36_si_sdr_loss_pairwise",
    "FBE.Props.C36_si_sdr_loss",
    "FBE.Props.C36_si_sdr_pit_loss"
   ],
   "note": "for every implementation of the packages, all positional/keyword calls"
  },
  {
   "property": "C37",
   "status": "proved",
   "theorems": [
    "FBE.Props.C37_toeplitz",
    "FBE.Props.C37_block_toeplitz",
    "FBE.Props.C37_block_toeplitz_size_one"
   ],
   "note": ""
  },
  {
   "property": "C38",
   "status": "proved",
   "theorems": [
    "FBE.Props.C38_total_sdr",
    "FBE.Props.C38_total_sdr_no_permutation"
   ],
   "note": ""
  },
  {
   "property": "C39",
   "status": "proved",
   "theorems": [
    "FBE.Props.C39_sar_per_estimate",
    "FBE.Props.C39_sar_aligned"
   ],
   "note": "references not quieter than the normalisation threshold (or zero)"
  },
  {
   "property": "C40",
   "status": "proved",
   "theorems": [
    "FBE.Props.C40_trailing_silence",
    "FBE.Props.C40_trailing_silence_aligned",
    "FBE.Props.C40_fails_zero_mean"
   ],
   "note": "zero_mean off, filter fits the transform; C40_fails_zero_mean shows that zero_mean must be off"
  },
  {
   "property": "C41",
   "status": "proved",
   "theorems": [
    "FBE.Props.C41_load_ignored",
    "FBE.Props.C41_load_ignored_bss_eval",
    "FBE.Props.C41_load_ignored_permutation"
   ],
   "note": ""
  },
  {
   "property": "C42",
   "status": "proved",
   "theorems": [
    "FBE.Props.C42_shortcut",
    "FBE.Props.C42_general_bss_eval_fails"
   ],
   "note": ""
  },
  {
   "property": "C43",
   "status": "proved",
   "theorems": [
    "FBE.Props.C43_numpy2",
    "FBE.Props.C43_unaffected"
   ],
   "note": ""
  },
  {
   "property": "C44",
   "status": "proved",
   "theorems": [
    "FBE.Props.C44_inputs_unchanged",
    "FBE.Props.C44_parts",
    "FBE.Props.C44_assignment_fresh",
    "FBE.Props.C44_parts_fresh"
   ],
   "note": "at the level of buffers: which library operations allocate, view or write is part of the trusted base; all executions, including interrupted ones; results share no memory with the inputs"
  },
  {
   "property": "C45",
   "status": "proved",
   "theorems": [
    "FBE.Props.C45_sdr_loss_coherence",
    "FBE.Props.C45_square_cosines",
    "FBE.Props.C04_sdr_le_sir_sar"
   ],
   "note": "cohSdr <= cohSar needs load_diag 0 for filter_length=1"
  },
  {
   "property": "C46",
   "status": "proved",
   "theorems": [
    "FBE.Props.C46_circulant_solve",
    "FBE.Props.C46_block_circulant_solve",
    "FBE.Props.C46_positive_definite",
    "FBE.Props.C46_block_positive_definite"
   ],
   "note": ""
  },
  {
   "property": "C47",
   "status": "proved",
   "theorems": [
    "FBE.Props.C47_silence_moved",
    "FBE.Props.C47_leading_silence",
    "FBE.Props.C47_leading_silence_aligned"
   ],
   "note": "zero_mean off; filter fits the transform for the unpadded signals"
  },
  {
   "property": "C48",
   "status": "proved",
   "theorems": [
    "FBE.Props.C48_zero_mean",
    "FBE.Props.C48_zero_mean_aligned",
    "FBE.Props.C48_zero_mean_si"
   ],
   "note": "equality of results including failures"
  },
  {
   "property": "C49",
   "status": "proved",
   "theorems": [
    "FBE.Props.C49_relation",
    "FBE.Props.C49_perfect"
   ],
   "note": "no clamp_db for the relation; infinite values with the direct solver"
  },
  {
   "property": "C50",
   "status": "proved",
   "theorems": [
    "FBE.Props.C50_symmetric",
    "FBE.Props.C50_symmetric_aligned",
    "FBE.Props.C50_si_sdr_total"
   ],
   "note": ""
  },
  {
   "property": "C51",
   "status": "proved",
   "theorems": [
    "FBE.Props.C51_more_sources",
    "FBE.Props.C51_pairwise",
    "FBE.Props.C51_more_candidates",
    "FBE.Props.C51_more_estimates"
   ],
   "note": "the monotonicity of SIR and SAR for the direct solver (without permutation); candidates for every solver"
  },
  {
   "property": "C52",
   "status": "proved",
   "theorems": [
    "FBE.Props.C52_error_decreases",
    "FBE.Props.C52_error_vanishes",
    "FBE.Props.C52_pairwise",
    "FBE.Props.C52_aligned",
    "FBE.Props.C52_sdr",
    "FBE.Props.C52_bss_eval_no_permutation",
    "FBE.Props.C52_bss_eval"
   ],
   "note": "safeguards of the loop may be active; SIR with filter_length >= 2 (for filter_length = 1 the solver is not used)"
  },
  {
   "property": "C53",
   "status": "proved",
   "theorems": [
    "FBE.Props.C53_extended",
    "FBE.Props.C53_extended_aligned",
    "FBE.Props.C53_scale_invariant",
    "FBE.Props.C53_scale_invariant_aligned"
   ],
   "note": "equality of whole results including failures; for longer estimates the filters must fit into the transform"
  },
  {
   "property": "C54",
   "status": "proved",
   "theorems": [
    "FBE.Props.C54_saturates",
    "FBE.Props.C54_saturates_aligned",
    "FBE.Props.C54_everything_perfect",
    "FBE.Props.C54_everything_perfect_aligned",
    "FBE.Props.C54_sdr_never_returns",
    "FBE.Props.C54_bss_eval_raises",
    "FBE.Props.C54_default"
   ],
   "note": "compute_permutation=False with the direct solver: unless there are exactly as many channels as lags (not modelled)"
  },
  {
   "property": "C55",
   "status": "proved",
   "theorems": [
    "FBE.Props.C55_too_few_samples",
    "FBE.Props.C55_sar_meaningless",
    "FBE.Props.C55_default"
   ],
   "note": "exact arithmetic"
  },
  {
   "property": "C56",
   "status": "proved",
   "theorems": [
    "FBE.Props.C56_none_sdr_loss",
    "FBE.Props.C56_none_same",
    "FBE.Props.C56_none_bss_eval"
   ],
   "note": "separate model of the calls with filter_length=None (Model/NoLength.lean)"
  },
  {
   "property": "C57",
   "status": "proved",
   "theorems": [
    "FBE.Props.C57_sdr_loss_returns",
    "FBE.Props.C57_silent_reference",
    "FBE.Props.C57_bss_eval",
    "FBE.Props.C57_bss_eval_no_permutation",
    "FBE.Props.C57_loaded_bss_eval"
   ],
   "note": "exact arithmetic; the condition for bss_eval_sources for signals of equal length and filters that fit into the transform"
  },
  {
   "property": "C58",
   "status": "proved",
   "theorems": [
    "FBE.Props.C58_pairwise",
    "FBE.Props.C58_aligned",
    "FBE.Props.C58_sdr",
    "FBE.Props.C58_bss_eval_no_permutation",
    "FBE.Props.C58_bss_eval"
   ],
   "note": "exact arithmetic; pairwise=False with the direct solver unless numpy 2 rejects the stack of vectors (C43)"
  },
  {
   "property": "C59",
   "status": "proved",
   "theorems": [
    "FBE.Props.C59_smooth",
    "FBE.Props.C59_gradient",
    "FBE.Props.C59_rescaling",
    "FBE.Props.C59_offset",
    "FBE.Props.C59_other_channels",
    "FBE.Props.C59_towards_reference",
    "FBE.Props.C59_no_stationary",
    "FBE.Props.C59_stationary"
   ],
   "note": "exact arithmetic; the derivative of the mathematical function, automatic differentiation itself is not modelled; gradient for load_diag=None or 0 and the direct solver"
  },
  {
   "property": "C60",
   "status": "proved",
   "theorems": [
    "FBE.Props.C60_sdr",
    "FBE.Props.C60_sdr_permutation",
    "FBE.Props.C60_sdr_independent",
    "FBE.Props.C60_bss_eval",
    "FBE.Props.C60_bss_eval_permutation",
    "FBE.Props.C60_returns_iff"
   ],
   "note": "exact arithmetic; without clamp_db the values are +inf, where rounding in practice leaves a large finite value"
  },
  {
   "property": "C61",
   "status": "proved",
   "theorems": [
    "FBE.Props.C61_sdr_loss",
    "FBE.Props.C61_sdr_loss_aligned",
    "FBE.Props.C61_sdr",
    "FBE.Props.C61_bss_eval",
    "FBE.Props.C61_bss_eval_aligned"
   ],
   "note": "about the model on arrays with axes (Model/Tensor, Model/Compat, Model/Arrays), which follows the code statement by statement; bss_eval_sources with more than one tap needs at least one reference, estimate and batch item (C62_empty_bss_eval), channel by channel with the direct solver a filter not longer than the transform and numpy < 2 or torch (C43)"
  },
  {
   "property": "C62",
   "status": "proved",
   "theorems": [
    "FBE.Props.C62_sdr_loss",
    "FBE.Props.C62_sdr_loss_aligned",
    "FBE.Props.C62_sdr",
    "FBE.Props.C62_bss_eval",
    "FBE.Props.C62_bss_eval_aligned",
    "FBE.Props.C62_iterative_sdr_loss",
    "FBE.Props.C62_iterative_sdr",
    "FBE.Props.C62_iterative_bss_eval",
    "FBE.Props.C62_fewer_sdr_loss",
    "FBE.Props.C62_fewer_bss_eval",
    "FBE.Props.C62_torch_expanded",
    "FBE.Props.C62_empty_bss_eval"
   ],
   "note": "with filter_length=1 signals of one sample against longer ones are excluded (they are broadcast in time); that linalg.solve, einsum and elementwise operations raise for shapes that do not fit is part of the trusted base"
  },
  {
   "property": "C63",
   "status": "proved",
   "theorems": [
    "FBE.Props.C63_torch_sdr_loss",
    "FBE.Props.C63_torch_sdr_loss_none",
    "FBE.Props.C63_torch_sdr_loss_aligned",
    "FBE.Props.C63_torch_sdr_loss_none_aligned",
    "FBE.Props.C63_torch_sdr",
    "FBE.Props.C63_torch_bss_eval",
    "FBE.Props.C63_torch_bss_eval_aligned",
    "FBE.Props.C63_sdr_loss",
    "FBE.Props.C63_sdr_loss_aligned",
    "FBE.Props.C63_bss_eval_aligned",
    "FBE.Props.C63_einsum_complex"
   ],
   "note": "channel by channel the estimates may be broadcast, the references not (there the installations differ: C62_torch_expanded); sdr and bss_eval_sources with permutation on different packages: C21"
  },
  {
   "property": "C64",
   "status": "proved",
   "theorems": [
    "FBE.Props.C64_zero_sdr_loss",
    "FBE.Props.C64_zero_sdr",
    "FBE.Props.C64_zero_bss_eval",
    "FBE.Props.C64_negative_sdr_loss",
    "FBE.Props.C64_negative_sdr",
    "FBE.Props.C64_very_negative_sdr_loss",
    "FBE.Props.C64_negative_bss_eval",
    "FBE.Props.C64_half_bss_eval",
    "FBE.Props.C64_very_negative_bss_eval",
    "FBE.Props.C64_negative_iterations",
    "FBE.Props.C64_no_iterations_sdr_loss",
    "FBE.Props.C64_no_iterations_sdr",
    "FBE.Props.C64_no_iterations_bss_eval"
   ],
   "note": "n-k = 1 and n = 2 = 2k are left out (filter_length=1 takes the shortcut of C08); which exception filter_length=0 raises is not part of the claim; sdr and bss_eval_sources without iterations for signals of equal length"
  },
  {
   "property": "C65",
   "status": "proved",
   "theorems": [
    "FBE.Props.C65_clamp_effective",
    "FBE.Props.C65_float32",
    "FBE.Props.C65_float64",
    "FBE.Props.C65_clamp_lost",
    "FBE.Props.C65_accuracy",
    "FBE.Props.C65_ranking",
    "FBE.Props.C65_nan"
   ],
   "note": "the decibel stage only: the coherences are arbitrary numbers. Unbounded range of exponents; between the two limits nothing is claimed"
  },
  {
   "property": "C66",
   "status": "proved",
   "theorems": [
    "FBE.Props.C66_best_exists",
    "FBE.Props.C66_sdr_loss",
    "FBE.Props.C66_bss_eval",
    "FBE.Props.C66_bss_eval_permutation",
    "FBE.Props.C66_noise_bound"
   ],
   "note": "exact arithmetic; equal lengths of references and estimates"
  },
  {
   "property": "C67",
   "status": "proved",
   "theorems": [
    "FBE.Props.C67_accuracy",
    "FBE.Props.C67_float64",
    "FBE.Props.C67_float32",
    "FBE.Props.C67_ranking",
    "FBE.Props.C67_perfect",
    "FBE.Props.C67_any_order"
   ],
   "note": "one pair of signals; unbounded range of exponents; no removal of means"
  },
  {
   "property": "C68",
   "status": "proved",
   "theorems": [
    "FBE.Props.C68_sdr_loss",
    "FBE.Props.C68_sdr_loss_aligned",
    "FBE.Props.C68_pairwise",
    "FBE.Props.C68_sdr",
    "FBE.Props.C68_bss_eval"
   ],
   "note": "lengths as in C61-C63: for filter_length=1 not one sample together with several"
  },
  {
   "property": "C69",
   "status": "proved",
   "theorems": [
    "FBE.Props.C69_no_torch",
    "FBE.Props.C69_broken_torch",
    "FBE.Props.C69_no_packaging",
    "FBE.Props.C69_recent_torch",
    "FBE.Props.C69_old_torch",
    "FBE.Props.C69_import",
    "FBE.Props.C69_tensors"
   ],
   "note": "try/except with Python 3 semantics: a list after `except` raises TypeError when an exception has to be matched"
  },
  {
   "property": "C70",
   "status": "proved",
   "theorems": [
    "FBE.Props.C70_torch_sdr",
    "FBE.Props.C70_torch_bss",
    "FBE.Props.C70_torch_bss_length_one",
    "FBE.Props.C70_torch_rejects",
    "FBE.Props.C70_numpy_sdr",
    "FBE.Props.C70_numpy_bss",
    "FBE.Props.C70_numpy_bss_length_one"
   ],
   "note": "arrays with at least two axes, torch >= 1.8; half precision and signals of two data types are not modelled for torch"
  },
  {
   "property": "C71",
   "status": "proved",
   "theorems": [
    "FBE.Props.C71_clamped_finite",
    "FBE.Props.C71_clamped_finite_diag",
    "FBE.Props.C71_nan",
    "FBE.Props.C71_nan_diag",
    "FBE.Props.C71_finite",
    "FBE.Props.C71_silent",
    "FBE.Props.C71_perfect",
    "FBE.Props.C71_gradient_est",
    "FBE.Props.C71_gradient_ref",
    "FBE.Props.C71_gradient_diag",
    "FBE.Props.C71_saturated"
   ],
   "note": "filter_length=1; the derivative formulas of the torch operations are trusted and written out in Model/Backward"
  },
  {
   "property": "C72",
   "status": "proved",
   "theorems": [
    "FBE.Props.C72_clamped_finite",
    "FBE.Props.C72_clamped_finite_diag",
    "FBE.Props.C72_nan",
    "FBE.Props.C72_nan_diag",
    "FBE.Props.C72_finite",
    "FBE.Props.C72_silent",
    "FBE.Props.C72_gradient_est",
    "FBE.Props.C72_gradient_ref",
    "FBE.Props.C72_gradient_diag",
    "FBE.Props.C72_saturated"
   ],
   "note": "direct solver; the derivative formulas of the torch operations are trusted and written out in Model/BackwardFir"
  },
  {
   "property": "C73",
   "status": "proved",
   "theorems": [
    "FBE.Props.C73_gradient_si",
    "FBE.Props.C73_gradient_fir",
    "FBE.Props.C73_ties_si",
    "FBE.Props.C73_ties_fir",
    "FBE.Props.C73_clamped_finite",
    "FBE.Props.C73_nan"
   ],
   "note": "direct solver or filter_length=1; the derivative formulas of the torch operations are trusted and written out in Model/BackwardPit"
  },
  {
   "property": "C74",
   "status": "proved",
   "theorems": [
    "FBE.Props.C74_repeated",
    "FBE.Props.C74_one_reference",
    "FBE.Props.C74_torch",
    "FBE.Props.C74_numpy2",
    "FBE.Props.C74_as_many_as_taps"
   ],
   "note": "array model (Model/Arrays); as many estimates as taps on torch only without further leading axes, and only the shape of the result is stated"
  },
  {
   "property": "C75",
   "status": "proved",
   "theorems": [
    "FBE.Props.C75_clamped_finite",
    "FBE.Props.C75_clamped_finite_diag",
    "FBE.Props.C75_finite",
    "FBE.Props.C75_silent",
    "FBE.Props.C75_gradient_est",
    "FBE.Props.C75_gradient_ref",
    "FBE.Props.C75_gradient_diag",
    "FBE.Props.C75_saturated",
    "FBE.Props.C75_gradient_pit",
    "FBE.Props.C75_pit_clamped_finite",
    "FBE.Props.C75_ties"
   ],
   "note": "exact numbers between the coherences and the signals; pytorch's formulas for single operations are the trusted base of Model/BackwardCg"
  },
  {
   "property": "C76",
   "status": "proved",
   "theorems": [
    "FBE.Props.C76_near_optimal",
    "FBE.Props.C76_unique",
    "FBE.Props.C76_perturbed",
    "FBE.Props.C76_grid",
    "FBE.Props.C76_with_inf",
    "FBE.Props.C76_rejects"
   ],
   "note": "rounding to nearest without overflow, underflow or signed zero"
  },
  {
   "property": "C77",
   "status": "proved",
   "theorems": [
    "FBE.Props.C77_values",
    "FBE.Props.C77_permutation",
    "FBE.Props.C77_float64",
    "FBE.Props.C77_float32",
    "FBE.Props.C77_outcome"
   ],
   "note": "rounding to nearest without overflow, underflow or signed zero; zero_mean=False; one element of the batch"
  },
  {
   "property": "C78",
   "status": "proved",
   "theorems": [
    "FBE.Props.C78_solves",
    "FBE.Props.C78_converges",
    "FBE.Props.C78_alone",
    "FBE.Props.C78_default",
    "FBE.Props.C78_extra_outputs",
    "FBE.Props.C78_errors",
    "FBE.Props.C78_errors_vector",
    "FBE.Props.C78_printed",
    "FBE.Props.C78_start_at_solution",
    "FBE.Props.C78_start_shift",
    "FBE.Props.C78_assertion",
    "FBE.Props.C78_vector_start"
   ],
   "note": "exact real arithmetic; complex systems are not modelled"
  },
  {
   "property": "C79",
   "status": "proved",
   "theorems": [
    "FBE.Props.C79_sdr_loss",
    "FBE.Props.C79_sdr_loss_clamped",
    "FBE.Props.C79_bss_eval",
    "FBE.Props.C79_sdr_total",
    "FBE.Props.C79_reference",
    "FBE.Props.C79_sixteen_bits"
   ],
   "note": "exact arithmetic, direct solver, no loading, both estimates not quieter than the normalisation threshold"
  },
  {
   "property": "C80",
   "status": "proved",
   "theorems": [
    "FBE.Props.C80_values",
    "FBE.Props.C80_documented",
    "FBE.Props.C80_load",
    "FBE.Props.C80_one_tap",
    "FBE.Props.C80_permutation",
    "FBE.Props.C80_float64",
    "FBE.Props.C80_nonsingular",
    "FBE.Props.C80_outcome"
   ],
   "note": "direct solver, references and estimates of the same length, filter fits into the transform; FFT and linalg.solve enter through error bounds; sdr: torch back end; no overflow or underflow"
  },
  {
   "property": "C81",
   "status": "proved",
   "theorems": [
    "FBE.Props.C81_values",
    "FBE.Props.C81_documented",
    "FBE.Props.C81_load",
    "FBE.Props.C81_permutation",
    "FBE.Props.C81_float64",
    "FBE.Props.C81_nonsingular",
    "FBE.Props.C81_outcome"
   ],
   "note": "direct solver, signals of the same length, filter fits into the transform; load_diag with filter_length=1 left out; FFT and linalg.solve enter through error bounds; permutation: torch back end; no overflow or underflow"
  },
  {
   "property": "C82",
   "status": "proved",
   "theorems": [
    "FBE.Props.C82_si_sdr",
    "FBE.Props.C82_sdr",
    "FBE.Props.C82_bss",
    "FBE.Props.C82_si_sdr_permutation",
    "FBE.Props.C82_sdr_permutation",
    "FBE.Props.C82_bss_permutation",
    "FBE.Props.C82_float64",
    "FBE.Props.C82_float32"
   ],
   "note": "direct solver, signals of the same length; FFT and linalg.solve enter through error bounds; permutation: torch back end; no overflow or underflow"
  },
  {
   "property": "C83",
   "status": "proved",
   "theorems": [
    "FBE.Props.C83_sdr",
    "FBE.Props.C83_sdr_cg",
    "FBE.Props.C83_sdr_diag",
    "FBE.Props.C83_sdr_cg_diag",
    "FBE.Props.C83_bss",
    "FBE.Props.C83_bss_cg",
    "FBE.Props.C83_sdr_cg_outcome",
    "FBE.Props.C83_bss_cg_outcome"
   ],
   "note": "clamp_db=None; filter_length at most the size of the transform; signals of the same length; load_diag with filter_length=1 is left out of the rounded bss_eval_sources; direct solver with pairwise=False: installations whose linalg.solve accepts stacks of vectors"
  },
  {
   "property": "C84",
   "status": "proved",
   "theorems": [
    "FBE.Props.C84_sdr",
    "FBE.Props.C84_bss",
    "FBE.Props.C84_bss_order",
    "FBE.Props.C84_sdr_permutation",
    "FBE.Props.C84_bss_permutation",
    "FBE.Props.C84_bss_outcome"
   ],
   "note": "clamp_db=None, filter_length >= 2 (one tap needs no solver: C82), signals of the same length; the fineness needed depends on the number of iterations; permutation: torch back end; no overflow or underflow"
  },
  {
   "property": "C85",
   "status": "proved",
   "theorems": [
    "FBE.Props.C85_gradient_diag",
    "FBE.Props.C85_gradient_perm",
    "FBE.Props.C85_clamped_finite_diag",
    "FBE.Props.C85_clamped_finite_perm",
    "FBE.Props.C85_nan_sir",
    "FBE.Props.C85_silent_estimate",
    "FBE.Props.C85_nan_diag",
    "FBE.Props.C85_nan_perm",
    "FBE.Props.C85_sdr_only"
   ],
   "note": "use_cg_iter=None (or filter_length=1), exact arithmetic except for the special values of the decibels; the infinite SIR case for filter_length != 1 or load_diag=0 (otherwise the quotient of coherences can exceed one); SDR only: filter_length >= 2; derivative formulas of torch as listed in Model/Backward*.lean"
  },
  {
   "property": "C86",
   "status": "proved",
   "theorems": [
    "FBE.Props.C86_transform_size",
    "FBE.Props.C86_block_size",
    "FBE.Props.C86_rounded_log2",
    "FBE.Props.C86_limit"
   ],
   "note": "that math.log2 of CPython has this accuracy is an assumption about the C library; the bound 2 ** 45 is about memory of 256 TB"
  },
  {
   "property": "C87",
   "status": "proved",
   "theorems": [
    "FBE.Props.C87_sdr_loss",
    "FBE.Props.C87_sdr_loss_diag",
    "FBE.Props.C87_loud_estimate",
    "FBE.Props.C87_sdr_loss_raises",
    "FBE.Props.C87_sdr",
    "FBE.Props.C87_sdr_finite",
    "FBE.Props.C87_bss_no_permutation",
    "FBE.Props.C87_bss_permutation",
    "FBE.Props.C87_bss_finite"
   ],
   "note": "that a NaN sample makes the transform, the products and the solutions of its channel NaN, and that solve does not raise for a matrix of NaN only, is part of the model; whether solve and inv raise for a matrix with some NaN entries is left open. pairwise=False with the direct solver: numpy < 2 or torch. Values of channels of numbers are exact"
  },
  {
   "property": "C88",
   "status": "proved",
   "theorems": [
    "FBE.Props.C88_gradient_diag",
    "FBE.Props.C88_gradient_perm",
    "FBE.Props.C88_clamped_finite_diag",
    "FBE.Props.C88_clamped_finite_perm",
    "FBE.Props.C88_nan_sir",
    "FBE.Props.C88_sdr_only"
   ],
   "note": "the derivative formulas of torch for single operations are part of the model; quantities between the coherences and the normalised signals are exact reals"
  },
  {
   "property": "C89",
   "status": "proved",
   "theorems": [
    "FBE.Props.C89_sdr_loss_pairwise",
    "FBE.Props.C89_sdr_loss",
    "FBE.Props.C89_bss_eval",
    "FBE.Props.C89_bss_eval_permutation",
    "FBE.Props.C89_sdr_returns_iff",
    "FBE.Props.C89_bss_eval_returns_iff"
   ],
   "note": "exact real arithmetic; in floating point arithmetic the exceptional sets are hit by rounding as well (C83, C87)"
  },
  {
   "property": "C90",
   "status": "proved",
   "theorems": [
    "FBE.Props.C90_returns_iff",
    "FBE.Props.C90_sar_aligned",
    "FBE.Props.C90_sar_per_estimate",
    "FBE.Props.C90_singular",
    "FBE.Props.C90_singular_aligned"
   ],
   "note": ""
  },
  {
   "property": "C91",
   "status": "proved",
   "theorems": [
    "FBE.Props.C91_reference",
    "FBE.Props.C91_estimate",
    "FBE.Props.C91_reference_aligned",
    "FBE.Props.C91_estimate_aligned",
    "FBE.Props.C91_zero_mean",
    "FBE.Props.C91_flattered",
    "FBE.Props.C91_sdr",
    "FBE.Props.C91_sdr_returns",
    "FBE.Props.C91_bss_eval"
   ],
   "note": "exact real arithmetic; bss_eval_sources with one reference of one sample, with estimates of one sample, or with load_diag is not covered; that einsum broadcasts axes of size one is part of the trusted base"
  },
  {
   "property": "C92",
   "status": "proved",
   "theorems": [
    "FBE.Props.C92_parts",
    "FBE.Props.C92_sdr_loss",
    "FBE.Props.C92_bss_eval",
    "FBE.Props.C92_bss_eval_permutation",
    "FBE.Props.C92_uncorrelated_sources",
    "FBE.Props.C92_noise",
    "FBE.Props.C92_plain_noise"
   ],
   "note": "exact real arithmetic"
  },
  {
   "property": "C93",
   "status": "proved",
   "theorems": [
    "FBE.Props.C93_correlations",
    "FBE.Props.C93_correlations_aligned",
    "FBE.Props.C93_order",
    "FBE.Props.C93_order_aligned",
    "FBE.Props.C93_transform",
    "FBE.Props.C93_transform_aligned",
    "FBE.Props.C93_repeated",
    "FBE.Props.C93_repeated_aligned"
   ],
   "note": "exact real arithmetic"
  },
  {
   "property": "C94",
   "status": "proved",
   "theorems": [
    "FBE.Props.C94_reverberation",
    "FBE.Props.C94_reverberation_bss_eval",
    "FBE.Props.C94_latency",
    "FBE.Props.C94_latency_bss_eval"
   ],
   "note": "exact real arithmetic; SIR is not monotone and not covered; permutation searches not covered"
  },
  {
   "property": "C95",
   "status": "proved",
   "theorems": [
    "FBE.Props.C95_total",
    "FBE.Props.C95_total_loss",
    "FBE.Props.C95_near",
    "FBE.Props.C95_longer_filters",
    "FBE.Props.C95_iterative",
    "FBE.Props.C95_reverberation",
    "FBE.Props.C95_latency"
   ],
   "note": "exact real arithmetic"
  },
  {
   "property": "C96",
   "status": "proved",
   "theorems": [
    "FBE.Props.C96_si_pairwise",
    "FBE.Props.C96_si",
    "FBE.Props.C96_sdr_pairwise",
    "FBE.Props.C96_sdr",
    "FBE.Props.C96_iterative_pairwise",
    "FBE.Props.C96_iterative",
    "FBE.Props.C96_pit_si",
    "FBE.Props.C96_pit",
    "FBE.Props.C96_pit_si_unique",
    "FBE.Props.C96_pit_unique",
    "FBE.Props.C96_pit_iterative",
    "FBE.Props.C96_pit_iterative_ties",
    "FBE.Props.C96_bss_eval",
    "FBE.Props.C96_bss_eval_perm",
    "FBE.Props.C96_bss_eval_iterative",
    "FBE.Props.C96_bss_eval_perm_iterative",
    "FBE.Props.C96_si_gradient_ne",
    "FBE.Props.C96_si_strict"
   ],
   "note": "exact real arithmetic; the model of autograd is that of C71-C73, C75, C85, C88; bss_eval_sources with the permutation: one best permutation"
  },
  {
   "property": "C97",
   "status": "proved",
   "theorems": [
    "FBE.Props.C97_si_pairwise",
    "FBE.Props.C97_si",
    "FBE.Props.C97_sdr_pairwise",
    "FBE.Props.C97_sdr",
    "FBE.Props.C97_iterative_pairwise",
    "FBE.Props.C97_iterative",
    "FBE.Props.C97_pit_si",
    "FBE.Props.C97_pit",
    "FBE.Props.C97_pit_iterative",
    "FBE.Props.C97_bss_eval_perm",
    "FBE.Props.C97_bss_eval",
    "FBE.Props.C97_bss_eval_perm_iterative",
    "FBE.Props.C97_bss_eval_iterative",
    "FBE.Props.C97_si_step",
    "FBE.Props.C97_sdr_step"
   ],
   "note": "exact real arithmetic; the model of autograd is that of C71-C73, C75, C85, C88"
  },
  {
   "property": "C98",
   "status": "proved",
   "theorems": [
    "FBE.Props.C98_si",
    "FBE.Props.C98_si_least",
    "FBE.Props.C98_si_pairwise",
    "FBE.Props.C98_sdr_pairwise",
    "FBE.Props.C98_sdr",
    "FBE.Props.C98_pit_si",
    "FBE.Props.C98_pit",
    "FBE.Props.C98_clamped"
   ],
   "note": "exact real arithmetic; the model of autograd is that of C71-C73"
  },
  {
   "property": "C99",
   "status": "proved",
   "theorems": [
    "FBE.Props.C99_never_quieter",
    "FBE.Props.C99_si",
    "FBE.Props.C99_si_grows",
    "FBE.Props.C99_clamped"
   ],
   "note": "exact real arithmetic; the model of autograd is that of C71-C73, C75, C85, C88; plain gradient descent on the samples"
  },
  {
   "property": "C100",
   "status": "proved",
   "theorems": [
    "FBE.Props.C100_sdr_loss",
    "FBE.Props.C100_distortion",
    "FBE.Props.C100_bss_eval",
    "FBE.Props.C100_bss_eval_succeeds",
    "FBE.Props.C100_no_lower_bound"
   ],
   "note": "exact real arithmetic; estimates audible (norm at least 1e-6) in both segments"
  },
  {
   "property": "C101",
   "status": "proved",
   "theorems": [
    "FBE.Props.C101_sdr_loss",
    "FBE.Props.C101_si_sdr",
    "FBE.Props.C101_independent_errors",
    "FBE.Props.C101_signs_matter"
   ],
   "note": "exact real arithmetic"
  },
  {
   "property": "C102",
   "status": "proved",
   "theorems": [
    "FBE.Props.C102_one_owner",
    "FBE.Props.C102_sdr",
    "FBE.Props.C102_bss_eval",
    "FBE.Props.C102_sharp",
    "FBE.Props.C102_float64",
    "FBE.Props.C102_float64_certificate"
   ],
   "note": "exact real arithmetic, the float64 theorems with the rounded model of C80; scipy's solver by its specification"
  },
  {
   "property": "C103",
   "status": "proved",
   "theorems": [
    "FBE.Props.C103_shares",
    "FBE.Props.C103_worst",
    "FBE.Props.C103_baseline",
    "FBE.Props.C103_baseline_succeeds",
    "FBE.Props.C103_sharp",
    "FBE.Props.C103_bss_eval_shares",
    "FBE.Props.C103_bss_eval_baseline",
    "FBE.Props.C103_bss_eval_succeeds"
   ],
   "note": "exact real arithmetic; scipy's solver by its specification"
  },
  {
   "property": "C104",
   "status": "proved",
   "theorems": [
    "FBE.Props.C104_outcome",
    "FBE.Props.C104_real_system",
    "FBE.Props.C104_real_data",
    "FBE.Props.C104_solves",
    "FBE.Props.C104_converges"
   ],
   "note": "exact complex arithmetic; numpy's order of complex numbers and torch.clamp's refusal of complex tensors as documented by those libraries; no x_true"
  },
  {
   "property": "C105",
   "status": "proved",
   "theorems": [
    "FBE.Props.C105_si_pairwise",
    "FBE.Props.C105_si",
    "FBE.Props.C105_sdr_pairwise",
    "FBE.Props.C105_sdr",
    "FBE.Props.C105_iterative_pairwise",
    "FBE.Props.C105_iterative",
    "FBE.Props.C105_pit_si",
    "FBE.Props.C105_pit",
    "FBE.Props.C105_pit_iterative",
    "FBE.Props.C105_bss_eval_perm",
    "FBE.Props.C105_bss_eval",
    "FBE.Props.C105_bss_eval_perm_iterative",
    "FBE.Props.C105_bss_eval_iterative"
   ],
   "note": "torch's derivative formulas as in Model/Backward, BackwardFir, BackwardCg, BackwardPit, BackwardBss, BackwardBssCg (exact reals inside, extended gradients outside)"
  },
  {
   "property": "C106",
   "status": "proved",
   "theorems": [
    "FBE.Props.C106_si_pairwise",
    "FBE.Props.C106_si",
    "FBE.Props.C106_sdr_pairwise",
    "FBE.Props.C106_sdr",
    "FBE.Props.C106_sdr_returns",
    "FBE.Props.C106_iterative_pairwise",
    "FBE.Props.C106_iterative",
    "FBE.Props.C106_pit_si",
    "FBE.Props.C106_pit",
    "FBE.Props.C106_pit_iterative",
    "FBE.Props.C106_bss_eval_perm",
    "FBE.Props.C106_bss_eval_perm_iterative",
    "FBE.Props.C106_bss_eval",
    "FBE.Props.C106_bss_eval_iterative"
   ],
   "note": "torch's derivative formulas as in Model/Backward* (the sums over channels stay inside one item by construction of these formulas; the content is in the solvers that raise for the whole stack and in the permutation loop over the batch)"
  },
  {
   "property": "C107",
   "status": "proved",
   "theorems": [
    "FBE.Props.C107_si_pairwise",
    "FBE.Props.C107_sdr_pairwise",
    "FBE.Props.C107_iterative_pairwise",
    "FBE.Props.C107_pit_si",
    "FBE.Props.C107_pit",
    "FBE.Props.C107_pit_iterative",
    "FBE.Props.C107_bss_eval_perm",
    "FBE.Props.C107_bss_eval",
    "FBE.Props.C107_bss_eval_perm_iterative",
    "FBE.Props.C107_bss_eval_iterative"
   ],
   "note": "torch's derivative formulas as in Model/Backward*; exact sums, so the order of summation has no effect; without unique best pairings linear_sum_assignment may choose another pairing with the same total loss, and gradients may differ"
  },
  {
   "property": "C108",
   "status": "proved",
   "theorems": [
    "FBE.Props.C108_si_pairwise",
    "FBE.Props.C108_si",
    "FBE.Props.C108_sdr_pairwise",
    "FBE.Props.C108_sdr",
    "FBE.Props.C108_iterative_pairwise",
    "FBE.Props.C108_iterative",
    "FBE.Props.C108_pit_si",
    "FBE.Props.C108_pit",
    "FBE.Props.C108_pit_iterative",
    "FBE.Props.C108_bss_eval_perm",
    "FBE.Props.C108_bss_eval",
    "FBE.Props.C108_bss_eval_perm_iterative",
    "FBE.Props.C108_bss_eval_iterative"
   ],
   "note": "gradients of sdr_loss, si_sdr_loss, the PIT losses and losses made of the values of bss_eval_sources at the samples before appended zeros"
  },
  {
   "property": "C109",
   "status": "proved",
   "theorems": [
    "FBE.Props.C109_si_pairwise",
    "FBE.Props.C109_si",
    "FBE.Props.C109_sdr_pairwise",
    "FBE.Props.C109_sdr",
    "FBE.Props.C109_iterative_pairwise",
    "FBE.Props.C109_iterative",
    "FBE.Props.C109_pit_si",
    "FBE.Props.C109_pit",
    "FBE.Props.C109_pit_iterative",
    "FBE.Props.C109_bss_eval_perm",
    "FBE.Props.C109_bss_eval",
    "FBE.Props.C109_bss_eval_perm_iterative",
    "FBE.Props.C109_bss_eval_iterative"
   ],
   "note": "gradients of sdr_loss, si_sdr_loss, the PIT losses and losses made of the values of bss_eval_sources at the samples after inserted zeros"
  }
 ]
}
