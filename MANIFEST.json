{
 "claims": [
  {
   "property": "C01",
   "status": "proved",
   "theorems": [
    "C01_accepts_iff_wellFormed"
   ],
   "note": ""
  },
  {
   "property": "C02",
   "status": "partial",
   "theorems": [
    "C02_contiguous_ids_refuted",
    "C02_duplicate_ids_refuted",
    "C02_content_ids_partial"
   ],
   "note": "refuted as stated: id gaps and duplicates are accepted"
  },
  {
   "property": "C03",
   "status": "proved",
   "theorems": [
    "C03_seq_cells"
   ],
   "note": ""
  },
  {
   "property": "C04",
   "status": "proved",
   "theorems": [
    "C04_dict_cells"
   ],
   "note": ""
  },
  {
   "property": "C05",
   "status": "proved",
   "theorems": [
    "C05_observers"
   ],
   "note": ""
  },
  {
   "property": "C06",
   "status": "proved",
   "theorems": [
    "C06_no_vote_lost"
   ],
   "note": ""
  },
  {
   "property": "C07",
   "status": "proved",
   "theorems": [
    "C07_stack_lossless"
   ],
   "note": ""
  },
  {
   "property": "C08",
   "status": "proved",
   "theorems": [
    "C08_mos_end_to_end"
   ],
   "note": ""
  },
  {
   "property": "C09",
   "status": "proved",
   "theorems": [
    "C09_mos_bounds"
   ],
   "note": ""
  },
  {
   "property": "C10",
   "status": "proved",
   "theorems": [
    "C10_relayout",
    "C10_permute",
    "C10_padding"
   ],
   "note": ""
  },
  {
   "property": "C11",
   "status": "proved",
   "theorems": [
    "C11_mos_affine"
   ],
   "note": ""
  },
  {
   "property": "C12",
   "status": "proved",
   "theorems": [
    "C12_mos_uncertainty"
   ],
   "note": ""
  },
  {
   "property": "C13",
   "status": "proved",
   "theorems": [
    "C13_dscore"
   ],
   "note": ""
  },
  {
   "property": "C14",
   "status": "proved",
   "theorems": [
    "C14_zscore"
   ],
   "note": ""
  },
  {
   "property": "C15",
   "status": "proved",
   "theorems": [
    "C15_zscore_affine_invariant"
   ],
   "note": ""
  },
  {
   "property": "C16",
   "status": "proved",
   "theorems": [
    "C16_bias_removal_complete"
   ],
   "note": ""
  },
  {
   "property": "C17",
   "status": "proved",
   "theorems": [
    "C17_bias_removal_offsets"
   ],
   "note": ""
  },
  {
   "property": "C18",
   "status": "proved",
   "theorems": [
    "C18_bt500_rule",
    "C18_bt500_rule_bias"
   ],
   "note": "Rejection rule for SR_MOS and for BR_SR_MOS."
  },
  {
   "property": "C19",
   "status": "proved",
   "theorems": [
    "C18_bt500_rule",
    "C19_bt500_scores"
   ],
   "note": ""
  },
  {
   "property": "C20",
   "status": "partial",
   "theorems": [
    "C20_non_outlier_kept_partial",
    "C20_unanimity_refuted"
   ],
   "note": "Someone is always kept and a never-outlying observer is kept; the unanimity claim is false of the code and refuted with a witness."
  },
  {
   "property": "C21",
   "status": "partial",
   "theorems": [
    "C21_corr_keeps_someone_partial",
    "C21_equal_agreement_refuted"
   ],
   "note": "Holds when the agreements are not all equal; with all agreements equal and at most 0.7 everyone is removed (refuted)."
  },
  {
   "property": "C22",
   "status": "partial",
   "theorems": [
    "C22_correlation_rule_partial",
    "C22_undefined_agreement_refuted"
   ],
   "note": "Holds when every agreement is defined; one undefined agreement removes everybody and flags nobody (refuted)."
  },
  {
   "property": "C23",
   "status": "proved",
   "theorems": [
    "C23_conflicts_refused",
    "C23_repeats_refused"
   ],
   "note": "Over run_modeling of the MOS family; option checks are shared by all models."
  },
  {
   "property": "C24",
   "status": "proved",
   "theorems": [
    "C24_named_models",
    "C24_mle_wrappers"
   ],
   "note": "All MOS, DMOS, zscored, rejecting and bias-removing wrappers, and the two DMOS variants of the MLE model."
  },
  {
   "property": "C25",
   "status": "proved",
   "theorems": [
    "C25_final_scores",
    "mos_ignores",
    "bias_ignores",
    "live_ignores",
    "ls_ignores",
    "ap_ignores",
    "mle_ignores"
   ],
   "note": "Generic in the model's own step; the *_ignores theorems show that it applies to the MOS, bias removal, LIVE, least squares, alternating projection and MLE models."
  },
  {
   "property": "C26",
   "status": "partial",
   "theorems": [
    "C26_zero_mean_bias_partial",
    "C26_silent_observer_refuted"
   ],
   "note": "True if every observer voted at least once; a silent observer makes all scores NaN."
  },
  {
   "property": "C27",
   "status": "proved",
   "theorems": [
    "C27_iteration_bound",
    "C27_succeeds_iff",
    "C27_only_valueError"
   ],
   "note": "Both solver classes."
  },
  {
   "property": "C28",
   "status": "proved",
   "theorems": [
    "C28_additive_recovery"
   ],
   "note": "Both solver classes, with and without centring."
  },
  {
   "property": "C29",
   "status": "proved",
   "theorems": [
    "C29_shift_equivariant"
   ],
   "note": "Both solver classes."
  },
  {
   "property": "C30",
   "status": "proved",
   "theorems": [
    "C30_observer_offset"
   ],
   "note": "Both solver classes."
  },
  {
   "property": "C31",
   "status": "proved",
   "theorems": [
    "C31_order_independent"
   ],
   "note": "Both solver classes; videos and observers permuted together."
  },
  {
   "property": "C32",
   "status": "proved",
   "theorems": [
    "C32_convex_update",
    "fit_reach"
   ],
   "note": "For every state the loop goes through; fit_reach: the returned estimates are such a state."
  },
  {
   "property": "C33",
   "status": "proved",
   "theorems": [
    "C33_bt500_demo",
    "C33_p910_demo"
   ],
   "note": "The P.913 demo is the same file as the P.910 demo."
  },
  {
   "property": "C34",
   "status": "proved",
   "theorems": [
    "C34_methods"
   ],
   "note": "Equality of the complete outcome (result or exception) of the two programs, under the hypothesis that the variances stay positive along the run; a concrete run over the reals meets it."
  },
  {
   "property": "C35",
   "status": "proved",
   "theorems": [
    "C35_newton_steps",
    "C35_newton_value",
    "C35_loglikelihood"
   ],
   "note": "For simplified and original gradients every update is a damped Newton step with the true first and second partial derivatives of the Gaussian log-likelihood, and the standard errors are 1/sqrt(-second derivative); the reported loglikelihood is that log-likelihood per vote."
  },
  {
   "property": "C36",
   "status": "partial",
   "theorems": [
    "C36_invariants",
    "C36_zero_mean_partial",
    "C36_silent_observer_refuted"
   ],
   "note": "Non-negativity, absent parameters per mode and the iteration bound hold for every completed run of every mode and gradient method. Zero mean bias holds when the loop ends with numeric biases; a run with an observer who never voted is exhibited whose biases are all NaN."
  },
  {
   "property": "C37",
   "status": "proved",
   "theorems": [
    "C37_ls_equals_mos",
    "C37_ls_missing_vote",
    "C37_ls_refuses"
   ],
   "note": "linalg.pinv is a parameter assumed to satisfy the Moore-Penrose equations on matrices with independent columns (isPinv_exists shows such a function exists). Holds for all options; one missing vote makes every score NaN (C37_ls_missing_vote)."
  },
  {
   "property": "C38",
   "status": "proved",
   "theorems": [
    "C38_live_dmos",
    "C38_zscores_clean",
    "C23_repeats_refused"
   ],
   "note": ""
  },
  {
   "property": "C39",
   "status": "proved",
   "theorems": [
    "C39_weighted_average",
    "C39_weighted_mean_laws",
    "C39_refuses"
   ],
   "note": ""
  },
  {
   "property": "C40",
   "status": "proved",
   "theorems": [
    "C40_aggregated",
    "C40_aggregated_refuses",
    "C40_mos_dataset",
    "C40_import_filter"
   ],
   "note": "All score/std/id selections of to_aggregated_dataset; the MOS model's aggregated dataset end to end."
  },
  {
   "property": "C41",
   "status": "proved",
   "theorems": [
    "C41_persubject_dict",
    "C41_persubject_seq",
    "C41_persubject_repetitions",
    "C41_flat"
   ],
   "note": "One video per (video, vote) with its reconstructed score; the TypeError with repetitions in dictionary style and the refused explicit NaN are stated."
  },
  {
   "property": "C42",
   "status": "proved",
   "theorems": [
    "C42_dict_as_is",
    "C42_list_style",
    "C42_needs_name",
    "C42_same_mos"
   ],
   "note": ""
  },
  {
   "property": "C43",
   "status": "partial",
   "theorems": [
    "C43_combined_partial",
    "C43_refuted"
   ],
   "note": "Proved when no list of the first dataset is appended to twice; false otherwise (shared list), shown by C43_refuted."
  },
  {
   "property": "C44",
   "status": "partial",
   "theorems": [
    "C44_unchanged_iff_partial",
    "C44_refuted"
   ],
   "note": "The first dataset is modified exactly when a list entry meets a number entry; the property as stated is false."
  },
  {
   "property": "C45",
   "status": "proved",
   "theorems": [
    "C45_outcomes"
   ],
   "note": "Default settings; videos whose asset id is repeated later get no comparisons (LastWithId), which the statement makes explicit."
  },
  {
   "property": "C46",
   "status": "partial",
   "theorems": [
    "C46_unchanged_iff_partial",
    "C46_refuted"
   ],
   "note": "The full statement is false: on list-style sources the conversion replaces each os by a dictionary. Proved: the source is unchanged exactly when it is dictionary-style."
  },
  {
   "property": "C47",
   "status": "proved",
   "theorems": [
    "C47_legal",
    "C47_rate_zero",
    "C47_rate_one",
    "C47_rate_at_most_one",
    "C47_returns",
    "C47_repeat_refused",
    "C47_infinite_rate"
   ],
   "note": "For every random stream. Rates are finite; an infinite rate never ends (C47_infinite_rate)."
  },
  {
   "property": "C48",
   "status": "partial",
   "theorems": [
    "C48_positions_partial",
    "C48_sampling_partial",
    "C48_refuted"
   ],
   "note": "The full statement is false: per-asset settings are looked up by the position of the asset among those rated by the subject. Proved for subjects who rated every asset."
  },
  {
   "property": "C49",
   "status": "proved",
   "theorems": [
    "C49_complementary",
    "C49_illegal_raises"
   ],
   "note": "Accepted records fill complementary cells (win/lose, tie/tie) and every other cell is empty; a record that is not a win, tie or loss raises."
  },
  {
   "property": "C50",
   "status": "partial",
   "theorems": [
    "C50_positions_partial",
    "C50_end_to_end",
    "C50_refuted"
   ],
   "note": "Rows are list positions and columns asset ids, so the array means what the records say when asset ids are list positions, which to_pc_dataset output satisfies only for such datasets; refuted by a dataset whose ids are exchanged."
  },
  {
   "property": "C51",
   "status": "partial",
   "theorems": [
    "C51_dict_partial",
    "C51_list_partial",
    "C51_bad_selection",
    "C51_refuted"
   ],
   "note": "Holds for dictionary-style datasets; for list-style datasets selected columns with index >= number of selected subjects become NaN (C51_refuted), C51_list_partial says exactly what is returned."
  },
  {
   "property": "C52",
   "status": "proved",
   "theorems": [
    "C52_missing"
   ],
   "note": "Exact for every stream in [0,1) and every finite probability."
  },
  {
   "property": "C53",
   "status": "partial",
   "theorems": [
    "C53_refuses",
    "C53_shuffle",
    "C53_flip",
    "C53_overwrite",
    "C53_flip_twice_partial",
    "C53_flip_all_keeps_range",
    "C53_flip_twice_refuted"
   ],
   "note": "Everything but 'twice flip is the identity', which is false when the first flip changes the range of the votes (C53_flip_twice_refuted) and proved when it does not, in particular when all subjects are flipped."
  },
  {
   "property": "C54",
   "status": "proved",
   "theorems": [
    "C54_model",
    "C54_additive",
    "C54_logistic",
    "C54_wrong_sizes",
    "C54_content_id_gap"
   ],
   "note": "Content parameters are indexed by content id; ids not below the number of reference videos raise IndexError (C54_content_id_gap)."
  },
  {
   "property": "C55",
   "status": "partial",
   "theorems": [
    "C55_partial",
    "C55_result_partial",
    "C55_refuted"
   ],
   "note": "Proved when every video wins at least once. The unconditional half is false: if some video never wins the model divides 0 by 0 and raises ValueError (proved for all such tables with fewer than 10^8 videos)."
  },
  {
   "property": "C56",
   "status": "proved",
   "theorems": [
    "C56_ascent",
    "C56_strict",
    "C56_result"
   ],
   "note": "For tables in which every video wins (otherwise the model raises, C55_refuted)."
  },
  {
   "property": "C57",
   "status": "proved",
   "theorems": [
    "C57_fixed_iff",
    "C57_fixed_max",
    "C57_max_fixed",
    "C57_unique"
   ],
   "note": "Also: such a vector is a global maximum, every maximum is such a vector, and it is unique if the comparisons link all videos."
  },
  {
   "property": "C58",
   "status": "partial",
   "theorems": [
    "C58_diagonal_partial",
    "C58_refuted"
   ],
   "note": "The diagonal is right; off the diagonal the code uses 2n/(p_i+p_j) instead of n/(p_i+p_j)^2, right iff the videos were never compared or p_i+p_j=1/2."
  },
  {
   "property": "C59",
   "status": "proved",
   "theorems": [
    "C59_last",
    "C59_last_invariant",
    "C59_gradient",
    "C59_hessian",
    "C59_fixed_iff",
    "C59_stationary_max",
    "C59_stop",
    "C59_zscore",
    "C59_selfComparison"
   ],
   "note": "pinv is a parameter assumed to invert invertible matrices; the Hessian is proved invertible when the comparisons link all videos. A pass changes nothing iff the gradient vanishes; because the loop stops at a tolerance, the gradient at the reported scores is bounded by 10^-8 times the number of comparisons. Termination is not claimed."
  },
  {
   "property": "C60",
   "status": "proved",
   "theorems": [
    "C60_twice",
    "C60_shift",
    "C60_relabel"
   ],
   "note": "For every distribution function."
  },
  {
   "property": "C61",
   "status": "proved",
   "theorems": [
    "C61_order",
    "C61_once",
    "C61_limit",
    "C61_terminates",
    "C61_no_deadlock",
    "C61_possible",
    "C61_no_workers"
   ],
   "note": "Transition system of the parent and its workers, all interleavings, workers may die at any point. C61_no_workers: with a limit <= 0 and a task the loop never ends."
  },
  {
   "property": "C62",
   "status": "proved",
   "theorems": [
    "C62_raises",
    "C62_function_raises",
    "C62_only_then"
   ],
   "note": "Also the converse: KeyError only if a worker died without a result."
  },
  {
   "property": "C63",
   "status": "partial",
   "theorems": [
    "C63_transparent_partial",
    "C63_once",
    "C63_exceptions",
    "C63_refuted_equal",
    "C63_refuted_unhashable"
   ],
   "note": "False in general: equal but distinguishable arguments (1, True) share an entry, and unhashable arguments raise TypeError because hasattr(args, '__hash__') is true of every tuple. Proved for hashable arguments and functions that respect equality. Mutation of cached values by callers is not modelled."
  },
  {
   "property": "C64",
   "status": "partial",
   "theorems": [
    "C64_sequential_partial",
    "C64_crash_partial",
    "C64_refuted",
    "C64_no_recovery",
    "C64_race",
    "C64_race_directory",
    "C64_truncated_number"
   ],
   "note": "False: a crash while writing leaves an unreadable file, which makes every later call raise, and a cut-off number is even read as a wrong value. Proved for a single process without crashes, and with crashes up to a JSON error."
  },
  {
   "property": "C65",
   "status": "proved",
   "theorems": [
    "C65_found",
    "C65_absent",
    "C65_exists",
    "C65_cases",
    "C65_out_of_range"
   ],
   "note": "Bounds are natural numbers; negative bounds (which wrap around in Python) are in the model but not in the statement."
  },
  {
   "property": "C66",
   "status": "partial",
   "theorems": [
    "C66_sound",
    "C66_raises",
    "C66_complete_partial",
    "C66_refuted",
    "C66_package",
    "C66_package_single",
    "C66_program"
   ],
   "note": "Soundness for all hierarchies; completeness with single inheritance, which the package has (C66_package: every TYPE of the package finds its class). False for diamonds."
  },
  {
   "property": "C67",
   "status": "partial",
   "theorems": [
    "C67_density_partial",
    "C67_spec",
    "C67_centred_mass",
    "C67_refuted"
   ],
   "note": "The code uses x instead of z = x - loc1 - loc2 on the slopes (stats.py 111, 117). C67_spec: the true density (shift invariant, symmetric, non-negative, integral 1). C67_density_partial: the code agrees with it exactly off the slopes or when loc1 + loc2 = 0; C67_refuted: a non-zero location gives a wrong, even negative value."
  },
  {
   "property": "C68",
   "status": "proved",
   "theorems": [
    "C68_lengths",
    "C68_raw_scores",
    "C68_rmse",
    "C68_pcc",
    "C68_pcc_short",
    "C68_srcc",
    "C68_kendall"
   ],
   "note": "On all lists of finite numbers. NaN/inf inputs are not covered. scipy's pearsonr, spearmanr and kendalltau are modelled from their documentation, without rounding."
  },
  {
   "property": "C69",
   "status": "partial",
   "theorems": [
    "C69_written",
    "C69_placement_partial",
    "C69_names",
    "C69_errors",
    "C69_refuted",
    "C69_contentGap",
    "C69_none"
   ],
   "note": "All results and models: exactly what the output holds, exactly when there is an output (lengths and names). The placement claim holds for models of different types; two models of the same type overwrite and mix their numbers (refuted with a concrete input). Also proved: gaps in the content ids and a None standard deviation leave no output."
  },
  {
   "property": "C70",
   "status": "proved",
   "theorems": [
    "C70_coverage",
    "C70_range",
    "C70_widening",
    "C70_errors"
   ],
   "note": "All inputs, including NaN and infinities; ragged confidence intervals are a ValueError (numpy >= 1.24)."
  },
  {
   "property": "C71",
   "status": "partial",
   "theorems": [
    "C71_roundtrip_partial",
    "C71_importable",
    "C71_errors",
    "C71_refuted"
   ],
   "note": "Proved for all datasets of plain values (any order of dictionary entries in the text); exactly those can be re-imported. Refuted in general: a missing vote (nan), numpy floats under numpy 2 and modules among the attributes make the written file impossible to import."
  },
  {
   "property": "C72",
   "status": "partial",
   "theorems": [
    "C72_criteria",
    "C72_freedom_partial",
    "C72_refuted"
   ],
   "note": "For every completed run of every variant with any options: aic and bic follow from the reported log-likelihood, the degrees of freedom and the number of votes (all per vote, as the code reports them), and the exact count of the degrees of freedom. They count the fitted parameters without repetitions; with repetitions the code counts 2SR instead of 2S observer parameters (refuted with a concrete run)."
  },
  {
   "property": "C73",
   "status": "proved",
   "theorems": [
    "C73_selected_videos",
    "C73_unknown_id"
   ],
   "note": "Exact characterisation of acceptance and result, incl. the check that ids are below the number of videos."
  },
  {
   "property": "C74",
   "status": "proved",
   "theorems": [
    "C74_corrupt_data",
    "C74_no_reference_score"
   ],
   "note": "Exact for every stream in [0,1) and ref_score >= 1."
  },
  {
   "property": "C75",
   "status": "proved",
   "theorems": [
    "C75_export"
   ],
   "note": "R = 1 round trip; with R != 1 the exported dataset is accepted but its array raises ValueError."
  },
  {
   "property": "C76",
   "status": "proved",
   "theorems": [
    "C76_terminates",
    "C76_result"
   ],
   "note": ""
  },
  {
   "property": "C77",
   "status": "partial",
   "theorems": [
    "C77_variants_agree",
    "C77_partial",
    "C77_refuted",
    "C77_refuted_normal"
   ],
   "note": "The variants agree. The entry is the second derivative iff j never beat i or the curvature of log Phi is symmetric at the difference; for the normal distribution a wrong entry is exhibited."
  },
  {
   "property": "C78",
   "status": "proved",
   "theorems": [
    "C78_reader"
   ],
   "note": ""
  },
  {
   "property": "C79",
   "status": "proved",
   "theorems": [
    "C79_mapping",
    "C79_ranks",
    "C79_empty"
   ],
   "note": "np.linalg.lstsq is a parameter (any intercept, any non-zero slope)."
  },
  {
   "property": "C80",
   "status": "partial",
   "theorems": [
    "C80_attributes_partial",
    "C80_kept",
    "C80_refuted"
   ],
   "note": "Proved when no module of the same file name is loaded. Refuted otherwise: attributes of the earlier file survive when the later one does not assign them."
  },
  {
   "property": "C81",
   "status": "proved",
   "theorems": [
    "C81_agrees"
   ],
   "note": "simulation between the two loops; every observer voted, no preprocessing, variances stay positive, the newer program stops within the 5000 passes of the older one"
  },
  {
   "property": "C82",
   "status": "proved",
   "theorems": [
    "C82_newton_steps"
   ],
   "note": "one pass, with and without use_log; derivatives of the Gaussian log-likelihood"
  },
  {
   "property": "C83",
   "status": "proved",
   "theorems": [
    "C83_silent"
   ],
   "note": "holds of MLE_legacy (contrast C36_silent_observer_refuted for MLE)"
  },
  {
   "property": "C84",
   "status": "proved",
   "theorems": [
    "C84_numerical"
   ],
   "note": "Gaussian density; the uniform and logistic densities are not covered"
  },
  {
   "property": "C85",
   "status": "proved",
   "theorems": [
    "C85_rounds"
   ],
   "note": "Analytic gradient methods (simplified, original); the numerical one is C84. Exact real arithmetic."
  },
  {
   "property": "C86",
   "status": "proved",
   "theorems": [
    "C86_fit",
    "C86_recovers",
    "C86_order"
   ],
   "note": "np.linalg.lstsq is a parameter with the contract LeastSquares (a least squares line when the abscissas differ). Exact real arithmetic."
  },
  {
   "property": "C87",
   "status": "proved",
   "theorems": [
    "C87_probabilities"
   ],
   "note": "Rates given for all assets at once (the per-asset lists are covered by C47/C48), sampling rate at most 1. random.random() and random.gauss are independent uniform and standard normal draws; exact real arithmetic."
  },
  {
   "property": "C88",
   "status": "proved",
   "theorems": [
    "C88_estimates",
    "C88_options"
   ],
   "note": ""
  },
  {
   "property": "C89",
   "status": "proved",
   "theorems": [
    "C89_score_intervals",
    "C89_coverage",
    "C89_coverage_default"
   ],
   "note": ""
  },
  {
   "property": "C90",
   "status": "partial",
   "theorems": [
    "C90_observer_intervals_partial",
    "C90_refuted_ids",
    "C90_refuted_missing",
    "C90_refuted_observer"
   ],
   "note": "Holds when every asset id is the position of its video and no draw loses an observer; otherwise the run fails or the intervals of the biases are shifted."
  },
  {
   "property": "C91",
   "status": "partial",
   "theorems": [
    "C91_round_trip_partial",
    "C91_read",
    "C91_bad_cell",
    "C91_bt500_file",
    "C91_p910_read",
    "C91_p910_file",
    "C91_refuted_row"
   ],
   "note": "Holds for matrices of equal size; C91_read gives the exact condition for acceptance, and C91_refuted_row shows that a repetition matrix of a single row is accepted and repeated."
  },
  {
   "property": "C92",
   "status": "partial",
   "theorems": [
    "C92_thurstone",
    "C92_bt_partial",
    "C92_refuted_bt"
   ],
   "note": "Proved for THURSTONE_MLE. BT_MLE: the variances in both scales fit together, but on the table `rarely` all standard deviations are NaN."
  },
  {
   "property": "C93",
   "status": "proved",
   "theorems": [
    "C93_videos",
    "C93_converts",
    "C93_mos",
    "C93_missing",
    "C93_refuted_asset_ids",
    "C93_refuted_rows",
    "C93_refuted_fraction"
   ],
   "note": "exact characterisation; three plausible further claims are refuted"
  },
  {
   "property": "C94",
   "status": "proved",
   "theorems": [
    "C94_run",
    "C94_extension",
    "C94_stats",
    "C94_shapes",
    "C94_mos"
   ],
   "note": ""
  },
  {
   "property": "C95",
   "status": "partial",
   "theorems": [
    "C95_unique_partial",
    "C95_local",
    "C95_refuted_exists",
    "C95_refuted_convex"
   ],
   "note": "unique optimum among scores at most four standard deviations apart; convexity and existence in general are refuted"
  },
  {
   "property": "C96",
   "status": "proved",
   "theorems": [
    "C96_mos",
    "standard_normal"
   ],
   "note": "score, variance and expected squared standard error of MOS on synthetic votes"
  },
  {
   "property": "C97",
   "status": "partial",
   "theorems": [
    "C97_size",
    "C97_fraction",
    "C97_unbiased_partial",
    "C97_nobody",
    "C97_refuted",
    "C97_datasets",
    "C97_refuted_names"
   ],
   "note": "unbiased for dictionary style (and for all observers in list style); list style refuted; names of the observers refuted"
  },
  {
   "property": "C98",
   "status": "partial",
   "theorems": [
    "C98_probability",
    "C98_results",
    "C98_same_votes_partial",
    "C98_votes",
    "C98_logistic_seed",
    "C98_refuted_unseeded",
    "C98_refuted_logistic"
   ],
   "note": "same votes with a seed (normal reader, or missing votes); refuted without a seed and for the logistic reader"
  },
  {
   "property": "C99",
   "status": "proved",
   "theorems": [
    "C99_exists_iff",
    "C99_converges",
    "C99_refuted_accuracy"
   ],
   "note": "existence, uniqueness and convergence for all tables; closeness of the reported vector is refuted"
  },
  {
   "property": "C100",
   "status": "partial",
   "theorems": [
    "C100_inverse",
    "C100_closed",
    "C100_forms",
    "C100_constant",
    "C100_refuted_square",
    "C100_refuted_unbounded"
   ],
   "note": "complete for strictly monotone functions and closed intervals; refuted without a domain"
  },
  {
   "property": "C101",
   "status": "partial",
   "theorems": [
    "C101_values",
    "C101_nonneg",
    "C101_symmetric",
    "C101_mass",
    "C101_refuted_root",
    "C101_refuted_even"
   ],
   "note": "values, sign, symmetry in the arguments and mass proved; evenness and independence of the root found refuted"
  },
  {
   "property": "C102",
   "status": "proved",
   "theorems": [
    "C102_cost_isLeast",
    "C102_pass",
    "C102_stops",
    "C102_fixed_iff",
    "C102_limits",
    "C102_limits_exist",
    "C102_run",
    "C102_refuted_global"
   ],
   "note": "complete; that the point found is the global optimum is not part of the claim and is refuted by C102_refuted_global"
  },
  {
   "property": "C103",
   "status": "partial",
   "theorems": [
    "C103_histc",
    "C103_cdf_partial",
    "C103_cdf_empirical",
    "C103_refuted_cdf",
    "C103_errors",
    "C103_empty",
    "C103_pdf"
   ],
   "note": "get_cdf gives the fraction strictly below each inner edge, which is the distribution function only if no datum lies on an inner edge (C103_cdf_empirical); refuted otherwise by C103_refuted_cdf. Everything else is proved"
  },
  {
   "property": "C104",
   "status": "proved",
   "theorems": [
    "C104_rawCounts",
    "C104_rawCountsPerSubject",
    "C104_meanMatrix",
    "C104_residual",
    "C104_grid",
    "C104_mos",
    "C104_ap",
    "C104_refuted_repeats"
   ],
   "note": "complete; C104_ap needs votes by every observer (otherwise all scores are NaN, C26); with repetitions the sums need not vanish (C104_refuted_repeats)"
  },
  {
   "property": "C105",
   "status": "partial",
   "theorems": [
    "C105_ends",
    "C105_coverage_partial",
    "C105_below",
    "C105_refuted_single",
    "C105_bias"
   ],
   "note": "coverage is proved for the root mean square of the true deviations; for the residues the code uses it fails (C105_refuted_single)"
  },
  {
   "property": "C106",
   "status": "partial",
   "theorems": [
    "C106_owned_partial",
    "C106_last_run",
    "C106_not_modeled",
    "C106_refuted_shared",
    "C106_refuted_filter",
    "C106_refuted_stale"
   ],
   "note": "proved when the files loaded have different names without directory and extension, none the name of a module loaded before; refuted otherwise. The part on the last run holds for all sequences"
  },
  {
   "property": "C107",
   "status": "partial",
   "theorems": [
    "C107_name",
    "C107_base",
    "C107_extension_partial",
    "C107_parts",
    "C107_refuted_directory",
    "C107_refuted_none"
   ],
   "note": "the extension is as claimed for names with a dot; refuted for names without"
  },
  {
   "property": "C108",
   "status": "proved",
   "theorems": [
    "C108_exists",
    "C108_rates"
   ],
   "note": "complete for two different videos; the diagonal is not part of the claim"
  },
  {
   "property": "C109",
   "status": "partial",
   "theorems": [
    "C109_unique_partial",
    "C109_refuted",
    "C109_check",
    "C109_refuted_newline",
    "C109_package"
   ],
   "note": "unique for versions without _V, which includes the package; refuted in general"
  },
  {
   "property": "C110",
   "status": "partial",
   "theorems": [
    "C110_scores",
    "C110_runs",
    "C110_intervals_partial",
    "C110_sorted_intervals",
    "C110_refuted",
    "C110_short"
   ],
   "note": "the scores complete; the intervals without sorting; refuted with sorting"
  },
  {
   "property": "C111",
   "status": "partial",
   "theorems": [
    "C111_places",
    "C111_slot_partial",
    "C111_refuted_slot",
    "C111_apart",
    "C111_five",
    "C111_colors",
    "C111_refuted_nine"
   ],
   "note": "in the slot for two models, apart for five, different colours for four, a plot for eight: exact bounds, beyond which the claim is refuted"
  },
  {
   "property": "C112",
   "status": "partial",
   "theorems": [
    "C112_contents_partial",
    "C112_refuted_ids",
    "C112_observers_partial",
    "C112_refuted_select",
    "C112_refuted_unnamed"
   ],
   "note": "contents: distinct ids (MLE models); observers: dictionary datasets without selection, projection solver; refuted without"
  },
  {
   "property": "C113",
   "status": "partial",
   "theorems": [
    "C113_scores",
    "C113_units_partial",
    "C113_refuted",
    "C113_normalized"
   ],
   "note": "MOS: the scores are right; the standard errors exactly if |c| = 1 or they are all 0"
  },
  {
   "property": "C114",
   "status": "proved",
   "theorems": [
    "C114_binary64",
    "C114_mos",
    "C114_between",
    "C114_order",
    "C114_tree",
    "C114_error",
    "C114_refuted_range",
    "C114_refuted_order"
   ],
   "note": "complete; the two refutations show that the restriction to whole votes is needed for range and order"
  },
  {
   "property": "C115",
   "status": "proved",
   "theorems": [
    "C115_std",
    "C115_equal",
    "C115_binary64"
   ],
   "note": "complete, for real numbers with any rounding"
  },
  {
   "property": "C116",
   "status": "partial",
   "theorems": [
    "C116_bounds",
    "C116_floor_partial",
    "C116_refuted"
   ],
   "note": "at most one observer off; exact away from whole numbers; refuted in general"
  },
  {
   "property": "C117",
   "status": "proved",
   "theorems": [
    "C117_mos",
    "C117_any",
    "C117_intervals",
    "C117_observer_names",
    "C117_paired",
    "C117_mixed"
   ],
   "note": "complete for 27 of the models for opinion scores; least squares, PERSUBJECT and the two with bootstrapping are a parameter"
  },
  {
   "property": "C118",
   "status": "partial",
   "theorems": [
    "C118_succeeds_partial",
    "C118_refuted"
   ],
   "note": "proved if every video was rated and every observer gave two votes or more; refuted without these conditions"
  },
  {
   "property": "C119",
   "status": "proved",
   "theorems": [
    "C119_finite_iff",
    "C119_refuted"
   ],
   "note": "complete; the second theorem gives a dataset where NaN is written"
  },
  {
   "property": "C120",
   "status": "partial",
   "theorems": [
    "C120_mos",
    "C120_mos_partial",
    "C120_mos_refuted",
    "C120_projection_partial",
    "C120_projection_refuted"
   ],
   "note": "the reported numbers are determined in all cases; the claim holds for positive deviations and is refuted otherwise"
  },
  {
   "property": "C121",
   "status": "partial",
   "theorems": [
    "C121_coverage_partial",
    "C121_coverage_refuted",
    "C121_two_votes"
   ],
   "note": "proved for all large enough numbers of votes, within a millionth; refuted for every number of normal votes, where the probability is below 95%. The limit theorem gives no bound on how many votes are enough"
  },
  {
   "property": "C122",
   "status": "partial",
   "theorems": [
    "C122_expected_partial",
    "C122_expected_refuted",
    "C122_refuted_biases"
   ],
   "note": "proved for all large enough numbers of unbiased observers of equal inconsistency, within a ten-thousandth; refuted for every number of them, and for observers with biases"
  },
  {
   "property": "C123",
   "status": "partial",
   "theorems": [
    "C123_unbiased_partial",
    "C123_synthetic",
    "C123_mirror",
    "C123_refuted"
   ],
   "note": "proved if on every video the voters have the same mean bias (in particular without missing votes, so for all synthetic datasets, or with equal biases); refuted for missing votes and unequal biases"
  },
  {
   "property": "C124",
   "status": "partial",
   "theorems": [
    "C124_exit",
    "C124_listed_partial",
    "C124_lost",
    "C124_refuted",
    "C124_lost_rejections"
   ],
   "note": "proved for the models of the usage message but for raw scores and reconstructions, which are numpy arrays and get lost; refuted for other models the program accepts; the plots themselves are not modelled; with the models that reject by correlation the program nowhere says who was rejected (`C124_lost_rejections`)"
  },
  {
   "property": "C125",
   "status": "proved",
   "theorems": [
    "C125_symmetry",
    "C125_mirror",
    "C125_scale"
   ],
   "note": "the conditions on density and method are part of the statement; the default threshold is not scaled with the votes, and the difference quotients of 'numerical' have a fixed step, so the change of unit needs the threshold to be passed and one of the other methods"
  },
  {
   "property": "C126",
   "status": "proved",
   "theorems": [
    "C126_mirrored_noise",
    "C126_qualities",
    "C126_biases",
    "C126_median",
    "C126_unbiased"
   ],
   "note": "the conditions on density and method are part of the statement; that the models report numbers almost surely and that the expectation exists are hypotheses of C126_unbiased only; measures are of sets that need not be measurable (outer measure)"
  },
  {
   "property": "C127",
   "status": "partial",
   "theorems": [
    "C127_seeded_partial",
    "C127_first_votes",
    "C127_refuted_missing",
    "C127_refuted_start",
    "C127_next"
   ],
   "note": "proved with a seed; without a seed the code reads two different sets of votes, which is proved to change the result or to make the run fail"
  },
  {
   "property": "C128",
   "status": "partial",
   "theorems": [
    "C128_qualities_partial",
    "C128_refuted_biases"
   ],
   "note": "proved for the qualities; refuted for the biases on a concrete run"
  },
  {
   "property": "C129",
   "status": "partial",
   "theorems": [
    "C129_noise_free_partial",
    "C129_refuted_biases"
   ],
   "note": "qualities and inconsistencies are exact; the code reports one tenth of the deviations of the biases, which is proved in general and refutes the full claim"
  },
  {
   "property": "C130",
   "status": "partial",
   "theorems": [
    "C130_returned",
    "C130_drawn",
    "C130_points_partial",
    "C130_label",
    "C130_runs_partial",
    "C130_all_mle",
    "C130_refuted_cut",
    "C130_refuted_negative"
   ],
   "note": "the points are proved to be complete if there are as many estimates as true values, which is shown for the maximum likelihood models; the code cuts off the longer list otherwise (`C130_refuted_cut`) and refuses negative error bars (`C130_refuted_negative`)"
  },
  {
   "property": "C131",
   "status": "partial",
   "theorems": [
    "C131_panels_partial",
    "C131_runs",
    "C131_refuted_all",
    "C131_datasets",
    "C131_seed",
    "C131_numbers",
    "C131_same",
    "C131_nested",
    "C131_unbiased_partial",
    "C131_percent",
    "C131_refuted_percent",
    "C131_trimmed"
   ],
   "note": "the code does not show the models beyond the shorter list (`C131_refuted_all`) and misprints some fractions (`C131_refuted_percent`); unbiasedness as in C97 not for list style datasets when observers are left out"
  },
  {
   "property": "C132",
   "status": "partial",
   "theorems": [
    "C132_subplots",
    "C132_mos_partial",
    "C132_refuted",
    "C132_errors"
   ],
   "note": "that all points are visible is proved for MOS and refuted for BR_MOS"
  },
  {
   "property": "C133",
   "status": "partial",
   "theorems": [
    "C133_imshow_partial",
    "C133_refuted",
    "C133_plot",
    "C133_default"
   ],
   "note": "the bound is 202 instead of the intended 102 (`C133_refuted`)"
  },
  {
   "property": "C134",
   "status": "partial",
   "theorems": [
    "C134_refines",
    "C134_seeded_partial",
    "C134_forgets",
    "C134_refuted_votes",
    "C134_successive"
   ],
   "note": "estimates and intervals come from the same votes only with a seed (`C134_refuted_votes`); that the models after a bootstrapping model do not depend on the seed is `C134_forgets`; `seed=None` in the input is not modelled here"
  },
  {
   "property": "C135",
   "status": "partial",
   "theorems": [
    "C135_repeatable",
    "C135_isolated",
    "C135_report",
    "C135_quality_truth",
    "C135_observer_truth",
    "C135_given",
    "C135_std",
    "C135_refuses",
    "C135_mos_percentage",
    "C135_expected_refuted",
    "C135_replay_refuted",
    "C135_report_mleco",
    "C135_mleco_runs"
   ],
   "note": "the expected average of the MOS model is below 95 (`C135_expected_refuted`), and the returned true values do not repeat the run (`C135_replay_refuted`)"
  },
  {
   "property": "C136",
   "status": "proved",
   "theorems": [
    "C136_curvature",
    "C136_scores",
    "C136_inconsistency"
   ],
   "note": "for runs without `normalize_final` and `transform_final`; every observer has voted"
  },
  {
   "property": "C137",
   "status": "proved",
   "theorems": [
    "C137_copies",
    "C137_scores_std",
    "C137_mos"
   ],
   "note": "silent observers need `force_subjbias_zeromean=False`: with the default the mean of the biases is NaN (C26)"
  },
  {
   "property": "C138",
   "status": "proved",
   "theorems": [
    "C138_copies"
   ],
   "note": "silent observers need `force_subjbias_zeromean=False` and a density other than 'uniform': with the default centring the mean of the biases is NaN (C36)"
  },
  {
   "property": "C139",
   "status": "partial",
   "theorems": [
    "C139_any_partial",
    "C139_deterministic",
    "C139_wins",
    "C139_succeeds",
    "C139_bradley_terry",
    "C139_newton_fails",
    "C139_newton_type",
    "C139_json",
    "C139_refuted_newton",
    "C139_refuted_json",
    "C139_json_error",
    "C139_json_ids"
   ],
   "note": "the full claim is refuted: BT_NR and JSON files always fail"
  },
  {
   "property": "C140",
   "status": "partial",
   "theorems": [
    "C140_denotes_partial",
    "C140_not_json",
    "C140_lossless",
    "C140_json_iff",
    "C140_program",
    "C140_mos",
    "C140_refuted"
   ],
   "note": "the full claim is refuted: NaN and infinities are written as NaN and Infinity; the text is JSON if and only if all numbers are finite"
  },
  {
   "property": "C141",
   "status": "partial",
   "theorems": [
    "C141_file_partial",
    "C141_print_partial",
    "C141_persubject_fails",
    "C141_persubject",
    "C141_refuted",
    "C141_ls",
    "C141_ls_missing",
    "C141_ls_repeated",
    "C141_ls_json"
   ],
   "note": "the full claim is refuted: PERSUBJECT fails while the file is written and leaves a fragment; it is proved for all other models"
  },
  {
   "property": "C142",
   "status": "partial",
   "theorems": [
    "C142_models_partial",
    "C142_program_partial",
    "C142_missing_refuted",
    "C142_contents_refuted"
   ],
   "note": "the full claim is refuted for observers who rated one of the videos only, and for differential scores across contents; it is proved for all models on videos rated by the same observers, of the same content where the model looks at contents. Not decided: the maximum likelihood models with content ambiguity across contents"
  },
  {
   "property": "C143",
   "status": "proved",
   "theorems": [
    "C143_closed_form",
    "C143_mean",
    "C143_two_observers"
   ],
   "note": ""
  },
  {
   "property": "C144",
   "status": "partial",
   "theorems": [
    "C144_models_partial",
    "C144_program_partial",
    "C144_ap_complete",
    "C144_p910_refuted",
    "C144_bias_refuted",
    "C144_dscore_refuted"
   ],
   "note": "the full claim is refuted for models that shift votes and for P.910; it is proved for MOS and the models with observer rejection only, and up to the width of the scale for the shifting models and for P.910 on complete panels. Not covered: P.910 with missing votes, the maximum likelihood models, z-scored votes (not on the scale by design)"
  },
  {
   "property": "C145",
   "status": "proved",
   "theorems": [
    "C145_plain",
    "C145_text"
   ],
   "note": "repr of finite floats is a parameter, assumed to give numbers in the sense of JSON"
  },
  {
   "property": "C146",
   "status": "proved",
   "theorems": [
    "C146_verdict",
    "C146_plain",
    "C146_report"
   ],
   "note": "unittest.TestCase of the Python library is modelled as far as the class uses it; a test does not branch on the outcome of a comparison; arithmetic is exact"
  },
  {
   "property": "C147",
   "status": "partial",
   "theorems": [
    "C147_models_partial",
    "C147_p910",
    "C147_program_partial",
    "C147_mle_refuted",
    "C147_additive_refuted",
    "C147_program_refuted",
    "C147_written"
   ],
   "note": "the full claim is refuted for the models by belief propagation, which fail (simplified and original gradient method); it is proved for the models of means and for the P.910 solver. Not covered: the numerical method; models of differential or z-scored votes report on another scale. Models with rejection by correlation may reject all observers when votes are constant (C21), then scores are NaN, which the theorem allows"
  },
  {
   "property": "C148",
   "status": "partial",
   "theorems": [
    "C148_mos",
    "C148_mos_intervals",
    "C148_p910_partial",
    "C148_p910_biases",
    "C148_inconsistency_refuted",
    "C148_skewed_refuted"
   ],
   "note": "refuted for the scores of P.910 with skewed noise and for its inconsistencies with two observers; proved for mean opinion scores, for P.910 scores on complete panels with symmetric noise, for P.910 biases on complete panels. Exact arithmetic; panels with missing votes are covered for mean opinion scores only"
  },
  {
   "property": "C149",
   "status": "proved",
   "theorems": [
    "C149_p910",
    "C149_mos"
   ],
   "note": "exact arithmetic; the others vote without noise. With two observers there is no such bound: P.910 then is the mean of the two (C143)"
  },
  {
   "property": "C150",
   "status": "partial",
   "theorems": [
    "C150_same",
    "C150_untouched",
    "C150_figures_partial",
    "C150_nine_refuted",
    "C150_stale_refuted"
   ],
   "note": "refuted for nine or more models (no output at all) and for old pictures (they stay); proved: same output, all figures saved, no other file touched, for every run that ends well; all figures as asked for up to eight of the documented models. Failures of matplotlib and of the file system are not modelled; models for paired comparisons are a parameter"
  },
  {
   "property": "C151",
   "status": "partial",
   "theorems": [
    "C151_share_partial",
    "C151_wins_refuted",
    "C151_unwon_refuted"
   ],
   "note": "refuted when comparisons are recorded with the winner only: all scores are 1; proved for datasets that record every comparison with both videos"
  },
  {
   "property": "C152",
   "status": "partial",
   "theorems": [
    "C152_same",
    "C152_untouched",
    "C152_figures_partial",
    "C152_share",
    "C152_nine_refuted",
    "C152_axes_refuted"
   ],
   "note": "refuted: the rows of the picture of the raw data are videos, not subjects; nine models fail; proved: output unchanged and contents of the pictures for up to eight models"
  },
  {
   "property": "C153",
   "status": "partial",
   "theorems": [
    "C153_mle",
    "C153_passes",
    "C153_two_partial",
    "C153_reported_refuted"
   ],
   "note": "refuted: the reported vector is consistent; proved: the estimate and the limit of the passes are, and the reported vector for two videos"
  },
  {
   "property": "C154",
   "status": "partial",
   "theorems": [
    "C154_first",
    "C154_same_partial",
    "C154_stale",
    "C154_stale_refuted",
    "C154_frozen_refuted",
    "C154_unserialisable"
   ],
   "note": "refuted: results follow the files and the draws; proved: the first value is returned, which is the present one if the file is unchanged and the draw determined"
  },
  {
   "property": "C155",
   "status": "partial",
   "theorems": [
    "C155_taken",
    "C155_refused",
    "C155_untouched",
    "C155_program_partial",
    "C155_last_refuted"
   ],
   "note": "refuted: all models named are run (only the last --models counts); proved: which command lines are taken, with what meaning, and what the program does on them"
  },
  {
   "property": "C156",
   "status": "partial",
   "theorems": [
    "C156_bt500_partial",
    "C156_p913_recast",
    "C156_again_refuted"
   ],
   "note": "refuted: a screened panel is stable under screening; proved: independence of order, unit, zero and direction of the scale, for BT500 and P913"
  },
  {
   "property": "C157",
   "status": "partial",
   "theorems": [
    "C157_dissenter_partial",
    "C157_few_votes",
    "C157_one_sided",
    "C157_kept_refuted"
   ],
   "note": "refuted: a lone dissenter is rejected (false for 6 to 20 observers); proved: exactly when they are, and when nobody can be"
  },
  {
   "property": "C158",
   "status": "partial",
   "theorems": [
    "C158_reversed_partial",
    "C158_loud_refuted",
    "C158_cancelled_refuted"
   ],
   "note": "refuted: a reversed observer is rejected (false when their slope is at least the number of the others); proved: exactly when they are"
  },
  {
   "property": "C159",
   "status": "proved",
   "theorems": [
    "C159_majority",
    "C159_mos",
    "C159_tie"
   ],
   "note": "exact arithmetic; the last term of the bound is for runs that use all 1000 passes"
  },
  {
   "property": "C160",
   "status": "partial",
   "theorems": [
    "C160_same_screening_partial",
    "C160_repeated_partial",
    "C160_rejected_count_refuted",
    "C160_missing_refuted",
    "C160_bt500_refuted"
   ],
   "note": "missing: datasets with missing votes and the absence of influence of the rejected, both refuted; proved for any equal number of votes per observer and video"
  },
  {
   "property": "C161",
   "status": "partial",
   "theorems": [
    "C161_outvoted_partial",
    "C161_smaller_refuted",
    "C161_halves"
   ],
   "note": "missing: smaller camps that outweigh the larger one, for which it is refuted, and camps that cancel exactly (C158_cancelled_refuted)"
  },
  {
   "property": "C162",
   "status": "partial",
   "theorems": [
    "C162_deterministic",
    "C162_refused",
    "C162_untouched",
    "C162_program_partial",
    "C162_newton_refuted",
    "C162_json_refuted"
   ],
   "note": "missing: BT_NR and JSON files, for which it is refuted, more than eight models (C152_nine_refuted), and all but the last --models (C155_last_refuted)"
  },
  {
   "property": "C163",
   "status": "partial",
   "theorems": [
    "C163_mos",
    "C163_bias_removal",
    "C163_zscore_partial",
    "C163_repeated_refuted",
    "C163_screening_refuted"
   ],
   "note": "missing: z-scores of several votes on a video and the screening, for which it is refuted, and z-scores of an observer whose votes are all the same before or after"
  },
  {
   "property": "C164",
   "status": "partial",
   "theorems": [
    "C164_join",
    "C164_configuration",
    "C164_inside_partial",
    "C164_outside_refuted",
    "C164_names",
    "C164_figures",
    "C164_cache"
   ],
   "note": "missing: staying below the root for components that begin with a separator or go up, for which it is refuted"
  },
  {
   "property": "C165",
   "status": "partial",
   "theorems": [
    "C165_score",
    "C165_interval_partial",
    "C165_agreeing",
    "C165_far_refuted"
   ],
   "note": "the part on the scores is complete; missing: narrower intervals after distant votes, for which it is refuted, with the exact bound"
  },
  {
   "property": "C166",
   "status": "partial",
   "theorems": [
    "C166_estimate",
    "C166_passes_partial",
    "C166_two_partial",
    "C166_newton_partial",
    "C166_thurstone_partial"
   ],
   "note": "complete for the maximum likelihood estimates of the Bradley-Terry model and from some pass on; for what the model reports with two videos; for what the Newton-Raphson variant reports up to what its stopping rule leaves open; missing: the pass at which the model stops with more videos, and Thurstone scores more than four standard deviations apart"
  },
  {
   "property": "C167",
   "status": "partial",
   "theorems": [
    "C167_estimate",
    "C167_passes_partial",
    "C167_two_partial",
    "C167_thurstone_partial"
   ],
   "note": "complete for the maximum likelihood estimates of the Bradley-Terry model and from some pass on; for what the model reports with two videos; missing: the pass at which the model stops with more videos, and Thurstone scores more than four standard deviations apart"
  },
  {
   "property": "C168",
   "status": "partial",
   "theorems": [
    "C168_score",
    "C168_order_partial",
    "C168_missing_refuted",
    "C168_two_partial",
    "C168_same",
    "C168_three_refuted"
   ],
   "note": "the weighted mean is complete; the order is proved for equally many votes on the two videos within each panel and for comparisons of two videos, and refuted otherwise"
  },
  {
   "property": "C169",
   "status": "proved",
   "theorems": [
    "C169_mos",
    "C169_strengths"
   ],
   "note": "mean opinion scores with their ambiguity and standard error, and the strengths found by the Bradley-Terry loop; the standard errors of the Bradley-Terry scores are not part of the claim"
  }
 ]
}
