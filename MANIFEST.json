{
 "claims": [
  {
   "property": "C01",
   "status": "proved",
   "theorems": [
    "DynCF.C01_training_mapping",
    "DynCF.C01_mutual_inverse"
   ],
   "note": ""
  },
  {
   "property": "C02",
   "status": "proved",
   "theorems": [
    "DynCF.C02_incremental_registration",
    "DynCF.C02_ids_stable",
    "DynCF.C02_duplicate_breaks",
    "DynCF.C02_iff"
   ],
   "note": ""
  },
  {
   "property": "C03",
   "status": "proved",
   "theorems": [
    "DynCF.C03_map_columns"
   ],
   "note": ""
  },
  {
   "property": "C04",
   "status": "proved",
   "theorems": [
    "DynCF.C04_evaluation_selection"
   ],
   "note": ""
  },
  {
   "property": "C05",
   "status": "proved",
   "theorems": [
    "DynCF.C05_window",
    "DynCF.C05_window_entries",
    "DynCF.C05_batching_irrelevant"
   ],
   "note": ""
  },
  {
   "property": "C06",
   "status": "proved",
   "theorems": [
    "DynCF.C06_delta_is_difference",
    "DynCF.C06_deltas_telescope"
   ],
   "note": ""
  },
  {
   "property": "C07",
   "status": "proved",
   "theorems": [
    "DynCF.C07_delta_exact_entries",
    "DynCF.C07_delta_wellformed",
    "DynCF.C07_unchanged_user_absent"
   ],
   "note": ""
  },
  {
   "property": "C08",
   "status": "proved",
   "theorems": [
    "DynCF.C08_crop",
    "DynCF.C08_crop_unsorted",
    "DynCF.C08_crop_unique",
    "DynCF.C08_crop_errors"
   ],
   "note": ""
  },
  {
   "property": "C09",
   "status": "proved",
   "theorems": [
    "DynCF.C09_incremental_crop",
    "DynCF.C09_repeated_crop"
   ],
   "note": ""
  },
  {
   "property": "C10",
   "status": "partial",
   "theorems": [
    "DynCF.C10_shift",
    "DynCF.C10_aligned_partial",
    "DynCF.C10_violated"
   ],
   "note": "The code disagrees: training numbers positions from the left, windows from the right. Aligned for users with full sequences and users absent from training; C10_shift gives the exact relation."
  },
  {
   "property": "C100",
   "status": "proved",
   "theorems": [
    "DynCF.C100_skew",
    "DynCF.C100_const",
    "DynCF.C100_dynamics",
    "DynCF.C100_stretch",
    "DynCF.C100_init"
   ],
   "note": ""
  },
  {
   "property": "C101",
   "status": "proved",
   "theorems": [
    "DynCF.C101_records",
    "DynCF.C101_baseline",
    "DynCF.C101_compare"
   ],
   "note": ""
  },
  {
   "property": "C102",
   "status": "proved",
   "theorems": [
    "DynCF.C102_run",
    "DynCF.C102_recompute"
   ],
   "note": ""
  },
  {
   "property": "C103",
   "status": "partial",
   "theorems": [
    "DynCF.C103_blocks",
    "DynCF.C103_zero_step",
    "DynCF.C103_cover_partial",
    "DynCF.C103_violated",
    "DynCF.C103_target",
    "DynCF.C103_run",
    "DynCF.C103_incremental",
    "DynCF.C103_small_rank_partial",
    "DynCF.C103_rank_violated"
   ],
   "note": "Code violates the claim: leftover rows are dropped and the reduced rank does not always bound the rank of the targets (both with witness). Proved: the blocks, the targets, the run, exactness when the rank bound holds, and the rank bound when (size-first)*ratio_next is whole and 1/ratio_next+1 <= rank."
  },
  {
   "property": "C104",
   "status": "proved",
   "theorems": [
    "DynCF.C104_ml20m",
    "DynCF.C104_encoded",
    "DynCF.C104_experiment"
   ],
   "note": "Records without a name all get the number -1 (stated in C104_encoded)."
  },
  {
   "property": "C105",
   "status": "partial",
   "theorems": [
    "DynCF.C105_day_partial",
    "DynCF.C105_violated"
   ],
   "note": "round('d') rounds to the nearest midnight: afternoon interactions get the following day; C105_violated exhibits a calendar day split over two chunks."
  },
  {
   "property": "C106",
   "status": "proved",
   "theorems": [
    "DynCF.C106_steam"
   ],
   "note": ""
  },
  {
   "property": "C107",
   "status": "proved",
   "theorems": [
    "DynCF.C107_stats"
   ],
   "note": ""
  },
  {
   "property": "C108",
   "status": "partial",
   "theorems": [
    "DynCF.C108_dynamics_partial",
    "DynCF.C108_violated",
    "DynCF.C108_negative_partial"
   ],
   "note": "The last processed chunk is missing: the filter is day < target_day with target_day the last of the first how_many_iterations days."
  },
  {
   "property": "C109",
   "status": "proved",
   "theorems": [
    "DynCF.C109_psirec",
    "DynCF.C109_tireca",
    "DynCF.C109_options",
    "DynCF.C109_names"
   ],
   "note": ""
  },
  {
   "property": "C11",
   "status": "proved",
   "theorems": [
    "DynCF.C11_shifted_positions"
   ],
   "note": ""
  },
  {
   "property": "C110",
   "status": "proved",
   "theorems": [
    "DynCF.C110_hosvd_quasi_optimal"
   ],
   "note": "Over the reals; truncated SVD by contract (satisfied by the constructed realLA)."
  },
  {
   "property": "C111",
   "status": "proved",
   "theorems": [
    "DynCF.C111_ga_satf",
    "DynCF.C111_integrator"
   ],
   "note": "Over the reals; QR and SVD by contract (satisfied by the constructed realLA)."
  },
  {
   "property": "C112",
   "status": "proved",
   "theorems": [
    "DynCF.C112_monotone",
    "DynCF.C112_ga_satf"
   ],
   "note": "Over the reals, under the stated capture condition (which holds for full-row-rank draws); QR and SVD by contract."
  },
  {
   "property": "C113",
   "status": "proved",
   "theorems": [
    "DynCF.C113_exact",
    "DynCF.C113_rank",
    "DynCF.C113_completes"
   ],
   "note": "exactness for full-rank first blocks, strict positivity when the first block is too small, and completion"
  },
  {
   "property": "C114",
   "status": "proved",
   "theorems": [
    "DynCF.C114_label",
    "DynCF.C114_injective",
    "DynCF.C114_refused",
    "DynCF.C114_selection",
    "DynCF.C114_curves",
    "DynCF.C114_study",
    "DynCF.C114_directory"
   ],
   "note": "labels, their injectivity, the selection of files, the complete study on the four result directories; C114_directory: the target is looked for in the whole path, so a directory containing it would break the figures (none of the four does)"
  },
  {
   "property": "C115",
   "status": "proved",
   "theorems": [
    "DynCF.C115_figures",
    "DynCF.C115_windows",
    "DynCF.C115_errors",
    "DynCF.C115_saved",
    "DynCF.C115_data",
    "DynCF.C115_data_errors"
   ],
   "note": "a figure is a record of curves"
  },
  {
   "property": "C116",
   "status": "partial",
   "theorems": [
    "DynCF.C116_lengths",
    "DynCF.C116_drawn_partial",
    "DynCF.C116_violated"
   ],
   "note": "violated for streams shorter than how_many_iterations (C116_violated); C116_drawn_partial gives the exact outcome in both cases"
  },
  {
   "property": "C117",
   "status": "partial",
   "theorems": [
    "DynCF.C117_labels_partial",
    "DynCF.C117_violated"
   ],
   "note": "violated: the stability figures are labelled with the mode"
  },
  {
   "property": "C118",
   "status": "proved",
   "theorems": [
    "DynCF.C118_columns",
    "DynCF.C118_agrees",
    "DynCF.C118_run"
   ],
   "note": "layout of the LaTeX table left out; C118_run for the files of completed runs"
  },
  {
   "property": "C119",
   "status": "proved",
   "theorems": [
    "DynCF.C119_repeats_miss"
   ],
   "note": "no assumption on scores or the partial sort; argsort of the PSI helper must be a sorting permutation"
  },
  {
   "property": "C12",
   "status": "proved",
   "theorems": [
    "DynCF.C12_hit_rate",
    "DynCF.C12_hit_rate_range",
    "DynCF.C12_no_test_users"
   ],
   "note": ""
  },
  {
   "property": "C120",
   "status": "partial",
   "theorems": [
    "DynCF.C120_kept_miss_partial",
    "DynCF.C120_violated"
   ],
   "note": "the code violates the claim for rows dropped by cropping; proved for the kept rows"
  },
  {
   "property": "C121",
   "status": "partial",
   "theorems": [
    "DynCF.C121_table_partial",
    "DynCF.C121_file",
    "DynCF.C121_pivot",
    "DynCF.C121_missing",
    "DynCF.C121_violated"
   ],
   "note": "Half-integer medians are cut (C121_violated); the rows are characterised exactly otherwise."
  },
  {
   "property": "C122",
   "status": "partial",
   "theorems": [
    "DynCF.C122_svd",
    "DynCF.C122_svd_ready",
    "DynCF.C122_svd_ranks",
    "DynCF.C122_no_lookahead",
    "DynCF.C122_same_object",
    "DynCF.C122_tdrec_partial"
   ],
   "note": "SVD part, readiness and no look-ahead proved. TDRec: the chosen combination is shown to be a validated one and to be used as validated; optimality is missing because the selection rule violates it (C75)."
  },
  {
   "property": "C123",
   "status": "partial",
   "theorems": [
    "DynCF.C123_tables_partial",
    "DynCF.C123_iff",
    "DynCF.C123_violated"
   ],
   "note": "The code crops before it splits: violation with a witness, the exact training table, and when the two coincide."
  },
  {
   "property": "C124",
   "status": "partial",
   "theorems": [
    "DynCF.C124_sources_partial",
    "DynCF.C124_clean",
    "DynCF.C124_success",
    "DynCF.C124_violated"
   ],
   "note": "Exit codes are ignored: a failed search leaves an old csv that the later scripts use (witness). Provenance of every file, clean start and full success are proved."
  },
  {
   "property": "C125",
   "status": "proved",
   "theorems": [
    "DynCF.C125_figures",
    "DynCF.C125_missing"
   ],
   "note": "Through the whole chain of scripts."
  },
  {
   "property": "C126",
   "status": "proved",
   "theorems": [
    "DynCF.C126_svd",
    "DynCF.C126_psirec",
    "DynCF.C126_ablation",
    "DynCF.C126_psirec_svd"
   ],
   "note": "Equivalences; unseenOf, StepRuns, Crowded are stated on the rows."
  },
  {
   "property": "C127",
   "status": "proved",
   "theorems": [
    "DynCF.C127_names",
    "DynCF.C127_grid",
    "DynCF.C127_figures",
    "DynCF.C127_small",
    "DynCF.C127_experiment"
   ],
   "note": "the configuration files as data, composed with the theorems about the scripts; the pipeline of C127_small starts from any directory without results of SVD and PSIRec"
  },
  {
   "property": "C128",
   "status": "proved",
   "theorems": [
    "DynCF.C128_search",
    "DynCF.C128_trains"
   ],
   "note": "exact condition; an empty initial part is refused by the model of train_test_split (the code then fails in the training)"
  },
  {
   "property": "C129",
   "status": "proved",
   "theorems": [
    "DynCF.C129_train"
   ],
   "note": "Exact condition on the rows; train is shared by TDRec and TIRec."
  },
  {
   "property": "C13",
   "status": "proved",
   "theorems": [
    "DynCF.C13_mrr",
    "DynCF.C13_mrr_bounds",
    "DynCF.C13_after_first_hit_irrelevant"
   ],
   "note": ""
  },
  {
   "property": "C130",
   "status": "proved",
   "theorems": [
    "DynCF.C130_tirec",
    "DynCF.C130_tireca",
    "DynCF.C130_tirec_tireca"
   ],
   "note": "Equivalences; the conditions are stated on the rows (WindowMoves, TIRecFits, StepRuns, LongestIs, RankFits)."
  },
  {
   "property": "C131",
   "status": "proved",
   "theorems": [
    "DynCF.C131_tdrec",
    "DynCF.C131_shrunk"
   ],
   "note": "Equivalence under ItemsStay (the cropped tables do not lose items); C131_shrunk is the failure otherwise."
  },
  {
   "property": "C132",
   "status": "proved",
   "theorems": [
    "DynCF.C132_tdrec_reinit"
   ],
   "note": "Equivalence without an assumption on lost items; examples: data on which TDRec stops and TDRecReinit completes, and data on which TDRecReinit stops."
  },
  {
   "property": "C133",
   "status": "proved",
   "theorems": [
    "DynCF.C133_trial",
    "DynCF.C133_search",
    "DynCF.C133_positions",
    "DynCF.C133_trains",
    "DynCF.C133_forced"
   ],
   "note": "Exactly when hyperparameters_search_tdrec completes, in terms of the data alone, for all oracles with argpartition per contract; the condition on positions in terms of users' rows; training after a completed search; nothing recorded with force_n_iter."
  },
  {
   "property": "C134",
   "status": "proved",
   "theorems": [
    "DynCF.C134_search",
    "DynCF.C134_selected",
    "DynCF.C134_tdrec_reinit",
    "DynCF.C134_tdrec",
    "DynCF.C134_tirec",
    "DynCF.C134_objects"
   ],
   "note": "C134_tdrec assumes that the cropped tables met by the chunks never lose items (as C131); C134_tirec assumes that QR decompositions meet their contract. The condition on days is needed only for C134_search."
  },
  {
   "property": "C135",
   "status": "proved",
   "theorems": [
    "DynCF.C135_core",
    "DynCF.C135_parallel",
    "DynCF.C135_parallel_complete",
    "DynCF.C135_parallel_search",
    "DynCF.C135_parallel_ablation",
    "DynCF.C135_svd",
    "DynCF.C135_svd_draws",
    "DynCF.C135_selected"
   ],
   "note": "Non-influence of settings, as equality of the results of whole scripts; for the two integrator models the statement is about completed runs (with a core without columns and an index outside, only the sequential function raises: example)."
  },
  {
   "property": "C136",
   "status": "proved",
   "theorems": [
    "DynCF.C136_sequential",
    "DynCF.C136_parallel",
    "DynCF.C136_any_schedule"
   ],
   "note": "For all types with 0, + and *, no laws assumed (the model functions are generic in these operations). Assumes that the compiled code performs the source's operations in the source's association (no fused multiply-add, no reassociation; no fastmath flag is set in the repository)."
  },
  {
   "property": "C137",
   "status": "proved",
   "theorems": [
    "DynCF.C137_after",
    "DynCF.C137_completes"
   ],
   "note": "File system as a map from paths to directories and files with POSIX rules; network, zip and gzip formats are parameters; a download that breaks off is not modelled."
  },
  {
   "property": "C138",
   "status": "proved",
   "theorems": [
    "DynCF.C138_blocked",
    "DynCF.C138_not_twice",
    "DynCF.C138_leaves"
   ],
   "note": "A defect of the loader, stated as the exact behaviour."
  },
  {
   "property": "C139",
   "status": "proved",
   "theorems": [
    "DynCF.C139_completes_iff",
    "DynCF.C139_error",
    "DynCF.C139_rows",
    "DynCF.C139_plain",
    "DynCF.C139_bad_line"
   ],
   "note": "Texts are parsed JSON values; lines that are not objects are refused by the model."
  },
  {
   "property": "C14",
   "status": "proved",
   "theorems": [
    "DynCF.C14_stability_formula",
    "DynCF.C14_stability_similarity",
    "DynCF.C14_disjoint_contributes_zero",
    "DynCF.C14_no_users"
   ],
   "note": ""
  },
  {
   "property": "C140",
   "status": "proved",
   "theorems": [
    "DynCF.C140_script",
    "DynCF.C140_ablation"
   ],
   "note": "Equality of the results, exceptions included. The sorts by a single key are assumed to look at the key column only (Relabel.FitsEnv), which stable sorts satisfy."
  },
  {
   "property": "C141",
   "status": "partial",
   "theorems": [
    "DynCF.C141_violated",
    "DynCF.C141_violated_search",
    "DynCF.C141_matrix_partial"
   ],
   "note": "Violated by the sequence models (concrete witness: two users exchange their names; the experiment and the search). C141_matrix_partial: for SVD and PSIRec every injective renaming leaves the experiment unchanged, the test users being renamed along."
  },
  {
   "property": "C142",
   "status": "proved",
   "theorems": [
    "DynCF.C142_follows"
   ],
   "note": "Over the reals with any QR routine; the rank conditions speak only about the interaction matrices."
  },
  {
   "property": "C143",
   "status": "proved",
   "theorems": [
    "DynCF.C143_follows"
   ],
   "note": "for a model that holds the window tensor; the spec (places, windowTensor, RankKept) is stated from the rows alone"
  },
  {
   "property": "C144",
   "status": "partial",
   "theorems": [
    "DynCF.C144_violated",
    "DynCF.C144_short",
    "DynCF.C144_holds",
    "DynCF.C144_exact_partial"
   ],
   "note": "The code violates the claim: C144_violated is a concrete table, C144_short shows that the error never disappears (without attention). C144_holds states exactly what the model holds in every case; C144_exact_partial is the claim for training tables in which every user has at least seq_len rows, outside the light mode."
  },
  {
   "property": "C145",
   "status": "proved",
   "theorems": [
    "DynCF.C145_tucker2",
    "DynCF.C145_error0",
    "DynCF.C145_error1",
    "DynCF.C145_error2"
   ],
   "note": "Success, shapes, orthonormal columns and the core for each identity mode; the error identity over the reals. A rank smaller than the shape in the identity mode is outside the claim: the code then reads an identity matrix out of range."
  },
  {
   "property": "C146",
   "status": "partial",
   "theorems": [
    "DynCF.C146_enough_partial",
    "DynCF.C146_zero",
    "DynCF.C146_single_internal",
    "DynCF.C146_single_external",
    "DynCF.C146_violated"
   ],
   "note": "The code violates the claim (C146_violated): k = 0 and a filtered catalogue of one item. C146_enough_partial is the claim for all other inputs; the other theorems state exactly what happens in the two cases."
  },
  {
   "property": "C147",
   "status": "proved",
   "theorems": [
    "DynCF.C147_svd",
    "DynCF.C147_tdrec",
    "DynCF.C147_pipeline"
   ],
   "note": "Equality of the results, exceptions, files and figures included. The order of user names does matter for the search of the sequence models (C141_violated_search)."
  },
  {
   "property": "C148",
   "status": "partial",
   "theorems": [
    "DynCF.C148_violated",
    "DynCF.C148_nested_partial",
    "DynCF.C148_hit_rate_partial",
    "DynCF.C148_run_partial"
   ],
   "note": "C148_violated: a hit lost on equal scores, and a reciprocal rank that falls on different ones. C148_nested_partial and C148_hit_rate_partial: the items and the hit rate when all scores open to the user differ. C148_run_partial: the series of hit rates of a whole experiment under the same condition. Missing: equal scores and the reciprocal rank, for which the claim is false."
  },
  {
   "property": "C149",
   "status": "proved",
   "theorems": [
    "DynCF.C149_topk"
   ],
   "note": "Two completed runs of the experiment script that differ in topk only."
  },
  {
   "property": "C15",
   "status": "proved",
   "theorems": [
    "DynCF.C15_sliding_window",
    "DynCF.C15_sliding_window_edges"
   ],
   "note": ""
  },
  {
   "property": "C150",
   "status": "partial",
   "theorems": [
    "DynCF.C150_violated",
    "DynCF.C150_fewer_steps_partial"
   ],
   "note": "C150_violated: the stability series of two runs of TDRecReinit that stop after two and three steps (and with -1). C150_fewer_steps_partial: all other series, and the stability when the test users agree. Missing: the stability with other test users, for which the claim is false."
  },
  {
   "property": "C151",
   "status": "proved",
   "theorems": [
    "DynCF.C151_first",
    "DynCF.C151_second"
   ],
   "note": "the text of the cells is in C175"
  },
  {
   "property": "C152",
   "status": "proved",
   "theorems": [
    "DynCF.C152_recommend",
    "DynCF.C152_experiment",
    "DynCF.C152_drift",
    "DynCF.C152_tie"
   ],
   "note": "over the reals; the gap is a hypothesis (SpectralGap) and C152_tie shows that it is needed; drifts are excluded in C152_experiment (SameButDrift) and C152_drift shows that they change with the sign"
  },
  {
   "property": "C153",
   "status": "proved",
   "theorems": [
    "DynCF.C153_update",
    "DynCF.C153_scores",
    "DynCF.C153_same",
    "DynCF.C153_rank"
   ],
   "note": "over the reals (C153_update over any ordered field); the conditions are PsiPath and SpectralGap, C153_rank shows that the rank condition is needed"
  },
  {
   "property": "C154",
   "status": "proved",
   "theorems": [
    "DynCF.C154_sampled",
    "DynCF.C154_error",
    "DynCF.C154_best",
    "DynCF.C154_append",
    "DynCF.C154_items",
    "DynCF.C154_users",
    "DynCF.C154_captures",
    "DynCF.C154_miss"
   ],
   "note": "over the reals with the SVD and QR contracts; the new-user half states the transposed core the code really uses (see C83)"
  },
  {
   "property": "C155",
   "status": "partial",
   "theorems": [
    "DynCF.C155_plain_partial",
    "DynCF.C155_words",
    "DynCF.C155_semicolon",
    "DynCF.C155_violated",
    "DynCF.C155_bar",
    "DynCF.C155_refused",
    "DynCF.plainChar_iff"
   ],
   "note": "violated for names with a semicolon (C155_violated); exact behaviour proved for plain names, several words and a semicolon; other shell characters and options are refused by the model"
  },
  {
   "property": "C156",
   "status": "proved",
   "theorems": [
    "DynCF.C156_train",
    "DynCF.C156_scores",
    "DynCF.C156_recommend",
    "DynCF.C156_perm"
   ],
   "note": "Over the reals. C156_perm: permuted tables have the same totals. The order inside a recommended row is not determined, because argpartition does not sort."
  },
  {
   "property": "C157",
   "status": "proved",
   "theorems": [
    "DynCF.C157_perm",
    "DynCF.C157_crop",
    "DynCF.C157_update",
    "DynCF.C157_updates",
    "DynCF.C157_experiment",
    "DynCF.td_userWise",
    "DynCF.tdRe_userWise",
    "DynCF.ti_userWise",
    "DynCF.C157_script"
   ],
   "note": "SameLogs/SameTimedLogs are the specification; C157_experiment needs chunk mode or a 3d table, which every sequence model has; UserWise is discharged for the four models."
  },
  {
   "property": "C158",
   "status": "proved",
   "theorems": [
    "DynCF.C158_integrator",
    "DynCF.C158_updates",
    "DynCF.C158_run",
    "DynCF.C158_scores",
    "DynCF.C158_same",
    "DynCF.TuckerNext.unique"
   ],
   "note": "One step of the integrator, all updates, and the comparison of two runs; TuckerNext.unique shows that the specification determines the next tensor. The example has rank 1 on data of higher rank, for every QR routine."
  },
  {
   "property": "C159",
   "status": "proved",
   "theorems": [
    "DynCF.C159_captures",
    "DynCF.C159_never",
    "DynCF.C159_exact",
    "DynCF.C159_best",
    "DynCF.C159_items",
    "DynCF.C159_users",
    "DynCF.C159_hosvd",
    "DynCF.C159_ga_satf"
   ],
   "note": "Over the reals; randn is idealised as independent standard normal entries of each array. source_normal gives a probability space with such draws."
  },
  {
   "property": "C16",
   "status": "partial",
   "theorems": [
    "DynCF.C16_violated",
    "DynCF.C16_recorded_drift_partial"
   ],
   "note": "The code violates the property: rel_norm subtracts its second argument again. Negation proved with a witness; the formula actually recorded is proved."
  },
  {
   "property": "C160",
   "status": "proved",
   "theorems": [
    "DynCF.C160_matrix",
    "DynCF.C160_experiment"
   ],
   "note": "Over the reals; randn is idealised as independent standard normal entries of each array. sourceGen_normal gives a probability space with such draws."
  },
  {
   "property": "C161",
   "status": "proved",
   "theorems": [
    "DynCF.C161_uniform",
    "DynCF.C161_item",
    "DynCF.C161_joint"
   ],
   "note": "Over the reals; randn is idealised as independent standard normal entries. rowSource_law and rowSource_indep give a probability space with such draws."
  },
  {
   "property": "C162",
   "status": "proved",
   "theorems": [
    "DynCF.C162_expected",
    "DynCF.C162_variance"
   ],
   "note": "Over the reals; randn is idealised as independent standard normal entries."
  },
  {
   "property": "C163",
   "status": "proved",
   "theorems": [
    "DynCF.C163_ga_satf",
    "DynCF.C163_rp_hooi",
    "DynCF.C163_wide",
    "DynCF.C163_only"
   ],
   "note": "Props/HooiExact. Draws one after the other are expressed by nested almost-everywhere quantifiers (Successively); Successively.pi shows that for measurable events this is an almost sure event of the product measure. Relies on the contracts of qr and svd over the reals."
  },
  {
   "property": "C164",
   "status": "proved",
   "theorems": [
    "DynCF.C164_training",
    "DynCF.C164_wide",
    "DynCF.C164_scores",
    "DynCF.C164_predictions",
    "DynCF.C164_same",
    "DynCF.C164_updates"
   ],
   "note": "Almost surely in the sense of C163: entries of the initial factors uniform, of the sketches normal. Correct linear algebra is LaOk and QrAlways. The two trainings of C164_same and C164_updates share the attention matrix and its stored inverse. The path condition of C164_updates is that of C158."
  },
  {
   "property": "C165",
   "status": "proved",
   "theorems": [
    "DynCF.C165_expected",
    "DynCF.C165_close",
    "DynCF.C165_markov",
    "DynCF.C165_power"
   ],
   "note": "Idealises randn as exact independent standard normals, exact real arithmetic. The bound on the error is measurable; the error itself need not be, since the QR and SVD routines are arbitrary."
  },
  {
   "property": "C166",
   "status": "proved",
   "theorems": [
    "DynCF.C166_hosvd"
   ],
   "note": "Same idealisation as C165; the draws of the three modes may be dependent."
  },
  {
   "property": "C167",
   "status": "proved",
   "theorems": [
    "DynCF.C167_append",
    "DynCF.C167_items",
    "DynCF.C167_users",
    "DynCF.C167_block",
    "DynCF.C167_new"
   ],
   "note": "For the diagonal core update_svd_new_submatrix draws nothing; that case is C44_diagonal. New users: the reference is the matrix with the transposed core, see C154_users."
  },
  {
   "property": "C168",
   "status": "proved",
   "theorems": [
    "DynCF.C168_block",
    "DynCF.C168_new"
   ],
   "note": "The vector case of update_svd_new_submatrix; the matrix case is C167_block."
  },
  {
   "property": "C169",
   "status": "proved",
   "theorems": [
    "DynCF.C169_update",
    "DynCF.C169_run"
   ],
   "note": "Contracts: correct QR routine, correct truncated SVD of the training table. The error bounds are for exact real arithmetic."
  },
  {
   "property": "C17",
   "status": "proved",
   "theorems": [
    "DynCF.C17_filtered"
   ],
   "note": ""
  },
  {
   "property": "C170",
   "status": "proved",
   "theorems": [
    "DynCF.C170_update",
    "DynCF.C170_run"
   ],
   "note": "Zero embeddings with the integrator scheme; the other schemes for new ids are C41, C42, C142 and C167, C168."
  },
  {
   "property": "C171",
   "status": "partial",
   "theorems": [
    "DynCF.C171_lost",
    "DynCF.C171_negative",
    "DynCF.C171_products_partial"
   ],
   "note": "Violated by the code: C171_lost shows that rows of new users with new items only append zeros, C171_negative is a concrete run. C171_products_partial states which products with former predictions are exact. Recorded in DESIGN.md section 5."
  },
  {
   "property": "C172",
   "status": "proved",
   "theorems": [
    "DynCF.C172_step",
    "DynCF.C172_increment",
    "DynCF.C172_run"
   ],
   "note": "Step: any decomposition with orthonormal item and position factors. Run: model without attention in the integrator (or light), known users and items; the chunks have few enough users that the blocked product uses all entries. differing_le bounds the changed entries by 2 seq_len per user of the chunk."
  },
  {
   "property": "C173",
   "status": "proved",
   "theorems": [
    "DynCF.C173_run"
   ],
   "note": "All chunks that move some window; no attention inside the integrator; at most 10000 changed entries per chunk, because the code ignores the rest (C56)."
  },
  {
   "property": "C174",
   "status": "partial",
   "theorems": [
    "DynCF.C174_step",
    "DynCF.C174_lost",
    "DynCF.C174_negative",
    "DynCF.C174_scores_partial"
   ],
   "note": "Violated by the code: C174_lost shows that a chunk of new users with new items only appends zeros, C174_negative is a concrete run. C174_scores_partial states what holds: the chunk is accepted, ids become known and all known users are scored. Recorded in DESIGN.md section 5."
  },
  {
   "property": "C175",
   "status": "proved",
   "theorems": [
    "DynCF.C175_number",
    "DynCF.C175_order",
    "DynCF.C175_ties",
    "DynCF.C175_first",
    "DynCF.C175_second",
    "DynCF.C175_headers",
    "DynCF.C175_stats",
    "DynCF.C175_stats_error"
   ],
   "note": "numbers are rationals; the text is what to_latex of pandas 2.0.2 writes"
  },
  {
   "property": "C176",
   "status": "partial",
   "theorems": [
    "DynCF.C176_first_violated",
    "DynCF.C176_second_violated",
    "DynCF.C176_stats_violated",
    "DynCF.C176_first_partial",
    "DynCF.C176_second_partial",
    "DynCF.C176_stats_partial"
   ],
   "note": "the code violates it for all inputs; the partial theorems say exactly which lines are closed and accepted"
  },
  {
   "property": "C177",
   "status": "partial",
   "theorems": [
    "DynCF.C177_violated",
    "DynCF.C177_figures_partial",
    "DynCF.C177_errors"
   ],
   "note": "violated: both figures are labelled with the user factors (C177_violated); the files and the lines are proved"
  },
  {
   "property": "C178",
   "status": "proved",
   "theorems": [
    "DynCF.C178_schemes",
    "DynCF.C178_same",
    "DynCF.C178_run"
   ],
   "note": "the equality holds with any attention; the error bound needs no attention inside the integrator"
  },
  {
   "property": "C179",
   "status": "partial",
   "theorems": [
    "DynCF.C179_violated",
    "DynCF.C179_curves",
    "DynCF.C179_images_partial",
    "DynCF.C179_surfaces_partial",
    "DynCF.C179_not_square",
    "DynCF.C179_default"
   ],
   "note": "the curves are proved in full; the panels violate the claim (C179_violated), what is drawn is characterised exactly for matrices with entries"
  },
  {
   "property": "C18",
   "status": "proved",
   "theorems": [
    "DynCF.C18_k_distinct_items"
   ],
   "note": ""
  },
  {
   "property": "C180",
   "status": "proved",
   "theorems": [
    "DynCF.C180_row",
    "DynCF.C180_row_iff",
    "DynCF.C180_row_error",
    "DynCF.C180_rows",
    "DynCF.C180_first_bad",
    "DynCF.C180_bad_file"
   ],
   "note": "literal_eval itself is a parameter"
  },
  {
   "property": "C181",
   "status": "proved",
   "theorems": [
    "DynCF.C181_update",
    "DynCF.C181_run",
    "DynCF.C181_error"
   ],
   "note": "what happens to rows with a new user and a new item is C171"
  },
  {
   "property": "C182",
   "status": "proved",
   "theorems": [
    "DynCF.C182_kron",
    "DynCF.C182_length",
    "DynCF.C182_entry",
    "DynCF.C182_project"
   ],
   "note": "The index k + lb*i of the store is always inside the array, so the unchecked store of the compiled code is modelled as a plain one."
  },
  {
   "property": "C183",
   "status": "proved",
   "theorems": [
    "DynCF.C183_update",
    "DynCF.C183_run",
    "DynCF.C183_almost_surely"
   ],
   "note": "Exact real arithmetic. The bound excludes chunks in which more than os users and more than os items occur in rows with new user and new item."
  },
  {
   "property": "C184",
   "status": "proved",
   "theorems": [
    "DynCF.C184_update",
    "DynCF.C184_run",
    "DynCF.C184_first",
    "DynCF.C184_almost_surely"
   ],
   "note": "over the reals, for any QR, SVD and svds that meet their contracts. C184_update assumes that the update does not raise (C31 says exactly when it does) and that the core has full rank; the symmetry that the step for new users needs is a hypothesis (CoreGood), because the code passes s where the transpose belongs (C83). C184_first discharges both for the first chunk after training on a table of at least the rank."
  },
  {
   "property": "C185",
   "status": "proved",
   "theorems": [
    "DynCF.C185_update",
    "DynCF.C185_updates",
    "DynCF.C185_train",
    "DynCF.C185_run",
    "DynCF.C185_recommend",
    "DynCF.C185_known",
    "DynCF.C185_mixed"
   ],
   "note": "Exact arithmetic: the sums of split relevances are not rounded. No contract of the numerical routines is used; they are functions of their arguments."
  },
  {
   "property": "C186",
   "status": "proved",
   "theorems": [
    "DynCF.C186_scores",
    "DynCF.C186_recommend",
    "DynCF.C186_svd"
   ],
   "note": "Over the reals; C186_recommend takes its premises from the conclusion of C186_scores. Conditions of C153 (gap, known users and items, ranks kept)."
  },
  {
   "property": "C187",
   "status": "proved",
   "theorems": [
    "DynCF.C187",
    "DynCF.C187_update"
   ],
   "note": "Over the reals. C187 is about the training of SVD, by names of users and items; C187_update is the witness for updates of PSI."
  },
  {
   "property": "C188",
   "status": "proved",
   "theorems": [
    "DynCF.C188_inside",
    "DynCF.C188_zero",
    "DynCF.C188_order",
    "DynCF.C188_merge"
   ],
   "note": "Over the reals. C188_order is the witness for the order of chunks."
  },
  {
   "property": "C189",
   "status": "proved",
   "theorems": [
    "DynCF.C189_rank",
    "DynCF.C189_exact",
    "DynCF.C189_strict"
   ],
   "note": "Over the reals."
  },
  {
   "property": "C19",
   "status": "proved",
   "theorems": [
    "DynCF.C19_optimal"
   ],
   "note": ""
  },
  {
   "property": "C190",
   "status": "proved",
   "theorems": [
    "DynCF.C190_svd",
    "DynCF.C190_psi"
   ],
   "note": "Exact over the reals. The updates of PSI are covered under the conditions of C153 (known users and items, a spectral gap at training, full ranks); training of SVD needs no gap between singular values."
  },
  {
   "property": "C191",
   "status": "proved",
   "theorems": [
    "DynCF.C191",
    "DynCF.C191_start"
   ],
   "note": "About the model of dynamical_experiment; the methods of the recommender are a parameter."
  },
  {
   "property": "C20",
   "status": "partial",
   "theorems": [
    "DynCF.C20_violated",
    "DynCF.C20_ranked_partial"
   ],
   "note": "The code violates the property for k>=3 (argpartition does not sort); the last returned item is the minimum, so rows of length <= 2 are ranked."
  },
  {
   "property": "C21",
   "status": "proved",
   "theorems": [
    "DynCF.C21_exact_failure"
   ],
   "note": ""
  },
  {
   "property": "C22",
   "status": "proved",
   "theorems": [
    "DynCF.C22_users_independent"
   ],
   "note": ""
  },
  {
   "property": "C23",
   "status": "proved",
   "theorems": [
    "DynCF.C23_attention_matrix",
    "DynCF.C23_attention_size_zero"
   ],
   "note": ""
  },
  {
   "property": "C24",
   "status": "proved",
   "theorems": [
    "DynCF.C24_last_position"
   ],
   "note": ""
  },
  {
   "property": "C25",
   "status": "proved",
   "theorems": [
    "DynCF.C25_scores",
    "DynCF.C25_errors"
   ],
   "note": ""
  },
  {
   "property": "C26",
   "status": "partial",
   "theorems": [
    "DynCF.C26_history_partial",
    "DynCF.C26_violated"
   ],
   "note": "Holds for a fresh object; violated on a second train call (history is never reset)."
  },
  {
   "property": "C27",
   "status": "partial",
   "theorems": [
    "DynCF.C27_tdrec_partial",
    "DynCF.C27_tdrec_re_partial",
    "DynCF.C27_violated",
    "DynCF.C27_re_violated"
   ],
   "note": "Indices are sorted but values are not. Holds for cropped tables with fresh mappings and for constant relevance."
  },
  {
   "property": "C28",
   "status": "proved",
   "theorems": [
    "DynCF.C28_shape",
    "DynCF.C28_empty",
    "DynCF.C28_trained_dimensions",
    "DynCF.C28_no_full_sequence",
    "DynCF.C28_success",
    "DynCF.C28_cropped"
   ],
   "note": "Dimensions of the trained model, range of indices, ValueError without a full sequence, success otherwise."
  },
  {
   "property": "C29",
   "status": "partial",
   "theorems": [
    "DynCF.C29_ids_stable",
    "DynCF.C29_retrain_partial",
    "DynCF.C29_violated"
   ],
   "note": "Ids are stable for every table. Retraining succeeds when the last known or a new id occurs; the code raises ValueError when the id with the highest index was cropped out (C29_violated). reTrain_iff (used by C132) is the exact condition."
  },
  {
   "property": "C30",
   "status": "proved",
   "theorems": [
    "DynCF.C30_partition",
    "DynCF.C30_embeddings"
   ],
   "note": "C30_partition is the default configuration; C30_embeddings states what the other configurations do."
  },
  {
   "property": "C31",
   "status": "proved",
   "theorems": [
    "DynCF.C31_train",
    "DynCF.C31_update",
    "DynCF.C31_run"
   ],
   "note": "Every failure is one of the listed exceptions; the ValueError of an update occurs exactly for a Crowded chunk."
  },
  {
   "property": "C32",
   "status": "proved",
   "theorems": [
    "DynCF.C32_users",
    "DynCF.C32_items",
    "DynCF.C32_block",
    "DynCF.C32_old"
   ],
   "note": ""
  },
  {
   "property": "C33",
   "status": "proved",
   "theorems": [
    "DynCF.C33_filtered"
   ],
   "note": ""
  },
  {
   "property": "C34",
   "status": "proved",
   "theorems": [
    "DynCF.C34_routing"
   ],
   "note": "TIRec step log: every delta entry in exactly one step, nothing left over, every new id occurs."
  },
  {
   "property": "C35",
   "status": "proved",
   "theorems": [
    "DynCF.C35_sizes",
    "DynCF.C35_updates",
    "DynCF.C35_trained_updates",
    "DynCF.C35_tirec_update",
    "DynCF.C35_tireca_update",
    "DynCF.C35_empty_table"
   ],
   "note": "Invariant TIInv over training and any sequence of updates of both classes; exact success condition per update."
  },
  {
   "property": "C36",
   "status": "partial",
   "theorems": [
    "DynCF.C36_aligned_partial",
    "DynCF.C36_block_rows",
    "DynCF.C36_user_rows",
    "DynCF.C36_item_rows",
    "DynCF.C36_violated",
    "DynCF.C36_predictions_swapped"
   ],
   "note": "The code violates the claim: rows are appended block first, ids are given in order of appearance (C36_violated, from a trained model; C36_predictions_swapped, in the predictions). Proved: rows and ids line up exactly if all new ids of the block are smaller than those of the vector steps, and which row gets whose data."
  },
  {
   "property": "C37",
   "status": "partial",
   "theorems": [
    "DynCF.C37_once_partial",
    "DynCF.C37_vectors_ignore_values",
    "DynCF.C37_integrator_mode",
    "DynCF.C37_violated"
   ],
   "note": "The code violates the claim for entries with new user and new item: they are applied by the block and by the integrator (C37_violated, prediction 2 instead of 1). Proved: exactly once for all other entries, and in the integrator mode."
  },
  {
   "property": "C38",
   "status": "partial",
   "theorems": [
    "DynCF.C38_filtered_partial",
    "DynCF.C38_violated"
   ],
   "note": "The code violates the claim: rows of a chunk cropped away by the sequence length are not recorded as viewed (C38_violated). Proved for all rows kept by the crop."
  },
  {
   "property": "C39",
   "status": "partial",
   "theorems": [
    "DynCF.C39_changed_partial",
    "DynCF.C39_unchanged_raises",
    "DynCF.C39_violated"
   ],
   "note": "The code violates the claim: a chunk with empty delta always raises (C39_unchanged_raises). Proved: any chunk that changes some window updates successfully (TIRecA)."
  },
  {
   "property": "C40",
   "status": "proved",
   "theorems": [
    "DynCF.C40_identity",
    "DynCF.C40_exact_rows",
    "DynCF.C40_no_increment",
    "DynCF.C40_exact_cols"
   ],
   "note": "QR is any factorisation meeting its contract; orthonormality of V is not needed."
  },
  {
   "property": "C41",
   "status": "proved",
   "theorems": [
    "DynCF.C41_orthonormal",
    "DynCF.C41_shapes",
    "DynCF.C41_shape_error"
   ],
   "note": ""
  },
  {
   "property": "C42",
   "status": "proved",
   "theorems": [
    "DynCF.C42_append",
    "DynCF.C42_recovery",
    "DynCF.C42_right_orthonormal",
    "DynCF.C42_too_many"
   ],
   "note": "Exactness before truncation, exact result for rank at most r; C42_too_many covers the error branch (more new vectors than rows)."
  },
  {
   "property": "C43",
   "status": "partial",
   "theorems": [
    "DynCF.C43_orthonormal_partial",
    "DynCF.C43_violated",
    "DynCF.C43_threshold"
   ],
   "note": "The code violates the property (concrete factorisation oracle meeting the contracts); it holds when re-orthogonalisation happened or the small core is recovered with non-zero singular values."
  },
  {
   "property": "C44",
   "status": "proved",
   "theorems": [
    "DynCF.C44_diagonal",
    "DynCF.C44_general",
    "DynCF.C44_exact"
   ],
   "note": ""
  },
  {
   "property": "C45",
   "status": "proved",
   "theorems": [
    "DynCF.C45_users",
    "DynCF.C45_items",
    "DynCF.C45_new",
    "DynCF.C45_tireca_users",
    "DynCF.C45_tireca_items"
   ],
   "note": "PSI and TIRecA."
  },
  {
   "property": "C46",
   "status": "partial",
   "theorems": [
    "DynCF.C46_users",
    "DynCF.C46_items_partial",
    "DynCF.C46_items_violated",
    "DynCF.C46_tireca_users",
    "DynCF.C46_tireca_items"
   ],
   "note": "The code violates the property for new items of PSI (R·s instead of s·Rᵀ). Proved for users of PSI and for TIRecA."
  },
  {
   "property": "C47",
   "status": "proved",
   "theorems": [
    "DynCF.C47_projection",
    "DynCF.C47_exact",
    "DynCF.C47_components",
    "DynCF.C47_orthonormal",
    "DynCF.C47_recovery"
   ],
   "note": "QR/SVD contracts at the two calls are hypotheses; realised over the reals by realLA"
  },
  {
   "property": "C48",
   "status": "partial",
   "theorems": [
    "DynCF.C48_zero_increment_partial",
    "DynCF.C48_zero_values",
    "DynCF.C48_violated_empty",
    "DynCF.C48_violated_long"
   ],
   "note": "Proved for non-empty increments whose entries are all used; an empty increment raises ZeroDivisionError and a long cancelling increment changes the model (both proved)."
  },
  {
   "property": "C49",
   "status": "partial",
   "theorems": [
    "DynCF.C49_attention_steps_partial",
    "DynCF.C49_violated"
   ],
   "note": "The item step multiplies the attention twice (A A W); proved equal to the claim when A A W = A W, and proved wrong in general."
  },
  {
   "property": "C50",
   "status": "proved",
   "theorems": [
    "DynCF.C50_mode0",
    "DynCF.C50_mode1",
    "DynCF.C50_mode2",
    "DynCF.C50_too_many",
    "DynCF.C50_too_many_items",
    "DynCF.C50_too_many_positions"
   ],
   "note": "Shapes for every numerical outcome; the exact part under the rank condition 'nothing is truncated' and sketches that capture the matrix; for both ways of calculating."
  },
  {
   "property": "C51",
   "status": "proved",
   "theorems": [
    "DynCF.C51_extended",
    "DynCF.C51_new_matrix"
   ],
   "note": "Shapes for every numerical outcome; the projection and exactness under the numerical contracts."
  },
  {
   "property": "C52",
   "status": "proved",
   "theorems": [
    "DynCF.C52_unfold_entries",
    "DynCF.C52_fold_unfold",
    "DynCF.C52_unfold_fold",
    "DynCF.C52_errors"
   ],
   "note": ""
  },
  {
   "property": "C53",
   "status": "proved",
   "theorems": [
    "DynCF.C53_sparse_unfold",
    "DynCF.C53_columns",
    "DynCF.C53_errors",
    "DynCF.coo_data_typed"
   ],
   "note": ""
  },
  {
   "property": "C54",
   "status": "proved",
   "theorems": [
    "DynCF.C54_construct_core",
    "DynCF.C54_order_independent",
    "DynCF.C54_any_schedule",
    "DynCF.C54_complete_iff"
   ],
   "note": "Interleaving model: each read and write of shared memory is one atomic step."
  },
  {
   "property": "C55",
   "status": "proved",
   "theorems": [
    "DynCF.C55_tensordot2",
    "DynCF.C55_tensordot",
    "DynCF.C55_errors"
   ],
   "note": ""
  },
  {
   "property": "C56",
   "status": "partial",
   "theorems": [
    "DynCF.C56_all_entries_partial",
    "DynCF.C56_violated",
    "DynCF.C56_violated_empty",
    "DynCF.C56_exact",
    "DynCF.C56_missing",
    "DynCF.C56_old_variant"
   ],
   "note": "The chunked code drops the tail when n > 10000 is not a multiple of 10000 and divides by zero for n = 0 (disagreement proved). Missing: nothing holds for those n; exact behaviour proved for all n."
  },
  {
   "property": "C57",
   "status": "partial",
   "theorems": [
    "DynCF.C57_round_trip",
    "DynCF.C57_sum_partial",
    "DynCF.C57_violated",
    "DynCF.C57_exact"
   ],
   "note": "sparse_to_dense_tensor overwrites repeated coordinates (disagreement proved); sum claim proved for distinct coordinates, exact behaviour (last value) for all."
  },
  {
   "property": "C58",
   "status": "proved",
   "theorems": [
    "DynCF.C58_element",
    "DynCF.C58_tensor"
   ],
   "note": ""
  },
  {
   "property": "C59",
   "status": "proved",
   "theorems": [
    "DynCF.C59_tensor",
    "DynCF.C59_matrix",
    "DynCF.C59_dense",
    "DynCF.C59_shapes"
   ],
   "note": "dense version for non-empty matrices (mean of an empty array is NaN, not modelled)"
  },
  {
   "property": "C60",
   "status": "proved",
   "theorems": [
    "DynCF.C60_check_params",
    "DynCF.C60_wrong_length",
    "DynCF.C60_before_any_work"
   ],
   "note": ""
  },
  {
   "property": "C61",
   "status": "proved",
   "theorems": [
    "DynCF.C61_ga_satf_run",
    "DynCF.C61_rp_hooi_run",
    "DynCF.C61_tucker2_run"
   ],
   "note": ""
  },
  {
   "property": "C62",
   "status": "proved",
   "theorems": [
    "DynCF.C62_earlier_steps",
    "DynCF.C62_errors",
    "DynCF.C62_scored_model"
   ],
   "note": "for every recommender interface, the outcome of a step (also a failure) depends only on the chunks before it"
  },
  {
   "property": "C63",
   "status": "proved",
   "theorems": [
    "DynCF.C63_lengths"
   ],
   "note": ""
  },
  {
   "property": "C64",
   "status": "proved",
   "theorems": [
    "DynCF.C64_retraining",
    "DynCF.C64_crop_of_all",
    "DynCF.C64_log"
   ],
   "note": ""
  },
  {
   "property": "C65",
   "status": "partial",
   "theorems": [
    "DynCF.C65_days",
    "DynCF.C65_groups_partial",
    "DynCF.C65_stable_sort",
    "DynCF.C65_order_violated"
   ],
   "note": "proved for a stream of days; for groups of days the order within a day depends on a sort that is not stable (violation proved), everything else is proved"
  },
  {
   "property": "C66",
   "status": "partial",
   "theorems": [
    "DynCF.C66_exact_partial",
    "DynCF.C66_no_tail",
    "DynCF.C66_violated"
   ],
   "note": "violated: a too small tail is not merged, its last day gets the label of the previous day; exact behaviour proved"
  },
  {
   "property": "C67",
   "status": "proved",
   "theorems": [
    "DynCF.C67_users",
    "DynCF.C67_negative"
   ],
   "note": ""
  },
  {
   "property": "C68",
   "status": "proved",
   "theorems": [
    "DynCF.C68_split",
    "DynCF.C68_errors"
   ],
   "note": ""
  },
  {
   "property": "C69",
   "status": "proved",
   "theorems": [
    "DynCF.C69_pcore"
   ],
   "note": "the loop of pcore_filter with enough fuel: the result is the largest subtable in which every user and item has at least p rows"
  },
  {
   "property": "C70",
   "status": "proved",
   "theorems": [
    "DynCF.C70_codes",
    "DynCF.C70_table"
   ],
   "note": "codes number the sorted distinct values from 0, missing values get -1; decoding gives back the column"
  },
  {
   "property": "C71",
   "status": "proved",
   "theorems": [
    "DynCF.C71_random_grid",
    "DynCF.C71_errors"
   ],
   "note": "for every sequence of drawn configurations (cut off at any point)"
  },
  {
   "property": "C72",
   "status": "partial",
   "theorems": [
    "DynCF.C72_can_finish_partial",
    "DynCF.C72_exact",
    "DynCF.C72_violated"
   ],
   "note": "proved when no parameter lists a value twice; repeated values make the target count unreachable (infinite loop)"
  },
  {
   "property": "C73",
   "status": "proved",
   "theorems": [
    "DynCF.C73_full_grid"
   ],
   "note": ""
  },
  {
   "property": "C74",
   "status": "proved",
   "theorems": [
    "DynCF.C74_callback"
   ],
   "note": ""
  },
  {
   "property": "C75",
   "status": "partial",
   "theorems": [
    "DynCF.C75_svd",
    "DynCF.C75_tdrec_partial",
    "DynCF.C75_ml20m_partial",
    "DynCF.C75_amzG_partial",
    "DynCF.C75_violated"
   ],
   "note": "SVD rank and the data sets amz_b, steam proved in full; ML-20M compares with the maximum over rows without attention too (raises if no row with attention reaches it), AMZ-G accepts the second best value; exact behaviour proved for both"
  },
  {
   "property": "C76",
   "status": "proved",
   "theorems": [
    "DynCF.C76_new_entities"
   ],
   "note": ""
  },
  {
   "property": "C77",
   "status": "partial",
   "theorems": [
    "DynCF.C77_split_partial",
    "DynCF.C77_sizes",
    "DynCF.C77_violated"
   ],
   "note": "proved for a non-negative first ratio; a negative step is not refused and a negative first ratio repeats rows"
  },
  {
   "property": "C78",
   "status": "proved",
   "theorems": [
    "DynCF.C78_ga_satf_core"
   ],
   "note": ""
  },
  {
   "property": "C79",
   "status": "proved",
   "theorems": [
    "DynCF.C79_identity_attention"
   ],
   "note": ""
  },
  {
   "property": "C80",
   "status": "proved",
   "theorems": [
    "DynCF.C80_ga_satf_orthonormal"
   ],
   "note": "QR/SVD contracts are hypotheses, realised by realLA"
  },
  {
   "property": "C81",
   "status": "proved",
   "theorems": [
    "DynCF.C81_success",
    "DynCF.C81_rank_too_large"
   ],
   "note": ""
  },
  {
   "property": "C82",
   "status": "proved",
   "theorems": [
    "DynCF.C82_exact_recovery"
   ],
   "note": "The range condition is stated by a coefficient matrix B."
  },
  {
   "property": "C83",
   "status": "partial",
   "theorems": [
    "DynCF.C83_items",
    "DynCF.C83_users_partial",
    "DynCF.C83_users_violated",
    "DynCF.C42_recovery"
   ],
   "note": "The code violates the property for new users with a non-symmetric core; items hold in full."
  },
  {
   "property": "C84",
   "status": "proved",
   "theorems": [
    "DynCF.C84_train",
    "DynCF.C84_recommend",
    "DynCF.C84_draws"
   ],
   "note": ""
  },
  {
   "property": "C85",
   "status": "proved",
   "theorems": [
    "DynCF.C85_projection"
   ],
   "note": ""
  },
  {
   "property": "C86",
   "status": "partial",
   "theorems": [
    "DynCF.C86_exact_partial",
    "DynCF.C86_violated_long",
    "DynCF.C86_violated_attention"
   ],
   "note": "Proved for increments whose entries are all used (at most 10000 or a multiple of 10000) and attention with A A W = A W; both conditions are necessary, with proved counterexamples."
  },
  {
   "property": "C87",
   "status": "proved",
   "theorems": [
    "DynCF.C87_linear_operator"
   ],
   "note": ""
  },
  {
   "property": "C88",
   "status": "proved",
   "theorems": [
    "DynCF.C88_hosvd_dense",
    "DynCF.C88_hosvd",
    "DynCF.C88_tucker2_dense",
    "DynCF.C88_invalid_rank",
    "DynCF.C88_hosvd_refused"
   ],
   "note": "tucker2_dense for the call made (identity mode 2, full rank)."
  },
  {
   "property": "C89",
   "status": "proved",
   "theorems": [
    "DynCF.C89_recommend_setting",
    "DynCF.C89_recommend"
   ],
   "note": "Recommendation on any TIInv state, reached by C35_trained_updates."
  },
  {
   "property": "C90",
   "status": "proved",
   "theorems": [
    "DynCF.C90_scores"
   ],
   "note": ""
  },
  {
   "property": "C91",
   "status": "proved",
   "theorems": [
    "DynCF.C91_svd",
    "DynCF.C91_tdrec"
   ],
   "note": ""
  },
  {
   "property": "C92",
   "status": "proved",
   "theorems": [
    "DynCF.C92_records"
   ],
   "note": "Every recorded list of a completed experiment is characterised through snapshots of the models that met the chunks (any model, any stream)."
  },
  {
   "property": "C93",
   "status": "proved",
   "theorems": [
    "DynCF.C93_svd",
    "DynCF.C93_psirec",
    "DynCF.C93_tdrec",
    "DynCF.C93_tdrecreinit",
    "DynCF.C93_tirec",
    "DynCF.C93_tireca",
    "DynCF.C93_unknown",
    "DynCF.C93_dimension",
    "DynCF.C93_missing"
   ],
   "note": "One theorem per accepted name. The recorded series themselves are C92."
  },
  {
   "property": "C94",
   "status": "partial",
   "theorems": [
    "DynCF.C94_tdrec_partial",
    "DynCF.C94_short_sequences",
    "DynCF.C94_violated"
   ],
   "note": "Violated: the sequential history survives retraining, so the padding of short sequences is filled with rows of earlier trainings; shown for every such user and in a completed run with a wrong hit rate. Everything else, and the sequences of users who fill them, agrees."
  },
  {
   "property": "C95",
   "status": "partial",
   "theorems": [
    "DynCF.C95_comparable_partial",
    "DynCF.C95_violated"
   ],
   "note": "Holds for SVD, PSIRec, TDRecReinit, TIRec, TIRecA; violated for TDRec (ids renumbered at every training)."
  },
  {
   "property": "C96",
   "status": "partial",
   "theorems": [
    "DynCF.C96_random_violated",
    "DynCF.C96_others_partial"
   ],
   "note": "Random never completes (no get_u); the other six do."
  },
  {
   "property": "C97",
   "status": "partial",
   "theorems": [
    "DynCF.C97_selected_partial",
    "DynCF.C97_violated"
   ],
   "note": "Rank and attention exponent are used; the selected number of sweeps (at most 5) is replaced by the default 25, always."
  },
  {
   "property": "C98",
   "status": "proved",
   "theorems": [
    "DynCF.C98_train",
    "DynCF.C98_scores",
    "DynCF.C98_best"
   ],
   "note": "The contract of the sparse SVD (SvdsOk: leading part of a full SVD, ascending) is an assumption on scipy; the score identity needs only that argsort returns a permutation. The optimality is over the reals."
  },
  {
   "property": "C99",
   "status": "partial",
   "theorems": [
    "DynCF.C99_matrix",
    "DynCF.C99_rank_too_large_partial",
    "DynCF.C99_one_row",
    "DynCF.C99_hilbert"
   ],
   "note": "Violated: a rank above the number of rows is accepted for one row (C99_one_row) and for an empty matrix; C99_rank_too_large_partial says exactly when it is rejected. Everything else is proved in full."
  }
 ]
}