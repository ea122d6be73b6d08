{"id": "C01", "title": "Training assigns a contiguous, invertible id mapping", "statement": "After training on any interaction table, external user (item) ids and internal indices are in one-to-one correspondence: the internal indices are exactly 0..n-1 with n the number of distinct ids, in order of first appearance, the two lookup tables invert each other, the recorded count is n, and every row of the re-indexed table carries the index of its own user and item with row order unchanged.", "quantifier": "every interaction table (any length, any ids, any duplicates)", "why_tests_cant": "Depends on every pattern of repeated ids in the input; tests fix three ids without repeats.", "anchors": ["source/data_preparation.py:get_cont_mapping_struct", "source/data_preparation.py:get_df_with_updated_indices"]}
{"id": "C02", "title": "Incremental id registration never moves or merges existing ids", "statement": "Registering further unseen, pairwise distinct ids keeps every existing external id at its old index, gives the new ids the next indices in order, and keeps the correspondence one-to-one and contiguous, through any number of registrations. A batch keeps the correspondence one-to-one exactly if its ids are unseen and pairwise distinct; otherwise (an already known id, or an id repeated in the batch) some id has two indices, so callers must filter.", "quantifier": "every starting mapping reachable from training, and every finite sequence of batches of unseen distinct ids; for the converse every batch", "why_tests_cant": "An invariant over unbounded sequences of batches.", "anchors": ["source/data_preparation.py:update_cont_mapping_struct"]}
{"id": "C03", "title": "Mapping a table fails exactly on unknown ids", "statement": "Mapping a table's user and item columns with existing mappings succeeds if and only if every user and item of the table is known, and then returns the same rows in the same order with each id replaced by its own index; otherwise it raises KeyError.", "quantifier": "every table and every pair of mappings", "why_tests_cant": "Error behaviour must hold for every unknown id at any row.", "anchors": ["source/data_preparation.py:map_df_columns"]}
{"id": "C04", "title": "Evaluation selects each known user's first known interaction, once", "statement": "The evaluation selection over a chunk returns each user that has at least one interaction with both user and item known to the model exactly once, in order of first such interaction, paired with the item of that first interaction; unknown users or items are never returned.", "quantifier": "every chunk and every pair of mappings", "why_tests_cant": "Quantifies over all interleavings of known and unknown users and items.", "anchors": ["source/data_preparation.py:get_known_ui_df_mask", "source/data_preparation.py:mask_first_occurence", "source/data_preparation.py:get_users_to_recommend_test_items"]}
{"id": "C05", "title": "Sequential history is the last L interactions, left padded", "statement": "After any sequence of batches fed to the sequential history, every user who interacted has a window of exactly L entries: the user's last min(L,n) items over all batches concatenated, in order, preceded by padding; users who never interacted have no entry. Splitting the same interactions into different batches gives the same windows.", "quantifier": "every L, every finite sequence of batches of interactions, every user", "why_tests_cant": "Invariant over unbounded interaction histories and batch splits.", "anchors": ["source/ti_data_processing.py:update_user_seq_history"]}
{"id": "C06", "title": "Delta tensor is exactly new history minus old history", "statement": "The sparse tensor returned for two histories sums, at every (user, item, position) cell, to the indicator of the new history minus the indicator of the old history; hence over any sequence of updates the deltas telescope to the current history.", "quantifier": "every pair of histories with equal window lengths whose old users all persist; every sequence of batches", "why_tests_cant": "Must hold at every cell for all histories, including repeated items and padding.", "anchors": ["source/ti_data_processing.py:calculate_delta", "source/models/tirec.py:TIRec.get_train_tensor"]}
{"id": "C07", "title": "Delta tensor is minimal and well-formed", "statement": "Delta entries have value +1 or -1, never refer to padding, no coordinate occurs twice, positions are inside the window, and a user whose window did not change contributes nothing.", "quantifier": "every pair of histories", "why_tests_cant": "Absence of duplicates and of padding entries must hold for all inputs.", "anchors": ["source/ti_data_processing.py:calculate_delta"]}
{"id": "C08", "title": "Cropping keeps exactly each user's latest L interactions in time order", "statement": "Adding cropped positions to a table returns, for each user in ascending id order, exactly the user's last min(L,n) rows in (stable) time order with positions 0,1,2,...; no other row appears. With L=0 and a non-empty table it raises ValueError.", "quantifier": "every table, every L, with and without sorting", "why_tests_cant": "Holds for all tables incl. ties in time and users of every history length around L.", "anchors": ["source/ti_data_processing.py:add_order_cropped", "source/ti_data_processing.py:get_df_with_cropped_pos_column"]}
{"id": "C09", "title": "Incremental cropping equals cropping everything", "statement": "Cropping the concatenation of an already cropped table with new rows gives the same table as cropping the concatenation of all original rows, so repeatedly cropped concatenation in the dynamical experiment loses no interaction that full cropping would keep, for any number of steps.", "quantifier": "every positive L, every initial table and every finite sequence of chunks", "why_tests_cant": "An equality of two computations over unbounded chunk sequences.", "anchors": ["source/ti_data_processing.py:get_df_with_cropped_pos_column", "source/experiments/dynamical_experiment.py:dynamical_experiment"]}
{"id": "C10", "title": "Updates act on the same tensor that training factorised", "statement": "The tensor factorised by training plus all the deltas applied by later updates equals the tensor of the current sequential histories, i.e. training and updating use the same position for the same interaction.", "quantifier": "every training table and every sequence of update chunks", "why_tests_cant": "A relation between training data and arbitrary later histories; no test compares the two position conventions.", "anchors": ["source/models/tdrec.py:TDRec.train", "source/ti_data_processing.py:calculate_delta", "source/ti_data_processing.py:add_order_cropped"]}
{"id": "C11", "title": "Shifted positions of a user's recent items", "statement": "When scoring, the j-th most recent item (j=0,1,..) of a user is placed at position max_len-2-j and only the min(n, max_len-1) most recent items are used, so every position is valid and strictly decreasing.", "quantifier": "every sequence and every max_len", "why_tests_cant": "Boundary behaviour for all lengths around max_len.", "anchors": ["source/models/tdrec.py:_get_pos_items_arrays"]}
{"id": "C12", "title": "Hit rate is the fraction of users whose test item is recommended", "statement": "The hit rate equals (number of test users whose test item occurs in their recommendation row) / (number of test users), hence lies in [0,1], is 1 iff all are hit and 0 iff none is; with no test users it raises ZeroDivisionError.", "quantifier": "every recommendation array and test vector with one row per test item", "why_tests_cant": "All arrays, including duplicates and empty rows.", "anchors": ["source/evaluation.py:hr"]}
{"id": "C13", "title": "MRR is the mean reciprocal rank of the first hit and never exceeds HR", "statement": "MRR equals the mean over test users of 1/(1-based rank of the first occurrence of the test item) or 0 when absent; it lies in [0,1], is at most the hit rate, at least hit rate / list length, and ignores anything after the first hit.", "quantifier": "every recommendation array and test vector with one row per test item", "why_tests_cant": "Order relation between two metrics for all inputs.", "anchors": ["source/evaluation.py:mrr", "source/evaluation.py:hr"]}
{"id": "C14", "title": "Stability score is a similarity in [0,1]", "statement": "The weighted-Jaccard stability of two recommendation arrays with distinct in-range items per row is symmetric, lies in [0,1], and equals 1 if and only if every user's two lists are identical in order; a user with disjoint lists contributes 0.", "quantifier": "every pair of recommendation arrays with at least one user and at least one item per user", "why_tests_cant": "Characterisation of equality over all permutations and array sizes.", "anchors": ["source/evaluation.py:wji", "source/evaluation.py:wji_sim"]}
{"id": "C15", "title": "Sliding window aggregates every window", "statement": "Sliding-window aggregation of n values with window w returns, for w<=n, n-w+1 values whose i-th is the sum (mean) of entries i..i+w-1; for n<w it returns the input unchanged whatever the mode; an unknown mode otherwise raises NotImplementedError.", "quantifier": "every array, window length (for the mean at least 1) and mode", "why_tests_cant": "Boundary behaviour for all n and w.", "anchors": ["source/general_functions.py:sliding_window"]}
{"id": "C16", "title": "Recorded embedding drift is the relative change of the embeddings", "statement": "The drift recorded between two consecutive steps is ||U_new - U_old|| / ||U_new|| as the plots label it.", "quantifier": "every pair of consecutive embedding matrices", "why_tests_cant": "A formula over all matrices; no test covers it.", "anchors": ["source/experiments/dynamical_experiment.py:dynamical_experiment", "source/general_functions.py:rel_norm", "source/experiments/prepare_graphs.py:plot_factors_dynamics"]}
{"id": "C17", "title": "Filtered recommendations never contain an item in the user's recorded history", "statement": "With filter_viewed, no returned item (internal or external id) is one the model has recorded for that user, for every model state, user, k and every behaviour of the partial sort allowed by its contract.", "quantifier": "every scores vector, history, user list, every k >= 1, every non-empty catalogue (at least two items when viewed items are filtered; C146 has the other cases) and every admissible argpartition result", "why_tests_cant": "Safety over all histories and unspecified partial-sort orders.", "anchors": ["source/models/svd.py:SVD.recommend", "source/models/tdrec.py:TDRec.recommend", "source/models/random_rec.py:RandomRec.recommend"]}
{"id": "C18", "title": "Recommendations are k distinct known items", "statement": "Each returned row has exactly min(k, n_items) pairwise distinct items, all of them items of the model's catalogue, one row per requested user in request order.", "quantifier": "every model state, user list and k for which the call returns", "why_tests_cant": "Distinctness and count for all inputs.", "anchors": ["source/models/svd.py:SVD.recommend", "source/models/tdrec.py:TDRec.recommend"]}
{"id": "C19", "title": "Recommendations are score-optimal", "statement": "Every item that is allowed for the user but not returned has a score no higher than every returned item.", "quantifier": "every scores vector, history, user, every k >= 1, every non-empty catalogue (at least two items when viewed items are filtered; C146 has the other cases) and every admissible argpartition result", "why_tests_cant": "Optimality over all score vectors and tie patterns.", "anchors": ["source/models/svd.py:SVD.recommend", "source/models/tdrec.py:TDRec.recommend"]}
{"id": "C20", "title": "Recommendation rows are ranked by decreasing score", "statement": "Within a returned row items are ordered by non-increasing score (which MRR and the stability score rely on).", "quantifier": "every scores vector, every k >= 1, every non-empty catalogue (at least two items when viewed items are filtered; C146 has the other cases) and every admissible argpartition result", "why_tests_cant": "Tests use k=2, where it holds; the claim must hold for all k.", "anchors": ["source/models/svd.py:SVD.recommend", "source/models/tdrec.py:TDRec.recommend", "source/evaluation.py:mrr"]}
{"id": "C21", "title": "Exactly when recommend fails", "statement": "With at least two catalogue items and k>=1, recommend returns if and only if every requested user is known and (when filtering) has at least min(k, n_items) unseen items; an unknown user raises KeyError and too few unseen items raises ValueError.", "quantifier": "every model state, user list and k", "why_tests_cant": "Error behaviour over all histories.", "anchors": ["source/models/svd.py:SVD.recommend", "source/models/tdrec.py:TDRec.recommend"]}
{"id": "C22", "title": "A user's recommendations do not depend on who else is requested", "statement": "For the factor models, the row returned for a user is the same whichever other users are requested alongside and in whichever order.", "quantifier": "every model state, every two user lists containing the user", "why_tests_cant": "Quantifies over all request lists.", "anchors": ["source/models/svd.py:SVD.recommend", "source/models/tdrec.py:TDRec.recommend"]}
{"id": "C23", "title": "Attention matrix is the documented unit lower-triangular Toeplitz matrix", "statement": "For every size and power, entry (i,j) of the attention matrix is (i-j+1)^(-power) for j<=i and 0 above the diagonal; hence the diagonal is 1, the determinant is 1 and the inverse used by the model exists.", "quantifier": "every size >= 1 and every power (size 0 raises, as stated)", "why_tests_cant": "All sizes and indices.", "anchors": ["source/models/tdrec.py:get_global_attention"]}
{"id": "C24", "title": "The position embedding used for scoring is the last row of W", "statement": "For every attention power (or none) the last-position embedding computed through the inverse attention matrix equals the last row of the position factor matrix.", "quantifier": "every sequence length >= 1, attention power and position factors, and every inverse routine that returns an inverse of an invertible matrix", "why_tests_cant": "An algebraic identity for all sizes.", "anchors": ["source/models/tdrec.py:TDRec.train", "source/models/tdrec.py:TDRec.__init__"]}
{"id": "C25", "title": "Sequential scoring formula", "statement": "The score of item i for a user is the sum over the user's recent items x_j (at shifted position p_j) of <V_i,V_{x_j}> * <(A W)_{p_j}, w_last>.", "quantifier": "every factor matrices, history and user; the scores for histories with a usable position, the errors for the other ones", "why_tests_cant": "An identity for all factor matrices and histories.", "anchors": ["source/models/tdrec.py:TDRec._recommend_user"]}
{"id": "C26", "title": "Training sets the sequential history to the training data only", "statement": "After train, the sequential history used for scoring contains exactly the last L interactions of the training table it was given.", "quantifier": "every sequence of train calls on one model object (as the dynamical experiment makes) and every table", "why_tests_cant": "Requires reasoning about repeated training on one object; tests train once.", "anchors": ["source/models/tdrec.py:TDRec.train", "source/experiments/prepare_model.py:_prepare_tdrec_model"]}
{"id": "C27", "title": "Training puts each interaction's relevance into its own tensor cell", "statement": "The tensor factorised by training has, at each interaction's (user, item, position) cell, that interaction's relevance.", "quantifier": "every training table with arbitrary relevance values and row order", "why_tests_cant": "Tests use constant relevance.", "anchors": ["source/models/tdrec.py:TDRec.train", "source/models/tdrec_reinit.py:TDRecRe.train"]}
{"id": "C28", "title": "Trained model dimensions match the catalogue", "statement": "After train on a fresh model the tensor has exactly as many user and item slices as there are distinct users and items, every index is in range, and training raises ValueError when no user has L interactions in the cropped table.", "quantifier": "every training table, sequence length >= 1 and every rank triple in which no rank exceeds the product of the other two", "why_tests_cant": "All tables.", "anchors": ["source/models/tdrec.py:TDRec.train"]}
{"id": "C29", "title": "Re-initialised retraining keeps ids stable and accepts grown data", "statement": "Retraining with previous factors and mappings keeps every existing id's index, gives new ids the next indices and succeeds in placing the previous factors into the initial ones for any later cropped table.", "quantifier": "every previous mapping and every later table", "why_tests_cant": "Depends on which items survive cropping over unbounded histories.", "anchors": ["source/models/tdrec_reinit.py:TDRecRe.train", "source/rp_hooi.py:ga_satf"]}
{"id": "C30", "title": "PSI update routes every interaction to exactly one step", "statement": "In the default configuration every interaction of the chunk is processed in exactly one of the four steps, none is left over, and every step only receives rows whose classification (known/new at that time) is the step's: the first step receives exactly the rows with both user and item unknown, the second exactly those whose user is still unknown after it, the third exactly those whose item is still unknown after it, the last the others, each in the order of the chunk. In the configurations with embeddings for new ids the first three steps receive the same rows, and the last one all rows (with the integrator) or all rows not given to the first step.", "quantifier": "every chunk and every reachable model state", "why_tests_cant": "Case distinction over all mixes of known/new users and items, with mappings changing between steps.", "anchors": ["source/models/psi.py:PSI.update", "source/models/psi.py:_get_divide_df_mask"]}
{"id": "C31", "title": "PSI update keeps factors, mappings and history consistent", "statement": "After any successful train and any sequence of updates (any of the supported configurations) the number of user rows and item columns of the factors equals the number of mapped users and items, the mappings stay one-to-one and contiguous, all users and items seen so far are known with unchanged indices, and every index handed to a matrix constructor is in range.", "quantifier": "every training table, every finite sequence of chunks, every configuration", "why_tests_cant": "Invariant over unbounded histories.", "anchors": ["source/models/psi.py:PSI.update", "source/models/psi.py:PSI.process_data_for_calculations", "source/models/psi.py:PSI._updater"]}
{"id": "C32", "title": "PSI new rows line up with the ids they belong to", "statement": "The column of new data appended for a new user (item) is appended at exactly the position given by the index the mapping assigns to that user (item).", "quantifier": "every chunk and reachable state", "why_tests_cant": "Relates two orderings for all inputs.", "anchors": ["source/models/psi.py:PSI.process_data_for_calculations", "source/models/psi.py:PSI._add_new_entities_and_get_local_map"]}
{"id": "C33", "title": "PSI and SVD filter everything ever seen", "statement": "After training and any sequence of PSI updates, the filtered recommendations for a user never contain any item that user interacted with in any table passed to the model so far.", "quantifier": "every training table, every sequence of chunks, every user list, every k >= 1 and every admissible argpartition result, by index and by external id", "why_tests_cant": "End-to-end safety over unbounded histories.", "anchors": ["source/models/psi.py:PSI._update_history", "source/models/svd.py:SVD.recommend"]}
{"id": "C34", "title": "TIRec update routes every delta entry to exactly one step", "statement": "TIRec processes every delta entry in exactly one of its four steps and leaves none over; every new user and new item gets at least one entry.", "quantifier": "every chunk and reachable state", "why_tests_cant": "Case distinction over all mixes.", "anchors": ["source/models/tirec.py:TIRec.update", "source/models/tirec.py:_get_divide_inds_array_mask"]}
{"id": "C35", "title": "TIRec/TIRecA sizes follow the mappings and indices stay in range", "statement": "After any sequence of updates the user and item factor matrices have exactly one row per mapped user and item, and at every step every user and item index is within the factor matrices of that moment (or the local re-indexed range).", "quantifier": "every training table and every sequence of chunks", "why_tests_cant": "Invariant over unbounded histories; the step order changes sizes midway.", "anchors": ["source/models/tirec.py:TIRec.update", "source/models/tirec_accelerated.py:TIRecA.update"]}
{"id": "C36", "title": "TIRec/TIRecA new factor rows line up with the ids they belong to", "statement": "The factor row appended for a new user (item) is at the row number the mapping assigns to that user (item).", "quantifier": "every chunk and reachable state", "why_tests_cant": "Relates the order of steps with the order of id assignment for all mixes of new users and items.", "anchors": ["source/models/tirec.py:TIRec.update", "source/models/tirec.py:TIRec._map_to_local", "source/models/tirec_accelerated.py:TIRecA.update"]}
{"id": "C37", "title": "TIRecA applies every delta entry exactly once", "statement": "In the default configuration every delta entry contributes exactly once to the factor update (either by the block of new users and new items or by the integrator).", "quantifier": "every chunk and reachable state", "why_tests_cant": "Counts applications for all mixes of new and old.", "anchors": ["source/models/tirec_accelerated.py:TIRecA.update"]}
{"id": "C38", "title": "TIRec-family filters everything ever seen", "statement": "After training and any sequence of updates, the filtered recommendations for a user never contain any item the user interacted with in any table passed to update.", "quantifier": "every sequence of chunks; in the proved part sequence length >= 2, at least two items and k >= 1", "why_tests_cant": "Depends on how many interactions a user has in one chunk.", "anchors": ["source/models/tirec.py:TIRec._update_history", "source/models/tirec_accelerated.py:TIRecA._update_history"]}
{"id": "C39", "title": "Re-sent identical interactions are harmless", "statement": "An update whose chunk leaves all sequential windows unchanged leaves the model usable and unchanged apart from its viewed history.", "quantifier": "every model state and every such chunk", "why_tests_cant": "Needs the rare chunk with an empty delta.", "anchors": ["source/models/tirec.py:TIRec.update"]}
{"id": "C40", "title": "Projector-splitting step: exact error identity", "statement": "For orthonormal V and any increment dA, the factors after one step reconstruct U S V^T + dA - (I-U1 U1^T) dA (I-V V^T) exactly (in exact arithmetic), where U1 is the returned left factor; hence the step is exact when dA's rows lie in the old row space or its columns lie in the new column space, in particular dA=0 changes nothing.", "quantifier": "every factors, every increment of matching shape and every QR factorisation", "why_tests_cant": "Identity over all real matrices.", "anchors": ["source/psi.py:psi_step"]}
{"id": "C41", "title": "Projector-splitting step keeps orthonormal factors of the right shape", "statement": "The returned left and right factors have orthonormal columns/rows, row/column counts unchanged, and rank at most the previous rank.", "quantifier": "every factors and increment", "why_tests_cant": "All matrices.", "anchors": ["source/psi.py:psi_step"]}
{"id": "C42", "title": "Appending vectors to an SVD is exact before truncation", "statement": "For orthonormal-or-not U, the extended factors reproduce [U S V^T | N] exactly before truncation (with or without re-orthogonalisation), and the returned factors reproduce the truncated version of the small core; if the core's truncated SVD is exact the result is exact. The right factor gains one column per new vector.", "quantifier": "every factors, every block of new vectors, every QR/SVD", "why_tests_cant": "Identity over all matrices.", "anchors": ["source/psi.py:update_svd_new_vectors"]}
{"id": "C43", "title": "Appending vectors returns orthonormal left vectors", "statement": "The left factor returned after appending vectors has orthonormal columns whenever the input factor has. (Re-orthogonalisation is done exactly if the signed inner product of the first and the last column of the extended basis is above 1e-10.)", "quantifier": "every factors and new vectors, every QR/SVD meeting their contracts", "why_tests_cant": "Fails only on rank-deficient complements with a negative inner product.", "anchors": ["source/psi.py:update_svd_new_vectors"]}
{"id": "C44", "title": "Appending an independent block to an SVD is exact before truncation", "statement": "Block-diagonal extension of the factors reproduces blockdiag(U S V^T, N) exactly; with diagonal S the kept components are the `rank` largest singular values in non-increasing order.", "quantifier": "every factors and block", "why_tests_cant": "Identity over all matrices and orderings.", "anchors": ["source/psi.py:update_svd_new_submatrix"]}
{"id": "C45", "title": "Zero embeddings leave existing predictions untouched", "statement": "Adding zero embeddings for new users or items leaves every existing prediction unchanged and predicts 0 for the new ones.", "quantifier": "every factors and number of new rows", "why_tests_cant": "All matrices.", "anchors": ["source/models/psi.py:PSI._add_zero_embeddings", "source/models/tirec_accelerated.py:TIRecA._add_zero_embeddings"]}
{"id": "C46", "title": "Random embeddings leave existing predictions untouched", "statement": "Adding random embeddings for new users or items followed by re-orthogonalisation leaves every existing prediction unchanged.", "quantifier": "every factors, random draws and QR", "why_tests_cant": "Needs general (non-commuting) matrices.", "anchors": ["source/models/psi.py:PSI._add_random_embeddings", "source/models/tirec_accelerated.py:TIRecA._add_random_embeddings"]}
{"id": "C47", "title": "Randomised SVD is a projection onto an orthonormal range", "statement": "The untruncated randomised SVD reproduces Q Q^T X, is exact when the sketch captures the range of X, and its left vectors are orthonormal; the number of returned components is min(rank, available).", "quantifier": "every matrix, random draw, power iteration count, QR and SVD", "why_tests_cant": "All matrices.", "anchors": ["source/random_svd.py:random_svd"]}
{"id": "C48", "title": "Tucker integrator with no new data changes nothing", "statement": "If the increment tensor is zero the integrator returns factors and core representing the same tensor.", "quantifier": "every factors, core and QR", "why_tests_cant": "All tensors.", "anchors": ["source/tucker_integrator.py:tucker_intergrator"]}
{"id": "C49", "title": "Tucker integrator uses the attention-weighted position factor in every mode", "statement": "With an attention matrix A the position factor used in the user step and in the item step is A W.", "quantifier": "every attention matrix and factors", "why_tests_cant": "A single application is indistinguishable for identity attention.", "anchors": ["source/tucker_integrator.py:tucker_intergrator"]}
{"id": "C50", "title": "Appending slices to a Tucker model", "statement": "Appending new slices along a mode keeps the old part of the tensor and appends the new slices projected on the other modes' factors (before truncation), the factor of that mode gains exactly one row per new slice and the other factors are untouched.", "quantifier": "every factors, core, new slices (not more than the entries of one slice, otherwise ValueError) and mode; the exact part for orthonormal other factors when the extended unfolding has at most the model rank and the sketches capture it", "why_tests_cant": "All tensors.", "anchors": ["source/tucker_integrator.py:update_tucker_new_vectors"]}
{"id": "C51", "title": "Appending an independent block to a Tucker model", "statement": "The extended core with block-diagonal factors represents the old tensor on the old indices, the (position-projected) new block on the new indices and 0 on mixed indices; user/item factors gain exactly one row per new user/item.", "quantifier": "every factors, core, valid rank triple and new block; the exact part for orthonormal factors and routines meeting their contracts", "why_tests_cant": "All tensors.", "anchors": ["source/tucker_integrator.py:update_tucker_new_matrix"]}
{"id": "C52", "title": "Dense unfolding and folding are inverse", "statement": "fold_dense(unfold_dense(t, m), shape, m) = t and unfold_dense(fold_dense(x, shape, m), m) = x for every 3-way tensor, matrix of matching shape and mode 0,1,2; entry (i_m, i_a + n_a*i_b) of the unfolding is t[i_0,i_1,i_2].", "quantifier": "every shape, tensor and mode", "why_tests_cant": "All shapes, in particular asymmetric ones.", "anchors": ["source/tensor_operations.py:unfold_dense", "source/tensor_operations.py:fold_dense"]}
{"id": "C53", "title": "Sparse and dense unfoldings agree", "statement": "The sparse unfolding of COO data equals the dense unfolding of the tensor whose cells are the sums of the values at each coordinate; all produced column numbers are in range and distinct cells get distinct columns; incompatible lengths or modes raise the documented errors, and index arrays with fewer than three columns IndexError (also without rows).", "quantifier": "every COO tensor with in-range indices and every mode", "why_tests_cant": "All shapes and index sets including duplicates.", "anchors": ["source/tensor_operations.py:unfold_sparse", "source/tensor_operations.py:unfold_dense"]}
{"id": "C54", "title": "Core construction equals the multilinear formula in all variants and schedules", "statement": "construct_core, construct_core_parallel (under any assignment and interleaving of its parallel iterations) and construct_core_parallel_dense all return sum over entries of value*u1*u2*u3, independent of the order of the entries.", "quantifier": "every COO tensor, factors and every schedule of the parallel loop", "why_tests_cant": "Schedules and sizes are unbounded.", "anchors": ["source/tensor_operations.py:construct_core", "source/tensor_operations.py:construct_core_parallel", "source/tensor_operations.py:construct_core_parallel_dense"]}
{"id": "C55", "title": "Sparse tensor-matrix products equal their formulas", "statement": "tensordot2 and tensordot return the mode products of the tensor represented by the COO data for every mode (pair, in either order), and tensordot2 rejects equal or out-of-range modes with RuntimeError and shapes beyond 3-way with NotImplementedError.", "quantifier": "every COO tensor, factors and modes", "why_tests_cant": "All sizes and mode orders.", "anchors": ["source/tensor_operations.py:tensordot2", "source/tensor_operations.py:tensordot"]}
{"id": "C56", "title": "Projected unfolding product uses every entry", "statement": "The product of the mode-n unfolding with the Kronecker factor and Q uses every COO entry exactly once, whatever their number.", "quantifier": "every COO tensor of any number of entries", "why_tests_cant": "The deviation needs more than 10000 entries, not a multiple of 10000.", "anchors": ["source/tensor_operations.py:sparse_tensor_double_tensor", "source/tensor_operations.py:sparse_tensor_double_tensor_old"]}
{"id": "C57", "title": "Dense-sparse round trip", "statement": "Converting a dense tensor to COO and back is the identity; converting COO data with repeated coordinates to dense yields the sum as everywhere else in the library.", "quantifier": "every tensor / COO list", "why_tests_cant": "All shapes and duplicate patterns.", "anchors": ["source/tensor_operations.py:dense_to_sparse_tensor", "source/tensor_operations.py:sparse_to_dense_tensor"]}
{"id": "C58", "title": "Tucker reconstruction formula", "statement": "get_tucker_element and construct_tensor_from_tucker equal the triple sum core*u1*u2*u3 at every index.", "quantifier": "every factors and core", "why_tests_cant": "All sizes.", "anchors": ["source/tensor_operations.py:get_tucker_element", "source/tensor_operations.py:construct_tensor_from_tucker"]}
{"id": "C59", "title": "Relative errors vanish exactly on perfect reconstruction", "statement": "The relative tensor/matrix errors are non-negative and are 0 iff the factorisation reproduces every listed value; the diagonal and matrix forms of S give the same error.", "quantifier": "every data within the shape and factors of matching shapes; the dense version for non-empty matrices", "why_tests_cant": "All data.", "anchors": ["source/tensor_operations.py:sqrt_err_relative", "source/matrix_operations.py:sqrt_err_relative", "source/matrix_operations.py:sqrt_err_relative_mtx"]}
{"id": "C60", "title": "Rank validation", "statement": "Parameters are accepted iff the tensor is at most 3-way and each rank is at most the product of the other two; otherwise NotImplementedError / RuntimeError is raised before any work.", "quantifier": "every shape and rank triple", "why_tests_cant": "All triples.", "anchors": ["source/rp_hooi.py:tucker_rank_is_valid", "source/rp_hooi.py:check_params"]}
{"id": "C61", "title": "Iteration control of the alternating factorisation", "statement": "The factorisation performs at most n_iter sweeps; exactly n_iter if forced; otherwise it stops after the first sweep whose exit callback returns True or, without callback, whose relative core growth is below the tolerance; the callback is consulted exactly once per sweep with that sweep's factors and core; n_iter=0 performs none.", "quantifier": "every number of iterations, callback behaviour and growth sequence", "why_tests_cant": "All callback histories.", "anchors": ["source/rp_hooi.py:ga_satf", "source/rp_hooi.py:rp_hooi"]}
{"id": "C62", "title": "No look-ahead in the dynamical experiment", "statement": "The recommendations scored against chunk i are produced by the model trained on the initial data and updated with chunks 1..i-1 only; changing chunk i or later does not change metrics of earlier steps.", "quantifier": "every model, initial data, stream and number of iterations", "why_tests_cant": "A causality property over all streams.", "anchors": ["source/experiments/dynamical_experiment.py:dynamical_experiment"]}
{"id": "C63", "title": "Length of the recorded dynamics", "statement": "A completed experiment over T=min(how_many_iterations, number of chunks) steps (T = all chunks if how_many_iterations is 0) records T hit rates, MRRs and norms, T+1 computation times and max(T-1,0) stability and drift values.", "quantifier": "every model and stream", "why_tests_cant": "All stream lengths.", "anchors": ["source/experiments/dynamical_experiment.py:dynamical_experiment"]}
{"id": "C64", "title": "Data given to each retraining step", "statement": "In concatenated mode step i retrains on the initial data followed by chunks 1..i (cropped to the last L per user for sequence models); in chunk mode it updates with chunk i alone.", "quantifier": "every stream", "why_tests_cant": "All stream lengths.", "anchors": ["source/experiments/dynamical_experiment.py:dynamical_experiment"]}
{"id": "C65", "title": "Initial/stream split loses and duplicates nothing", "statement": "The initial data is the prefix of int(n*ratio) rows and the stream's chunks, in increasing day (group) order, contain every remaining row exactly once, original order preserved within a day.", "quantifier": "every table and ratio in [0,1]", "why_tests_cant": "All tables.", "anchors": ["source/experiments/prepare_data.py:prepare_data_for_experiment"]}
{"id": "C66", "title": "Day groups reach the minimum size and merge the tail", "statement": "Grouping consecutive days yields contiguous groups in time order, labelled by their first day, each with more than the minimum number of actions, a too small tail being merged into the previous group.", "quantifier": "every day count sequence and minimum", "why_tests_cant": "Tail cases depend on all preceding counts.", "anchors": ["source/experiments/prepare_data.py:get_date_to_group_mapping"]}
{"id": "C67", "title": "Stability users are known and most active", "statement": "The users chosen for the stability test are at most 50, distinct, present in the initial data, active within the first days, and no omitted eligible user is active on more of those days than a chosen one.", "quantifier": "every table and day limit", "why_tests_cant": "All tables and tie patterns.", "anchors": ["source/experiments/prepare_data.py:get_users_stability"]}
{"id": "C68", "title": "Train/validation split by time", "statement": "The split puts every row in exactly one part, all training days strictly before all validation days, a day never split, and the validation part non-empty for non-empty data.", "quantifier": "every table and quantile in [0,1]", "why_tests_cant": "All tables.", "anchors": ["source/experiments/prepare_data.py:train_test_split"]}
{"id": "C69", "title": "p-core filtering yields the largest p-core", "statement": "The filter terminates and returns, in original order, the unique largest sub-table in which every remaining user and item has at least p interactions.", "quantifier": "every table and p", "why_tests_cant": "Needs arbitrarily long cascades of removals.", "anchors": ["load_data.py:pcore_filter"]}
{"id": "C70", "title": "Categorical encoding is an order-preserving bijection", "statement": "Encoding a column replaces the values by 0..k-1 in sorted order of the k distinct values: equal values get equal codes, smaller values smaller codes, and the decoding exists.", "quantifier": "every column", "why_tests_cant": "All columns.", "anchors": ["prepare_data.py:encode_column"]}
{"id": "C71", "title": "Random grid search draws valid configurations", "statement": "The random grid contains, besides the cached points, only configurations of the product that were not skipped; when it completes it has max(|cache|, n-|skipped|) points; interrupting it at any point returns such a valid partial grid.", "quantifier": "every parameter grid, n, cache, skip predicate, random choices and interruption point", "why_tests_cant": "All random sequences and interruption points.", "anchors": ["source/random_grid.py:random_grid"]}
{"id": "C72", "title": "Random grid search can always finish", "statement": "From every state reached, some sequence of draws completes the search.", "quantifier": "every parameter grid, n, skip predicate and state reached", "why_tests_cant": "A termination property.", "anchors": ["source/random_grid.py:random_grid"]}
{"id": "C73", "title": "Full grid enumerates the product", "statement": "The full grid contains exactly the tuples choosing one listed value per parameter, in parameter order, each once.", "quantifier": "every parameter dictionary", "why_tests_cant": "All grids.", "anchors": ["source/random_grid.py:full_grid"]}
{"id": "C74", "title": "Early-stopping callback", "statement": "The callback records every score it does not stop on, stops exactly at the (relax+1)-th consecutive call without a new best score, never on an improving score, and its recorded maximum is the maximum of 0 and all recorded scores.", "quantifier": "every sequence of scores and relax value", "why_tests_cant": "All score sequences.", "anchors": ["source/experiments/hyperparameters_search.py:prepare_exit_callback"]}
{"id": "C75", "title": "Best hyper-parameters are selected", "statement": "The selected SVD rank attains the maximal metric and is the smallest such rank; the selected tensor parameters are among the first five sweeps, attain the maximal metric of those (with non-zero attention for ML-20M) and have the smallest rank product among such rows (first one on ties).", "quantifier": "every result table", "why_tests_cant": "All tables and ties.", "anchors": ["source/experiments/hyperparameters_search.py:get_optimal_svd_rank", "source/experiments/hyperparameters_search.py:get_optimal_tdrec_params"]}
{"id": "C76", "title": "New-entity statistics add up", "statement": "Over a stream, the initial users plus all counted new users (both kinds) equal the number of distinct users seen, and each user is counted at its first chunk only; likewise for items.", "quantifier": "every stream", "why_tests_cant": "All streams.", "anchors": ["source/experiments/prepare_graphs.py:plot_new_entities_dynamics"]}
{"id": "C77", "title": "Matrix splitting loses nothing", "statement": "Splitting a matrix along an axis returns consecutive blocks whose concatenation is the matrix; the step must be positive (otherwise an error).", "quantifier": "every matrix and ratios", "why_tests_cant": "All sizes and ratios.", "anchors": ["source/matrix_operations.py:split_matrix"]}
{"id": "C78", "title": "Returned core is the projection of the data on the returned factors", "statement": "Whenever at least one sweep is made, the core returned by the alternating factorisation is the training tensor multiplied by the returned user and item factors and by attention times the returned position factor, and the factors have one row per slice.", "quantifier": "every COO tensor, attention matrix, rank, initialisation, callback and numerical routine", "why_tests_cant": "Holds for all tensors and all behaviours of the random SVD.", "anchors": ["source/rp_hooi.py:ga_satf"]}
{"id": "C79", "title": "Identity attention reduces to plain RP-HOOI", "statement": "With the identity as attention, without initial factors, callback and forcing, ga_satf returns exactly what rp_hooi returns and raises exactly when it raises.", "quantifier": "every tensor, shape, rank, number of iterations and tolerance", "why_tests_cant": "Equality of two programs on all inputs including errors.", "anchors": ["source/rp_hooi.py:ga_satf", "source/rp_hooi.py:rp_hooi"]}
{"id": "C80", "title": "Tucker factors have orthonormal columns", "statement": "If QR and SVD return orthonormal factors, all three factors returned by the alternating factorisation have orthonormal columns, unless initial factors were given and no sweep was made.", "quantifier": "every input and every number of sweeps", "why_tests_cant": "Quantifies over all tensors and iteration counts.", "anchors": ["source/rp_hooi.py:ga_satf", "source/random_svd.py:random_svd"]}
{"id": "C81", "title": "Alternating factorisation succeeds exactly for ranks within the dimensions", "statement": "For a valid rank, data inside the tensor and a matching attention matrix the factorisation never raises if no rank exceeds its dimension, and returns factors of exactly the requested shapes; if some rank exceeds its dimension it raises ValueError as soon as a sweep is requested.", "quantifier": "every tensor, valid rank, attention matrix, number of sweeps and non-raising callback; the failure for positive ranks and a tensor with at least one user and item", "why_tests_cant": "Totality over all inputs.", "anchors": ["source/rp_hooi.py:ga_satf"]}
{"id": "C82", "title": "Projector-splitting step recovers matrices of the same rank exactly", "statement": "If the right factor V has orthonormal rows and the target A = U S V + dA satisfies that its columns are combinations of the columns of A V^T (e.g. A has rank at most r and A V^T has the same rank), the factors returned by one step multiply to A exactly, whatever the size of the increment.", "quantifier": "every factors, increments and QR factorisation meeting its contract", "why_tests_cant": "An algebraic identity over all matrices with a range condition.", "anchors": ["source/psi.py:psi_step"]}
{"id": "C83", "title": "Appending users or items to PSI keeps the predictions of existing ones", "statement": "In the default configuration, when the extended data matrix has rank at most the model rank and the random sketch captures it, appending new users (items) leaves every prediction for existing users and items unchanged and gives the new ones exactly their data, whatever the (possibly non-symmetric) core matrix left by earlier updates.", "quantifier": "every factors with orthonormal columns, every core matrix, every block of new users or items, every QR/SVD meeting their contracts", "why_tests_cant": "Wrong only for cores that are not symmetric, i.e. after an earlier projector-splitting step; needs identities over all matrices.", "anchors": ["source/models/psi.py:PSI._updater", "source/psi.py:update_svd_new_vectors"]}
{"id": "C84", "title": "The random recommender is consistent and filters the training data", "statement": "After training on a non-empty table the sizes are the numbers of distinct users and items and the history refers to existing indices; filtered recommendations consist of min(k, #items) distinct catalogue items, none of which the user has in the training table, whatever is drawn; consecutive calls use disjoint parts of the random stream, and no number is used twice within a call.", "quantifier": "every training table (with at least two items for filtered requests), every user list, every k >= 1, every sequence of draws", "why_tests_cant": "Holds for every draw and every table.", "anchors": ["source/models/random_rec.py:RandomRec.train", "source/models/random_rec.py:RandomRec.recommend"]}
{"id": "C85", "title": "The Tucker integrator returns the projection of the incremented tensor", "statement": "For a non-empty increment, with or without attention, sequential or parallel, the integrator succeeds, returns factors of the given shapes with orthonormal columns, and its core is the projection on them of the old tensor plus the increment (whose position mode is multiplied by the transposed attention matrix).", "quantifier": "every factors, core, increment and every result of the numerical routines allowed by their contracts", "why_tests_cant": "Holds for all tensors and all QR conventions.", "anchors": ["source/tucker_integrator.py:tucker_intergrator"]}
{"id": "C86", "title": "The Tucker integrator reproduces a tensor that stays on the rank manifold", "statement": "If the row spaces of all three unfoldings of old tensor + increment (weighted by the attention) are reached through the old factors of the other modes (in particular its Tucker rank is at most the model's), the integrator represents old tensor + increment exactly.", "quantifier": "every orthonormal factors, core, non-empty increment and attention matrix", "why_tests_cant": "Exactness is a statement about all tensors of the given rank.", "anchors": ["source/tucker_integrator.py:tucker_intergrator"]}
{"id": "C87", "title": "The matrix-free operator of the Tucker update is the explicit matrix", "statement": "kron_mv and kron_rmv multiply by the transpose of core_unf (lf^T kron rf^T) and by the matrix itself, so they are adjoint to each other and explicit_calc=False decomposes the same matrix as explicit_calc=True.", "quantifier": "every core, factors and vectors", "why_tests_cant": "All sizes and values; a wrong reshape order agrees on symmetric cases.", "anchors": ["source/tucker_integrator.py:update_tucker_new_vectors"]}
{"id": "C88", "title": "HOSVD factors are orthonormal, its core is the projection, and it is exact on low-rank tensors", "statement": "hosvd and hosvd_dense return factors with orthonormal columns of the requested shapes and the projection of the tensor on them as core; a tensor whose multilinear rank is at most the requested rank is reproduced exactly; an invalid rank is refused; tucker2_dense with full rank represents every tensor exactly.", "quantifier": "every tensor, every valid rank not larger than the shape (sparse version: smaller than shape and unfolding, otherwise ValueError), every result of the numerical routines allowed by their contracts", "why_tests_cant": "All tensors and all admissible SVD results.", "anchors": ["source/hosvd.py:hosvd", "source/hosvd.py:hosvd_dense", "source/hosvd.py:tucker2_dense"]}
{"id": "C89", "title": "An updated TIRec/TIRecA model always recommends", "statement": "After training and any sequence of successful updates, asking a TIRec or TIRecA model for top-k recommendations succeeds for every list of known users that have enough unseen items left, and gives every user min(k, number of items) different known items.", "quantifier": "every training table, every sequence of chunks, seq_len >= 2, every k >= 1, every list of known users, unfiltered or (with at least two known items) filtered", "why_tests_cant": "Needs the joint invariant of factor sizes, histories and mappings over unbounded update sequences.", "anchors": ["source/models/tirec.py:TIRec.update", "source/models/tirec_accelerated.py:TIRecA.update", "source/models/tdrec.py:TDRec.recommend"]}
{"id": "C90", "title": "Search scores are scores of real models", "statement": "A score the tensor hyper-parameter search reports for a configuration and n_iter = j is the validation metric of a fresh model of that configuration trained on the training part with exactly j sweeps; at most n_iter scores are recorded.", "quantifier": "every training and validation table, configuration, patience, metric and linear-algebra oracle", "why_tests_cant": "All tables and configurations; the callback overwrites the attributes of the model in the middle of training.", "anchors": ["source/experiments/hyperparameters_search.py:prepare_exit_callback", "source/experiments/hyperparameters_search.py:get_hparams_metric_grid_tdrec", "source/rp_hooi.py:ga_satf"]}
{"id": "C91", "title": "Search tables are complete", "statement": "The SVD search table has exactly one row per combination of the listed values with the score of that combination; the tensor table has exactly one row per combination and recorded score, numbered from 1; if any combination fails the search fails.", "quantifier": "every parameter grid, every iteration order of the grid set and every score function", "why_tests_cant": "All grids and orders.", "anchors": ["source/experiments/hyperparameters_search.py:get_hparams_metric_grid_svd", "source/experiments/hyperparameters_search.py:get_hparams_metric_grid_tdrec"]}
{"id": "C92", "title": "Recorded series belong to consecutive models", "statement": "In a completed experiment the i-th HR, MRR and norm values are those of the model that meets chunk i, before it is updated with it; the i-th stability value compares the recommendations of the models that meet chunks i and i+1, with the item count of the newer one; the i-th drift value is computed from the embeddings of the same two models, the older one filled up with zero rows, and is -1 exactly when the item matrix shrinks from the third step on; the i-th time is the duration of the i-th training call.", "quantifier": "every recommender model, stream, configuration, norm and clock", "why_tests_cant": "Loop-carried variables over streams of any length and any model.", "anchors": ["source/experiments/dynamical_experiment.py:dynamical_experiment", "source/general_functions.py:rel_norm", "source/general_functions.py:elapsed_time"]}
{"id": "C93", "title": "Which recommender the experiment script scores", "statement": "In a completed run of the experiment script, the model that meets chunk i is, for SVD, one freshly trained with the selected rank on the initial rows and all earlier chunks; for PSIRec, TIRec and TIRecA, one trained on the initial rows and updated with the earlier chunks in order; for TDRec and TDRecReinit, the same object trained again after every chunk on the cropped table of all rows so far (TDRecReinit starting from its factors and id mappings); its HR, MRR, recommendations and embeddings are the recorded ones. Any other model name raises. If the fixed settings of the class are missing from the configuration, prepare_model raises KeyError after the rank was selected.", "quantifier": "every data set, configuration, random draw, linear-algebra routine and clock", "why_tests_cant": "End-to-end statement over all streams and all seven model names, across six files.", "anchors": ["dynamical_experiment.py", "source/experiments/dynamical_experiment.py:full_dynamical_experiment", "source/experiments/prepare_model.py:prepare_model"]}
{"id": "C94", "title": "Retrained TDRec equals freshly trained TDRec", "statement": "The TDRec object that meets a chunk in the experiment equals one freshly trained on the cropped table of the initial rows and all earlier chunks, so that its recorded scores are those of a model trained from scratch.", "quantifier": "every stream and configuration", "why_tests_cant": "State kept between trainings of one object over any number of chunks.", "anchors": ["source/models/tdrec.py:TDRec.train", "source/experiments/prepare_model.py:prepare_tdrec", "source/experiments/dynamical_experiment.py:dynamical_experiment"]}
{"id": "C95", "title": "Stability compares the same items", "statement": "The models that meet two consecutive chunks give every user and item known to the first the same internal number, so that the stability value computed from internal item numbers compares the same catalogue items.", "quantifier": "every model of the experiment, every stream and configuration", "why_tests_cant": "Relates two models trained or updated separately, for all tables.", "anchors": ["source/experiments/dynamical_experiment.py:dynamical_experiment", "source/data_preparation.py:get_df_with_updated_indices", "source/evaluation.py:wji_sim"]}
{"id": "C96", "title": "Every offered recommender can complete the experiment", "statement": "For each of the seven model names the experiment script accepts there are inputs with at least one chunk on which the script completes.", "quantifier": "every accepted model name", "why_tests_cant": "The failure has to be shown for every input, not for one.", "anchors": ["dynamical_experiment.py", "source/models/random_rec.py:Random", "source/experiments/dynamical_experiment.py:dynamical_experiment"]}
{"id": "C97", "title": "Selected hyper-parameters are used", "statement": "A recommender of the TDRec family prepared for the experiment has the rank, the attention exponent and the number of sweeps of the row selected from the search results.", "quantifier": "every search result table, data set and configuration", "why_tests_cant": "All result tables.", "anchors": ["source/experiments/prepare_model.py", "source/experiments/hyperparameters_search.py:get_optimal_tdrec_params"]}
{"id": "C98", "title": "The trained SVD model is the best low-rank approximation of the interaction matrix", "statement": "Training stores the leading `rank` terms of the singular value decomposition of the matrix of summed relevances (users and items in order of first appearance, singular values in decreasing order), so the scores of the trained model are, among all matrices of that rank, closest to the interaction matrix in the sum of squares; and after any number of updates the score of a user for an item is still the entry of the product of the three stored factors.", "quantifier": "every training table, every sequence of update chunks, every rank, and every sparse SVD routine meeting its contract", "why_tests_cant": "Optimality is over all matrices of the given rank, and the score identity over all update histories.", "anchors": ["source/models/svd.py:SVD.train", "source/random_svd.py:svd_step", "source/models/psi.py:PSI.update"]}
{"id": "C99", "title": "Generated test data has the announced structure", "statement": "`generate_matrix` returns a matrix of the requested shape of the form Q1 diag(s) Q2^T with orthonormal Q1, Q2 and the drawn numbers s, its rank is the number of non-zero draws, and a rank above the number of rows or columns is rejected; `gen_hilbert_tensor` lists every cell of the tensor once, in lexicographic order, with value 1/(i+j+k+1).", "quantifier": "every shape, rank and draw; every QR routine meeting its contract", "why_tests_cant": "All shapes and draws, including rank-deficient ones.", "anchors": ["source/matrix_operations.py:generate_matrix", "source/tensor_operations.py:gen_hilbert_tensor"]}
{"id": "C100", "title": "The synthetic matrix sequence", "statement": "`_get_skew_symmetric` returns the skew-symmetric part of the scaled draw; `_get_const_mtx` returns the small draw plus the block with raised diagonal in the corner; `get_dynamics_list` returns, for k = 0,1,..., the matrices (I+hT1)^k (A1 + e^(t0+kh) A2) ((I+hT2)^k)^T; and one explicit step with a skew-symmetric generator never shortens a vector: |(I+hT)v|^2 = |v|^2 + h^2 |Tv|^2.", "quantifier": "every size, block size, draw, step size and number of steps", "why_tests_cant": "Closed form for every number of steps and all draws.", "anchors": ["source/psi_experiments/psi_step_experiments.py:NumericalExperiment"]}
{"id": "C101", "title": "Errors recorded for PSI and for the recomputed SVD", "statement": "On a list of matrices of one shape both approximations record one non-negative error, one time and one step number per matrix; an error is positive whenever the matrix has rank above the requested rank; the first errors of both coincide; recomputing is exact when the rank fits and the sample captures the range; PSI stays exact, starting from an exact decomposition, on sequences in which each matrix A' has the same column space as A' A^T with A its predecessor; an empty list raises.", "quantifier": "every non-empty list of matrices, every rank, draw and clock", "why_tests_cant": "Arbitrary sequence length and matrices.", "anchors": ["source/psi_experiments/psi_step_experiments.py:get_psi_dynamics", "source/psi_experiments/psi_step_experiments.py:get_svd_dynamics", "source/psi_experiments/psi_step_experiments.py:compare_approximations"]}
{"id": "C102", "title": "The row/column experiment measures what it claims", "statement": "In a completed run of `get_dynamics_vec` step j uses as target the part of the generated matrix covered by blocks 0..j (the last target is the whole matrix), calls the decomposition with this target, block j and the factors of the step before, and records the relative error of the product and the shape of the target; with recomputed decompositions the experiment completes (rank at most the size, non-empty first block that fits, positive step) and is exact when the sample captures the range.", "quantifier": "every size, rank, non-negative first ratio, axis, decomposition function and draw", "why_tests_cant": "The decomposition function is arbitrary and the number of steps unbounded.", "anchors": ["source/psi_experiments/psi_step_experiments.py:get_dynamics_vec"]}
{"id": "C103", "title": "The block-diagonal experiment", "statement": "`split_mtx_block_diag` cuts a square matrix into diagonal blocks covering its diagonal; in a run of `get_dynamics_mtx` the target of step j is the block-diagonal part of the matrix on the first first+j*step positions, the recorded values belong to it, and the reduced rank keeps the rank of every target at most `rank`; under this bound the incremental decomposition is exact at every step.", "quantifier": "every size, rank, ratio, decomposition function and draw", "why_tests_cant": "The rank bound has to hold for all sizes and ratios; exactness for every number of steps.", "anchors": ["source/psi_experiments/psi_step_experiments.py:split_mtx_block_diag", "source/psi_experiments/psi_step_experiments.py:get_dynamics_mtx", "source/random_svd.py:update_svd_new_submatrix"]}
{"id": "C104", "title": "Prepared files are chronological and experiments never look ahead", "statement": "prepare_ml20m keeps exactly the latest fifth (rounded down) of the ratings, prepare_amazon and prepare_steam keep all records; the prepared file is in order of time with consecutive index, relevance one, and equal ids for equal names only (named ids numbered from 0 without gaps). On such a file prepare_data_for_experiment gives an initial part and a stream in which no row is later than a row of a later chunk, with and without grouping of days, and no row is lost.", "quantifier": "every raw table, every admissible (also unstable) sort, every initial ratio and grouping bound", "why_tests_cant": "All raw tables and all tie-breaking orders of the sort; end-to-end over two scripts.", "anchors": ["prepare_data.py:prepare_ml20m", "prepare_data.py:prepare_amazon", "prepare_data.py:prepare_steam", "source/experiments/prepare_data.py:prepare_data_for_experiment"]}
{"id": "C105", "title": "The day of an interaction is its calendar day", "statement": "The column 'day' of a prepared file is the UTC calendar day of the time stamp, so that a chunk of a daily stream holds the interactions of one calendar day.", "quantifier": "every time stamp", "why_tests_cant": "All time stamps; tests with morning times agree.", "anchors": ["prepare_data.py:prepare_ml20m", "prepare_data.py:prepare_amazon", "prepare_data.py:prepare_steam"]}
{"id": "C106", "title": "The Steam table holds the last review of each pair and is a 5-core", "statement": "load_steam keeps each user-item pair at most once, with its last review; every user and item has at least five rows and the table is the largest such set of last reviews; the time stamps are midnights, so the prepared day is the day of the review.", "quantifier": "every review table", "why_tests_cant": "Iterated filtering over all tables.", "anchors": ["load_data.py:load_steam", "load_data.py:pcore_filter", "prepare_data.py:prepare_steam"]}
{"id": "C107", "title": "Table statistics", "statement": "print_recsys_df_stats saves the numbers of distinct users, items and days and of rows, the mean and the median number of rows per user and the density in percent, the last three within half a hundredth; without repeated pairs the density is at most 100; an empty table raises ZeroDivisionError.", "quantifier": "every table", "why_tests_cant": "All tables, including even and odd numbers of users and rounding ties.", "anchors": ["source/data_preparation.py:print_recsys_df_stats"]}
{"id": "C108", "title": "Data dynamics cover the processed chunks", "statement": "save_data_dynamics records, for each of the T = min(how_many_iterations, number of chunks) chunks that the experiment processes, the number of distinct users and of interactions.", "quantifier": "every prepared file, ratio, grouping bound and number of iterations", "why_tests_cant": "All streams; the lengths of two independently written series have to agree.", "anchors": ["prepare_data.py:save_data_dynamics", "source/experiments/prepare_data.py:prepare_data_for_experiment"]}
{"id": "C109", "title": "Ablation files belong to the options in their names", "statement": "The ablation script writes its seven result files in the order of its options (a prefix if a run raises); the file of option (std, integrator) records a fresh model of the chosen class that is trained on the initial rows and updated with every chunk, with zero embeddings for std = 0 and std times the standard normal draws otherwise, and with the integrator option as named; its name is the model name, `_std_`, the deviation as printed (0, 1e-08, 1e-05, 0.001), `_int_` and True or False; other model names raise RuntimeError before anything is written.", "quantifier": "every data file, configuration and stream", "why_tests_cant": "Overwritten private attributes must reach every later branch of two classes over whole experiments.", "anchors": ["dynamical_ablation_study.py", "source/models/psi.py:PSI", "source/models/tirec_accelerated.py:TIRecA", "source/experiments/prepare_model.py:prepare_model"]}
{"id": "C110", "title": "Sparse HOSVD is quasi-optimal", "statement": "With a correct truncated SVD, the Tucker approximation returned by hosvd has a squared error of at most three times the squared error of every Tucker tensor with the same ranks, whatever its factors and core.", "quantifier": "every sparse real tensor, every admissible rank, both core routines, every competing factors and core", "why_tests_cant": "The best Tucker approximation is not computable in general, so a test has nothing to compare with; the bound has to hold against all competitors.", "anchors": ["source/hosvd.py:hosvd"]}
{"id": "C111", "title": "The norm of the core measures the error", "statement": "After GA-SATF (at least one sweep) the squared distance of the attended data to the returned decomposition equals the squared norm of the attended data minus the squared norm of the returned core, and no other core with these factors is closer; after one step of the projector-splitting Tucker integrator the same holds for the previous model plus the attended increment.", "quantifier": "every sparse real tensor, attention matrix, initial factors, tolerance, callback and random draw; every previous Tucker model and increment", "why_tests_cant": "The stopping rule looks only at the core; that it measures the distance to the data needs orthonormality and the exact form of the core at every exit of the loop.", "anchors": ["source/rp_hooi.py:ga_satf", "source/tucker_integrator.py:tucker_intergrator"]}
{"id": "C112", "title": "Sweeps of GA-SATF never lose ground", "statement": "When the random sketches capture the matrices they are drawn for (for instance when the random matrices have full row rank), the norm of the core never decreases and the distance of the reconstruction to the attended data never increases from one sweep of ga_satf to the next; the relative growth tested by the stopping rule is never negative.", "quantifier": "every sparse real tensor, attention matrix, initial factors, number of sweeps, tolerance and callback", "why_tests_cant": "Monotonicity is an inequality over all orthonormal competitors in each of the three steps of every sweep.", "anchors": ["source/rp_hooi.py:ga_satf", "source/random_svd.py:random_svd"]}
{"id": "C113", "title": "Appending rows or columns with incremental SVD updates reproduces the matrix once the first block has full rank", "statement": "get_dynamics_vec with get_incremental_svd_triple (axis 0, 1 or -1, positive rank that fits the size, non-empty first block, positive step) always completes. If the first block of the generated matrix already has the rank of the experiment, and the random samples capture the first block and the extended matrices, the product of the updated factors equals the target matrix in every step, so every recorded error is zero. On the other hand the number of components never grows beyond min(rank, size of the first block): in every step whose target matrix has a larger rank the recorded error is strictly positive.", "quantifier": "all sizes, ranks, ratios, generated matrices, random draws, numbers of power iterations and oversampling values, axes 0, 1 and -1, and all steps of a run", "why_tests_cant": "A run of the experiment covers one random matrix and one split; it cannot show that the error is exactly zero for every matrix and split, nor that it must be positive whenever the first block is too small.", "anchors": ["source/psi_experiments/psi_step_experiments.py:36-69", "source/psi.py:108-190"]}
{"id": "C114", "title": "Ablation curves carry the option they were computed with and none is lost", "statement": "In the ablation figures the label of a curve is the model name followed by the deviation and 0/B for the integrator flag, exactly as in the name of the result file; different runs get different labels, so no curve overwrites another. After all scripts have been run on one of the four data sets, the tensor figures show exactly TIRec, TIRecA and the seven options of TIRecA, the matrix figures exactly PSIRec and its seven options, each curve with the contents of its own file, in whatever order the directory is listed. A selected file with any other name makes the mapping raise ValueError.", "quantifier": "all model names and deviation texts without separator characters, all orders of the directory listing, all contents of the files, all other files", "why_tests_cant": "The listing order of a directory and the texts of the deviations cannot be enumerated; a label collision silently drops a curve.", "anchors": ["prepare_graphs.py:40-72", "prepare_graphs.py:106-127", "dynamical_ablation_study.py:103"]}
{"id": "C115", "title": "Figures show the recorded series", "statement": "For a non-empty set of results with series of equal length every plot function draws one line per model under its name through the recorded values (prefix sums for the cumulative figures, means over windows for the sliding-window figures) over 0, 1, 2, .... Without results the functions raise IndexError, without the series KeyError, with series of different lengths ValueError, and nothing is drawn.", "quantifier": "all dictionaries of results, all series, window lengths and modes", "why_tests_cant": "Figures are inspected by eye for one data set; the equality of every plotted point with the record, for every series and window, is never checked.", "anchors": ["source/experiments/prepare_graphs.py:24-122", "source/plotting.py:33-48"]}
{"id": "C116", "title": "Every completed set of experiments can be drawn", "statement": "All results obtained on the same data with the same settings have series of the same lengths, whatever the model and option. Hence after all scripts have completed, the graph script draws all of its figures. VIOLATED when the stream has fewer chunks than how_many_iterations: the experiments complete, but the figure of new users and items raises ValueError and neither the data figure nor any ablation figure is drawn.", "quantifier": "all data, settings, models, options, and all contents of the result files produced by completed runs", "why_tests_cant": "The failure needs a data set with a short stream; the four published data sets have long ones.", "anchors": ["prepare_graphs.py:74-128", "source/experiments/prepare_graphs.py:143-200", "source/experiments/dynamical_experiment.py:77-174"]}
{"id": "C117", "title": "Axis labels name the plotted metric", "statement": "The y axis of a metric figure names the metric and the list length, as in HR@5. VIOLATED by the stability figures, which are labelled with the mode of the figure (REGULAR@5, CUM@5) instead of WJI.", "quantifier": "all results, list lengths, modes", "why_tests_cant": "Labels are not tested at all.", "anchors": ["source/experiments/prepare_graphs.py:52-122"]}
{"id": "C118", "title": "The results table holds the means of the recorded series", "statement": "A column of the results table holds the means of the four series of the result file (NaN for an empty series); if the file is missing or lacks one of the series, all four cells are dashes. The last point of a cumulative curve equals the cell times the number of points. The time column averages over the first training and all updates.", "quantifier": "all result files, including missing and incomplete ones", "why_tests_cant": "The bare except hides every failure as a dash; tests would have to enumerate the incomplete files.", "anchors": ["get_table_results_latex.py:14-33"]}
{"id": "C119", "title": "SVD and PSIRec: a repeated interaction is never a hit in the experiment", "statement": "In every completed run of the experiment script with SVD or PSIRec, at every step, a scored (user, item) pair that occurred in the initial part or in an earlier chunk is counted as a miss: hit rate times the number of scored pairs is at most the number of scored pairs that are new, and 0 <= MRR <= hit rate. The scored pairs are: each user with a row whose two ids are known, once, with the item of the first such row.", "quantifier": "all data tables, configurations, stream lengths, steps, linear-algebra and partial-sort results for which the script completes", "why_tests_cant": "It relates the recorded metrics of every step of a whole run to all rows seen before, for arbitrary streams; tests look at single recommend calls on fixed data.", "anchors": ["source/experiments/dynamical_experiment.py:23-175", "source/models/svd.py:64-103", "source/data_preparation.py:112-129", "source/evaluation.py:7-26"]}
{"id": "C120", "title": "Sequence models: a repeated interaction is never a hit in the experiment", "statement": "The same for TDRec, TDRecReinit, TIRec and TIRecA. The code violates it: the history used for filtering holds only cropped rows, so an item the user took long ago is recommended and counted as a hit. What holds: a pair in the rows the model keeps (TDRec, TDRecReinit: the cropped table of all rows so far; TIRec, TIRecA: the cropped initial table and every chunk cropped on its own) is never a hit, with the ids of these rows (TDRecReinit: of all earlier cropped tables) counting as known.", "quantifier": "all data tables, configurations, stream lengths and steps for which the script completes", "why_tests_cant": "The witness needs a user with more interactions than the sequence length who repeats an early one in the stream; the positive part is about every step of every run.", "anchors": ["source/models/tdrec.py:236-309", "source/models/tdrec_reinit.py:100-169", "source/models/tirec.py:116-128", "source/models/tirec.py:281-314", "source/ti_data_processing.py", "source/experiments/dynamical_experiment.py:176-247"]}
{"id": "C121", "title": "Data statistics table prints the saved numbers", "statement": "If the four files data_stats.csv were written from non-empty tables, get_data_stats_latex.py prints one row per data set (ml_20m, amz_b, amz_g, steam, in this order) with the numbers of users, items and interactions, the median number of interactions per user and the density in percent. The code violates it: the median is cast to int, so a median of 3/2 is printed as 1. What holds: counts exact, the printed median is the mean of the two middle counts cut to an integer, density within half a hundredth; a missing file gives FileNotFoundError and no table.", "quantifier": "all quadruples of non-empty data tables; all sets of present files", "why_tests_cant": "The cast is wrong only for an even number of users whose two middle counts have an odd sum; the statement ties the printed table to the data through the saved file for every table.", "anchors": ["get_data_stats_latex.py:10-42", "source/data_preparation.py:83-112"]}
{"id": "C122", "title": "The search hands the experiment a rank that is best on the validation days", "statement": "If hyperparameters_search_svd completes, the model that prepare_model builds for SVD and PSIRec from the saved svd.csv has a rank of the grid whose hit rate on the validation days (trained on the days before them, every user with a known first interaction asked once) is maximal, the smallest such rank; with a non-empty grid and a known data set prepare_model succeeds. The training days precede the validation days, and neither search reads anything after the initial part of the data. A completed SVD search implies that every rank of the grid is below the numbers of users and items of its training days. For TDRec the parameters are a combination of the grid with at most five sweeps that was scored on the validation days after that many sweeps; for amz_b and steam no score of the grid after at most five sweeps is larger; that fails on the other data sets (see C75).", "quantifier": "all data, split ratios, quantiles, grids, numerical oracles and set iteration orders", "why_tests_cant": "It links three scripts through a file; a test checks one grid on one data set, the theorem covers ties, every grid and every split day.", "anchors": ["find_hyperparams.py:13-51", "source/experiments/hyperparameters_search.py:45-130", "source/experiments/hyperparameters_search.py:134-281", "source/experiments/prepare_data.py:64-69", "source/experiments/prepare_model.py:1-115"]}
{"id": "C123", "title": "Validation models are trained on the cropped histories of the earlier days", "statement": "The models scored by hyperparameters_search_tdrec are trained as in the experiment: on the last max_len interactions of every user before the validation days. The code violates it, because it crops before it splits: with L = max_len, a user with m rows on the validation days keeps only the last L - m of the earlier ones, so users with L or more validation rows are not in the training table at all. What holds: the training table is exactly that, numbered from 0, the validation table has the last L rows of the validation days, and the training table is the cropped table of the earlier days if and only if every user has no validation row, no earlier row, or at most L rows.", "quantifier": "all initial tables whose days follow the time stamps, all lengths L >= 1, all quantiles", "why_tests_cant": "The scores look plausible; the loss shows only for users with rows on both sides of the split and more than L rows.", "anchors": ["source/experiments/hyperparameters_search.py:215-225", "source/experiments/prepare_data.py:64-69", "source/ti_data_processing.py:92-106"]}
{"id": "C124", "title": "Results of run_experiments.py come from the call itself", "statement": "After a call of run_experiments.py the two search results and the result files of the experiments and ablation studies have been computed in this call from the current data. The code violates it: os.system reports a failed script only through an ignored exit code, so when a search fails the csv of an earlier call is used by all later scripts, which succeed. What holds: after any call each search result is the new one, or the old one exactly where the search failed; every result file is what the call computes with these search results, or is unchanged where it computes nothing; from an empty results directory everything present was computed in the call; if no script fails, all twenty files are of this call whatever was there before, and other files are untouched.", "quantifier": "all data, configurations, contents of the results directory, failures of scripts, clocks and numerical oracles", "why_tests_cant": "A test starts from a clean directory or a good configuration; the stale files matter only after a failure following an earlier success.", "anchors": ["run_experiments.py:6-24", "find_hyperparams.py:13-51", "dynamical_experiment.py:15-50", "dynamical_ablation_study.py:22-104", "source/experiments/hyperparameters_search.py:69-239", "source/experiments/dynamical_experiment.py:205-250"]}
{"id": "C125", "title": "The figures at the end of run_experiments.py", "statement": "If no script of the call fails, the settings are those of one configuration file, and the results directory held only data_dynamics.json and results of earlier calls, the last script draws all its figures when the stream has at least how_many_iterations chunks, and otherwise exactly the figures of the experiments before a ValueError. If a listed model has no result from this or an earlier call, no figure is drawn.", "quantifier": "all data, configurations, old results and listing orders of the directory", "why_tests_cant": "It follows the data through twelve processes and twenty-one files; equal lengths of all series must hold for every stream.", "anchors": ["run_experiments.py:6-24", "prepare_graphs.py:74-128", "source/experiments/prepare_graphs.py:24-227"]}
{"id": "C126", "title": "When the experiment with SVD or PSIRec completes", "statement": "dynamical_experiment.py completes with SVD exactly if: the data can be prepared; the selected rank is at least 1 and below the numbers of users and of items of the initial rows; every chunk taken (at most how_many_iterations) has at least one row whose user and item both occurred before; every user of such a row and every user of the stability test has at least topk known items without an interaction at that time; and there are users for the stability test if two or more chunks are taken. It completes with PSIRec exactly if in addition no chunk is crowded: with S the rows of the chunk with both ids new, the new users outside S are no more than the known items with those of S, and the new items outside S no more than the users known after the chunk. The ablation study of PSIRec writes all seven files exactly under the conditions for SVD and no file otherwise. So SVD completes wherever PSIRec does.", "quantifier": "all data, configurations with topk >= 1, clocks and numerical oracles (argpartition and argsort per contract, the sort of the counts a permutation)", "why_tests_cant": "An equivalence over all streams and configurations: no finite set of runs shows that no other exception (missing key, shape, unbound variable, index) can occur.", "anchors": ["dynamical_experiment.py:15-50", "dynamical_ablation_study.py:22-104", "source/experiments/dynamical_experiment.py:23-250", "source/models/svd.py", "source/models/psi.py", "source/evaluation.py"]}
{"id": "C127", "title": "What the four shipped configurations need", "statement": "import_config accepts exactly the names ml_20m, amz_b, amz_g and steam and raises RuntimeError for any other. In each of the four configurations: every rank combination of the tensor grid passes check_params (and exactly the listed combinations that do are tried), the grid is not empty, its third rank is at most max_len_user_history and seq_len equals max_len_user_history. With the results of all runs present, prepare_graphs.py draws twelve figures with distinct names if the rows after the initial part (the first 40%, 70%, 70%, 80% of the rows) are from at least 200, 100, 100, 50 different days, and otherwise raises ValueError after four figures. If the data have at most 290 users or items (steam: 390), the SVD search fails, and run_experiments.py in an empty directory leaves no result for SVD and PSIRec and draws no figure. Once the SVD search has completed, the experiment with SVD or PSIRec completes exactly if every step can be done (C126): the selected rank is never a reason to fail.", "quantifier": "all four configurations, all data with consecutive index labels, all numerical oracles and orders, all earlier files without results of the matrix models", "why_tests_cant": "The data sets are downloaded and large; no test runs the pipeline on them, and the minimal sizes are consequences of the whole pipeline over all data.", "anchors": ["configs/steam/config.py", "configs/ml_20m/config.py", "configs/amz_b/config.py", "configs/amz_g/config.py", "source/experiments/hyperparameters_search.py:29-108", "run_experiments.py", "prepare_graphs.py:74-137", "source/rp_hooi.py:14-30"]}
{"id": "C128", "title": "When the search for the SVD rank completes", "statement": "find_hyperparams.py with svd completes exactly if the initial rows can be split by the quantile and, for every listed rank: it is at least 1 and below the numbers of users and of items of the earlier rows, some later row has a user and an item that occur in the earlier rows, and every user of such a row has at least topk items of the earlier rows without an interaction there. What the decompositions return does not matter. If it completes, the rank selected from its result is one of those listed and the models can be trained with it on the whole initial part.", "quantifier": "all data, configurations with topk >= 1, lists of ranks and numerical oracles (argpartition per contract)", "why_tests_cant": "An equivalence over all data and grids; a test sees single grids on single tables.", "anchors": ["source/experiments/hyperparameters_search.py:44-108", "source/experiments/prepare_data.py:64-69", "source/models/svd.py", "source/evaluation.py"]}
{"id": "C129", "title": "When TDRec and TIRec can be trained", "statement": "Training on a table cropped to L places per user (as the experiments do) succeeds exactly if the longest sequence left in it has exactly the length the model was built for, and the rank fits: every entry is at most the product of the other two, and at most the number of distinct users, distinct items and places respectively. The values of the table, the random draws and the results of the decompositions do not matter.", "quantifier": "all tables, cropping lengths, ranks, sequence lengths and numbers of sweeps from 1, all numerical routines and exit callbacks that return", "why_tests_cant": "An equivalence over all tables and ranks; that a table with all sequences shorter than seq_len cannot be trained on is seen by no test on the usual data.", "anchors": ["source/models/tdrec.py", "source/tensor_operations.py", "source/rp_hooi.py"]}
{"id": "C130", "title": "When the experiment with TIRec or TIRecA completes", "statement": "dynamical_experiment.py with TIRecA completes exactly if the data can be prepared, the longest sequence of the cropped initial table has the configured length, the selected rank fits this table, every chunk taken has a row whose ids occur in the rows given to the model before (cropped initial table and cropped chunks), every user to be scored or tested for stability has topk such items left, every chunk changes the last seq_len items of some user, and there are stability users if more than one chunk is taken. With TIRec additionally no chunk brings more new users without new items, or new items without new users, than the corresponding unfolding has columns. Hence wherever TIRec completes TIRecA does.", "quantifier": "all data and configurations with topk >= 1, seq_len >= 2, positive selected ranks and two items in the table; all numerical oracles meeting the contracts of qr and argpartition", "why_tests_cant": "A run that stops depends on the data of one day, for instance a day on which users only repeat their last item; tests run one small data set.", "anchors": ["dynamical_experiment.py", "source/experiments/dynamical_experiment.py:62-174", "source/models/tirec.py", "source/models/tirec_accelerated.py", "source/ti_data_processing.py"]}
{"id": "C131", "title": "When the experiment with TDRec completes", "statement": "If the cropped tables with which the chunks are met never lose items, dynamical_experiment.py with TDRec completes exactly if the data can be prepared, the longest sequence of every cropped table (initial and after each chunk taken) has exactly the configured length and the selected rank fits each of them, every chunk taken has a row whose ids occur in the cropped table before it, every user to be scored or tested for stability has topk items of that table left, and there are stability users if more than one chunk is taken. If the table with which the second chunk is met has two items at least but fewer than the initial one, the script never completes.", "quantifier": "all data and configurations with topk >= 1, seq_len >= 2 and two items in the cropped initial table; all numerical oracles meeting the contract of argpartition", "why_tests_cant": "Whether the run stops depends on which items the sliding window drops on a certain day; an item lost before the second chunk is fatal, later it is not.", "anchors": ["dynamical_experiment.py", "source/experiments/dynamical_experiment.py:62-174", "source/models/tdrec.py", "source/ti_data_processing.py:92-106"]}
{"id": "C132", "title": "When the experiment with TDRecReinit completes", "statement": "dynamical_experiment.py with TDRecReinit completes exactly if the data can be prepared, the longest sequence of every cropped table (initial and after each chunk taken) has exactly the configured length, the selected rank fits the first of these tables, every later table contains an item that no table before it had or the item that was the last to be registered, every chunk taken has a row whose ids are registered, every user to be scored or tested for stability has topk registered items that are not theirs in the last table, and there are stability users if more than one chunk is taken. Losing other items never stops it (unlike TDRec); losing the last registered item, with no new item on that day, does.", "quantifier": "all data and configurations with topk >= 1, seq_len >= 2 and two items in the cropped initial table; all numerical oracles meeting the contract of argpartition", "why_tests_cant": "The run stops only if a certain item, the last in the order of registration, is pushed out of all sequences on a day without new items; small fixtures keep all items.", "anchors": ["dynamical_experiment.py", "source/experiments/dynamical_experiment.py:62-174", "source/models/tdrec_reinit.py", "source/rp_hooi.py", "source/ti_data_processing.py:92-106"]}
{"id": "C133", "title": "When the search for the parameters of the sequence models completes", "statement": "find_hyperparams.py with tdrec (early stopping, sequences of at least two places, item ranks of at least two) completes exactly if the initial rows can be cropped and split by the quantile and, for every listed rank: the positions of the earlier table reach exactly to the last place of a sequence, the rank fits that table, some later row has a user and an item of the earlier table, and every user of such a row has at least topk items of the earlier table without an interaction there. With max_len = seq_len the first condition means that some user has seq_len interactions and none of them on a validation day. What the decompositions return does not matter. If it completes, the models can be trained on the initial part with every listed rank. With force_n_iter it records nothing.", "quantifier": "all data, configurations with topk >= 1, lists of ranks and attention parameters, numerical oracles (argpartition per contract)", "why_tests_cant": "An equivalence over all data and grids: the failure needs that every user with a full sequence is active on a validation day, which fixtures of one split do not show.", "anchors": ["source/experiments/hyperparameters_search.py:110-239", "source/experiments/prepare_data.py:64-69", "source/ti_data_processing.py:92-106", "source/rp_hooi.py", "source/models/tdrec.py"]}
{"id": "C134", "title": "What the four shipped configurations need for the sequence models", "statement": "For the configurations ml_20m, amz_b, amz_g and steam with L = 20 (steam: 8), with days that grow with time: find_hyperparams.py with tdrec completes exactly if some user has L rows in the initial part and none of them on a validation day, the earlier part of the cropped initial table has at least 256 users and 256 (steam: 100) items, some validation row has known ids, and every user of such a row has 5 known items without an interaction. From a completed search parameters can always be chosen for amz_b and steam; for ml_20m exactly if the best metric of the rows with at most five sweeps is reached with an attention parameter other than 0; for amz_g exactly if two such rows have different metrics. The chosen rank is in the grid. Then rank and sequence length are never a reason for TDRecReinit, TIRec or TIRecA to fail: the run completes exactly if every step can be done (and the tables keep an item, the windows move, TIRec's new entities fit, as in C130 and C132); for TDRec, if the cropped tables never lose items before the last step, exactly if every step can be done and the last table has as many items as the chosen rank. All objects are built with one power iteration and oversampling 2; the sequence models with seq_len = max_len = L, 25 sweeps and early stopping.", "quantifier": "all four configurations, all data with consecutive index labels, all numerical oracles and orders per contract", "why_tests_cant": "The data sets are downloaded and large; no test runs the searches or experiments on them, and the minimal sizes are consequences of configuration, cropping, split, search and selection together over all data.", "anchors": ["configs/steam/config.py", "configs/ml_20m/config.py", "configs/amz_b/config.py", "configs/amz_g/config.py", "source/experiments/hyperparameters_search.py:110-239", "source/experiments/prepare_model.py:13-116", "dynamical_experiment.py"]}
{"id": "C135", "title": "Settings that do not influence the results", "statement": "The setting `parallel` chooses between two functions that build the core tensor. They give the same core whenever the sequential one completes, and agree in errors too unless the first factor has no column. Consequently the table of the search for the sequence models and the result of the experiment script for SVD, PSIRec, TDRec, TDRecReinit and Random, error or table, are the same for both values of the setting; for TIRec and TIRecA and for the ablation study everything that completes with parallel=False completes with the same result with parallel=True. The settings n_power_iter and oversampling of the matrix models influence neither the search for the rank nor the experiment with SVD, and no random number influences these two. The experiment reads from tdrec.csv only the ranks and the attention exponent of the selected row, not its number of sweeps or its metric.", "quantifier": "All environments (linear algebra, random draws, sorting, clock), configurations, data sets, values of the settings and result tables.", "why_tests_cant": "The absence of an influence is a statement about pairs of runs for all data and all values of a setting; comparing runs for single values of the settings cannot exclude a dependence elsewhere.", "anchors": ["source/rp_hooi.py:105", "source/tensor_operations.py:62-130", "source/tucker_integrator.py:95-100", "source/experiments/prepare_model.py:16-86", "source/models/svd.py:35-47", "source/experiments/hyperparameters_search.py:44-108", "source/experiments/hyperparameters_search.py:165-239"]}
{"id": "C136", "title": "The core is the same rounded sum in every variant", "statement": "construct_core, construct_core_parallel and every completed interleaving of the reads and writes of construct_core_parallel, with any number of threads and any distribution of the prange iterations, put into each cell of the core the value obtained by adding the products ((v*a)*b)*c of the entries one after the other in the order of the entries, starting from zero. This holds for any zero, addition and multiplication whatsoever, without associativity, commutativity or distributivity, so also for rounded floating point operations: the choice of the function and the scheduling of the threads cannot change a single bit of the result.", "quantifier": "for every type with a zero, an addition and a multiplication (no laws assumed), every list of entries inside the factors, all factors, every number of threads, every assignment of iterations to threads and every interleaving of single reads and writes", "why_tests_cant": "Tests see a few thread schedules on one machine and compare floats with a tolerance; they cannot show that no schedule and no rounding mode ever makes a difference.", "anchors": ["source/tensor_operations.py:63-95", "source/tensor_operations.py:97-130"]}
{"id": "C137", "title": "After load_data the other scripts find their files and directories", "statement": "If load_data completes, then every directory into which prepare_data, find_hyperparams, dynamical_experiment, dynamical_ablation_study and prepare_graphs write exists for all four data sets; the files read by prepare_data hold what was downloaded (the members of the archive moved from ml-20m to ml_20m, the three fields of the Amazon reviews, the Steam table); no temporary file remains; and nothing outside data, results and configs has changed. In a working directory without data and results, with reachable servers, an archive that unpacks into ml-20m and parsable reviews, load_data completes.", "quantifier": "for all initial contents of the working directory, all answers of the servers and all archives (what the files of MovieLens hold: for archives without repeated member names)", "why_tests_cant": "The loaders need the network and gigabytes of data and are not tested at all; the statement ranges over every initial state of the file system and every content of the downloads.", "anchors": ["load_data.py:24-39", "load_data.py:47-68", "load_data.py:99-123", "load_data.py:125-140", "prepare_data.py:38-97"]}
{"id": "C138", "title": "load_data cannot be run twice", "statement": "If data/ml_20m contains anything, load_data does not complete: the renaming of the freshly unpacked ml-20m fails (or an earlier step does), and if the archive unpacks into ml-20m, none of the other three data sets is loaded and everything outside data/ml-20m and the temporary archive stays as it was. Hence after a completed run that unpacked at least one file no later run completes, whatever the servers deliver.", "quantifier": "for all file systems, all server answers in both runs and all archives (the second run: for archives of the first run without repeated member names)", "why_tests_cant": "No test runs the loader, let alone twice; the claim excludes success for every possible second download.", "anchors": ["load_data.py:24-39", "load_data.py:135-140"]}
{"id": "C139", "title": "The object hook of the Amazon parser applies to nested objects", "statement": "parse_lines_amz converts every JSON object in a line, at any depth, with the same hook. A line is parsed exactly when all of its objects have the fields reviewerID, asin and unixReviewTime, otherwise KeyError is raised; one such line anywhere in the file makes load_amazon fail without writing the csv file. When all lines are parsed the table has one row per line in the order of the file, holding the last value given for each field.", "quantifier": "for all JSON values of any nesting depth, all lists of fields, all files", "why_tests_cant": "The parser is not tested; the shipped files happen to be flat, and finitely many sample lines cannot cover all nestings.", "anchors": ["load_data.py:42-45", "load_data.py:62-66"]}
{"id": "C140", "title": "Names of items, and the values of user ids and times beyond their order, have no influence", "statement": "If all items get other distinct names and the user ids, timestamps and days get other values in the same order, dynamical_experiment.py records exactly the same series for every recommender or raises the same exception, and dynamical_ablation_study.py writes the same files and ends in the same way. In particular no shift or rescaling of the time axis, no gap between ids and no choice of item names changes any result.", "quantifier": "for all tables, all order-preserving renamings of users, timestamps and days, all injective renamings of items, all configurations and recommenders, all environments whose sorts by a single key look at the key column only", "why_tests_cant": "It relates two runs on arbitrary tables under infinitely many renamings; a test compares finitely many pairs and there is no such test in the repository.", "anchors": ["dynamical_experiment.py", "dynamical_ablation_study.py", "source/experiments/dynamical_experiment.py:23", "source/experiments/prepare_data.py:31", "source/data_preparation.py:41", "source/ti_data_processing.py:92"]}
{"id": "C141", "title": "Names of users have no influence, not even through their order", "statement": "Claim: giving the users any other distinct names changes no recorded result. The code violates it for the sequence models: get_df_with_cropped_pos_column sorts by user id, so the order of the ids decides the numbering; exchanging the names of two users changes the recorded hit rates of TIRec, TIRecA and TDRecReinit and the stability of TDRec, and the table of the search for their parameters. For SVD and PSIRec it holds for every injective renaming of users and items when the test users are renamed along with the table.", "quantifier": "for all tables, all injective renamings of users and items (matrix models); a concrete table and renaming for the violation", "why_tests_cant": "The dependence shows only when two runs that differ in nothing but names are compared; the positive part quantifies over all renamings.", "anchors": ["source/ti_data_processing.py:92", "source/data_preparation.py:41", "source/experiments/dynamical_experiment.py:23", "source/models/tirec.py", "source/models/tdrec.py"]}
{"id": "C142", "title": "PSIRec follows a table of low rank exactly", "statement": "Train PSIRec on a table whose interaction matrix has rank at most the model's rank, then update it with any number of chunks that contain only known users and items. If each new interaction matrix A' satisfies rank(A' * A^T) = rank(A') for the matrix A before the chunk, then every update succeeds and afterwards the scores of every user are exactly the row of the current interaction matrix: no approximation error builds up.", "quantifier": "for all training tables, ranks from 1 below the numbers of users and of items, configurations (init and integrator variants) and all finite sequences of chunks satisfying the stated rank conditions, in exact real arithmetic", "why_tests_cant": "An equality over all tables and all sequences of updates in exact arithmetic; floating-point runs only show small errors for chosen inputs.", "anchors": ["source/models/psi.py", "source/psi.py"]}
{"id": "C143", "title": "TIRec and TIRecA follow windows of low rank exactly", "statement": "Take a TIRec or TIRecA model (either mode, no attention inside the integrator) that holds the tensor of every user's last seq_len items exactly, and update it with any number of chunks of known users and items, each of which moves some window. If each new window tensor keeps the ranks (for each unfolding, rank(A1) <= rank(A1 * A0^T)) and differs from the previous one in at most 10000 entries (or a multiple of 10000), every update succeeds and afterwards the factors reproduce exactly the window tensor of everything seen so far.", "quantifier": "for all settings, states that hold the window tensor, and finite sequences of chunks with the stated conditions, for both classes, both values of filter/sort option, in exact real arithmetic", "why_tests_cant": "An exact equality over all update sequences in exact arithmetic; it needs the exactness theorem of the integrator composed with window bookkeeping through any number of updates.", "anchors": ["source/models/tirec.py", "source/models/tirec_accelerated.py", "source/tucker_integrator.py", "source/ti_data_processing.py"]}
{"id": "C144", "title": "With full rank, TIRec and TIRecA always hold the current windows", "statement": "Claim: if the rank is the full one, a TIRec or TIRecA model trained on a cropped table with relevance one and updated with any chunks of known users and items (each moving some window) reproduces exactly the tensor of every user's last seq_len items, weighted by the attention. Violated: training writes a short sequence from the left (add_order_cropped numbers from 0) while updates compare windows padded on the left; and the light mode trains with attention but updates without. Exactly: the model holds A*Left(training table) + B*(windows now - windows of the training table), A the attention matrix, B = A, or the identity in light mode; so the claim holds if every trained user has at least seq_len rows and the mode is not light, and without attention it fails forever as soon as one user has fewer.", "quantifier": "for all training tables, configurations with full rank (both classes, both modes, all attention settings) and all finite sequences of such chunks, in exact arithmetic", "why_tests_cant": "The statement is about exact arithmetic over all tables and update sequences; a numerical test sees only an approximation error and cannot tell a misplaced entry from the loss of the low-rank approximation.", "anchors": ["source/ti_data_processing.py:13", "source/ti_data_processing.py:82", "source/models/tdrec.py:166", "source/models/tirec.py:159", "source/models/tirec_accelerated.py", "source/tucker_integrator.py"]}
{"id": "C145", "title": "tucker2 returns two orthonormal factors and the core that leaves the identity mode alone", "statement": "With correct QR and SVD routines, a rank that passes check_params and does not exceed the shape, rank equal to the shape in the identity mode and n_iter >= 1, tucker2 succeeds for each identity mode 0, 1, 2. It returns the factors of the two other modes in increasing order of mode, of shape (n_mode, r_mode) and with orthonormal columns, and a core that equals the data tensor multiplied by these two factors in their own modes and unchanged in the identity mode. Hence the squared error of the reconstruction is the squared norm of the data minus the squared norm of the core.", "quantifier": "for all sparse tensors, shapes, ranks with the stated conditions, identity modes, numbers of steps >= 1, tolerances, norm functions and random draws; the error identity over the reals", "why_tests_cant": "tucker2 is called nowhere in the repository and no test covers it; orthonormality and the core identity for every tensor, rank, mode and stopping point need a proof over the loop.", "anchors": ["source/rp_hooi.py"]}
{"id": "C146", "title": "recommend returns min(k, catalogue) items for every k and every catalogue", "statement": "Claim: a request of recommend for known users who all have at least min(k, number of items) items to choose from succeeds and returns rows of exactly that many different items, also for k = 0 and for a catalogue of one item. Violated in both cases. With k = 0 the slice [-0:] selects all items: the request returns empty rows if no requested user has two or more items to choose from and raises ValueError otherwise. With filtering and one item the mask is 0-dimensional: by index the item is returned if every requested user has still to view it (otherwise ValueError); by external id a non-empty request with k >= 1 always raises, TypeError if the first user has still to view the item and ValueError otherwise. For k >= 1 and, with filtering, at least two items the claim holds.", "quantifier": "for all catalogues, histories, score functions of the right length, requests for known users, both return modes, both orders of statements, all correct partial sorts", "why_tests_cant": "Tests use catalogues with many items and k = 10; the two edge cases depend on numpy shape rules and only a case analysis over all inputs shows that they are the only failures.", "anchors": ["source/models/svd.py:77", "source/models/tdrec.py:266", "source/models/random_rec.py:49"]}
{"id": "C147", "title": "Names have no influence on the searches and on run_experiments.py", "statement": "If all items get other distinct names and the user ids, timestamps and days get other values in the same order, find_hyperparams.py writes the same tables or raises the same exception, and a whole call of run_experiments.py leaves exactly the same files with the same contents, its scripts end with the same exceptions and the same figures are drawn. For the search of the rank of the matrix models any distinct names of users will do, in any order, and the timestamps do not matter at all. In particular the validation days depend only on the order of the days.", "quantifier": "for all tables, renamings, configurations, files present before, all environments whose sorts by a single key look at the key column only and in which later days have later stamps", "why_tests_cant": "A test compares two runs on one table and one renaming; the claim is about every table and every renaming, through training, scoring, selection, files and figures.", "anchors": ["source/experiments/hyperparameters_search.py", "source/experiments/prepare_data.py", "run_experiments.py", "source/experiments/prepare_graphs.py"]}
{"id": "C148", "title": "A longer list keeps the recommended items and the hits", "statement": "Claim: for the same trained model a request for more items (k' at least k) keeps every item recommended for k, so that the hit rate and the mean reciprocal rank do not fall. This is not so: with equal scores a correct partial sort may choose other items (a hit rate of 1 for one item becomes 0 for two), and even with different scores the mean reciprocal rank can fall because the rows are not ranked (1 becomes 1/2). What holds: if no two items open to a requested user have the same score, every item of the shorter row is in the longer one, for any two correct partial sorts, and the hit rate does not fall.", "quantifier": "for all views of a trained model with at least one item (two when items already seen are filtered), all score functions, numbers of items 1 <= k <= k', requested users, correct results of argpartition, and test items", "why_tests_cant": "argpartition gives any of many correct answers and a test sees the one of the installed numpy on one score vector.", "anchors": ["source/models/svd.py", "source/general_functions.py", "source/evaluation.py"]}
{"id": "C149", "title": "The number of recommended items has no influence on the embeddings", "statement": "If the experiment script is run twice with different values of topk and nothing else changed, and both runs complete, the recorded training times (readings of the clock), the drifts of the user and item embeddings and their norms are the same in both.", "quantifier": "for all tables, model names, settings, environments (linear algebra, random numbers, sorts, clock) and values of topk for which both runs complete", "why_tests_cant": "The recommendations are computed between two updates of the same mutable object; a test compares two runs of one model on one table.", "anchors": ["source/experiments/dynamical_experiment.py", "source/models/svd.py", "source/models/tdrec.py", "dynamical_experiment.py"]}
{"id": "C150", "title": "Stopping earlier records the beginning of the same series", "statement": "Claim: if the experiment script is run with fewer steps (how_many_iterations) the series it records are the beginnings of the series of the longer run. This is not so for the stability of the recommendations, because the users it is measured on are chosen from the first how_many_iterations days: on a table of eight rows TDRecReinit records the stability 0 for its first two models when it stops after two steps and 1/2 when it stops after three. All other series (times, hit rates, reciprocal ranks, drifts, norms) are beginnings of those of the longer run, and so is the stability if the same users are chosen.", "quantifier": "for all tables, model names, settings, environments, and numbers of steps n >= 1 and n' with n <= n' or n' < 1 (all chunks) for which both runs complete", "why_tests_cant": "A test fixes one table and two numbers of steps; the claim is about every run, and it fails only when users become active late.", "anchors": ["source/experiments/dynamical_experiment.py", "source/experiments/prepare_data.py", "dynamical_experiment.py"]}
{"id": "C151", "title": "Both printed results tables show each average under its own labels", "statement": "The first table has sixteen rows, labelled with data set and metric: the four metrics of ml_20m, amz_b, amz_g and steam in this order; the entry in the column of a model is the mean of that metric in the result file of that data set and model (NaN for an empty series), or a dash if the file is missing or lacks one of the four series. Assigning the repeated data set names as index never fails. The second table has exactly one row for each pair of metric and model, in alphabetical order of metric and then model, and its entry in the column of a data set is the same average for that data set, model and metric. Neither table mixes up or drops a row or column, whatever files are present.", "quantifier": "all sets of result files for the four data sets and six models, including missing, incomplete and empty ones", "why_tests_cant": "Each of the 24 files may be absent or incomplete, and the labels are attached afterwards by position; tests check single arrangements of files only.", "anchors": ["get_table_results_latex.py:14-51"]}
{"id": "C152", "title": "An experiment with SVD records the same, whichever singular vectors the SVD routine chooses, except for the drifts", "statement": "Training SVD on a table whose interaction matrix has a gap between its singular values number rank and rank+1 gives the same scores for every user and the same recommendations with every correct truncated SVD routine (or the same exception). A run of the experiment script with SVD therefore records the same times, hit rates, reciprocal ranks, stabilities and embedding norms with any two such routines, if the gap is present in every table trained on and norms are Frobenius norms. The recorded drifts are not determined: a routine that returns both singular vectors with the opposite sign is equally correct and gives another drift unless the old and new embeddings are orthogonal. Without the gap the scores are not determined: for two users with one item each and rank 1, one correct routine gives the first user the score 1 for their own item and another gives 0.", "quantifier": "for all tables, settings, environments and pairs of SVD routines returning a truncated singular value decomposition of each matrix they are given in the run, over the reals, with the same tie-breaking in argpartition and a spectral gap at the rank in each table trained on (for the positive part)", "why_tests_cant": "A test runs one SVD routine; that the result does not depend on the sign or basis it picks, and exactly when, has to be proved over all orthonormal bases.", "anchors": ["source/models/svd.py", "source/random_svd.py:53-96", "source/experiments/dynamical_experiment.py:95-151"]}
{"id": "C153", "title": "What PSIRec predicts after updates with known users and items is determined by the data", "statement": "Let the model be trained on a table with a gap between the singular values number rank and rank+1, and updated with chunks of known users and items. If the prediction matrix A before each update and the matrix (A+D)A^T, with D the interaction matrix of the chunk, both have rank `rank`, then training and all updates succeed with every correct SVD and QR routine, and each update replaces the prediction matrix A by A + D - (I-P) D (I-Q), where P projects orthogonally onto the columns of (A+D)A^T and Q onto the rows of A. So the scores and the recommendations do not depend on the routines. Without the rank condition they do: for rank 1 and an increment that moves a single 1 from cell (0,0) to cell (1,1), one correct QR routine makes the step return the zero matrix and another the new matrix.", "quantifier": "for all tables, chunks of known users and items, ranks from 1 to below the numbers of users and items, supported settings of the treatment of new ids, truncated SVD and QR routines, over the reals, under the stated gap and rank conditions", "why_tests_cant": "A test runs one pair of routines; independence of sign and basis choices has to hold over all orthonormal bases and all sequences of chunks.", "anchors": ["source/psi.py:psi_step", "source/models/psi.py:PSI.update", "source/models/svd.py:SVD.train"]}
{"id": "C154", "title": "The randomised SVD returns the best approximation inside the range it samples, and appending vectors with it gives the best low-rank approximation", "statement": "The product of the factors returned by random_svd is at least as close (in Frobenius norm) to the input X as every matrix of rank at most `rank` whose columns are combinations of the columns of the sketch (X X^T)^t X P, and its squared error is the squared norm of X minus the sum of the squares of the returned singular values. If the sketch captures the range of X it is at least as close as every matrix of rank at most `rank`; a random matrix P with a right inverse always captures, for every number of power iterations. Under capture, adding new items to a PSIRec model with orthonormal factors U, V and any core S (no special initialisation of new entities) yields a best approximation of rank at most r of [U S V | N], with N the new columns; adding new users yields a best approximation of rank at most r of U S^T V with the new rows below, which is the old prediction matrix for symmetric S only. Without capture the result need not be best: for diag(3,1), rank 1 and a draw that sees the second column only, the squared error is at least 9 although 1 is possible.", "quantifier": "for all real matrices, ranks, numbers of power iterations, oversampling factors and draws, with SVD and QR routines that return orthonormal factorisations (and sorted non-negative singular values); for the appending: all orthonormal factors, cores and blocks of new vectors with at least one and at most as many new items as users (new users as items)", "why_tests_cant": "Optimality is a statement about all competing matrices of the given rank, and holds for every draw and every correct routine.", "anchors": ["source/random_svd.py:random_svd", "source/psi.py:update_svd_new_vectors", "source/models/psi.py:PSI._updater"]}
{"id": "C155", "title": "run_experiments.py starts the scripts of the repository with the given data set name, and nothing else", "statement": "A call of run_experiments.py with some data set name starts exactly the two searches, the six experiments, the two ablation studies and then the figures, each with this name as data set and with the progress line enabled (it is disabled only by the text True). The code violates it: the name is pasted unquoted into a command line for os.system. It holds for every non-empty name of letters, digits and _ - . / that does not begin with a dash. With a name of several words, or an empty one, all eleven scripts stop in argparse with the usage message and nothing is computed. With a name d;prog args the ten scripts stop in argparse, the figures are drawn for d, and the program prog is executed eleven times.", "quantifier": "for all data set names of the stated forms (plain names, lists of plain words separated by blanks, a plain name followed by a semicolon and a command of plain words)", "why_tests_cant": "The scripts are started through a shell, whose treatment of the name depends on every character of it; tests try the four intended names.", "anchors": ["run_experiments.py:6-24", "find_hyperparams.py:15-22", "dynamical_experiment.py:16-23", "dynamical_ablation_study.py:24-31", "prepare_graphs.py:76-80"]}
{"id": "C156", "title": "SVD depends on its table only through the total relevance of every pair of user and item", "statement": "If two tables contain the same pairs of user and item with the same total relevance (for example the same rows in another order, with other times, or with one interaction split into several), training SVD fails on both with ValueError or succeeds on both. If it succeeds and the singular values number rank and rank+1 of the interaction matrix differ, both models give every user and item of the table the same score, although they number users and items differently, and each user whose open items have pairwise different scores is recommended the same set of items. Without the gap the score depends on the SVD routine (C152).", "quantifier": "for all tables with equal totals, ranks, truncated SVD routines that are correct on the two interaction matrices, argpartition routines, requests, k >= 1 and both values of filter_viewed, over the reals", "why_tests_cant": "A test compares a few reorderings with one routine; the permuted matrix is a different input for the SVD routine, whose answer may differ by signs and bases.", "anchors": ["source/models/svd.py:SVD.train", "source/matrix_operations.py:get_mapped_matrix", "source/models/svd.py:SVD.recommend"]}
{"id": "C157", "title": "How the users are interleaved has no influence on the sequence models", "statement": "For TDRec, TDRecReinit, TIRec and TIRecA only the rows of each user matter, not how the rows of different users are interleaved. Cropping a table gives the same table (or the same error) for any two tables in which every user has the same rows at every time, in particular after any reordering of a table in which no user has two rows at the same time; hence update of TIRec/TIRecA and any sequence of updates return the same model. If in addition every user has the same rows in the same order in the chunks, a completed experiment completes on the other stream with the same final state: same metrics, same stability records. The whole experiment on two prepared files with such initial and remaining tables gives the same result, also when the two runs sort the days differently. With two rows of one user at the same time, exchanging them can change the cropped table.", "quantifier": "all tables and chunk sequences, all lengths, all models and numerical routines, all configurations, all day sorts; numbers form an ordered field (exact arithmetic: the mean of the reciprocal ranks is a sum taken in another order)", "why_tests_cant": "It concerns all pairs of interleavings of all tables; prepare_data sorts by time with an unstable sort, so a test sees a single order per machine.", "anchors": ["source/ti_data_processing.py:get_df_with_cropped_pos_column", "source/models/tirec.py:TIRec.update", "source/models/tirec_accelerated.py:TIRecA.update", "source/models/tdrec.py:TDRec.train", "source/data_preparation.py:get_users_to_recommend_test_items", "source/data_preparation.py:prepare_data_for_experiment", "source/experiments/dynamical_experiment.py:dynamical_experiment", "source/experiments/dynamical_experiment.py:full_dynamical_experiment"]}
{"id": "C158", "title": "What TIRec and TIRecA predict after updates of known users and items is determined by the data", "statement": "Let a TIRec or TIRecA model hold a Tucker tensor T, with orthonormal item and place factors, and let D be the change of the sequence windows by a chunk of known users and items. If the three matrices (T + A D)(0) T(0)^T, (P0 T + A A D)(1) (P0 T)(1)^T and (P1 P0 T + A D)(2) (P1 P0 T)(2)^T have the rank of the model in their modes, with P0, P1 the orthogonal projectors on the columns of the first and second one and A the attention weights of updates, then the update succeeds and afterwards the model holds the incremented tensor projected in all three modes, P0 P1 P2 (T + A D). Hence two runs over the same chunks, each with its own class (TIRec or TIRecA), its own QR, SVD and random routines, its own initialisation of new vectors, parallel or not, and its own factors, which start with the same mappings, histories and tensor, end with the same tensor; if this one has the rank of the model in the modes of items and places, both give the same scores for every user and the same recommendations for all users, all numbers of items and with every selection routine. Scores depend on the factors only through the projectors V V^T and W W^T: the user factor and the core have no influence.", "quantifier": "all sizes, ranks that fit, start states that are consistent with the rows seen so far, all sequences of nonempty chunks that move some window and change at most 10000 entries of the windows (or a multiple of 10000), with or without time sort, all QR routines that return orthonormal factors with the product; exact arithmetic in an ordered field; the stated rank conditions hold at every update", "why_tests_cant": "A test runs one linear algebra library on one machine; the claim compares all QR routines and all bases of the factors over all histories.", "anchors": ["source/tucker_integrator.py:tucker_intergrator", "source/models/tirec.py:TIRec.update", "source/models/tirec.py:TIRec._updater", "source/models/tirec_accelerated.py:TIRecA.update", "source/models/tdrec.py:TDRec._recommend_user", "source/models/tdrec.py:TDRec.recommend"]}
{"id": "C159", "title": "With normal draws the randomised SVD is exact or best with probability one", "statement": "If random_svd draws independent standard normal numbers, its sketch captures the range of the matrix with probability one as soon as the rank of the matrix is at most rank + oversampling_factor, for every number of power iterations, and never if the rank is larger. Hence, with probability one: a matrix of rank at most `rank` is reproduced; for a matrix of rank at most rank + oversampling_factor the result is a best approximation of rank `rank`; appending at most oversampling_factor new items or users (or any number, if the matrix that is decomposed has rank at most rank + oversampling_factor) to a PSIRec model gives a best approximation of the old predictions with the new columns or rows; hosvd_dense reproduces every tensor of the requested multilinear rank; and the norms of the cores of ga_satf never decrease over the sweeps, if the product of two ranks is at most the third one plus the oversampling.", "quantifier": "all matrices, tensors, shapes, ranks, numbers of power iterations and oversampling; every probability space on which each drawn array has independent standard normal entries (draws of different arrays may depend on each other in any way); QR and SVD routines that meet their contracts; exact real arithmetic", "why_tests_cant": "A test sees finitely many seeds; a statement about all draws outside a null set cannot be checked by sampling, nor can the optimality among all matrices of that rank.", "anchors": ["source/random_svd.py:random_svd", "source/psi.py:update_svd_new_vectors", "source/models/psi.py:PSIRec._updater", "source/hosvd.py:hosvd_dense", "source/rp_hooi.py:ga_satf"]}
{"id": "C160", "title": "The generated test matrices have the requested rank, and the incremental experiment is exact, with probability one", "statement": "With standard normal draws generate_matrix returns with probability one a matrix whose rank is the requested one, and every leading block with at least `rank` rows and columns has this rank too. If the first block of the incremental SVD experiment has at least `rank` rows (columns) and the later ones at most oversampling_factor, then for almost all generated matrices and almost all draws of random_svd the experiment completes and all its recorded errors are zero.", "quantifier": "all sizes, ranks, shares of the first and of the later blocks, axes 0, 1 and -1, numbers of power iterations; every probability space on which each drawn array has independent standard normal entries; QR and SVD routines that meet their contracts; exact real arithmetic", "why_tests_cant": "The rank of a random matrix is only full outside a null set; tests sample a few matrices and cannot exclude a set of positive probability.", "anchors": ["source/matrix_operations.py:generate_matrix", "source/psi_experiments/psi_step_experiments.py:get_incremental_svd_triple", "source/psi_experiments/psi_step_experiments.py:get_dynamics_vec", "source/random_svd.py:random_svd"]}
{"id": "C161", "title": "The random recommender chooses uniformly among the items that may be recommended", "statement": "If RandomRec draws independent standard normal numbers, every set of min(k, number of items) items among those that may be recommended to a requested user (the catalogue, without the items of this user in the training table if filter_viewed is set) is the recommended set with the same probability 1 / C(N, min(k, number of items)), where N is the number of items to choose from. Each of these items is recommended with probability min(k, number of items) / N, and any other item with probability zero. The sets recommended to different requested users are independent.", "quantifier": "all training tables, lists of requested known users who have enough items to choose from, all k of at least 1, with and without filtering (with filtering a catalogue of at least two items), every argpartition that meets its contract (with any choice among equal scores), every probability space on which the drawn arrays have independent standard normal entries", "why_tests_cant": "Uniformity is a statement about probabilities of exponentially many sets; tests can only compare frequencies over some seeds.", "anchors": ["source/models/random_rec.py:RandomRec.recommend", "source/models/random_rec.py:RandomRec.train"]}
{"id": "C162", "title": "Expected hit rate of the random recommender", "statement": "If RandomRec draws independent standard normal numbers, the hit rate that evaluation.hr computes from its recommendations is defined for every draw, and its expectation is the mean over the requested users of the chance of the user to get the test item: min(k, number of items) / N for an item among the N items that may be recommended to this user, and zero for any other id. If the draws for different users are independent, its variance is the sum of p (1 - p) over these chances p, divided by the square of the number of users.", "quantifier": "all training tables, lists of requested known users who have enough items to choose from with one test item each, all k of at least 1, with and without filtering (with filtering a catalogue of at least two items), every argpartition that meets its contract, every probability space on which the drawn arrays have independent standard normal entries", "why_tests_cant": "Expectation and variance are integrals over all draws; tests can only average over some seeds.", "anchors": ["source/models/random_rec.py:RandomRec.recommend", "source/evaluation.py:hr"]}
{"id": "C163", "title": "GA-SATF and RP-HOOI reproduce data of small multilinear rank exactly, almost surely", "statement": "If the attended data (the data with the attention matrix applied to the last mode; for rp_hooi the data themselves) have multilinear rank at most the requested rank, which is valid and not larger than the shape, then with a random start (uniform entries, orthonormalised) and normal sketches the factors and the core returned by ga_satf and rp_hooi reproduce the attended data exactly, for almost all draws: already after one sweep, after any number of sweeps, for every tolerance, exit callback that does not raise and force flag, and for every number of power iterations and every oversampling including 0. If every product of two ranks is at most the third rank plus the oversampling, no independence of the draws is needed (they may all come from one seed). Conversely, if the attended data are reproduced, their multilinear rank is at most the requested one.", "quantifier": "for all shapes, COO data, attention matrices, valid ranks, numbers of sweeps, callbacks and tolerances; for almost all initial draws and almost all sketches drawn one after the other (in the wide case: for almost all outcomes of any probability space on which each single matrix is normal or uniform)", "why_tests_cant": "A test runs a few seeds and compares within a tolerance; it cannot show that the set of failing draws has measure zero for every tensor, nor that no independence is needed in the wide case.", "anchors": ["source/rp_hooi.py:32-40", "source/rp_hooi.py:107-122", "source/rp_hooi.py:226-264", "source/random_svd.py:42-60"]}
{"id": "C164", "title": "Sequence models trained from random starts on data of the rank of the model predict the same, almost surely", "statement": "Let the tensor of the cropped training table (user, item, position), weighted by the attention matrix, have multilinear rank at most the rank of the model, which fits the numbers of users and items. Then for almost all random draws train of TDRec (and of TIRec and TIRecA, which inherit it) succeeds and its factors reproduce that tensor exactly. If moreover the rank in the modes of items and positions is exactly that of the model, the score of item i for a user with last items x_0, x_1, … (most recent first, at most seq_len - 1 of them) is the sum over j of P1[i, x_j] * (A P2 B)[seq_len - 2 - j, seq_len - 1], where P1 and P2 are the orthogonal projectors on the item and position spaces of the tensor, A the attention matrix and B the stored inverse: a function of the table alone. So two trainings with different draws, numbers of sweeps, tolerances, callbacks and (correct) linear algebra routines give every user the same scores and the same recommendations; and so do two such models updated by TIRec or TIRecA, each class with routines of its own, along a path of tensors as in C158.", "quantifier": "for all tables with a user of at least seq_len rows, all attention functions, ranks, sweep counts, callbacks that do not raise and correct linear algebra routines; for almost all initial draws and almost all sketches drawn one after the other (with enough oversampling: for almost all outcomes of one source); for all users and lists of last items", "why_tests_cant": "A test compares a few seeds up to a tolerance; it cannot show that the scores are the same for all but a null set of draws, nor that they do not depend on which SVD or QR routine is installed.", "anchors": ["source/models/tdrec.py:166-250", "source/models/tdrec.py:252-264", "source/models/tdrec.py:266-309", "source/rp_hooi.py:226-264", "source/models/tirec.py:29-60"]}
{"id": "C165", "title": "The error of random_svd with normal draws is on average within a known factor of the best possible", "statement": "Let the sketch of random_svd be a standard normal array and oversampling_factor at least 2 (the default). Then the squared Frobenius error of the returned triple is almost surely at most a measurable bound whose mean is at most (1 + rho^(4 n_power_iter) rank / (oversampling_factor - 1)) times the sum of the squared singular values from position rank on, where rho bounds the ratio of every such singular value to every one before. In particular the mean is at most 1 + rank/(oversampling_factor - 1) times the squared error of any matrix of that rank, the probability that the squared error reaches t is at most this mean divided by t, and if rho < 1 the factor tends to 1 with the number of power iterations, whatever the routines for QR and SVD are.", "quantifier": "for all real matrices with any singular value decomposition, all ranks, numbers of power iterations and oversampling factors from 2 on, all correct QR and SVD routines, all probability spaces with normal draws, all thresholds t > 0", "why_tests_cant": "A test averages a finite number of seeds for a few matrices; the claim is a bound on an expectation over all draws and for every matrix.", "anchors": ["source/random_svd.py:8-53", "source/random_svd.py:44", "source/random_svd.py:46-47"]}
{"id": "C166", "title": "The error of hosvd_dense with normal draws is on average within a known factor of every Tucker tensor of the same ranks", "statement": "With standard normal sketches (the same for the three modes, as with a fixed seed, or not), an oversampling factor of at least 2 and a valid rank that does not exceed the shape, hosvd_dense almost surely succeeds and its squared error is at most a measurable bound whose mean is at most 3 + (r0 + r1 + r2)/(oversampling_factor - 1) times the squared error of every Tucker tensor with ranks (r0, r1, r2).", "quantifier": "for all real third order tensors, all valid ranks not above the shape, all numbers of power iterations, all oversampling factors from 2 on, all correct QR and SVD routines, all normal draws, all competing factors and cores", "why_tests_cant": "A test samples seeds and tensors; it can neither compute the expectation nor compare with all Tucker tensors of the given rank.", "anchors": ["source/hosvd.py:80-135", "source/random_svd.py:8-53"]}
{"id": "C167", "title": "Appending vectors or a block to a decomposition with normal draws is on average within a known factor of the best possible", "statement": "Let u and v be orthonormal, the core any matrix, the sketches standard normal and oversampling_factor at least 2. Then update_svd_new_vectors with at most as many new columns as rows almost surely succeeds, and the squared Frobenius distance of the product of the returned factors to [u s v | new] is at most a measurable bound whose mean is at most 1 + r/(oversampling_factor - 1) times the squared distance of [u s v | new] to any matrix of rank at most r, for any number of power iterations. The same holds for the PSI model when new items are appended, when new users are appended (for u s^T v, since the code passes s where its transpose belongs) and for update_svd_new_submatrix and the mode 'new' with a matrix core, where the reference is the block-diagonal matrix.", "quantifier": "for all real orthonormal factors, cores, new vectors and blocks, ranks, numbers of power iterations and oversampling factors from 2 on, all correct QR and SVD routines, all probability spaces with normal draws, all competing matrices of rank at most r", "why_tests_cant": "A test averages a few seeds for a few updates; the claim bounds an expectation over all draws against every matrix of the rank.", "anchors": ["source/psi.py:54-106", "source/psi.py:108-190", "source/random_svd.py:8-53", "source/models/psi.py:PSI._updater"]}
{"id": "C168", "title": "Appending a block to a decomposition with a vector of singular values gives the best approximation of the rank", "statement": "Let u and v be orthonormal and s a vector of non-negative numbers, in any order. update_svd_new_submatrix (and the mode 'new' of the PSI model outside the integrator scheme) then returns factors of rank r that are orthonormal with non-negative singular values again, and no matrix of rank at most r is closer in the Frobenius norm to blockdiag(u diag(s) v, new) than their product. The squared error is the sum of s_i^2 plus the squared norm of the new block minus the sum of the squares of the returned singular values. No random number is used.", "quantifier": "for all real orthonormal factors, non-negative vectors, new blocks of any shape, all correct SVD routines and all argsort routines (any order of ties), all competing matrices of rank at most r", "why_tests_cant": "A test compares with a few competitors, or with a library SVD for a few matrices; optimality is a statement about all matrices of the rank.", "anchors": ["source/psi.py:54-106", "source/models/psi.py:PSI._updater"]}
{"id": "C169", "title": "The error of PSI over updates with known users and items is controlled without any rank condition", "statement": "A model that predicts A is updated with rows of known users and items, with interaction matrix D. The update succeeds, and the new predictions B are the orthogonal projection of A + D to a space of dimension at most the rank that contains the columns of (A + D) A^T. So the part lost is orthogonal to B, no matrix with columns in that span is closer to A + D, and the squared loss is at most the squared distance of D to any matrix with rows in the row space of A. Over a whole run the Frobenius distance of the scores to the current table is at most the distance of the training table to any matrix of the rank plus the norms of the chunks, hence at most the distance of the current table to any matrix of the rank plus twice the norms of the chunks; the norm of the scores never exceeds the sum of the norms of the training table and the chunks.", "quantifier": "for all training tables with more users and items than the rank, all sequences of chunks of known users and items, all correct QR routines and truncated SVDs, both orders of processing, all competing matrices of rank at most the rank", "why_tests_cant": "The bound compares with all matrices of the rank and holds for chunks of any number and size; a test follows a few updates.", "anchors": ["source/psi.py:psi_step", "source/models/psi.py:PSI.update", "source/models/svd.py:SVD.train"]}
{"id": "C170", "title": "With zero embeddings and the integrator scheme PSI accepts all chunks and its error is controlled", "statement": "With _init_new_embeddings = 'zero' and _nu_ni_process_integrator = True an update with any users and items succeeds. The known users and items keep their positions and those of the chunk that are new follow. The new predictions are the orthogonal projection of A' + D, where A' is the former predictions with zeros for new users and items. Over a whole run the known users and items are exactly those of the rows seen, the distance of the scores to the table of all rows is at most the distance of the training table to any matrix of the rank plus the norms of the chunks, and at most the distance of the table of all rows to any matrix of the rank plus twice those norms.", "quantifier": "for all training tables with more users and items than the rank, all sequences of chunks, all correct QR routines and truncated SVDs, all competing matrices", "why_tests_cant": "The statement covers all mixes of known and new users and items in all chunks and compares with all matrices of the rank.", "anchors": ["source/models/psi.py:PSI.update", "source/models/psi.py:PSI._updater", "source/psi.py:psi_step"]}
{"id": "C171", "title": "In the integrator scheme with zero embeddings a new user with rows gets scores that are not all zero", "statement": "After an update in the integrator scheme with zero embeddings every new user with a non-zero row is scored by what they took: not all scores are zero. (The code violates this: rows of new users with new items have no effect on predictions of full rank, they only append zeros. What holds: the product of the new predictions of a user with the former predictions of any user equals that of the data, so a new user whose rows have a non-zero product with the former predictions of somebody gets a non-zero score.)", "quantifier": "for all models, chunks, correct QR routines", "why_tests_cant": "A test with random data mixes known and new ids in a chunk; the loss needs new users whose items are all new or not predicted for anybody.", "anchors": ["source/models/psi.py:PSI.update", "source/models/psi.py:PSI._updater", "source/psi.py:psi_step"]}
{"id": "C172", "title": "The error of TIRec and TIRecA over updates with known users and items is controlled without any rank condition", "statement": "One step of the Tucker integrator (orthonormal old item and position factors, at most 10000 entries or a multiple of it, no attention or an attention matrix with A A W = A W): the squared distance between the updated model and old model + increment is at most the sum of the three squared distances that are left when only the user factor, only the item factor or only the position factor of the old model is replaced by any matrix; in particular it is at most three times the squared norm of the increment. Over a whole run with chunks of known users and items, each of which moves some window and has at most 10000 / (2 seq_len) users, every update of TIRec and TIRecA succeeds, and the distance between the model and the tensor of every user's last seq_len items is at most the distance before the run plus, for every chunk, the square root of 6 seq_len times the number of its users.", "quantifier": "for all factors, cores, increments, replaced factors, correct QR routines, states, and finite sequences of chunks with the stated conditions, for both classes and both modes of TIRecA, in exact real arithmetic", "why_tests_cant": "The bound holds for every rank, every starting error and any number of updates, and compares with all matrices in place of each factor; a test follows a few updates of a few models.", "anchors": ["source/tucker_integrator.py:tucker_intergrator", "source/models/tirec.py:TIRec.update", "source/models/tirec_accelerated.py:TIRecA.update"]}
{"id": "C173", "title": "TIRecA with zero embeddings and the integrator scheme accepts every chunk and its error is controlled", "statement": "TIRecA with zero embeddings, the integrator scheme and no attention matrix inside the integrator, starting from any consistent state that holds a tensor S: chunks with any users and items, each of which is not empty, moves some window and has at most 10000 / (2 seq_len) users, are all accepted. Afterwards the known users and items are extended at the end only, the known users are exactly those with a row so far, all items of windows are known, and the distance between the model and the tensor of every user's last seq_len items (new users included) is at most the distance before plus, for every chunk, the square root of 6 seq_len times the number of its users.", "quantifier": "for all configurations, consistent states, held tensors, correct QR routines, and finite sequences of chunks with the stated conditions, in exact real arithmetic", "why_tests_cant": "The bound covers any number of updates with any mixture of known and new ids and every rank; a test follows a few updates.", "anchors": ["source/models/tirec_accelerated.py:TIRecA.update", "source/tucker_integrator.py:tucker_intergrator"]}
{"id": "C174", "title": "In the integrator scheme of TIRecA with zero embeddings a new user with rows gets scores that are not all zero", "statement": "After an update of TIRecA in the integrator scheme with zero embeddings every new user with rows is scored by what they took: not all scores are zero. (The code violates this: if all rows of a chunk are of new users with new items, and the tensor of the model has the rank of the model in the modes of users and items, the tensor only gets zeros appended, all scores of the new users are zero and the new items have the score zero for everybody; this holds with any attention and for chunks of any size. What holds: the chunk is accepted, its users and items become known, and every known user gets one score for every known item.)", "quantifier": "for all configurations with zero embeddings and the integrator scheme, consistent states, held tensors with the stated ranks, chunks, and correct QR routines, in exact real arithmetic", "why_tests_cant": "A test with random data mixes known and new ids in a chunk; the loss needs new users whose items are all new, and it shows in scores that are exactly zero, which a test of shapes or errors does not look at.", "anchors": ["source/models/tirec_accelerated.py:TIRecA.update", "source/models/tirec_accelerated.py:TIRecA._add_zero_embeddings", "source/tucker_integrator.py:tucker_intergrator"]}
{"id": "C175", "title": "The printed tables show the averages to three decimals", "statement": "Both tables of get_table_results_latex.py have a header that names the columns and one line for each data set and metric (first table), or for each metric and model in alphabetical order (second table). The text in the place of a model, data set and metric is '-' exactly if the result file cannot be read or lacks one of the four series, 'NaN' if the series is empty, and otherwise a decimal with three places that differs from the mean of the series by at most 0.0005. Of two averages the one printed as the larger number is the larger; different averages can be printed as the same number. The text of the table of data statistics has one line per row of the table: the name of the data set, the four counts in the order of the header, and the density with six decimals, at most half a millionth from its value.", "quantifier": "for all result files (any sets of readable files, any series of rational numbers), all numbers and all numbers of decimals", "why_tests_cant": "A test compares a few printed cells; ties in the last place, negative numbers, the labels shown once per group and the mixture of dashes and numbers have far more combinations.", "anchors": ["get_table_results_latex.py:19-38", "get_table_results_latex.py:40-54", "get_data_stats_latex.py:42"]}
{"id": "C176", "title": "The printed tables can be compiled by LaTeX", "statement": "Every line of the tables printed by get_table_results_latex.py and get_data_stats_latex.py, as LaTeX reads it, closes its row and has no character that LaTeX refuses in text. (The code violates this whatever the files contain: the per cent sign in the column name density% hides the end of the header line of the statistics table, and names with underscores are printed as they are in all three tables. What holds: all other lines are closed and have the number of cells of the header, the rows of the statistics table are accepted, and in the tables of results exactly the lines that show a name with an underscore are refused.)", "quantifier": "for all result files and statistics files", "why_tests_cant": "The scripts finish without an error; the defect shows only when the printed text is compiled, which no test of the repository does.", "anchors": ["get_data_stats_latex.py:26", "get_data_stats_latex.py:42", "get_table_results_latex.py:38", "get_table_results_latex.py:44-54"]}
{"id": "C177", "title": "The figures of the factor dynamics name what they show", "statement": "plot_factors_dynamics saves two figures, one line per model with all recorded values: the first shows the recorded changes of the user factors, the second those of the item factors, and each label names the factor shown. (The code violates the last part: both figures have the label and the title of the user factors. The rest holds when the series of all models have the same length; without a model the function raises IndexError, and a missing series is a KeyError that leaves the figures saved before.)", "quantifier": "for all dictionaries of models and series, and all prefixes of the file names", "why_tests_cant": "The function has no test and no caller; a test of the saved files would not look at the labels.", "anchors": ["source/experiments/prepare_graphs.py:plot_factors_dynamics"]}
{"id": "C178", "title": "The two schemes of TIRecA agree when no new user views a new item", "statement": "TIRecA with zero embeddings: on a chunk in which every new user has only known items among the last seq_len items (known users may view new items), update in the default scheme (separate steps for new users and new items, then the integrator) and update with _nu_ni_process_integrator=True give the same object or the same error, with any attention. Consequently, without attention in the integrator, over any number of such chunks that each move a window and change at most 10000 entries the default scheme accepts them, knows exactly the users of the rows seen and all items of windows, and its distance to the tensor of the last seq_len items of all users grows by at most sqrt(6 * seq_len * number of users of the chunk) per chunk.", "quantifier": "for all configurations with zero embeddings, all consistent states, all chunks (also empty ones and ones that change nothing) and all sequences of chunks", "why_tests_cant": "the agreement of two code paths and an error bound concern all states, all chunks and all numbers of updates; a test compares a few runs up to a tolerance", "anchors": ["source/models/tirec_accelerated.py:228-239", "source/models/tirec_accelerated.py:264-317", "source/models/tirec_accelerated.py:319-385"]}
{"id": "C179", "title": "The figures of the numerical experiment show all steps", "statement": "compare_approximations with plot_bool=True returns the same results as without and shows the computational times and the relative errors of SVD and PSI, the i-th value over the time t0 + i*step_size of the i-th matrix, and prints the sums of the times. plot_dynamics_2d and plot_dynamics_3d show every matrix of the list once, in order, titled with its number, each surface having the entries of the matrix over their column and row. (The second part is violated by the code: the last len % 3 matrices are left out, fewer than six cannot be drawn as images, more than eight raise after six surfaces, and only square matrices are drawn correctly as surfaces. What is drawn is characterised exactly; with the default of six steps all matrices are drawn.)", "quantifier": "for all numbers of steps, ranks, draws and clocks, and all lists of matrices", "why_tests_cant": "figures are not compared by tests, and the claim is about every number of steps and every list", "anchors": ["source/psi_experiments/psi_step_experiments.py:256-338", "source/plotting.py:17-30"]}
{"id": "C180", "title": "The Steam parser reads each line by itself and stops at the first bad line", "statement": "parse_lines_steam yields one row for each line, in the order of the file, holding field by field the last value which the dict of that line gives for the field; nested dicts do not matter. All lines are parsed exactly when each is a dict with all fields among its own keys. Otherwise the exception is the one of the first bad line (literal_eval's own, KeyError for a missing field, TypeError for another literal), and load_steam leaves steam.csv as it was but keeps the downloaded temporary file.", "quantifier": "for all files, all results of literal_eval, all non-empty lists of fields and all states of the file system", "why_tests_cant": "The downloaded file has millions of lines of free form; tests see a few good ones.", "anchors": ["load_data.py:70-74", "load_data.py:99-123"]}
{"id": "C181", "title": "The two schemes of PSI agree when every row has a known user or a known item", "statement": "PSI with zero or random embeddings: over any number of chunks in which every row has its user or its item from the training table or an earlier chunk, the default scheme and the scheme with _nu_ni_process_integrator=True give the same object or the same error. Consequently, with zero embeddings the default scheme accepts all such chunks, knows exactly the users and items of the rows seen, and its distance to the table of all rows is at most the distance of the training table to any matrix of the rank plus the norms of the chunks.", "quantifier": "for all training tables, all numbers of such chunks, all ranks and all numerical routines that meet their contracts", "why_tests_cant": "Equality of two schemes for every chunk and a bound over arbitrarily many updates.", "anchors": ["source/models/psi.py:139-171", "source/models/psi.py:178-218"]}
{"id": "C182", "title": "kron_vec_jit is the Kronecker product", "statement": "kron_vec_jit(a, b) has len(a)*len(b) entries, entry len(b)*i + k is a[i]*b[k], and nothing of the uninitialised np.empty memory remains. Hence the vector that sparse_tensor_double_tensor_old projects is the one sparse_tensor_double_tensor takes from khatri_rao, with the same errors.", "quantifier": "for all vectors a and b (also empty), all contents of the uninitialised memory, all factors and indices", "why_tests_cant": "The unit test fixes one pair of vectors; uninitialised memory happens to be harmless or not at run time.", "anchors": ["source/tensor_operations.py:291-299", "source/tensor_operations.py:322-327"]}
{"id": "C183", "title": "The default scheme of PSI with zero embeddings: any chunk is accepted, and the error over a run is bounded", "statement": "PSI with zero embeddings and _nu_ni_process_integrator=False, matrices drawn by the generator of full row rank: a chunk with any users and items is accepted. With A' the former predictions (zeros for new users and items), N the table of the rows whose user and item are both new and O the table of the other rows, the update first replaces A' + N by a best approximation B1 of rank at most the rank of the model, and then B1 + O by its projection to a space of dimension at most the rank containing the columns of (B1 + O) B1^T. Over a run in which no chunk has more than os different users, or more than os different items, in rows with new user and new item, training and updates succeed, the known ids are exactly those of the rows seen, and the distance of the scores to the table of all rows is at most the distance of the training table to any matrix of the rank plus sqrt 2 times the norms of the chunks. With standard normal draws all this holds almost surely, for all training tables and chunks at once.", "quantifier": "for all training tables, all numbers of chunks with few new pairs, all ranks and oversamplings, almost all draws, and all numerical routines that meet their contracts", "why_tests_cant": "A bound over arbitrarily many updates for every table and almost every draw of the generator cannot be enumerated.", "anchors": ["source/models/psi.py:139-171", "source/models/psi.py:178-218", "source/psi.py:54-105"]}
{"id": "C184", "title": "The default configuration of PSI: what the four steps of an update compute, and the error over a run", "statement": "PSI with _init_new_embeddings=None (the default), matrices drawn by the generator of full row rank, both factors orthonormal and the core S of full rank before the update; at most os new users and at most os new items in the chunk; and S symmetric, or a row with new user and new item in the chunk, or no new user in it (the step for new users uses S where S^T belongs, C83). If the update does not raise, it does the following. With A' the former predictions (zeros for new ids), d1 the rows with new user and new item, d2 the rows whose user is still unknown after them, d3 those whose item is still unknown, d4 the others: B1 is a best approximation of rank at most r of A' plus the table of d1, B2 one of B1 plus the table of d2, B3 one of B2 plus the table of d3, and the new predictions are the projection of T = B3 plus the table of d4 to a space of dimension at most r containing the columns of T B3^T. The factors are orthonormal again, so over a run with good cores the distance of the scores to the table of all rows is at most the distance of the training table to any matrix of the rank plus twice the norms of the chunks. For the first chunk after training the core is good whenever the training table has at least the rank of the model; then training and update succeed if os is at most the numbers of training users and items, and the bound holds almost surely for standard normal draws.", "quantifier": "for all states with orthonormal factors and a core of full rank, all chunks with few new ids, all runs, all ranks and oversamplings, almost all draws, and all numerical routines that meet their contracts", "why_tests_cant": "Best approximation among all matrices of a rank and a bound over arbitrarily many updates for almost every draw of the generator cannot be enumerated.", "anchors": ["source/models/psi.py:139-171", "source/models/psi.py:178-218", "source/psi.py:54-105", "source/psi.py:108-190"]}
{"id": "C185", "title": "SVD and PSI read their tables only through pairs, totals and the order of first appearance", "statement": "Let two tables have the same distinct pairs of user and item, first appearing in the same order, with the same total relevance (in exact arithmetic), for example the same rows at other times, or with an interaction split into several rows. In every configuration, from every state and whatever the numerical routines return: training SVD or PSI on both gives the same factors and mappings or the same exception; updating PSI with both does too; so does a whole run whose training tables and chunks correspond in this way. The recorded histories contain the same pairs, and the two models return the same recommendations (or the same exception) for all users, all numbers of items, with and without filtering. For one update it is enough that the pairs with an unknown user or item first appear in the same order; rows with known user and item may stand anywhere, so for a chunk of known users and items the order has no influence at all. For new ones the order decides their numbers.", "quantifier": "for all states, configurations, tables, chunks, runs and requests, and all numerical routines, without contracts", "why_tests_cant": "A test compares a few tables with one backend; the claim is about every way to reorder, re-date or split the rows, in all three schemes, including the runs that fail.", "anchors": ["source/models/svd.py:35-47", "source/models/psi.py:52-98", "source/models/psi.py:173-218", "source/matrix_operations.py:77-85", "source/models/svd.py:64-103"]}
{"id": "C186", "title": "The unit of the relevances has no influence on the recommendations of SVD and PSI", "statement": "Multiply all relevances of a training table and of the following chunks by one constant c > 0. If the singular values of the table have a gap after the chosen rank, the chunks contain only known users and items and the ranks do not drop during the updates (the conditions of C153; without chunks this is SVD), then training and updates succeed for both versions with any correct SVD and QR routines, every score of the second model is c times the score of the first, and every user whose open items have pairwise different scores is recommended the same items by both models, with and without filtering.", "quantifier": "for all tables, chunks of known users and items and constants c > 0 satisfying the conditions, all correct SVD and QR routines (possibly different ones for the two models), all requests", "why_tests_cant": "A test rescales one table with one backend; the claim covers every table, every number of updates and every factor, and does not depend on which of several valid decompositions the backend returns.", "anchors": ["source/models/svd.py:35-47", "source/models/psi.py:52-98", "source/psi.py:psi_step", "source/models/svd.py:64-103"]}
{"id": "C187", "title": "Training SVD treats users and items alike, updating PSI does not", "statement": "Exchange the user column and the item column of a training table. If the singular values of the table have a gap after the chosen rank (and the rank is admissible), training succeeds on both tables with any correct SVD routines, and the score that the first model gives to user u and item i is the score that the second model gives to user i and item u; every pair of a known user and a known item has such a score. For the updates of PSI this fails: there are a table and a chunk of known users and items for which, with every correct pair of routines, the updated model gives a user and an item the score 1 and the updated model of the exchanged tables gives the exchanged pair the score 0.", "quantifier": "for all tables, ranks and correct SVD routines (possibly different ones for the two trainings) satisfying the conditions, all users and items", "why_tests_cant": "The factors of the two trainings are different (their roles and signs may be exchanged) and the singular values are stored with the items only; that the scores agree for every table and every valid decomposition is a statement about all of them.", "anchors": ["source/models/svd.py:35-47", "source/models/svd.py:64-103", "source/psi.py:psi_step"]}
{"id": "C188", "title": "PSI follows changes inside the predicted profiles exactly; otherwise the order of the chunks matters", "statement": "Let a PSI model predict the matrix A and receive chunks of known users and items. If each user's total relevances in a chunk form a combination of the rows predicted before the chunk, for every chunk, then all updates succeed and the scores afterwards are exactly A plus all interactions, without any condition on ranks, in every supported configuration and with every correct QR routine. Sending such chunks one after the other or merged into one gives the same scores and the same recommendations. In particular chunks whose total relevances are all zero change no score. Without this condition the part of a chunk that is outside may be lost for good: there are a table and two chunks that lead to the scores [2, 1] for both users in one order and to [2, 0] for both in the other order, with every correct pair of routines.", "quantifier": "for all states that hold a matrix, all numbers of chunks, all supported configurations and all correct QR routines; the last part is a witness, for all correct routines", "why_tests_cant": "A test can show one stream that is followed or lost; that nothing is lost for every stream inside the profiles, even when ranks drop on the way, is a statement about all streams and all QR routines.", "anchors": ["source/psi.py:psi_step", "source/models/psi.py:PSI.update"]}
{"id": "C189", "title": "A larger rank of SVD never fits the training table worse", "statement": "Train SVD on one table with two admissible ranks and any correct SVD routines: both trainings succeed, and the sum over all known users and items of the squared differences between total relevance and score is at most as large for the larger rank, and strictly smaller if the interaction matrix has more than the smaller rank. For each admissible rank this error is zero exactly if the interaction matrix has at most this rank.", "quantifier": "for all tables, all pairs of admissible ranks, all correct SVD routines (possibly different ones for the two trainings)", "why_tests_cant": "A test compares a few ranks on a few tables with one backend; monotonicity for every table and the exact threshold are statements about all of them.", "anchors": ["source/models/svd.py:35-47", "source/models/svd.py:64-103"]}
{"id": "C190", "title": "Users with the same interactions get the same scores, and so do items", "statement": "After training SVD with any correct SVD routine, two users whose total relevances agree for every item get the same list of scores, and two items whose total relevances agree for every user get the same score from each user; equal singular values do no harm here. The same holds for PSI after any number of updates inside the conditions of C153 (known users and items, a gap after the leading singular values of the training table, the ranks stay full), for users (items) whose total relevances agree in the training table and in every chunk.", "quantifier": "for all tables, admissible ranks, correct SVD and QR routines, all pairs of users and all pairs of items with equal totals, and all streams of chunks satisfying the conditions of C153", "why_tests_cant": "A test sees a few pairs of twins with one backend, whose floating point results agree up to rounding at best; the claim is about every table, every stream and every correct routine.", "anchors": ["source/models/svd.py:35-47", "source/models/svd.py:74-75", "source/psi.py:11-51", "source/models/psi.py:139-218"]}
{"id": "C191", "title": "The experiment never reads a local variable before it is assigned", "statement": "If no method of the recommender raises UnboundLocalError, dynamical_experiment does not raise it either: the recommendations and embeddings of earlier iterations (rec_array_t1, rec_array_t2, u1, v1, u2, v2) are assigned in an earlier iteration whenever a later one reads them. This rests on counting the iterations from 1: the stability part of iteration 2 does raise UnboundLocalError if rec_array_t1 has not been assigned.", "quantifier": "for all recommenders, initial tables, streams of chunks, configurations and numbers of iterations", "why_tests_cant": "The variables are assigned on different branches of a loop; a test follows a few streams, the claim is about every length, every early stop and every recommender.", "anchors": ["source/experiments/dynamical_experiment.py:93-144"]}
