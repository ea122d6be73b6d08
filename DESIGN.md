# Formal model of DynamicCF — design

Subject: `/repo` (AlbMLpy/DynamicCF, Python), read as text only. Lean project: `/verif/lean`
(`lake build`). Properties: `properties.jsonl`; status and theorem names per property:
`MANIFEST.json`; mutation tests: `seeded/LOG.jsonl`.

## 1. Layout

| directory | content |
|---|---|
| `Verif/Py/*` | the Python / numpy / pandas primitives the code uses: exceptions, dict, deque, slices, sorting, `unique`, `groupby`, dense arrays with shape errors, black-box numerical routines |
| `Verif/Model/*` | the model, one Lean definition per Python function; every definition cites file and lines |
| `Verif/Spec/*` | small specifications used in the property statements, written without the model's helpers |
| `Verif/Lemmas/*` | helper lemmas |
| `Verif/Props/*` | the property theorems (`Cnn_…`), one file per area, with non-vacuity `example`s beside them |

Conventions

* Exceptions are values: a function that can raise returns `PyM α = Except PyErr α`. An exception
  aborts the run; attributes changed before the exception are not observable in the model.
* `PyErr.outOfModel` marks inputs the model refuses. It is never treated as success. The refused
  inputs are listed in section 4.
* Python `int` is `ℤ` (ids, including the padding value -1) or `ℕ` (lengths, loop counters).
* A DataFrame is a list of rows (`Row`, `PRow` with a position, `IRow` with an index label); only
  the columns the code reads are kept.
* `dict` is an insertion-ordered association list with Python's update semantics.
* numpy arrays used by linear algebra are `Mat K` (run-time shape + Mathlib `Matrix`) and `Ten K`
  (3-way); shape mismatches are `ValueError` values.
* A property the code violates keeps its full statement: the negation is proved with a concrete
  witness (`…_violated`) and what does hold is a theorem with suffix `_partial`.

## 2. Trusted base

* The Lean 4.33.0 kernel and the axioms `propext`, `Classical.choice`, `Quot.sound` (checked with
  `#print axioms` for every theorem named in the manifest). No other axioms, no unfinished proofs,
  no compiled evaluation (`decide +kernel` is checked by the kernel).
* The reading of Python/numpy/pandas/scipy semantics in `Verif/Py` and in the comments of
  `Verif/Model`, and the transcription of `/repo` into `Verif/Model`.
* Floats are idealised as elements of an arbitrary commutative ring, field or ordered field `K`
  (norms over `ℝ`, or an arbitrary function `normOf`). No rounding, overflow or NaN, except where
  a result type has explicit values for them (`Num`: finite, inf, nan). Consequences that are therefore
  *not* claimed: ids above 2^53 that pass through a float column, `int(n * ratio)` off by one by
  rounding, numerical error of QR/SVD. An exception is the construction of the core (C136): its loops are modelled for
  any zero, addition and multiplication without laws, so the agreement of the variants also holds for rounded operations
  (assuming the compiled loops keep the association of the source: no `fastmath` flag is set).
* Contracts of external numerical routines. They are parameters of the model (`LinAlg K`, `Rng K`,
  argsort/argpartition oracles), only result shapes are built in. Theorems assume the documented
  contract *at the calls made*: `QrOk`, `SvdOk`, `SvdFullOk`, `SvdsOk`, `InvOk` (or `QrAlways`).
  The contracts are satisfiable: `realLA : LinAlg ℝ` meets all of them (`Lemmas/SvdExists` and
  neighbours), `exLA`, `exLA2` are computable instances used by the examples.
  Randomised range finders additionally need that the sample captures the range (`Captures`, a
  hypothesis about the draw). C159 proves that it holds with probability one for independent standard
  normal draws of a wide enough sketch. C159–C167 idealise `randn` (and C163, C164 `rand`, uniform on `[0, 1)`, `UniformDraws`): the entries of each drawn array are
  exact independent standard normal reals (`NormalDraws`; no assumption on how arrays depend on each
  other, except in `C161_joint` and where C163 and C164 draw one array after the other, `Successively`). That numpy's generator behaves like this is not proved. `source_normal`, `sourceGen_normal` and `rowSource_law`
  build a probability space with such draws, from Mathlib's measure theory.
* The generic order of `set` iteration, of unstable single-key `sort_values`, and of argpartition
  outside its contract is a parameter, theorems hold for every such order.

## 3. What is modelled

| `/repo` | model | remarks |
|---|---|---|
| `source/data_preparation.py` | `DataPreparation` | mappings, updates, evaluation rows |
| `source/ti_data_processing.py` | `TiData` | sequence history, delta, cropping |
| `source/evaluation.py`, `source/general_functions.py` | `Evaluation`, `Drift` | `elapsed_time` only as a clock parameter |
| `source/models/svd.py`, `psi.py` | `PsiClass`, `Recommend` | |
| `source/models/tdrec.py`, `tdrec_reinit.py` | `TDRec`, `Recommend` | |
| `source/models/tirec.py`, `tirec_accelerated.py` | `TIRec` | every call gets the same draws, as with a fixed seed; the log of applied entries is ghost output |
| `source/models/random_rec.py` | `RandomRec` | `rs.randn` is an arbitrary sequence of arrays |
| `source/random_svd.py`, `source/psi.py`, `source/matrix_operations.py` | `RandomSvd`, `Psi`, `MatrixOps`, `SplitMatrix` | |
| `source/tensor_operations.py` | `TensorOps`, `Parallel`, `KronVec` | `Parallel`: interleavings of `construct_core_parallel` with separate read and write of shared cells |
| `source/rp_hooi.py`, `source/hosvd.py`, `source/tucker_integrator.py` | `Hooi`, `Hosvd`, `TuckerIntegrator` | `tucker2`: an identity mode other than 0, 1, 2 is refused by the model; with a rank below the shape in the identity mode the code indexes the identity matrix out of range (unchecked in numba), which the model reports as an index error |
| `source/random_grid.py` | `RandomGrid` | draws as arbitrary valid lists |
| `source/experiments/dynamical_experiment.py` | `Experiment` | the recommender is any object with the used interface |
| `source/experiments/prepare_data.py` | `ExperimentData` | day labels are integers |
| `source/experiments/hyperparameters_search.py`, `/repo/find_hyperparams.py` | `HyperSearch`, `Search` | the iteration order of the set of combinations is a parameter; an empty table in `train_test_split` is refused; numbers survive `to_csv`/`read_csv` |
| `source/experiments/prepare_model.py`, `full_dynamical_experiment`, `/repo/dynamical_experiment.py`, `/repo/dynamical_ablation_study.py` | `PrepareModel`, `Ablation` | the recommender classes behind the interface of `Experiment`; the two result files of the search are parameters, writing results is left out |
| `source/experiments/prepare_graphs.py`, `/repo/prepare_graphs.py`, `source/plotting.py: plot_results` | `NewEntities`, `Graphs`, `FactorFigures` | a figure is a record (file, labels, title, curves), its appearance is left out; strings are lists of characters; `plot_factors_dynamics` is modelled although no script calls it |
| `get_table_results_latex.py` | `Graphs`, `ResultsTable`, `LatexText` | the averages, the labelled rows and the text of the lines of both printed tables, as `to_latex` of pandas 2.0.2 writes them (no escaping, three decimals, sparse index); the lines around the rows (environment, rules, caption) are left out |
| `configs/*/config.py`, `import_config` | `Configs` | without `n_chunks_list` (never read), the seeds and the path of the data; the ratios are exact fractions |
| `run_experiments.py` | `Pipeline`, `CommandLine` | processes started one after the other; the files of one data set are the state; a missing csv and an earlier exception of the same script are not told apart; the two directories of figures are not kept apart |
| `get_data_stats_latex.py` | `StatsTable`, `LatexText` | the rows of the table and the text of its lines (six decimals for the density); the lines around them are left out; numbers survive `to_csv`/`read_csv` |
| `source/psi_experiments/psi_step_experiments.py`, `matrix_operations.py: generate_matrix` | `PsiExperiments`, `NumFigures` | draws and measured times are parameters; a figure is a record of its labels and of the drawn values, an image of a matrix without entries is refused |
| `load_data.py: pcore_filter`, `prepare_data.py: encode_column` | `LoadData` | |
| `load_data.py` (downloads, archives, JSON lines, directories) | `LoadFiles` | the file system is a map from paths to directories and files (POSIX rules); the network and the zip, gzip and csv formats are parameters; a broken download writes nothing; lines that are not JSON objects are refused |
| `prepare_data.py` (the rest), `load_data.py: load_steam`, `data_preparation.py: print_recsys_df_stats` | `PrepareFiles` | a file is the list of its rows, times are whole seconds; the sort by time is any correct sort |

Not modelled: file I/O beyond names and contents of files, the look of plots, printing, tqdm, dtypes,
LAPACK/ARPACK internals, memory-unsafe behaviour of compiled numba code (an out-of-range index is an
error value), the notebooks.

`Verif/Props/RepoTests.lean` repeats the unit tests of `/repo/tests` that have literal data, as checks of the
definitions (not counted as properties): the model gives the values expected there.

## 4. Simplifications and refused inputs

* numpy broadcasting of different shapes is refused wherever it could occur (`Mat.add`, `Ten.add`,
  block assignments; `svd2mtx` broadcasts); incompatible shapes raise `ValueError` as in numpy.
* `recommend`: `k = 0` (slice `[-0:]`) and filtering with a one-item catalogue (`squeeze` to 0-d) are modelled by what
  numpy does with the resulting shapes (`zeroRow`, `singleItemRow`; C146), not step by step. `rel_norm` in `Drift` refuses a zero denominator; in `Experiment` it is `Num.inf/nan`.
* `wji`/`hr`/`mrr`: rows shorter than needed are refused (numba does not check them).
* Empty tables whose statistics would be NaN are refused (`RandomRec.train`, quantile split).
* Which exception a library call raises is taken from the source of the pinned versions as remembered, not from a run
  (nothing is executed here). Two places were read again and corrected: `diags` without a diagonal reads `diagonals[0]`
  (`IndexError`, `C23_attention_size_zero`), and `argmin` of an empty column of type `object` is a `TypeError`
  (`firstMin`, C75). Both were `ValueError` in earlier versions of the model; no claim was named after them.
* `construct_core_dense` checks the index ranges in front of the loop instead of inside it: only
  which error is reported first can differ.
* `svds` with `k` outside `1 ≤ k < min(shape)` raises `ValueError`.
* `psi_step_experiments.py`: dense matrices only (the sparse branch of its `svd_step` is modelled but no
  caller reaches it with the modelled inputs); a non-empty constant block in an empty matrix is refused.
* `parse_lines_steam` (`Model/SteamLines`): `literal_eval` of a stripped line is a parameter; its values are Python literals without bytes, sets and complex numbers.
* `load_steam`: user names and products are numbers, no missing values, dates without time of day.
  `prepare_*`: missing names are modelled (`none`), missing times are not.
* Metrics are assumed not to be NaN in the hyper-parameter search; the quantile of
  `train_test_split` is the linear interpolation formula without rounding.
* `get_u`/`get_v` snapshots: no model writes into those arrays, they are always rebound, so sharing
  is not observable.
* The completion theorems (C126, C128–C134) hold for `topk ≥ 1` and, for the sequence models, at least two items in the
  table (in the two other cases `recommend` fails, C146), sequences of length 2 or more and positive selected ranks (C130). C133 assumes early stopping and item ranks of at least two. C131 (`TDRec`) further assumes that the cropped
  tables do not lose items; `C131_shrunk` shows that this is needed at the second chunk.
* C135 compares completed runs of the integrator models only: with a core without columns and an index outside a factor
  the sequential function raises and the parallel one does not (`Props/Settings.lean`).
* C149/C150 compare completed runs in the same environment, the clock included: the recorded times are readings `clock n` and so
  do not depend on how long the recommendations take.
* C152 and C153 are over ℝ. Two SVD (and QR) routines are compared with the same argpartition, so that equal scores give equal lists; with floating
  point arithmetic the scores agree only up to rounding, which the model does not have.
* C156 compares two SVD trainings on tables with equal totals, over ℝ: a reordered sum of relevances is equal in the model and may differ by
  rounding in floating point arithmetic. The same holds for C185, which compares trainings and updates of `SVD` and `PSI` with the same
  numerical routines, taken as functions of their arguments, and uses none of their contracts. C186 (relevances in another unit), C187
  (users and items exchanged), C188 (streams inside the predicted profiles), C189 (a larger rank fits better) and C190 (twins get the same scores) are again about ℝ:
  with floats they hold up to rounding only (in C186 a power of two multiplies without rounding, barring overflow).
* C191 models the local variables of the loop in `dynamical_experiment` that may be unassigned (`rec_array_t1`, `rec_array_t2`, `u1`, `v1`,
  `u2`, `v2`) as options. The methods of the recommender are a parameter: C191 assumes that they do not raise `UnboundLocalError`.
* C157 compares runs on differently interleaved tables in exact arithmetic: `np.mean` over the reciprocal ranks of a chunk is a sum in another
  order, so with floats the recorded MRR may differ by rounding. Hit rate, stability and all model states do not involve such a sum.
* C158 asks that three matrices keep the rank of the model at every update, and that the last tensor has this rank in the modes of items and
  places. Without that QR completes the basis as it likes, and the claim does not say which prediction results. The start states are given by
  the tensor they hold; C164 says when training with random draws and different SVD routines almost surely ends with the same tensor.
* `CommandLine` models the shell for letters, digits, `_ - . /`, blanks and semicolons, and `argparse` for words without a leading
  dash; other characters, options, reserved words and empty commands are refused. The call of `run_experiments.py` itself has one argument.
* C154 is over ℝ with exact arithmetic. `Captures` is a condition on the random draw; it follows from a right inverse (`C154_captures`),
  and holds almost surely for a wide enough normal draw (`C159_captures`).
* C159–C167 speak of the random draws as random variables outside the model: the model takes an arbitrary draw, the theorems put a probability
  measure on the draws. In one run of the model all calls of `random_svd` with equal shape get the same array, as in the code with a fixed seed.
  C163 in its general form is about independent draws (no seed), stated with nested "for almost every" because the chosen QR and SVD routines
  need not be measurable functions; `C163_wide` needs no independence and covers a common seed.
  The same holds for C164 (`C164_training`, `C164_wide`), which is C163 carried through `train` and the scores.
  C165, C166 and C167 bound the error by a measurable function and state the mean of that bound, again because the error with arbitrary
  QR and SVD routines need not be measurable. They need `oversampling_factor ≥ 2`; for 0 and 1 the mean of the bound is infinite and nothing is claimed.
* C169 and C170 bound the error of `PSI` in exact real arithmetic; the bounds add up over the updates and are not claimed to be sharp.
  C170 is about zero embeddings with the integrator scheme; C181 and C183 carry the bound to the default scheme (C183 with `√2` times the norms of the chunks,
  at most `os` different users or items among the new pairs of a chunk, and draws of full row rank, which standard normal draws have almost surely).
  C184 is the bound for `_init_new_embeddings=None`, with twice the norms of the chunks: at most `os` new users and items per chunk, a core of full
  rank before every chunk, and a symmetric core where new users are appended without a new pair before them (C83). For chunks after the first these are
  hypotheses on the state; a core of rank below the model rank is not covered (then `update_svd_new_vectors` may return non-orthonormal factors, C43).
  Random embeddings are not covered by an error bound.
* C172 bounds the error of `TIRec` and `TIRecA` in the same way, for known users and items and no attention inside the integrator; chunks that change more than 10000 entries (no multiple of 10000) are excluded because the code ignores the last entries (C56). C173 extends this to chunks with new users and items for `TIRecA` with zero embeddings and the integrator scheme; C178 shows that the default scheme with zero embeddings does the same as the integrator scheme on chunks in which new users have only known items among their last `seq_len` items, so the bound holds there too; chunks in which a new user views a new item, random embeddings and `TIRec` with new ids are not covered by an error bound.
* C140/C141/C147 compare two runs with the same parameters of the environment (SVD, ties of `argpartition`, random numbers).
  The sorts by one key (`sortDay`, `sortCnt`) are assumed to look at the key column only (`Relabel.FitsEnv`); stable sorts
  satisfy this (`fitsEnv_stable`). `C141_matrix_partial` renames the test users along with the table.
* Numeric witnesses of C36/C37 start from a hand-built state that satisfies the proved class
  invariant `TIInv`; C36 also has a witness starting from training.

## 5. Disagreements between claims and code (all proved)

| property | what the code does |
|---|---|
| C10 | training numbers positions from the left, the windows used by updates from the right |
| C16 | `rel_norm(u2 - u1, u2)` subtracts its second argument again |
| C20 | `argpartition` does not sort: rows with `k ≥ 3` are not ranked |
| C26 | a second `TDRec.train` on the same object appends to the old history |
| C27 | `inds` are sorted, `vals` are not permuted with them |
| C29 | `TDRecRe` raises when the id with the highest index was cropped out |
| C36 | rows of new entities are appended block first, ids in order of appearance |
| C37 | entries with new user and new item are applied twice |
| C38 | rows cropped away inside a chunk are not filtered from recommendations |
| C39 | a chunk that changes no window raises |
| C43 | `update_svd_new_vectors` does not keep the factors orthonormal in general |
| C46, C83 | new items of PSI (new users in C83) use the core transposed |
| C48 | an empty increment raises, a long cancelling increment changes the model |
| C49 | the item step applies the attention matrix twice |
| C56 | chunked contraction drops the tail when `n > 10000` is no multiple of 10000, raises for `n = 0` |
| C57 | `sparse_to_dense_tensor` overwrites repeated coordinates |
| C65 | unstable sort: order inside a day can change when days are grouped |
| C66 | a too small last group is not merged; its last day gets the label of the previous day |
| C72 | repeated parameter values make the requested number of grid points unreachable |
| C75 | ML-20M compares with rows without attention too; AMZ-G accepts the second best value |
| C77 | a negative ratio repeats rows |
| C86 | the integrator is not exact on the rank manifold when it ignores the last entries of a long increment (C56) or when the attention enters the item step twice (C49) |
| C94 | the `TDRec` object of the experiment keeps its sequential history between trainings: short sequences are filled with rows of earlier trainings |
| C95 | `TDRec` renumbers items at every training, stability compares the numbers |
| C96 | `Random` has no `get_u`: the experiment with it always raises `AttributeError` |
| C97 | the selected `n_iter` (at most 5) is thrown away, the default 25 is used |
| C99 | `generate_matrix` with one row accepts a rank above the number of rows (the only column is stretched) and returns a row of rank at most one |
| C103 | `split_mtx_block_diag` drops the rows left over by the division; the reduced rank does not bound the rank of the target when there are more than `1 / ratio_next + 1` blocks or fewer components than blocks |
| C105 | `round('d')` rounds to the nearest midnight: the day of an afternoon interaction is the next day |
| C108 | the last processed chunk is missing from the data dynamics |
| C116 | with fewer chunks than `how_many_iterations` the experiments complete but the graph script stops with `ValueError` at the figure of new users and items; later figures are never drawn |
| C117 | the axis of the stability figures reads `REGULAR@k` or `CUM@k`, not the metric |
| C120 | the sequence models forget rows dropped by cropping: an item the user took earlier is recommended again and counted as a hit (never so with `SVD` and `PSIRec`, C119) |
| C121 | the table of data statistics casts the median to `int`: a median of 3/2 is printed as 1 |
| C122 | the parameters chosen for TDRec are not the best validated ones for every data set (see C75), and the number of sweeps found is not used (C97) |
| C123 | the search for TDRec crops the table before splitting it: rows of the validation days use up the places of a user, and with sequences of length 1 a user with a row on a validation day has none in the training table |
| C124 | `run_experiments.py` ignores exit codes: after a failed search the csv of an earlier call is used and the later scripts succeed |
| C131 | with `TDRec`, a cropped table that has lost items when the second chunk arrives stops the experiment (`C131_shrunk`); only from the third chunk on is −1 recorded |
| C132 | with `TDRecReinit` only the loss of the last registered item on a day without a new item stops the experiment |
| C133 | the search for the sequence models fails if every user with a full sequence has an interaction on a validation day; with `force_n_iter` it completes but records nothing |
| C134 | for AMZ-G no parameters can be chosen if all scores of the first five sweeps are equal, for ML-20M none if the best is reached only without attention |
| C138 | `load_data` fails when it is run again: `os.rename` onto the directory of the first run |
| C139 | the object hook is called for nested objects too and raises `KeyError` for them |
| C141 | the sequence models depend on the names of the users: the cropped table is sorted by user, so exchanging two names changes the numbers given to users and items and with them hit rates and stability, and the hit rates recorded by the search |
| C144 | users with fewer than `seq_len` training rows stand at other places in the factorised tensor than in the windows, and the misplaced entries stay in the model for ever (even with full rank); the light mode adds unweighted changes to weighted data |
| C146 | `recommend` with `k = 0` raises `ValueError` as soon as a user has two items to choose from; filtering with a catalogue of one item raises `TypeError` by external id and `ValueError` if a user has viewed the item |
| C148 | a longer list can lose a hit when scores are equal, and can lower the mean reciprocal rank even when they differ, because the rows are not ranked |
| C150 | the stability of a run that stops earlier is not the beginning of the stability of the longer run: its users are chosen from the first `how_many_iterations` days |
| C155 | `run_experiments.py` pastes its argument unquoted into `os.system` lines: after a semicolon it is executed as a program, eleven times |
| C171 | In the integrator scheme with zero embeddings rows of new users with new items have no effect on predictions of full rank: the new users are known and all their scores stay zero (`C171_lost`, `C171_negative`). |
| C174 | The same in `TIRecA`: in the integrator scheme with zero embeddings a chunk whose rows are all of new users with new items has no effect on a tensor with the rank of the model in the modes of users and items; all scores of the new users are zero, and the new items have the score zero for everybody (`C174_lost`, `C174_negative`). |
| C176 | The printed tables are not accepted by LaTeX: pandas 2.0.2 does not escape names, so the per cent sign of `density%` comments out the end of the header of the statistics table (its row is never closed), and the underscores of `n_users`, `ml_20m`, `amz_b`, `amz_g` and `calculation_time` stand in text |
| C177 | `plot_factors_dynamics` labels the figure of the item factors like that of the user factors (and both with the relative change, while the recorded numbers are those of C16) |
| C179 | `plot_dynamics_2d` draws nothing (and raises) for three to five matrices, both functions silently leave out the last `len % 3` matrices, `plot_dynamics_3d` raises after six, and a matrix with one row is drawn over column 0 |

## 6. Mutation testing

Scratch copies outside `/verif`: one edit of a model definition as a realistic bug, rebuild, record
which theorems fail. `seeded/LOG.jsonl` has one line per attempt (definition, edit, broken claim, failed
theorems, tightened theorems).

Only an edit after which all of `Verif/Model` still compiles counts as a test. Six earlier attempts broke that rule (the edited
definition did not compile, and the theorems resting on it were listed as failed); their lines in the log now say so, and the
attempts are repeated with edits that compile. "Failed" lists the theorems in the first modules that fail and the property
theorems that rest on them, which the build does not reach.
