# Formal model of TreeCorr: design

## Layout

- `lean/Verif/Model/*.lean`: the model. One definition per function of `/repo`, with the file and lines it models.
- `lean/Verif/Spec/*.lean`: small specifications (brute-force counts, abstract LRU map, ...) that do not mention the model.
- `lean/Verif/Proofs/*.lean`: helper lemmas.
- `lean/Verif/Props/*.lean`: the property theorems, each followed by an `example` which meets its hypotheses.
- `properties.jsonl`, `MANIFEST.json`, `seeded/LOG.jsonl`: the property list, the claim status, the seeded-bug log.

## General modelling decisions

- Floating point is replaced by exact arithmetic over `Real` (or `Rat`/`Int` where enough). Rounding, overflow, NaN arithmetic and the
  single-precision storage of weights are not modelled.
- Positions are points of a type with a distance that satisfies the triangle inequality. Euclidean (flat, 3d), chord distance on
  the sphere and the periodic distance are instances. Metrics for which it fails (Rlens, Rperp, Arc on chord sizes) are treated separately.
- Trees are an inductive type; the C++ pointers `left`/`right` being both null or both non-null is built in to the type.
- Random numbers are an arbitrary input stream. Thread and process schedules are an arbitrary input (assignment and order).
- numpy arrays are lists or functions from a finite index; dictionaries are association lists or functions to `Option`.
- Exceptions are values (`Except`/`Option`).
- Logging, plotting, timing and Python object identity are not modelled.

## Trusted base

- Lean 4.33.0's kernel and the Mathlib installed with it. Every theorem named in `MANIFEST.json` depends on no axioms other than `propext`,
  `Classical.choice` and `Quot.sound` (vcheck reports this). There is no `sorry`, no axiom of our own, and no native code.
- That the definitions under `lean/Verif/Model` say what the cited lines of `/repo` do. They were written by reading; the code was
  never run.
- The simplifications listed under "General modelling decisions" and in the comments of the definitions.
- **C71**: the documentation of `calculateMapSq` (`ggcorrelation.py`) gives `U(r) = (1 - r²) exp(-r²/2)/2π` for 'Crittenden'.  This does not belong to the given `Q`
  (`doc_weights_wrong`) and would give another `Tx` (`doc_kernel_wrong`); the code is right for `U(r) = (1 - r²/2) exp(-r²/2)/2π` (`crit_weights`, `tCross_filter`, `napSq_filter`).
- **C71**: the documentation of `calculateNapSq` has a factor 1/2 that the code does not have; the code agrees with the definition (`napSq_doc_wrong`, `napSq_sum_partial`).
- **C71**: `mxsq_im` is documented as an estimate of `⟨Map Mx⟩`, it is one of `-⟨Map Mx⟩` (`mxsqIm_wrong`).  `writeMapSq` writes it with the other sign (`writeMapSq_columns`).
  Its documentation lists the column MMxa twice, the second should be MMxb.
- **C71**: `calculateNMap` and `calculateNapSq` do not check the bin type and use `bin_size` of linear bins as if it were one of `log r` (`nMap_linear_wrong`).
- **C72**: the documentation of `calculateMap3` says the variance "is equal for each" of the eight values.  It is the one of `map3` and `mx3` (`map3_variance`); for the
  six others the coefficients of the correlations are others, for LogRUV and `k2 = k3 = 1` the returned variance is up to nine times too large (`mixed_variance_wrong`).  The same value is `sig_map` in the file.
- **C72**: the documentation gives `mapmx2 = <Map Mx>` for `<Map Mx²>`, and `writeMap3` names `rnom` as the default of `R` where the code takes `rnom1d`.
- **C72**: a LogMultipole object gives an `AssertionError` of `meanphi`, not an explanation (`map3_rows`).
- **C73**: for points 2 and 3 in exactly opposite directions from point 1 the triangle algorithm adds nothing to `gam0 … gam3` (the sum of the two directions is 0, and so is the
  projection of shear 1), while it counts the triangle in `weight`; the multipole algorithm adds the right value (`triangle_opposite_wrong`).  Regular grids have many such triangles.
- **C73**: as for C57, two rows of the second catalogue at the same place share a leaf, whose squared shear is subtracted as that of one row (`multipoleG_coincident_wrong`).
- **C74**: `toSAS` of shear turns all triangles of a bin by the phase of a flat triangle with the mean sides and the angle at the centre of the bin.  For other sides the value is not
  that of the centroid projection, which the triangle algorithm uses (`turn_sides_wrong`: right angle, sides 1 and 1 instead of 1 and 2, the factor `(77+36i)/85` instead of 1).
- **C75**: the documentation of `run_kmeans` says that the standard algorithm can never leave a patch without points.  It can, from initial centres that are rows of the catalogue
  (`init='random'` or `'kmeans++'`); the centre of such a patch is put at the origin of the coordinates, where it stays if the data are elsewhere (`kmeans_empty_patch_wrong`).
- **C75**: with `alt=True` the inertia of a cell about its own centre is taken as 0.75 w s^2, so that the penalty is not the documented one and depends on the tree
  (`kmeans_alt_penalty_wrong`).  It is at least three quarters of it (`kmeans_alt_pass_partial`).
- **C75**: on the sphere the positions of cells are unit vectors, and `UpdateCenters` adds them up as if they were means: the new centre is not the direction of the mean of the rows,
  and depends on the tree (`kmeans_update_sphere_wrong`).
- **C76**: `InitializeCentersKMPP` passes `ncenters` instead of `i` to its recursive part, so that the centres not chosen yet count as centres at the origin.  A row at the origin can
  only be the first centre, and if it is needed later the exception `LeafAlreadyUsed` leaves the function (`kmeans_plusplus_origin_wrong`).  The same happens with rows on both sides of the
  origin, when a cell has its centroid there (`kmeans_plusplus_mean_wrong`): the test `dsq1 + dsq2 == 0` takes a cell with its centroid at a centre for one that is used up.
- **C76**: `urand()` can return 1; then the first centre of k-means++ is never set (`kmeans_plusplus_one_wrong`).  If all rows left are at centres, the probabilities are NaN and the centre
  is never set either (`kmeans_plusplus_repeat_wrong`).  Only a message of an assertion is printed.
- **C76**: repeated random centres are multiplied by a number just above 1.  This does nothing at the origin (`kmeans_random_origin_wrong`), and on the sphere it is undone when the centres
  are read (`kmeans_random_sphere_wrong`).
- **C81**: the columns read are kept under their names without the extension.  With `w_col=V, w_ext=1, k_col=V, k_ext=2` the weights are those of
  extension 2 (`read_same_name_wrong`).  An extra column in two extensions is taken from the last in the order of a set of strings, which changes from run to run
  (`read_extra_order_wrong`).  Of a pair that is not needed the file may lack the second column: a warning says that it is skipped, and then the reading
  fails (`read_half_wrong`).  A column for `g1` with an expression for `g2` is refused, an expression for `g1` with nothing for `g2` is
  accepted and fails later (`eval_half_wrong`).
- **C82**: `isKColRequired` forgets `kz_file_name`, so for KZ a first file without scalar values is accepted with a warning
  (`kz_columns_wrong`).  The normalised aperture mass without randoms ends with an AttributeError (`norm_error_wrong`).  A statistic with the value `None` means
  simple, while one that is not given means compensated (`statistic_none_wrong`).  docs/params.rst lists `file_name2`, `file_name3` and the randoms
  that go with them for three-point runs; `corr3_valid_params` lacks them, so `corr3` refuses them (seen in the source, no theorem).
- **C83**: files in `save_patch_dir` are used without a check that they belong to the catalogue, and for arrays the names are always
  `patch000.fits`, … (`stale_patches_wrong`).  Reading patches drops rows of zero weight that were kept (`kept_rows_wrong`), reads positions without
  the units by which they were divided (`low_mem_units_wrong`), asks randoms for columns of values (`randoms_wrong`), asks for files of numbers without
  rows (`missing_number_wrong`), and does not ask for weights that came from flags (`flagged_rows_wrong`).  After an error `_patches` is an
  empty list, so that the next call returns no patches, without an error.
- **C84**: on the sphere the separation becomes `2 sin(sep/2)` without a check that it is at most 180 degrees; with 360 degrees
  nothing but the point itself is found (`large_sep_wrong`).
- **C85**: `select` trims the columns and nothing else: the sum of weights, number of objects, number of patches, centres, patches and fields
  remain those of all rows (`select_stale_wrong`, `select_field_wrong`, `select_center_wrong`); before a file is loaded it does nothing
  (`select_unloaded_wrong`), and after an unload it is forgotten (`select_forgotten_wrong`).  `get_patch_centers` looks for the centres of k-means before
  it loads the file, so that the first answer can differ from the second (`kmeans_center_wrong`).  A given `npatch` is believed until the
  file is loaded (`npatch_wrong`, `one_patch_wrong`).  `resize_cache` does nothing before the first field is made.
- **C86**: the covariance of GGG (and of KKK with LogMultipole) is complex unless `var_method` is shot.  In an ASCII file each of its numbers
  becomes three cells, and `from_file` stops at the check of the shape (`ascii3_cplx_cov_wrong`).  As for C43, an ASCII file with a covariance
  and without patch results can not be read (`ascii3_cov_wrong`), nor one all of whose patch triples are empty (`ascii3_zero_patches_wrong`).
- **C87**: `Corr2.copy` says of the dict `results` that "we never add more to it after the copy".  `process(initialize=False)` with patches does
  (`copy_results_wrong`), and so does `NNCorrelation.calculateXi` when the randoms have patch pairs the data do not (`copy_calculateXi_wrong`):
  the original gets the patch results of the copy, and another covariance.  The lists `_processed_cats1`, `_processed_cats2` are shared too: when a copy
  made after `process(finalize=False)` is processed, the original forgets its catalogues, and its variance is wrong (`copy_pending_wrong`).
  `clear` does not empty these lists, so a catalogue processed with `finalize=False` before `clear` counts in the variance after it
  (`clear_pending_wrong`).
- **C88**: `repr` of a patch other than number 0 prints `patch=i` without `npatch`, and the constructor refuses that (`repr_patch_wrong`).  An array of one
  patch number is taken for a number by `int(patch)`, so a catalogue of one row with patch numbers is not made again (`repr_one_row_wrong`).
  Before a file is loaded, `num`, `is_rand` and `patch` are not printed (`repr_unloaded_wrong`).
- **C89**: a comment after a value is cut off, a comment after the name of an included file becomes part of the name (`include_comment_wrong`).
  `corr2 -v 3 file.params log_file=x` sets up the logger again and then takes `verbose` from the file, not from `-v` (`verbosity_option_wrong`).  Likewise `-l` and `verbose=...` (`log_file_option_wrong`).
- **C90**: with 15 digits after the point a number can change (`ascii_15_wrong`); with the precision of results, 4, the largest doubles are written
  as 1.7977e+308, which is read as infinite (`ascii_overflow_wrong`).
- **C91**: results or catalogues written to a name ending in `.parquet` are ASCII files; `from_file` of that name raises ValueError and Catalog tries
  to read Parquet (`parquet_wrong`).
- **C92**: `get_patches` makes the patches from arrays without the configuration, so that a given `vark` (or `varg`, ...) has no effect on the results
  of a catalogue with patches (`given_ignored`, `given_wrong`), unless `low_mem` is used with a file.  Catalogues with and without a given variance in
  one list are pooled with mean 0 for the former (`mixed_wrong`).
- **C93**: `+=` compares `_nbins`, `min_sep` and `max_sep` only.  Log and Linear bins with the same limits are added (`log_linear_wrong`), and so are bins
  from 1 to 4 arcmin and from 1 to 4 degrees (`units_wrong`, and `units3_wrong` for three points).  An object with which nothing was processed cannot be added, since its `coords` is None
  (`unused_wrong`); adding pairs with other coordinates only gives a warning and changes the metric of the sum (`coords_wrong`).
- **C94**: a blank line in `file_list` is taken as a file with an empty name, so that nothing is read (`blank_line_wrong`).  A name with a space in `file_name`
  is taken as two names, unless it is in a list (`space_wrong`).
- **C95**: `==` of two-point objects does not compare `tot`, so that two equal NN objects can give different `xi` with the same randoms (`tot_wrong`),
  nor the metric (`metric_wrong`).

## What is modelled and what is not

Modelled: the tree (`Cell.cpp`, `Field.cpp`), neighbour queries, the two-point traversal and binning for Log, Linear and TwoD bins (`Corr2.cpp`,
`BinType.h`, `Split.h`), thread and MPI schedules, patch loops, `results` bookkeeping, covariance selections and formulas,
`calculateXi`, `finalize`, `+=`, the constructor's binning arithmetic, metric validation, configuration checking and parsing, row
selection and columns on reading, the catalogue (`_finish_input`, `select`, `get_patches`, `combine`, variances), the k-means tree
search, patch assignment, initialisers and iterations (`KMeans.cpp`), random subsets, `sample_pairs`, the `Periodic` metric,
the projections of spin values and their sums (`ProjectHelper.h`, `ParallelTransportSum`, the `ProcessHelper` part of `Corr2.cpp`), the utilities named in the plan below, and
the three-point traversal with LogRUV and LogSAS bins (`Corr3.cpp`, `BinType.h`) and the multipole algorithm, with their threads;
the loops over triples of patches of the three-point classes with `patch_method='global'`, with and without MPI (`corr3base.py`); the binning part of the three-point constructor (`corr3base.py:410-700`); the three-point covariance rows; the option `brute` of the two-point classes; `patch_method='local'`; the aperture statistics of the two-point classes and of `GGGCorrelation`; the functions `corr2` and `corr3`; writing catalogues and saved patches; the arguments of neighbour queries; loading, unloading and what a catalogue keeps; files of three-point correlations; what copies share; printing and comparing catalogues; configuration files and the command line; printing and parsing of numbers in ASCII files; file types from names; variances given by the user; the checks of `+=`; the names of the files to read; `==` of two-point objects.

Not modelled: rounding; file formats
below the level of tables; plotting, logging, the command lines of the executables `corr2`, `corr3`; memory management; the triangle
algorithm with LogMultipole bins (compiled only with `DIRECT_MULTIPOLE`, which is off: `algo='triangle'` with these bins runs the multipole algorithm).

## Plan per property

| id | what is modelled | proof method |
|----|------------------|--------------|
| C01 | `process11`, `BinTypeHelper<Log>`, `CalcSplitSq` over trees in a metric space | structural induction over pairs of cells; real-analysis lemma for `singleBin` |
| C02 | `process2`, `process` (auto) | induction over the tree using C01; negation with a witness at `min_sep` |
| C03 | `BinTypeHelper<Linear>` | as C01; negation for edge hits |
| C04 | `BinTypeHelper<TwoD>` in the plane | as C01 with reversed bin |
| C05 | slop bounds for accepted cell pairs; `b` and units in `Corr2.__init__` | inequalities; negations for the second-order excess and for `sep_units` |
| C06 | traversal with arbitrary decision oracle | induction: every decision oracle gives a sub-multiset of the product |
| C07 | loop over top-level cells with arbitrary thread assignment | permutation invariance of commutative sums |
| C08 | `triviallyZero` | triangle inequality |
| C09 | `BuildCell`, `SplitData`, `SetupTopLevelCells` | strong induction on the number of objects |
| C10 | traversal in `Option` (failure = split of a leaf) | induction, termination by tree size |
| C11 | `_get_minmax_size` + tree invariant | arithmetic |
| C12 | `CountNear`, `GetNear`, `get_near` | structural induction |
| C13 | `FindCellsInPatches` | induction with invariant: a nearest centre of each object stays in the candidate list |
| C14 | `QuickAssign`, `SelectPatch` | list induction; negation for ties |
| C15 | `is_my_job` | integer arithmetic |
| C16 | loops + gather | sums over finite sets; negation for `initialize=False` |
| C17 | `tot` bookkeeping | induction over the job list |
| C18 | `results` bookkeeping | induction; negation for overwriting |
| C19 | abstract pair sum | double-sum identity |
| C20, C21 | pair iterators | list membership and count |
| C22 | design matrix core with stale state | induction; negation for empty rows |
| C23 | covariance formulas | Gram matrices |
| C24 | variance formulas | field arithmetic |
| C25 | linked ring of `LRU_Cache` | refinement to a list of keys |
| C26 | any-3-of-4 logic, edges | case analysis, real arithmetic |
| C27 | `parse_metric`, `_set_metric` | decision table, all cases |
| C28, C29 | config functions over association lists | induction |
| C30 | slices and index composition | list/arith |
| C31, C32, C33 | table operations | list induction |
| C34, C35 | accumulation and finalize | algebra |
| C48 | accepted cell pairs of `decide11` | triangle inequality, arcsin bound; negation with a tangent |
| C49 | `ProjectHelper<Flat>`, the accumulation of NG, KG, GG, ... | complex arithmetic; C48 for the direction; the pair counts of C01 |
| C50 | `ProjectHelper<Sphere>` | cross products, rotation matrices |
| C51 | `ParallelTransportSum` | the same; negation with two rows near a pole |
| C52 | `ProjectX` for sphere and 3d | unfolding; negation with three points of the equator |
| C53 | `process3`, `process12`, `process111`, `BinTypeHelper<LogRUV>` over trees in a metric space | induction over triples of cells with an abstract interface (`Exact3`), then inequalities for each way to stop; Ptolemy's inequality for the limits on `v`; negations by concrete catalogues |
| C54 | the same | both orders equal the same brute-force sum; negation with an isosceles triangle |
| C55 | the same, `BinTypeHelper<LogSAS>` | as C53; in the plane the test for the wrong orientation is proved safe; negations by concrete catalogues whose top-level cells are thrown away |
| C56 | the same, with slop | an invariant of the recursion (each call covers triples not covered before) for any binning; the sizes allowed by `singleBin` bound the change of the sides; negation for the angle |
| C57 | `multipole`, `multipoleSplit1`, `multipoleFinish`, `calculateGn`, `calculateZeta`, `ExpIPhi` | the traversal ends with every pair of rows used once in its bin; products of sums expand to sums over triples, the doubled rows cancel; negations by single leaves |
| C58 | `_process_all_auto`, `_process_all_cross12`, `_process_all_cross`, `_trivially_zero` of the three-point classes | each loop is a list of jobs; the rows of all jobs make up the ordered triples of the whole catalogue; a skipped job has no triangle in range; negations with three rows |
| C59 | the three `is_my_job` of corr3base.py, the gathering of results | exactly one process has each job (case analysis on the modular rules); folding over processes is folding over all jobs |
| C60 | `_add_tot`, `__iadd__`, the dictionary `results` | the value of a job is independent of whether it is skipped; invariant of histories: the results sum to the object; negations with single rows |
| C61 | `calculateCosPhi` of the Arc metric | inner products of unit vectors; the angle between great circles of Spec/Sphere; negation with vectors of length 10 |
| C62 | the binning part of the three-point constructor as an `Except` program | inversion of each branch; the four ways to give limits are three lemmas shared by u, v and phi; negations with configurations |
| C63 | the tables made with `np.linspace`, `np.concatenate` and `np.tile` | division with remainder of the place, centres of bins |
| C64 | patch triples of the covariance rows (`Model/Cov3`) | multiplicities by counting lists; sums via the job lists of C58 |
| C45 | sizes as doubles with infinities and NaN, the tests of the traversal on them (`Model/BruteMode`) | a pair with an infinite size is split; two leaves are decided as with `bin_slop = 0`; then the covering argument of C01, C02, C04 |
| C65, C66 | `calculateZeta`, `_calculate_xi_from_pairs` of NNN (`Model/Zeta`) | algebra; rows via the multiplicities and sums of C64, keys of the stored triples for undivided randoms; negation with clumps |
| C67 | `_make_expanded_patch`, the local loops of `_process_all_auto/_cross` (`Model/Local`) | triangle inequality: rows left out are out of reach; loops reduced to those of C15-C19; negations with witnesses |
| C68 | the local loops of `corr3base._process_all_auto/_cross12/_cross` (`Model/Local3`) | expanded patches of C67; triples with a far vertex are in no bin; exactness of the traversal (C53, C55); jobs of C58-C60 |
| C69 | `Corr3._finalize`, `_apply_units` (`Model/Finalize3`) | sums of C53/C55 divided by the weight; every call of `finishProcess` records values of its own bin, for any slop; spherical law of cosines of C61 |
| C70 | `Corr3.toSAS`, the multipole branch of `process` (`Model/ToSas`) | real part term by term; Dirichlet kernel (`Spec/Dirichlet`); telescoping cosine sums over the bins; a polynomial with more roots than its degree |
| C71 | `calculateMapSq`, `calculateGamSq`, `calculateNMap`, `calculateNapSq`, `writeMapSq`, `writeNorm` (`Model/Aperture`) | the filters are complex functions in the plane (`Spec/Aperture`), the weights their correlations: Gaussian moments in the plane; the E/B separation by exchanging integrals over a triangle and antiderivatives of the kernels |
| C72 | `_calculateT`, `calculateMap3`, `writeMap3` of `GGGCorrelation` (`Model/Map3`) | the weight of a triangle is the integral over the centre of the product of three filters (`Spec/Map3`): a Gaussian times a polynomial, moments in the plane; areas as Jacobians |
| C73 | the shear parts of the multipole algorithm in `Corr3.cpp`, `MultipoleScratch.h`, `ProjectX` (`Model/MultipoleG`) | the runs of C57 are generic in the scratch arrays: the shear arrays hold sums over rows, entries are products of sums; the other arrays by projecting the run on those of the scalar class |
| C74 | `GGGCorrelation.toSAS`, `process` of LogSAS for shear (`Model/ToSasG`) | the phases are the natural components of the factors of the two projections; complex Dirichlet sums; the counts by projection on C70 |
| C75 | `UpdateCenters`, `CalculateInertia`, `CalculateShiftSq`, `KMeansRun1` (`Model/KMeansRun`) | calls are cells of the tree whose sums are those of their rows; Huygens' theorem; finitely many divisions, so the inertia and then the centres come to rest |
| C76 | `InitializeCentersRand`, `InitializeCentersKMPP`, `getLeafNumber` (`Model/KMeansInit`) | leaf number m is row m of the tree; loop invariants with the cell each centre comes from; a cell with fewer centres than rows has a free row, so the probabilities have a positive sum |
| C77 | the OpenMP loops of `Corr3.cpp` with an arbitrary schedule (`Model/Parallel3`) | every addition is an element of a commutative monoid; the rows of all threads are a permutation of the rows of the serial loop |
| C78 | the local patch loops of `corr3base.py` with the multipole jobs (`Model/LocalMp`) | the arrays are a function of the collection of triangles, adding over jobs; a row left out of a job is in no triangle with both sides in reach; skipped runs are empty |
| C79 | `process` of LogSAS with patches (`Model/ToSasPatch`, `Model/ToSasGPatch`) | C78 for the object and the stored results; the conversions of C70 and C74 are linear in them |
| C80 | the traversal of C57 and C73 with any slop (`Model/Multipole`, `Model/MultipoleG`) | invariant of the recursion: the scratch arrays hold the rows seen so far, the lists the rest; bins finished early are final because nested cell centres keep later separations below them; sums over views expand to sums over triangles seen |
| C81 | `_check_file`, `_read_file`: names of columns and extensions (`Model/ReadCols`) | the table of columns read holds each name once; case analysis over the quantities; negations by witnesses |
| C82 | `corr2`, `corr3` (`Model/Exec`) with correlations as terms; `isKColRequired` etc. (`Model/ReadCols`) | each block writes a prefix of its documented outputs, all of them if and only if its part of the input suffices; sequencing of blocks keeps this |
| C83 | `write`, `write_patches`, `read_patches`, `get_patches` with `save_patch_dir` and `low_mem` (`Model/Saved`); a directory is a map from names to tables | finishing the input of a catalogue without NaN and flags changes nothing; the columns asked for are those written; then by cases of what the directory holds |
| C84 | `parse_xyzsep` (`Model/NearArgs`); arguments are numbers, angles or coordinates, keywords a record of optional arguments; the documented calls are an inductive relation (`Spec/NearArgs`) | inversion of each branch; on the sphere by chord and arc and C12 |
| C85 | the attributes of a Catalog as a state, its methods as steps (`Model/CatState`) | an invariant (what is known is right), kept by every step; convexity of weighted means |
| C86 | `_write`, `_read`, `from_file` of the three-point classes (`Model/Write3`), on the files of C43 | as C43: the reader follows the list of chunks the writer made |
| C87 | memory with references: `copy`, `clear`, `process`, `+=`, `cov`, `calculateXi` (`Model/Copies`) | refinement: a relation between the memory and objects that share nothing, kept by each safe step; induction on the program |
| C88 | `__repr__`, `__eq__` and the constructor on what is printed (`Model/Repr`), on the catalogues of C32 | what is printed is the table C83 writes; then as C83 |
| C89 | `read_config`, `_read_params_file`, the command line of corr2 and corr3 (`Model/ConfigFile`), on the parser of C29 | an inductive relation says what a file says; soundness by induction on the depth, completeness by induction on the relation |
| C90 | `AsciiWriter` and the parsing of numbers (`Model/Ascii`), `write_patch_centers`, `read_patch_centers` | doubles as rationals m 2^e; two doubles differ by at least 2^-53 of either, a text of 17 digits by at most 10^-16/2; printing and parsing character by character |
| C91 | `parse_file_type`, `make_writer`, `make_reader`, the reader of Catalog (`Model/FileType`) | the extension characterised by a decomposition of the name; cases |
| C92 | given variances in Catalog, `get_patches`, `calculateVarK`, `calculateVarG` (`Model/GivenVar`), on the pooled variance of C24 | the patches are a permutation of the rows; negations with concrete catalogues |
| C93 | `__iadd__` of Corr2, NN, Corr3 and NNN with its checks (`Model/Adding`, `Model/Adding3`), on the bins of C26 and the metrics of C27 | the size of the bins follows from limits and number; negations with concrete objects |
| C94 | `read_catalogs` down to the characters of the names (`Model/FileNames`) | induction on the text, against an inductive description of it; negations with concrete files |
| C95 | `__eq__` of Corr2 (`Model/CorrEq`), on the addition of C93 | equal settings follow from what is compared; negations with concrete objects |
| C36, C37, C38 | sampler as state machine over random stream | invariants; negations with witnesses |
| C39 | `wrap` loops | integer-shift arithmetic |
| C40 | Arc metric on the sphere and in 3d | negation with witnesses; Log counts up to the excess of arc over chord |
| C41 | `calculateXi` | algebra |
| C42 | `InitializeCentersTree` | induction |
| C43 | `write`/`from_file` of all two-point classes over FITS/HDF5 (by name) and ASCII (line by line) | round trip, printing of numbers as an arbitrary function; negations for ASCII covariance, empty patch pairs, shot-noise covariance |
| C44 | exact counts of C01 | corollary |
| C47 | `directProcess11` with the bin chosen from cell centres, `finalize` | every emitted separation is in its bin; weighted mean |
| C46 | `calculateXi` adding dummy pairs, `_calculate_xi_from_pairs` over dictionaries | sums over selected keys, then algebra of the estimator |

## Where the code does not do what is claimed

Each line names the theorem that proves the failure in the model, with a concrete input.

- `auto_min_sep_dropped`: an auto-correlation drops a pair separated by exactly `min_sep`; a cross-correlation counts it.
- `linear_edge_misplaced`: with Linear bins a pair exactly on an edge can be counted in the bin below it.
- `log_wide_bin_misplaced`: `bin_slop=0`, `bin_size=4`, `angle_slop=1`: a pair closer than `min_sep` is counted.
- `log_slop_exceeded`: with Log bins a pair can be misplaced by more than `bin_slop*bin_size` (by `b^2` more).
- `linear_units_slop_exceeded`: for Linear and TwoD bins `b = bin_size*bin_slop` is left in the user's units while `bin_size` is converted
  to radians, so with `sep_units` the slop is far too large: pairs at 5 and 15 units are counted in the bin [10,11).
- `sphere_trivially_zero_wrong`: the test that skips a pair of patches is wrong in spherical coordinates: the size is measured from the
  unnormalised mean and used with the normalised centre.
- `negative_bin_size_accepted`, `negative_min_sep_accepted`, `twoD_none_min_sep_rejected`: parameter checks of the constructor.
- C04: in a TwoD auto-correlation at `bin_slop = 0`, a pair whose reversed vector lies on a grid line is counted in
  the wrong pixel when its cell was accepted as a whole (`twoD_grid_line_misplaced`).
- Mean separation: TwoD `singleBin` does not set `r`, so accepted cells of non-zero size add 0 to `meanr`
  (`twoD_meanr_zero`).
- `patched_cross_tot_dropped`: in a cross-correlation over patches the `tot` of a pair that is trivially zero is lost when the two patches have the
  same number or when one catalogue is not divided.
- `results_sum_nn_history_wrong`: with `initialize=False` an `NNCorrelation` overwrites an earlier patch-pair result by an empty one.
- `mpi_prior_counted_again`, `mpi_initialize_false_wrong`: under MPI with `initialize=False` what the object held before is counted once per
  process.
- **C22**: a row without any pair calls `_clear()` on the correlation object. For `NNCorrelation` this leaves `xi` as it was, so the row
  repeats the previous row of the same process (serial and MPI results differ, `design_mpi_nn_wrong`). For `NKCorrelation` (and the NG, NZ
  classes with the same code) it sets `_rk` to `None`, so all later rows of that process are computed without the random
  compensation (`design_mpi_nk_wrong`). An empty row arises e.g. with `sample` when a patch has no objects.
- **C23**: `sample` weights each row by its share of the total weight; with weights of both signs the "covariance" can have negative
  diagonal (`sample_cov_negative`).
- **C41**: where the randoms have no pairs `xi` is the raw pair weight, not 0; data with `tot = 0` give division by zero although
  the guard against it is in place for `rr` (`xi_bins_wrong`).
- `sumNN_stale_wrong`: `_nonzero` is cached on first use and `+=` does not reset it, so summing patch results for which it was read
  while empty drops their pairs.
- `LRU.lru_zero_wrong`: an `LRU_Cache` constructed with `maxsize=0` raises an exception on its first call (one resized to 0 works).
- `periodic_sphere_wrong`: metric `Periodic` is accepted for catalogues on the sphere, and the Euclidean code runs there.
- `rlens_rpar_without_distance_accepted`: `Rlens` and `min_rpar` are accepted for spherical catalogues without distances.
- `rperp_alias_ignored`: assigning `treecorr.Rperp_alias`, as documented, has no effect on later calls.
- `Config.string_list_rejected`: string parameters with allowed values that are documented to take a list (`x_units`, `ra_units`,
  `file_type`, ...) reject every list with an AttributeError.
- `Config.parse_empty_wrong`: `key =` raises IndexError, `key = []` gives the empty string, `key = [a)` is accepted.
- `Rows.read_empty_patch_wrong`: reading one patch that has no rows raises an error (ValueError with a row selection, AssertionError without) instead of giving an empty result.
- `Rows.read_patch_file_slice_wrong`: an integer `patch` without a patch column, together with a row selection, raises TypeError.
- `Catalog.nan_rows_with_wpos_wrong`, `Catalog.nan_position_with_wpos_wrong`: with `wpos` given, rows with NaN are not removed; they stay with zero weight, with zero in place of NaN, even in the position.
- `Catalog.single_patch_flag_wrong`, `Catalog.single_patch_flag_weights_wrong`: `Catalog(x, y, flag=..., patch=i, patch_centers=...)` does not select the flags with the other columns, so flagged rows stay (or IndexError if weights are given).
- `Catalog.flip_missing_wrong`: `flip_g1` and the like for a catalogue without this column raise TypeError.
- `Catalog.missing_patch_wrong`: `get_patches` gives no catalogue for a number without rows, so list positions are not patch numbers.
- `Catalog.patch_zero_weight_wrong`, `Catalog.patch_kept_zero_weight_wrong`: `get_patches` raises ValueError if the weights of one patch sum to zero, though the catalogue itself is accepted.
- `Catalog.npatch_overwritten`: a larger `npatch` is replaced by the largest number plus one, against the comment in `_set_npatch`.
- `Catalog.combine_patch_wrong`: `combine` drops the patch numbers.
- `Catalog.combine_zero_weight_wrong`: `combine` keeps rows of zero weight only if the first catalogue has some, so the result depends on the order.
- `near_tie_wrong`: `get_near`/`count_near` include a row at distance exactly `sep` if the field has `min_size=0` and exclude it otherwise.
- `near_sphere_wrong`: on the sphere with `min_size > 0` and a chord `sep + min_size` above `sqrt(2)`, `get_near` can allocate more entries than it fills, so
  that unwritten memory is used as row numbers.
- `KMeans.kmeans_min_size_wrong`: for a field with `min_size > 0`, `kmeans_assign_patches` gives all rows of a leaf the same patch, so a row can get a
  centre that is not its nearest (at most `2 min_size` further, `KMeans.kmeans_assign_min_size_partial`).
- `KMeans.single_patch_tie_wrong`: a row at the same distance from two centres is read for both patches when patches are read one by one.
- `select_random_stalls_wrong`: `SelectRandomFrom` draws until enough different indices came up, with no bound.
- `KMeans.init_tree_overrun_wrong`: `urand()` is `rand() / RAND_MAX`, which can be 1; the shuffle in `InitializeCentersTree` then swaps with an entry
  behind the end of the vector.
- `sample_pairs_unwritten_wrong`: `sample_pairs` can leave an entry of the result unwritten (rows 0 and 0, separation 0). The loop of case 3 that moves old items
  into their place (Corr2.cpp:873-876) does one swap per slot, where a chain of swaps may be needed.
- `sample_pairs_off_grid_wrong`: `sample_pairs` with `bin_slop=0` returns pairs beyond `max_sep` if the limits are not edges of the bins: two cells are accepted
  as a whole if they fall into one bin, and the bins are not cut at `max_sep`.
- `sample_pairs_threads_wrong`: `SamplePairs` sets one thread and "restores" what `SetOMPThreads` returned, which is the new number, 1.
- `angle_slop_exceeded`: the documentation of `angle_slop` bounds the angle by `angle_slop` radians; the code bounds its sine, so that the angle can reach
  `arcsin(angle_slop)` (0.6435 for 0.6).
- `wrap_negative_hangs`: a negative period is accepted and makes the loops of `Position::wrap` run forever.
- `arc_pair_dropped_wrong`: with `metric='Arc'` on the sphere the sizes of fields and cells are chords while the distances are arcs; the tests for
  "too far" are then not conservative, and at `bin_slop=0` an in-range pair can be dropped.  The error is bounded (`arc_cross_log_partial`).
- `arc3_opposite_dropped_wrong`: with `metric='Arc'` and 3d positions the angle is the arcsine of the cross product, so angles above 90° are folded
  (`arc3_distance`): opposite directions have distance 0.
- `IO.ascii_cov_wrong`: an ASCII file written with `write_cov=True` and without `write_patch_results` cannot be read: `num_rows` is only in the header with
  patch results, so the rows of the matrix are read as rows of the table.
- `IO.ascii_cov_single_wrong`: a 1x1 covariance in an ASCII file cannot be read (`genfromtxt` squeezes it, the shape is asserted).
- `IO.ascii_zero_patches_wrong`: an ASCII file of NN counts with patches and no counted pair cannot be read (`None + str`).
- `IO.read_shot_cov_wrong`: `_var_num` is not stored, so `cov` with `var_method='shot'` of an object that was read is zero, though its `varxi` is right.
- Noted, not proved: an `NKCorrelation`/`NGCorrelation` compensated by `rk`/`rg` is written with the compensated values, which become its raw values on
  reading; the patch results of an NN object that was read hold the `xi` of the main object (`_copy_for_results` of an object with `xi`).
- `coincident_zero_wrong`: a spin value at the position of the other point (or of the other cell's centre) is multiplied by 0, though the pair enters the
  weight (`_expmsialpha` of 0).  It matters with `min_sep = 0`.
- `reversed_xip_im_wrong`: with TwoD bins an auto-correlation adds `xip` of a pair also to the opposite bin, without conjugating it; `xip_im` there has the
  wrong sign.
- `pole_zero_wrong`: a spin value exactly at a pole is multiplied by 0.
- `transport_conj`, `transport_wrong`: `ParallelTransportSum` (`Cell.cpp:312-317`) applies `exp(-i s beta)` where the transport is `exp(+i s beta)`.  Near
  a pole the value of a cell is wrong at leading order however small the cell is.  Checked numerically outside Lean as well.
- `transport_scale_wrong`: the same function takes `z` of the centre before normalising it, so for 3d positions the turn depends on the distance.
- `threeD_projectX_wrong`, `threeD_projectX_differs`: `ProjectHelper<ThreeD>::ProjectX` (`ProjectHelper.h:425`) calls `Position<Sphere>` projections with
  `z1, z3, z3` for `z1, z2, z3`: the second value is not projected and the third is projected twice.
- Noted, not proved: with the Periodic metric the direction of a pair is taken along the unwrapped difference vector.
- `ruv_u_one_never`, `ruv_v_one_never`: the documentation describes LogRUV triangles as `d1 >= d2 >= d3` with `u` and `|v|` up to 1, but the bins are half open at the
  top, so triangles with `d2 = d3` (equilateral ones, grids) and three rows on a line are never counted.
- `ruv_minv_unordered_wrong`, `ruv_minv_first_wrong`: with `min_v > 0` and `ordered=False` (or `ordered=1`) triangles in range are lost. The test at
  BinType.h:546-560 compares sides in the order they have at the centres of the cells; its comment says it is fine if the sides change roles, but then
  `v` can be much larger. With the order fixed the test is right (`cross123_ruv_exact_partial`), and so is the test with `max_v` in any order.
- `ruv_isosceles_wrong`: with `ordered=False` (and in an auto-correlation) a triangle with `d1 = d2` gets a positive or a negative `v` depending on the order of the
  rows or catalogues (`Corr3.cpp:572-600` sorts with `>`, so ties keep the order given).
- `sas_minphi_wrong`: with LogSAS bins and `min_phi` above 1 radian, pairs of cells are thrown away when `2 s2 < min_phi min_sep` (`BinType.h:812-818`); the shortest
  third side is `2 sin(min_phi/2) min_sep`, which is less.  The comment in the code has the inequality `sin x < x` the wrong way round for this use.
- `sas_maxphi_wrong`: with `max_phi` below 60 degrees the bound on the smallest angle, `cos(phi - dphi)` (`BinType.h:1020-1064`), is used although `phi - dphi` may be
  negative; triangles in range are lost.
- `sas_minphi_wide_wrong`: with `min_phi` above 120 degrees `cos(phi + dphi)` (`BinType.h:968-1013`) is used although `phi + dphi` may exceed π; triangles in range
  are lost.
- `sas_space_wrong`: for three catalogues with `ordered=True` the test for the wrong orientation (`BinType.h:924-961`) is safe in the plane (`flatMetric3_turn`) but
  not in space, where the orientation is judged from the origin.
- Noted, not proved: `BinType.h:1051` compares with `maxcosphisq` where its twin at 1033 compares with `-mincosphisq`; `BinType.h:954` calls `abs` without `std::`,
  modelled as the absolute value of a double (with only `<cmath>` included the integer function could be chosen).
- Three rows exactly on a line with an angle of 0 are counted by LogSAS when the order is free, in an order given by that of the catalogues, and not counted when the
  order is given; C55 excludes them.
- `sas_angle_slop_wrong`: the documentation of `bin_slop` (`corr3base.py:174-178`) says that a triangle is at most `bin_slop` bins away from its own.  For LogSAS the test
  of the first cell (`BinType.h:1107-1113`) has `cot(phi/2)` in place of a bound on the change of the angle and lets everything pass near `phi = π`; with the default
  tolerances a triangle ends more than three bins away.
- `multipole_coincident_wrong`: rows of one catalogue at exactly the same place share a leaf; `calculateSumWSq` of a leaf (`Cell.cpp:138-144`) is the square of its
  total, not the sum of squares, so the multipole algorithm loses their triangles in `weight` and `zeta` while `ntri` has them.
- `multipole_meanlogd3_wrong`: with `ordered=1` or `False` and different catalogues `meanlogd3` is multiplied by the weight of the other bin (`Corr3.cpp:1480`).
- `multipole_periodic_wrong`: `ExpIPhi` divides the unwrapped difference by the wrapped distance; with the `Periodic` metric the phases are not of modulus one.
- `multipole_pole_wrong`, `multipole_line_of_sight_wrong`: the phase is 0 for a first point at a pole of the sphere and for two points on one line of sight in 3d; such
  triangles have no multipoles with `n ≠ 0`.  In 3d the angle is that of the directions on the sky, not the angle of the triangle which LogSAS uses.
- Not stated as a property: the multipole algorithm counts rows of weight 0 in `ntri`, the direct traversal skips cells of weight 0.
- `patched_periodic_wrong`, `patched_arc_wrong`: `_trivially_zero` of the three-point classes (`corr3base.py:1113-1122`) takes Euclidean distances of the patch centres
  whatever the metric is; with `Periodic`, and with `Arc` on 3d positions, triangles between patches are lost.
- `patched3_cross12_tot_dropped`, `patched3_cross_tot_dropped`: a trivially zero job that is forced (equal patch numbers, or one side not divided) is stored as an empty
  copy, and its part of `tot` is dropped.
- `patched3_cross_tot_repeated_wrong`: `_add_tot` halves the total whenever `c2 is c3`, also in `process(cat1, cat2, cat2)`, where nothing else is halved.
- `results3_sum_nnn_history_wrong`: with `initialize=False` the entries of `results` without triangles are overwritten, so `tot` is lost from them but not from the object.
- `mpi3_initialize_false_wrong`: with `comm` and `initialize=False` what the processes held before is added once per process.
- `arc_sas_space_wrong`: `calculateCosPhi` of the Arc metric (`Metric.h:691-722`) uses the positions as they are, not their directions.  For three-dimensional positions
  "cos phi" is not the cosine of the angle and can be below -1.
- `ruv_negative_min_v_wrong`: with `max_v`, `vbin_size` and `nvbins` given the implicit `min_v` is cut off at -1 and not at 0 (`corr3base.py:517`; for `u` and `phi` it is
  0), so `max_v=0.5, vbin_size=0.1, nvbins=10` has `min_v=-0.5`, and half of the bins of `|v|` are empty for every catalogue.
- `ruv_anchor_differs`: with only `nubins` and `ubin_size` given the bins of `u` end at 1 (`corr3base.py:490-491`), whereas those of `v` and `phi` begin at 0.
- `ruv_negative_size_wrong`: a negative `ubin_size` with `nubins` is accepted and gives `min_u > max_u`: the range is checked before the implicit limits are computed.
- `sas_phi_bin_size_wrong`: `phi_bin_size` is in radians whatever `phi_units` is (`corr3base.py:540`); `phi_units='degrees', phi_bin_size=10` is one bin of 180 degrees.
- **C64**: `process(cat1, cat2, cat3)` with an undivided first catalogue does not compare the numbers of patches of the other two; the run goes through, but every
  covariance then fails on an `assert` (`cov3_unequal_wrong`).
- **C21, C64**: the documentation says that a row of `sample` uses "only a single patch for the first catalog", and the marked bootstrap all patches of the second
  catalogue for each draw of the first. For auto-correlations `results` holds only sorted patch numbers, so row `i` lacks every pair or triple with a lower-numbered
  patch; the last row is one patch alone, and the estimates depend on how the patches are numbered (`sample_auto_wrong`, `sample3_auto_wrong`, `marked3_auto_wrong`).
- **C45**: `brute=np.True_` is accepted and treated as `brute=1`, because `parse_bool` returns numpy booleans unchanged and the code asks `self.brute is True`
  (`brute_numpy_wrong`); the three-point classes document `brute=2` but reject it (`brute3_two_wrong`).
- **C45**: with weights of both signs a cell whose weights sum to 0 is skipped even with `brute=True`, and all pairs with its rows are lost (`brute_sign_wrong`).
- **C45**: with Linear bins and `min_sep=0` two rows at the same position are counted in a cross-correlation but not in an auto-correlation, also with `brute=True`
  (`linear_brute_coincident`).
- **C65**: in bins where the randoms have no triangles `zeta` is the numerator, a sum of weights, and not 0 or NaN (`zeta_bins_wrong`, as C41).
- **C66**: with undivided randoms `_calculate_xi_from_pairs` scales RRR, DRR and RDD with the total of the data times the fraction `f` of the area that is used.
  That is right for RRR (constant total) and DRR (its total shrinks with `f`), but the total of RDD shrinks with `f` squared, so RDD enters a factor `1/f` too
  large: with equally dense data and randoms in `n` equal distant clumps every jackknife row has `zeta = -1/(n-1)` instead of 0 (`undivided_factors`,
  `undivided_rdd_wrong` with n = 2).
- **C46, C66**: with undivided randoms RD and RDD are restricted to the patch of the row by turning `(i,i)` into `(0,i)`, except if all pairs begin with 0, which is
  meant to recognise undivided data but is also true of row 0 of `sample`: that row uses all of RD or RDD (`sample_rd_wrong`, `sample_rdd_wrong`).
- **C67**: expanded patches reach `max_sep` from the patch, TwoD bins reach `√2 max_sep` in the corners of the square: pairs in the corners are lost
  (`local_twoD_wrong`).
- **C67**: for 3d coordinates `_make_expanded_patch` compares distances on the unit sphere with `max_sep` and sizes in the units of the catalogue.  Nearer than 1 to
  the origin (say, distances in Gpc) that loses pairs (`local_3d_wrong`); further out it only keeps too much.
- **C67**: expanded patches do not wrap around for the Periodic metric: pairs across the border of the box are lost (`local_periodic_wrong`).
- **C67**: if a patch has nothing in reach its share of `tot` is lost (`local_cross_tot_wrong`; as C17 for undivided catalogues).
- **C67**: the auto-correlation in local mode has twice the `npairs`, `weight` and `tot` of the global mode, and with `min_sep=0` (Linear) every row is also paired with
  itself (`local_auto_linear_partial`).
- **C68**: with LogRUV bins a triangle with two equal longest sides is counted twice in the local mode, once with positive and once with negative `v` (or twice
  in one bin), once in the global mode (`local3_isosceles_wrong`).
- **C68**: for one catalogue and for `ordered=False` the local mode has three times the `tot` of the global mode, although the LogRUV counts are the same
  (`local3_auto_tot`, `local3_cross12_unordered_tot_partial`, `local3_cross_unordered_tot_partial`): the normalised count `ntri/tot` is a third.
- **C68**: two catalogues, `ordered=False`: both loops store under `(i,i,i)`; an entry of the first without triangles but with a `tot` is written over by the
  second (`local3_results_tot_wrong`).  A patch with nothing in reach loses its share of `tot` (`local3_cross12_tot_wrong`).
- **C68**: expanded patches do not wrap around for the Periodic metric (`local3_periodic_wrong`).
- **C69**: bins without weight of a LogSAS object report the nominal angle in radians, bins with weight report `meanphi` in `phi_units`, although the documentation
  says that `phi_units` are the units of the output `meanphi` (`sas_empty_phi_wrong`).  `gggcorrelation.py:905` multiplies all of them by the unit.
- **C69**: for spherical coordinates `meand1`, … are converted from chords to angles, `meanu` and `meanv` of a LogRUV object stay ratios of chords
  (`ruv_sphere_u_wrong`).
- **C70**: `process` of a LogSAS object takes `max_n = 2π/phi_bin_size` (`corr3base.py:1737`), twice the number of bins on [0,π], and samples the sum of the multipoles
  at the bin centres.  At these the last multipole is aliased to the mean: a triangle at the centre of a bin counts 5/2 in total (`toSas_center_wrong`), one at a border
  gets a negative weight in every bin (`toSas_border_wrong`, from a catalogue `processSas_weight_wrong`).  With `max_n < 2 nphi_bins` the total is right
  (`toSas_weight_total_partial`).  With doubles the quotient may round to just below an even number, in which case `int()` gives one less.
- **C70**: `toSAS()` promises "the same information"; with its default of `max_n` bins the real part of the multipoles `±max_n` vanishes in every bin
  (`toSas_information_wrong`).  At least `2 max_n + 1` bins are needed (`toSas_information_partial`).  `max_n = 0`, which is accepted, divides by zero.
- **C70**: `process(initialize=False)` of a LogSAS object with the default algorithm forgets what the object holds (`toSAS` clears its target), and `finalize=False` loses the
  number of triangles and the mean sides (`processSas_initialize_wrong`, `processSas_finalize_wrong`).
