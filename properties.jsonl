{"id": "C01", "title": "Cross pair counting is exact at bin_slop=0", "statement": "With Log binning and bin_slop=0, processing two catalogues in any space obeying the triangle inequality gives, in every bin k, exactly the brute-force number of pairs (and summed weight w1*w2, and summed product of scalar field values) over all object pairs whose separation d satisfies left_edge[k] <= d < right_edge[k]. No pair is missed, counted twice or put in another bin.", "quantifier": "all catalogues with positive weights, all binary trees the builder can make, all numbers of bins, all min_sep>0 and bin_size, all angle_slop<=1/2", "why_tests_cant": "The answer depends on the tree shape, on the split decisions and on early exits for every configuration of points; tests can only compare with brute force on sample catalogues.", "anchors": ["src/Corr2.cpp: BaseCorr2::process11, directProcess11, finishProcess", "include/BinType.h: BinTypeHelper<Log>", "include/Split.h: CalcSplitSq"]}
{"id": "C02", "title": "Auto pair counting is exact at bin_slop=0", "statement": "The auto-correlation of one catalogue with Log binning and bin_slop=0 counts every unordered pair of distinct objects with min_sep < d < max_sep exactly once, in the bin containing d, never pairs an object with itself, and never counts a pair outside [min_sep,max_sep). Ideally a pair at exactly min_sep is counted as in the cross case; the code does not guarantee this, because its per-cell shortcut drops some of them.", "quantifier": "all catalogues with positive weights, all trees, all partitions into top-level cells", "why_tests_cant": "Whether a pair is visited depends on where in the tree its two objects are separated.", "anchors": ["src/Corr2.cpp: BaseCorr2::process, process2, process11"]}
{"id": "C03", "title": "Linear binning at bin_slop=0", "statement": "With Linear binning and bin_slop=0 every pair with separation strictly inside a bin is counted exactly once in this bin, and pairs outside [min_sep,max_sep] are never counted. (A pair exactly on an edge should go to the bin on its right; the code may put it in the bin on its left.)", "quantifier": "all catalogues with positive weights, all trees, all min_sep, bin_size, nbins, angle_slop", "why_tests_cant": "Edge hits inside a multi-object cell depend on the tree; no finite set of catalogues covers the edge cases.", "anchors": ["include/BinType.h: BinTypeHelper<Linear>::singleBin", "src/Corr2.cpp: process11"]}
{"id": "C04", "title": "Two-dimensional binning counts both directions", "statement": "With TwoD binning and bin_slop=0, a pair of objects (p,q) with separation vector inside the (2*max_sep)^2 square is counted once in the pixel of q-p and, for an auto-correlation, once in the pixel of p-q; the result array is therefore symmetric under inversion.", "quantifier": "all catalogues with positive weights, all trees, all grid sizes", "why_tests_cant": "Needs every pair of cells and the reversed pixel for each of them.", "anchors": ["include/BinType.h: BinTypeHelper<TwoD>", "src/Corr2.cpp: directProcess11, finishProcess"]}
{"id": "C05", "title": "Bin slop bounds the misplacement of a pair", "statement": "For any bin_slop, a pair with separation d put into bin k has d within bin k widened by bin_slop*bin_size on each side (in log d for Log, in d for Linear), in the units the user gave, as the documentation of bin_slop says.", "quantifier": "all catalogues, all trees, all bin_slop, all sep_units", "why_tests_cant": "The bound concerns the worst pair of every cell pair ever accepted.", "anchors": ["include/BinType.h: singleBin", "treecorr/corr2base.py: Corr2.__init__ (b, _bin_size)", "docs/binning.rst"]}
{"id": "C06", "title": "Pairs are counted at most once and only between the right sets at any slop", "statement": "Whatever bin_slop, angle_slop, metric and brute setting, a cross-correlation counts each (object1, object2) combination at most once over all bins, and an auto-correlation counts each unordered pair of distinct objects at most once, so sum(npairs) <= n1*n2 (cross) and <= n(n-1)/2 (auto).", "quantifier": "all catalogues, trees, metrics, binnings, split rules", "why_tests_cant": "A universally quantified non-duplication claim over all tree recursions.", "anchors": ["src/Corr2.cpp: process, process2, process11"]}
{"id": "C07", "title": "The parallel schedule does not change the answer", "statement": "Whatever number of threads is used and however the top-level cells are handed out to the threads and whatever order the threads' partial sums are added in, the counts, weights and sums are those of the serial loop.", "quantifier": "all assignments of loop iterations to threads, all completion orders, all numbers of threads", "why_tests_cant": "Tests see a few schedules on one machine.", "anchors": ["src/Corr2.cpp: BaseCorr2::process (OpenMP), operator+="]}
{"id": "C08", "title": "Skipping a pair of patches as trivially zero is sound", "statement": "If the early exit (whole-field or patch-pair test) decides that two catalogues cannot contribute, then no pair of objects from them has a separation in the counted range.", "quantifier": "all pairs of point sets, all centre and size values that bound them", "why_tests_cant": "The claim is about the absence of any in-range pair.", "anchors": ["src/Corr2.cpp: triviallyZero, process", "treecorr/corr2base.py: _trivially_zero"]}
{"id": "C09", "title": "The tree holds every object exactly once", "statement": "Building a field from a catalogue, with any split method (middle, median, mean, random), min_size, max_size, min_top and max_top, gives top-level cells whose leaves contain each object exactly once; each cell's n and w are the sums over its objects, its size bounds the distance of its objects from its centre, and every cell reported with positive size can be split.", "quantifier": "all lists of objects, all split methods and random choices, all size limits", "why_tests_cant": "Needs induction over the recursive build, including degenerate splits (ties, coincident points).", "anchors": ["src/Cell.cpp: BuildCell, SplitData", "src/Field.cpp: SetupTopLevelCells, DoBuildCells"]}
{"id": "C10", "title": "The traversal never descends below a leaf", "statement": "Pair processing only ever splits cells that have children, and it terminates, for every tree the builder makes and every Log, Linear or TwoD binning.", "quantifier": "all trees, all binnings, all slop values", "why_tests_cant": "A null dereference in one configuration would be missed by any finite test set.", "anchors": ["src/Corr2.cpp: process11, process2", "include/Split.h: CalcSplitSq"]}
{"id": "C11", "title": "Objects merged into one leaf are too close to matter", "statement": "With the automatic min_size, any two objects that the builder merges into one leaf are closer than min_sep, so no countable pair of an auto-correlation is lost by merging.", "quantifier": "all catalogues, all bin_slop, angle_slop, min_sep, bin sizes", "why_tests_cant": "It is a numeric inequality over all parameter values plus an invariant of the tree.", "anchors": ["treecorr/corr2base.py: _get_minmax_size", "src/Cell.cpp: BuildCell"]}
{"id": "C12", "title": "Neighbour queries are exact", "statement": "Field.count_near and get_near return the number / the indices of exactly the objects within distance sep of the point, each index once, and count_near equals the length of get_near, whatever min_size the field was built with.", "quantifier": "all catalogues, query points, separations, trees, min_size", "why_tests_cant": "Depends on the pruning tests for all geometric configurations, including ties at exactly sep.", "anchors": ["treecorr/field.py: count_near, get_near", "src/Field.cpp: CountNear, GetNear"]}
{"id": "C13", "title": "K-means patch assignment picks a nearest centre", "statement": "kmeans_assign_patches gives every object a patch whose centre is at minimal distance among all centres, for every tree.", "quantifier": "all point sets, trees, numbers and positions of centres", "why_tests_cant": "The tree search prunes candidate centres; only a proof shows the true nearest is never pruned.", "anchors": ["src/KMeans.cpp: FindCellsInPatches, AssignPatches, KMeansAssign1", "treecorr/field.py: kmeans_assign_patches"]}
{"id": "C14", "title": "Assigning patches from centres is a consistent partition", "statement": "Given patch centres, each object is assigned to the first nearest centre; reading a single patch of a catalogue selects exactly the objects assigned to it, so the single-patch reads partition the catalogue.", "quantifier": "all point sets and centres, including ties", "why_tests_cant": "Ties and coincident centres need the universally quantified statement.", "anchors": ["src/KMeans.cpp: QuickAssign, SelectPatch", "treecorr/catalog.py: _get_patch_index, _read_file"]}
{"id": "C15", "title": "Every patch-pair job is done by exactly one process", "statement": "Under MPI with any number of processes, for an auto-correlation every job (i) and (i,j), i<j, and for a cross-correlation every job (i,j), is carried out by exactly one process.", "quantifier": "all numbers of patches, all numbers of processes", "why_tests_cant": "The parity rule must be shown to be complementary for every pair and every layout.", "anchors": ["treecorr/corr2base.py: _process_all_auto.is_my_job, _process_all_cross.is_my_job"]}
{"id": "C16", "title": "MPI gives the serial result", "statement": "After process(comm=comm) the root process holds the same sums and the same set of patch-pair results as a run without MPI.", "quantifier": "all numbers of processes and patches, all per-job results, any prior state (initialize True or False)", "why_tests_cant": "Needs the sum over all jobs and processes, for every history of earlier calls.", "anchors": ["treecorr/corr2base.py: _process_all_auto, _process_all_cross"]}
{"id": "C17", "title": "Totals of a patch-split catalogue equal those of the whole", "statement": "The normalising total (tot) of an NN correlation of a catalogue divided into patches equals that of the undivided catalogue: sumw^2/2 for auto and sumw1*sumw2 for cross, whether or not some patch pairs are skipped.", "quantifier": "all weights, all patch divisions, all sets of skipped pairs, low_mem/local or not", "why_tests_cant": "The bookkeeping has separate branches for skipped, zero and forced pairs.", "anchors": ["treecorr/nncorrelation.py: process_auto, process_cross, _add_tot", "treecorr/corr2base.py: _single_process12"]}
{"id": "C18", "title": "Patch results add up to the full result", "statement": "After process, the sum over the stored patch-pair results equals the total accumulated in the object, for each of npairs, weight, xi sums and tot; also after several calls with initialize=False.", "quantifier": "all sequences of process calls, all patch numbers and outcomes per pair", "why_tests_cant": "Covers histories of calls and branches by zero/nonzero outcomes.", "anchors": ["treecorr/corr2base.py: _single_process12, _process_all_auto, _process_all_cross, __iadd__", "treecorr/nncorrelation.py: _add_tot"]}
{"id": "C19", "title": "Pair counting over patches equals pair counting over the whole catalogue", "statement": "For exact pair counts, summing the auto-correlations of the patches and the cross-correlations of all pairs of patches gives the count of the undivided catalogue.", "quantifier": "all catalogues, all divisions into patches, all symmetric pair weights", "why_tests_cant": "Universal over all divisions.", "anchors": ["treecorr/corr2base.py: _process_all_auto, _process_all_cross"]}
{"id": "C20", "title": "Jackknife selections drop exactly the pairs touching a patch", "statement": "For jackknife row i, an auto-correlation uses each stored pair (j,k) with j != i and k != i exactly once and no other; a cross-correlation likewise, with the single-patch side exempt; the row estimate equals a recomputation from the remaining patches.", "quantifier": "all numbers of patches, all sets of stored results", "why_tests_cant": "Set equality with exact multiplicity for all patch numbers.", "anchors": ["treecorr/corr2base.py: JackknifePairIterator"]}
{"id": "C21", "title": "Sample, marked and bootstrap selections have the right multiplicities", "statement": "Sample row i uses pairs whose first patch is i; marked bootstrap uses for each drawn i every pair (i,j) once per draw; bootstrap uses a pair (i,j), i != j, m_i*m_j times where m is the draw multiplicity, and (i,i) m_i times.", "quantifier": "all patch numbers, all draws with repetition", "why_tests_cant": "Multiplicity identities for all multisets of draws.", "anchors": ["treecorr/corr2base.py: SampleIterator, MarkedPairIterator, BootstrapPairIterator"]}
{"id": "C22", "title": "The covariance design matrix is the same under MPI", "statement": "The design matrix of estimate_cov built with MPI, where rows are divided over processes and summed, equals the matrix built by one process, also when some row has no pairs.", "quantifier": "all numbers of processes, rows, and row functions", "why_tests_cant": "Involves stale state on each process; depends on which rows a process handled before.", "anchors": ["treecorr/corr2base.py: _make_cov_design_matrix_core, _make_cov_design_matrix"]}
{"id": "C23", "title": "Estimated covariances are symmetric positive semidefinite", "statement": "Every jackknife, sample, marked and bootstrap covariance is symmetric and v^T C v >= 0 for every vector v, and is unchanged when a constant is added to every row.", "quantifier": "all design matrices, all weights", "why_tests_cant": "A quadratic-form claim over all real vectors.", "anchors": ["treecorr/corr2base.py: estimate_cov methods (_cov_jackknife, _cov_sample, _cov_marked, _cov_bootstrap)"]}
{"id": "C24", "title": "Pooled variance of several catalogues equals the variance of their union", "statement": "The field variance computed for a list of catalogues equals that of the concatenated catalogue.", "quantifier": "all lists of catalogues and weights with nonzero total weight", "why_tests_cant": "Algebraic identity for all data.", "anchors": ["treecorr/catalog.py: _calculate_weighted_var, _compute_var_multi_cat, calculateVarK"]}
{"id": "C25", "title": "Field cache returns what was computed and keeps the most recent entries", "statement": "The LRU cache returns for each call the value of the user function at these arguments, and recomputes exactly when the key is not among the maxsize most recently used distinct keys; resizing keeps the most recent ones; clear forgets all.", "quantifier": "all sequences of call/resize/clear operations, all maxsize >= 1 (and 0)", "why_tests_cant": "Refinement of a linked ring over all histories.", "anchors": ["treecorr/util.py: LRU_Cache"]}
{"id": "C26", "title": "Any three of the four binning parameters give consistent bins", "statement": "For Log and Linear binning exactly three (TwoD: two of max_sep, bin_size, nbins) of min_sep, max_sep, nbins, bin_size must be given; then the bin edges are contiguous, start at min_sep, end at max_sep, and no bin is wider than a requested bin_size; any other combination is an error.", "quantifier": "all parameter combinations and values", "why_tests_cant": "Real arithmetic with ceil/log over all values.", "anchors": ["treecorr/corr2base.py: Corr2.__init__"]}
{"id": "C27", "title": "Metric and coordinate validation", "statement": "A metric is accepted exactly for the coordinate systems it is documented for; in particular mixed flat/non-flat catalogues are always rejected, and accepted combinations get the coordinate system the metric needs.", "quantifier": "all metric names and pairs of coordinate systems", "why_tests_cant": "Complete decision table including invalid names.", "anchors": ["treecorr/util.py: parse_metric", "treecorr/corr2base.py: _set_metric"]}
{"id": "C28", "title": "Configuration merging and checking", "statement": "Keyword arguments override the config dict, unknown keyword names are rejected, defaults and allowed values are applied, and checking a checked configuration changes nothing.", "quantifier": "all dictionaries, all parameter tables", "why_tests_cant": "Universal over dictionaries and tables.", "anchors": ["treecorr/config.py: merge_config, check_config, make_minimal_config, get, get_from_list"]}
{"id": "C29", "title": "Booleans, variables and lists parse as documented", "statement": "parse_bool accepts exactly the documented spellings; a variable assignment yields one value or a list; get_from_list takes item num of a list and the value itself otherwise and rejects an out-of-range num.", "quantifier": "all strings and values", "why_tests_cant": "All strings.", "anchors": ["treecorr/config.py: parse_bool, parse_variable, get_from_list"]}
{"id": "C30", "title": "Row selection commutes with single-patch selection", "statement": "Reading rows first_row..last_row with every_nth yields rows first_row-1+k*every_nth in range, and restricting the read to one patch gives the same rows as reading all rows and then selecting the patch.", "quantifier": "all file lengths, slices, patch columns", "why_tests_cant": "Index arithmetic over all ranges, including the empty selection.", "anchors": ["treecorr/catalog.py: __init__ (first_row,last_row,every_nth), _read_file"]}
{"id": "C31", "title": "Patches partition the catalogue", "statement": "get_patches gives for patches 0..npatch-1 catalogues whose rows are exactly the rows with this patch number, in order; together they hold each row once; their sums of weights add up.", "quantifier": "all catalogues, all patch columns", "why_tests_cant": "All assignments.", "anchors": ["treecorr/catalog.py: get_patches, select, _set_npatch"]}
{"id": "C32", "title": "Bad rows are removed and nothing else", "statement": "After construction exactly the rows with NaN in a used column, a flag in ignore_flag (or not in ok_flag) or zero weight are gone (or have zero weight if keep_zero_weight), and all other rows are unchanged and in order.", "quantifier": "all columns, all flag masks", "why_tests_cant": "All tables and masks.", "anchors": ["treecorr/catalog.py: _finish_input, checkForNaN, select"]}
{"id": "C33", "title": "Combining catalogues concatenates their rows", "statement": "Catalog.combine gives the rows of the inputs in order with all columns, including weights and patch numbers; rows masked by the mask list are dropped.", "quantifier": "all lists of catalogues", "why_tests_cant": "All lists.", "anchors": ["treecorr/catalog.py: combine"]}
{"id": "C34", "title": "Accumulation of results is a commutative monoid and clear resets it", "statement": "Adding correlation objects is associative and commutative, the cleared object is neutral, and summing a list at once equals adding its items in turn, including the items that are flagged zero.", "quantifier": "all lists of result objects", "why_tests_cant": "All lists and orders.", "anchors": ["treecorr/nncorrelation.py: __iadd__, _sum", "treecorr/corr2base.py: __iadd__, _clear, _sum"]}
{"id": "C35", "title": "Finalised averages are means of what was counted", "statement": "After finalize, meanr is the weighted mean of the accumulated separations, lies between the smallest and largest of them, xi is the weighted mean of the products, and bins with zero weight get the nominal values.", "quantifier": "all accumulations with nonnegative weights", "why_tests_cant": "All lists of contributions.", "anchors": ["treecorr/corr2base.py: _finalize", "treecorr/kkcorrelation.py: finalize"]}
{"id": "C36", "title": "Sampling pairs returns genuine in-range pairs", "statement": "sample_pairs returns min(n, total) pairs, each of them an actual pair of the two catalogues in the range, and no pair twice, for every stream of random numbers.", "quantifier": "all catalogues, n, random streams", "why_tests_cant": "Random streams that trigger a wrong swap are too rare for tests.", "anchors": ["src/Corr2.cpp: Sampler::finishProcess, SelectRandomFrom", "treecorr/corr2base.py: sample_pairs"]}
{"id": "C37", "title": "Random subset selection", "statement": "Selecting n of m items yields n distinct indices below m for every random stream.", "quantifier": "all n <= m, all random streams, including the value 1.0", "why_tests_cant": "All streams.", "anchors": ["src/Corr2.cpp: SelectRandomFrom"]}
{"id": "C38", "title": "Sampling restores the thread setting", "statement": "Calling sample_pairs leaves the number of OpenMP threads as it was.", "quantifier": "all thread settings", "why_tests_cant": "A state property over all settings.", "anchors": ["src/Corr2.cpp: BaseCorr2::samplePairs, SetOMPThreads"]}
{"id": "C39", "title": "Periodic separations are minimal-image and a pseudometric", "statement": "The periodic distance equals the minimum distance over all periodic images, is symmetric, and obeys the triangle inequality, so tree pruning is valid with it.", "quantifier": "all positions and periods > 0", "why_tests_cant": "Infinite number of images and all reals.", "anchors": ["include/Position.h: wrap", "include/Metric.h: MetricHelper<Periodic>"]}
{"id": "C40", "title": "The great-circle metric prunes soundly", "statement": "With the Arc metric no in-range pair is dropped by the distance tests applied to cells.", "quantifier": "all points on the sphere, all cells", "why_tests_cant": "A geometric inequality over all configurations.", "anchors": ["include/Metric.h: MetricHelper<Arc>", "src/Corr2.cpp: process11"]}
{"id": "C41", "title": "Clustering estimators", "statement": "calculateXi gives (DD-RR)/RR or the Landy-Szalay combination with totals normalised; it is zero when data and randoms have proportional counts, does not depend on the overall scaling of the random weights, and is 0 in bins with no RR.", "quantifier": "all counts and totals", "why_tests_cant": "All real values.", "anchors": ["treecorr/nncorrelation.py: calculateXi"]}
{"id": "C42", "title": "Patch initialisation chooses distinct valid centres", "statement": "The tree initialiser of the k-means patches fills every one of npatch centre slots exactly once.", "quantifier": "all trees, all npatch <= number of objects, all random choices", "why_tests_cant": "Recursion over all trees.", "anchors": ["src/KMeans.cpp: InitializeCentersTree"]}
{"id": "C43", "title": "A saved correlation can be read back", "statement": "Writing a correlation function and reading it restores all the accumulated arrays and parameters, also with write_patch_results.", "quantifier": "all result objects", "why_tests_cant": "All contents and result sets.", "anchors": ["treecorr/corr2base.py: _write, _read, from_file"]}
{"id": "C44", "title": "Positions-and-field symmetry", "statement": "Swapping the two catalogues of a count-count or scalar-scalar cross-correlation leaves every output unchanged.", "quantifier": "all catalogues and trees at bin_slop=0", "why_tests_cant": "All inputs.", "anchors": ["src/Corr2.cpp: process, DirectHelper2"]}
{"id": "C46", "title": "Resampled clustering rows are the estimator on the resampled data", "statement": "A row of the covariance design matrix of an NNCorrelation after calculateXi equals calculateXi of the data and random counts summed over the same patch pairs; for jackknife, it equals calculateXi of what processing data and randoms without the patch gives.", "quantifier": "all patch results, all patches, with or without DR and RD", "why_tests_cant": "All result sets; involves the dummy entries added for pairs that only the randoms have.", "anchors": ["treecorr/nncorrelation.py: calculateXi, _calculate_xi_from_pairs"]}
{"id": "C47", "title": "Mean separation of a bin lies in the bin", "statement": "After process, the mean separation reported for every non-empty bin lies between the two edges of the bin, for Log and Linear bins, in auto- and cross-correlations, whatever bin_slop is (non-negative weights; on the sphere the separations are chord lengths, as documented).", "quantifier": "all catalogues with non-negative weights, all trees, all metrics, all bin_slop", "why_tests_cant": "Every pair that the traversal accepts as a whole is binned by its cell centres; only all inputs show that none contributes a separation outside the bin.", "anchors": ["src/Corr2.cpp: directProcess11", "include/BinType.h", "treecorr/nncorrelation.py: finalize"]}
{"id": "C48", "title": "angle_slop bounds the error of the projection direction", "statement": "Whenever TreeCorr takes two cells as a whole, the direction between any object of the one and any object of the other differs by at most angle_slop radians from the direction between the centres of the cells, for every bin type, split method and catalogue.", "quantifier": "all catalogues, trees, bin types and values of angle_slop", "why_tests_cant": "The extreme configuration is a tangent line to a cell; random tests do not meet it.", "anchors": ["treecorr/corr2base.py:142-146 angle_slop", "include/BinType.h: singleBin"]}
{"id": "C49", "title": "Spin correlations on the flat sky are the sums over pairs of the projected values", "statement": "For shears, vectors and fields of spin 3 and 4 with flat coordinates, xi of a count or scalar field with the spin field, and xip and xim of two spin fields, are the weighted sums over the pairs in the bin of the values projected on the line that joins the pair; a tangential pattern of strength g gives +g; turning or shifting the whole sky changes nothing; with slop the error is bounded by angle_slop times the spin times the sum of absolute values.", "quantifier": "all catalogues, spins, weights, trees, binnings and values of bin_slop and angle_slop", "why_tests_cant": "Tests compare with brute force on a few random catalogues and tolerances; the bound must hold for every configuration of cells.", "anchors": ["include/ProjectHelper.h", "src/Corr2.cpp: ProcessHelper / directProcess11", "docs/shear.rst"]}
{"id": "C50", "title": "Spin correlations on the sphere do not depend on the orientation of the coordinates", "statement": "On the sphere the values are projected on the great circle that joins the pair, relative to the local west and north axes; turning the whole sky, with the values re-expressed in the new local axes, leaves the projection of every pair unchanged.", "quantifier": "all pairs of points, all rotations, all spins", "why_tests_cant": "Trigonometric identity over a continuum of points; the exceptional points (poles) are never hit by random catalogues.", "anchors": ["include/ProjectHelper.h: ProjectHelper<Sphere>"]}
{"id": "C51", "title": "Shears of a cell on the sphere are averaged after parallel transport to its centre", "statement": "The spin value of a cell on the sphere is the sum of the values of its rows, each carried by parallel transport along the great circle to the centre of the cell, for any distance of the rows from the observer.", "quantifier": "all cells, all rows, all spins", "why_tests_cant": "The turn is tiny except near the poles, so tests with catalogues at low latitude cannot see its sign.", "anchors": ["src/Cell.cpp: ParallelTransportSum"]}
{"id": "C52", "title": "Three-point shear projections use the direction to the centroid or the next vertex, the same for sphere and 3d positions", "statement": "For points of the unit sphere the projection of the three shears of a triangle is the same whether the catalogue is given as ra, dec or as 3d positions.", "quantifier": "all triangles and all shears", "why_tests_cant": "The two code paths are tested separately.", "anchors": ["include/ProjectHelper.h: ProjectX, Project3"]}
{"id": "C53", "title": "A three-point correlation with r,u,v bins counts every triangle once, in the right bin", "statement": "With bin_slop=0 every bin of a LogRUV correlation holds the sums (weight, number, value, mean sides, mean u and v) over exactly the triples of rows that form a triangle with d1>=d2>=d3 in that bin, with the sign of v from the orientation; for one, two or three catalogues; with ordered=True only the triples in the given order.", "quantifier": "all catalogues, trees, bins and orders of rows", "why_tests_cant": "Tests compare a few small catalogues with brute force; the code has about ten different ways to discard three cells and each must be right for all sizes and positions.", "anchors": ["src/Corr3.cpp: process3, process12, process111, process111Sorted, finishProcess", "include/BinType.h: BinTypeHelper<LogRUV>"]}
{"id": "C54", "title": "With ordered=False the order of the catalogues does not matter", "statement": "A three-point cross-correlation with ordered=False gives the same arrays when two of the catalogues are exchanged.", "quantifier": "all catalogues and binnings", "why_tests_cant": "Random positions never have two sides exactly equal, and the sorting of the sides depends on the order only then.", "anchors": ["src/Corr3.cpp: process111"]}
{"id": "C55", "title": "LogSAS bins hold exactly the triangles of their d2, d3 and angle", "statement": "With bin_slop = 0 a three-point correlation with bin_type LogSAS puts a triangle in the bin given by the two sides at its first point and the angle between them, once for each point that may be the first, and leaves no triangle in range out; for given orders of the points only counter-clockwise triangles count.", "quantifier": "all catalogues, weights, trees, limits of the separations and of the angle", "why_tests_cant": "The traversal discards cells by bounds on the angle that hold for most shapes of cells; the cases where they fail depend on how the tree happens to be cut.", "anchors": ["include/BinType.h: BinTypeHelper<LogSAS>", "src/Corr3.cpp: process111, process12"]}
{"id": "C56", "title": "With bin_slop a three-point correlation counts no triangle twice and puts each near its bin", "statement": "For every bin_slop a three-point correlation comes to an end, counts every triangle of rows at most once (once for each corner that may be the first, for LogSAS), and the bin it is put in is off by no more than the tolerance set by bin_slop, in the sides, in u and v or in the angle.", "quantifier": "all catalogues, weights, trees, bin_slop values, limits of the bins", "why_tests_cant": "The tests compare averages of smooth fields with and without slop; a triangle counted twice or far from its bin in a rare configuration does not show.", "anchors": ["include/BinType.h: singleBin, isTriangleInRange", "src/Corr3.cpp: process111, process12, process3", "treecorr/corr3base.py: bin_slop"]}
{"id": "C57", "title": "LogMultipole arrays are the multipoles of the triangles in each pair of side bins", "statement": "A three-point correlation with bin_type LogMultipole and no slop gives, for each pair of bins of the two sides at the first point, the number of triangles, the weighted sums of the sides and of their logarithms, and for each index n up to max_n the sums of the weights and of the products of the scalar values, each times exp(i n (phi3 - phi2)), over the same ordered triangles of rows that the direct count goes over.", "quantifier": "all catalogues, weights, trees, side bins, max_n, orders of the catalogues, metrics", "why_tests_cant": "The multipole algorithm never looks at a triangle: it forms products of sums over pairs and takes off the terms with one row used twice. Tests use random positions in a plane with the Euclidean metric.", "anchors": ["src/Corr3.cpp: multipole, multipoleSplit1, multipoleFinish, calculateZeta", "src/Corr3.cpp: BaseMultipoleScratch, calculateGn", "include/ProjectHelper.h: ExpIPhi"]}
{"id": "C58", "title": "Dividing a three-point catalogue into patches does not change the correlation", "statement": "A three-point correlation over catalogues divided into patches has the same counts, weights, values and mean sides as the correlation over the undivided catalogues: each triangle of rows is counted in its bin as often as without patches, whichever patches its corners are in.", "quantifier": "all catalogues, all divisions into patches and patch numbers, all calls (one, two or three catalogues, ordered or not), bin types LogRUV and LogSAS, metrics", "why_tests_cant": "The loops over triples of patches skip triples they hold to be too far apart and handle triples with equal patches separately; tests use a few fixed divisions of smooth fields and compare with a tolerance.", "anchors": ["treecorr/corr3base.py: _process_all_auto, _process_all_cross12, _process_all_cross, _single_process12, _single_process123, _trivially_zero"]}
{"id": "C59", "title": "A three-point correlation run over MPI gives what one process gives", "statement": "process(..., comm=comm) leaves in the root process the same correlation, total and per-patch results as process without comm, for any number of processes: every job is done by exactly one of them.", "quantifier": "all numbers of processes and patches, all catalogues, all calls (one, two or three catalogues), with initialize True or False", "why_tests_cant": "Who does a job follows from modular rules on the patch numbers; tests run with a few process counts.", "anchors": ["treecorr/corr3base.py: is_my_job in _process_all_auto, _process_all_cross12, _process_all_cross; Reduce of results"]}
{"id": "C60", "title": "The total number of triples and the per-patch results of a three-point correlation add up", "statement": "Over patches, the tot of an NNNCorrelation is that of the undivided catalogues (sumw^3/6, sumw1 sumw2^2/2, sumw1 sumw2 sumw3), and after any sequence of calls of process, with or without initialize, the results kept per triple of patches, from which jackknife and bootstrap are made, add up to the correlation itself.", "quantifier": "all catalogues, divisions into patches, sequences of calls, triples of patches skipped or without triangles", "why_tests_cant": "The total is kept in four different places depending on whether a triple of patches is skipped, empty, or forced; tests have triangles in almost all triples of patches.", "anchors": ["treecorr/corr3base.py: _single_process12, _single_process123, _add_tot", "treecorr/nnncorrelation.py: process_auto, process_cross12, process_cross, _add_tot, __iadd__"]}
{"id": "C61", "title": "The opening angle of a triangle measured with the Arc metric is the angle between great circles", "statement": "For bin_type='LogSAS' with metric='Arc', the angle phi by which a triangle is binned is the angle at its first corner between the two great circles through the other corners.", "quantifier": "all triples of positions that the metric accepts, on the unit sphere or at other distances", "why_tests_cant": "Tests use unit vectors and small triangles, for which formulas without normalisation give the same.", "anchors": ["include/Metric.h: MetricHelper<Arc>::calculateCosPhi"]}
{"id": "C62", "title": "The limits of a three-point correlation are consistent and keep what the user gave", "statement": "The constructor of a three-point correlation either raises an exception or has bins in separation, u, v (LogRUV), phi (LogSAS) or orders (LogMultipole) that are consistent (max = min + n*size, within the range of the quantity, sizes positive), keep every parameter that was given, have the least number of bins that covers the range if only a size is given, and tolerances bin_slop times the size.  Parameters of another bin_type and four parameters for one quantity are rejected; valid limits are accepted.", "quantifier": "all configurations: every subset of the parameters, absent, None or with a value", "why_tests_cant": "Sixteen combinations of parameters per quantity, each with its own rule for the missing ones and clipping; tests have a few values for some of them.", "anchors": ["treecorr/corr3base.py: Corr3.__init__, Corr3.corr"]}
{"id": "C63", "title": "The tables of nominal values describe the triangles counted at the same place", "statement": "The arrays logr, u, v (LogRUV) and logd2, logd3, phi (LogSAS) have at each place the centre of the bin whose triangles are counted at this place of the result arrays: the triangle's values differ by at most half a bin, including the sign of v.", "quantifier": "all configurations, units, places and triangles", "why_tests_cant": "The tables are made in Python by tiling and the index is computed in C++ from orientation and three bin numbers; agreement must hold for every place.", "anchors": ["treecorr/corr3base.py: Corr3.__init__ (logr1d, u1d, v1d, phi1d, np.tile)", "include/BinType.h: calculateIndex"]}
{"id": "C64", "title": "Three-point covariance rows use the right triples of patches", "statement": "For three-point correlations run with patches, row i of the jackknife design matrix uses each stored triple of patches once if none of its patches in the divided catalogues is patch i, and no other triple; the sum of these stored results (arrays and total weight) is what processing the catalogues without patch i gives, for an auto-correlation, for one catalogue against another twice and for three catalogues, any of them undivided.  Row i of 'sample' uses the triples whose patch in the first divided catalogue is i, so the rows divide the stored triples; a marked bootstrap uses each triple as often as its patch in the first divided catalogue was drawn; a bootstrap as often as the product of the numbers of draws of its different patches.", "quantifier": "every number of patches, every set of stored triples, every list of draws, every division into patches of one, two or three catalogues, every row", "why_tests_cant": "the selections are nested comprehensions over all index combinations with seven cases of undivided catalogues; a dropped or doubled triple changes a covariance by an amount no test with random data detects", "anchors": ["treecorr/corr3base.py:_jackknife_pairs", "treecorr/corr3base.py:_sample_pairs", "treecorr/corr3base.py:_marked_pairs", "treecorr/corr3base.py:_bootstrap_pairs", "treecorr/nnncorrelation.py:_sum"]}
{"id": "C45", "title": "Brute force puts every pair into its own bin", "statement": "With brute=True the counts and sums in every bin are exactly those over the pairs of rows whose separation (Log, Linear) or separation vector (TwoD) is in that bin, whatever bin_slop, angle_slop and min_size are, including separations on bin edges and equal to min_sep.  brute=1 and brute=2 do this for the rows of the first or second catalogue only: the cells of that catalogue that are counted consist of rows at one position.  brute=False changes nothing.", "quantifier": "all catalogues, trees, bins, slops and values of the option", "why_tests_cant": "Brute force is what the tests compare against; it is itself a traversal of a tree in which sizes are infinite, and its tests on inf and NaN must all come out right for every pair of cells.", "anchors": ["treecorr/corr2base.py:brute", "treecorr/field.py:Field.__init__", "src/Cell.cpp:BuildCell", "src/Corr2.cpp:BaseCorr2::process11", "include/BinType.h", "include/Split.h:CalcSplitSq"]}
{"id": "C65", "title": "The three-point clustering estimator is what its formula says", "statement": "calculateZeta of an NNN correlation returns (n(DDD) - n(RDD) + n(DRR) - n(RRR)) / n(RRR) with both DRR and RDD and (n(DDD) - n(RRR)) / n(RRR) with neither, where n is the weight in the bin divided by the total weight of all triangles.  It therefore does not depend on how many randoms are used or how they are weighted as long as their density is the same, and is 0 where data and randoms are equally dense.  It gives an answer exactly if none of the random objects has a total of 0, both or neither of DRR and RDD are given and the binning is not LogMultipole.", "quantifier": "all arrays of weights, all totals, every bin, every combination of arguments", "why_tests_cant": "tests compare a few catalogues with a stored answer; the normalisation must be right for every weight and every combination of arguments", "anchors": ["treecorr/nnncorrelation.py:NNNCorrelation.calculateZeta"]}
{"id": "C66", "title": "Rows of a covariance estimate of three-point clustering are the estimator on the chosen patches", "statement": "After calculateZeta with randoms in the same patches as the data, row i of the jackknife design matrix is calculateZeta of what processing data and randoms without patch i gives (DDD, RRR and, if used, DRR and RDD), also for triples of patches that only the randoms have; the rows of the bootstraps and of 'sample' are calculateZeta of the four runs with every stored triple taken as often as it was drawn.  With undivided randoms a jackknife row uses DDD, DRR and RDD of the remaining data and the part of RRR that belongs to the remaining area.", "quantifier": "every division into patches, every row, every list of draws, all counts", "why_tests_cant": "a wrong selection or factor in one of the four terms changes the covariance only, for which tests have only rough expectations", "anchors": ["treecorr/nnncorrelation.py:NNNCorrelation._calculate_xi_from_pairs", "treecorr/nnncorrelation.py:NNNCorrelation.calculateZeta", "treecorr/corr3base.py:_jackknife_pairs"]}
{"id": "C67", "title": "patch_method='local' counts the same pairs as patch_method='global'", "statement": "Processing with patch_method='local', in which each patch of the first catalogue is correlated with the surroundings of that patch in the second, loses and repeats no pair: with bin_slop=0 a cross-correlation has in every bin exactly the pairs of rows with a separation in that bin, the same arrays as the global mode.  An auto-correlation counts every pair in both orders, and the total is the square of the sum of weights, so that the mean product and the normalised pair count are those of the global mode.  One result per patch is recorded, these add up to the whole, and running under MPI changes nothing.", "quantifier": "all catalogues, all divisions into patches, all numbers of processes, every bin", "why_tests_cant": "a pair is lost only if it reaches over the edge of the surroundings in an unlucky way; tests use few layouts", "anchors": ["treecorr/corr2base.py:Corr2._make_expanded_patch", "treecorr/corr2base.py:Corr2._single_process12", "treecorr/corr2base.py:Corr2._process_all_auto", "treecorr/corr2base.py:Corr2._process_all_cross"]}
{"id": "C68", "title": "patch_method='local' of the three-point classes counts the same triangles as patch_method='global'", "statement": "Processing three-point objects with patch_method='local', in which each patch is correlated with its surroundings and is the first vertex of every triangle, loses and repeats no triangle: with bin_slop=0 every bin holds exactly the triangles of rows with parameters in that bin, the same arrays as in the global mode, for one, two and three catalogues and each value of ordered.  The total is the same as in the global mode, one result per patch is recorded, these add up to the whole, and running under MPI changes nothing.", "quantifier": "all catalogues, all divisions into patches, all numbers of processes, all values of ordered, every bin", "why_tests_cant": "triangles reach over the edges of patches in many ways, and ties in the sides are rare in random tests", "anchors": ["treecorr/corr3base.py:Corr3._single_process12", "treecorr/corr3base.py:Corr3._single_process123", "treecorr/corr3base.py:Corr3._process_all_auto", "treecorr/corr3base.py:Corr3._process_all_cross12", "treecorr/corr3base.py:Corr3._process_all_cross"]}
{"id": "C69", "title": "finalize of the three-point classes reports the weighted means of the triangles in each bin", "statement": "After processing, in every bin with weight meand1, meand2, meand3, meanlogd1, ..., meanu and meanv (LogRUV) or meanphi (LogSAS) and zeta are the weighted means over the triangles of the bin, in sep_units and phi_units; weight and ntri are unchanged.  For every bin_slop the reported meand2, meanu, meanv (meand2, meand3, meanphi) lie in the bin.  On the sphere chords are reported as the angles they subtend and meanphi as the angle of the spherical triangle.  Bins without weight report the nominal triangle of the bin.  With LogMultipole every n has the number and the mean sides of its pair of bins.", "quantifier": "all catalogues, all binnings, every bin, every bin_slop, all units", "why_tests_cant": "a mean outside its bin, or a wrong unit in rarely filled or empty bins, appears only for particular catalogues", "anchors": ["treecorr/corr3base.py:Corr3._finalize", "treecorr/corr3base.py:Corr3._apply_units"]}
{"id": "C70", "title": "Conversion of multipoles to side-angle-side bins, and LogSAS processing by way of it", "statement": "toSAS, and process of a LogSAS correlation with the default algorithm, give in each angle bin the weight and correlation of the triangles with these sides and this angle (point 1, 3, 2 counter-clockwise) as far as max_n multipoles can tell: each triangle spread by the Dirichlet kernel around its angle.  The numbers of triangles add up over the angle bins to the number of all triangles with these sides times the part of the full turn covered.  The patch results still add up to the whole.  The object contains the same information as the multipoles.  The reported sides make a triangle.  initialize=False adds to what the object holds; finalize=False leaves sums that can be finalized later.", "quantifier": "all multipole arrays, all angle binnings, all max_n, all catalogues in the plane", "why_tests_cant": "tests compare smooth random fields with a tolerance; aliasing, lost multipoles and lost contents show for particular angles, bin numbers and flags", "anchors": ["treecorr/corr3base.py:Corr3.toSAS", "treecorr/corr3base.py:Corr3.process", "treecorr/nnncorrelation.py:NNNCorrelation.toSAS", "treecorr/kkkcorrelation.py:KKKCorrelation.toSAS"]}
{"id": "C71", "title": "Aperture mass statistics from two-point correlations", "statement": "calculateMapSq, calculateNMap, calculateNapSq and calculateGamSq return, for each radius, the sums over the bins of the correlation functions times the weights that the definition of the aperture mass, aperture count and shear in a circle by the documented filters implies.  A pure E-mode field has no B-mode aperture mass and the E-mode one is the whole; a pure B-mode field has no E-mode one.  The mean tangential shear of a convergence profile gives the same aperture mass as the convergence itself.  Turning every shear by 45 degrees exchanges E and B.  The variances are the ones of the sums for uncorrelated bins.  writeMapSq and writeNorm write these values under the columns documented.  A form other than the two, and bins that are not logarithmic, are refused.", "quantifier": "all correlation functions, all radii, both forms, all shear fields for the E/B separation", "why_tests_cant": "tests compare with the formula of one power-law or Gaussian shear profile to a few percent; a wrong coefficient of the kernels, or a leak between E and B for other fields, passes", "anchors": ["treecorr/ggcorrelation.py:GGCorrelation.calculateMapSq", "treecorr/ggcorrelation.py:GGCorrelation.calculateGamSq", "treecorr/ggcorrelation.py:GGCorrelation.writeMapSq", "treecorr/ngcorrelation.py:NGCorrelation.calculateNMap", "treecorr/ngcorrelation.py:NGCorrelation.writeNorm", "treecorr/nncorrelation.py:NNCorrelation.calculateNapSq"]}
{"id": "C72", "title": "Aperture mass skewness from shear three-point correlations", "statement": "calculateMap3 returns, for each radius R and ratios k2 and k3, the eight means of products of Map and Mx with radii R, k2 R and k3 R, as sums over the bins of the correlation functions times the weights that the definition of the aperture mass by the 'Crittenden' filter implies: every triangle counts with the area of its bin and once for every way in which the apertures can act on its points.  The weights do not depend on the orientation of the triangle and go to their conjugates under a mirror image.  The special formulae for k2 = k3 = 1 agree with the general ones.  The variance is the one of map3 and mx3 for uncorrelated bins.  writeMap3 writes four of the values for every radius.  LogMultipole objects are refused.", "quantifier": "all triangles that are not degenerate, all shears at their points, all radii and ratios, all LogRUV and LogSAS objects", "why_tests_cant": "tests compare with the formula of one Gaussian shear profile to a few percent, mostly for k2 = k3 = 1; a wrong coefficient of one T function, or of one permutation of the radii, passes", "anchors": ["treecorr/gggcorrelation.py:GGGCorrelation._calculateT", "treecorr/gggcorrelation.py:GGGCorrelation.calculateMap3", "treecorr/gggcorrelation.py:GGGCorrelation.writeMap3"]}
{"id": "C73", "title": "Multipoles of the shear three-point function", "statement": "With bin_type='LogMultipole' a GGGCorrelation holds, for every pair of side bins and every |n| <= max_n, the sums over the triangles with these sides of the four natural components in the 'x' projection times exp(i n (phi3 - phi2)): shears 2 and 3 turned to the lines from point 1, shear 1 to the direction half way between them.  This holds for one, two and three catalogues with every value of ordered, in the plane, on the sphere and in space, and the two algorithms ('multipole' and 'triangle') agree on it.  Numbers of triangles, weights and mean sides are those of the scalar class for the same catalogues, whatever the slop.", "quantifier": "all catalogues, trees, binnings and max_n; all orders of the catalogues", "why_tests_cant": "tests compare the two algorithms on one random field, where triangles with opposite directions or coincident points do not occur, and where the relations between +n and -n of the four components are seen only as noise", "anchors": ["src/Corr3.cpp:DirectHelper<GData,GData,GData>", "include/MultipoleScratch.h:MultipoleScratch<GData,GData>", "include/ProjectHelper.h:ProjectX", "src/Cell.cpp:calculateSumWGSq"]}
{"id": "C74", "title": "Side-angle-side bins of shear from multipoles", "statement": "The conversion of a LogMultipole GGGCorrelation to LogSAS (toSAS, and process of a LogSAS object with the default algorithm) gives, in every angle bin, the four natural components of the triangles with the sides of the bin, each spread around its angle as for scalars, divided by the weight of the bin and turned from the 'x' projection to the projection towards the centroid.  For a triangle with the mean sides and the angle of the bin the turn is exact, for all shears.  No component is NaN in a bin that the constructor accepts.  Counts, weights and sides are those of the scalar class, the variance is kept, and the results of the patches are turned and converted like the whole and add up to it.", "quantifier": "all catalogues, binnings, angle bins, max_n, shears and divisions into patches", "why_tests_cant": "tests compare with the triangle algorithm within a tolerance on random fields, where a wrong phase for thin or obtuse triangles, for the mirror image, or for one of the four components hides in the noise and the spread", "anchors": ["treecorr/gggcorrelation.py:GGGCorrelation.toSAS", "treecorr/corr3base.py:Corr3.toSAS", "treecorr/corr3base.py:Corr3.process"]}
{"id": "C75", "title": "K-means iterations", "statement": "kmeans_refine_centers with the standard algorithm: each pass gives every row to a nearest centre and moves each centre to the weighted mean of its rows, whatever the tree and the threads.  The total inertia never goes up.  The run makes at most max_iter passes and ends before that exactly when the rms shift of the centres falls below tol times the size of the field.  With enough passes the centres come to rest, and then each is the mean of the rows nearest to it.  No patch is left without rows.  With alt=True the rows are given to the patch with the least squared distance plus 3 I_i/<N_i>, where I_i is the inertia of the patch.", "quantifier": "all catalogues, weights, trees, initial centres, max_iter, tol and distributions of the work over threads", "why_tests_cant": "tests check that the inertia is reasonable on a few random fields; a patch that loses its rows, a cell assigned to the wrong centre, or an endless alternation between two divisions depend on the positions", "anchors": ["treecorr/field.py:Field.kmeans_refine_centers", "treecorr/field.py:Field.run_kmeans", "src/KMeans.cpp:KMeansRun1", "src/KMeans.cpp:UpdateCenters", "src/KMeans.cpp:CalculateInertia", "src/KMeans.cpp:CalculateShiftSq"]}
{"id": "C76", "title": "Random and k-means++ initial centres", "statement": "kmeans_initialize_centers with init='random' or init='kmeans++' returns npatch different positions of rows of the catalogue, for every tree and every sequence of random numbers, whenever there are at least npatch rows at different positions.  A position that is chosen twice because several rows are there is moved a little, so that no two centres are the same.", "quantifier": "all catalogues, trees, npatch up to the number of rows and all values of the random number generator (0 and 1 included)", "why_tests_cant": "tests run a few seeds on random fields away from the origin; the failures need a row or the centroid of a cell at the origin, rows at one place, or a generator at its upper end", "anchors": ["treecorr/field.py:Field.kmeans_initialize_centers", "src/KMeans.cpp:InitializeCentersRand", "src/KMeans.cpp:InitializeCentersKMPP", "src/Cell.cpp:BaseCell::getLeafNumber", "src/Corr2.cpp:SelectRandomFrom"]}
{"id": "C77", "title": "Three-point correlations do not depend on the threads", "statement": "A three-point correlation gives the same counts, weights, values, multipoles and mean sides for every number of threads and every way the work is given to them, and adds them to what the object held.", "quantifier": "all catalogues, trees, bin types, one, two or three catalogues, all numbers of threads, all assignments of top-level cells to threads, all orders in which the threads finish", "why_tests_cant": "The dynamic schedule and the order of the final additions are different in every run; tests see a few of them.", "anchors": ["src/Corr3.cpp: BaseCorr3::process, BaseCorr3::multipole, Corr3::operator+=, Corr3::clear", "include/Corr3.h: Corr3::duplicate, Corr3::addData"]}
{"id": "C78", "title": "Multipoles with patches are those of the whole catalogue", "statement": "With LogMultipole bins, dividing the catalogues into patches changes nothing: counts, weights, values, natural components and mean sides are those of the undivided catalogues, every triangle once for each choice of its first point.", "quantifier": "all catalogues, all divisions into patches, one, two or three catalogues with every value of ordered, counts, scalars and shears, all binnings, multipoles up to max_n", "why_tests_cant": "Which far rows are left out of a patch's run, and which patches are skipped, depends on the exact geometry of the patches; an error loses few triangles at the borders.", "anchors": ["treecorr/corr3base.py: _process_all_auto, _process_all_cross12, _process_all_cross, _single_process12, _single_process123, _trivially_zero, process", "treecorr/field.py: Field.get_near"]}
{"id": "C79", "title": "LogSAS through multipoles with patches", "statement": "Processing catalogues divided into patches with LogSAS bins and the default algorithm gives the histogram of the multipoles of the undivided catalogues: each bin holds the sum over the triangles of the bin of sides, each spread over the angles by the same kernel, and the stored results of the patches add up to the same arrays.", "quantifier": "all catalogues, all divisions into patches, one, two or three catalogues with every value of ordered, the plane and the sphere, all binnings, all max_n", "why_tests_cant": "The conversion is done once for the object and once for every stored result, with weights which may vanish in some of them; tests compare a few catalogues with slop tolerances.", "anchors": ["treecorr/corr3base.py: process, toSAS, _process_all_auto, _process_all_cross12, _process_all_cross"]}
{"id": "C80", "title": "LogMultipole with bin_slop and angle_slop: every triangle is counted once, in a bin near its sides", "statement": "With any bin_slop and angle_slop the LogMultipole arrays are exact sums over triangles in which each row of the first catalogue sees each row of the others exactly once, or not at all. A row that is seen is seen in a bin that holds its true separation when widened by the slop, and from places no further off than the angle slop times the separation. A row that is not seen is outside the range of the bins narrowed by the slop. Numbers of triangles, mean sides and multipoles of all indices are those of the triangles as seen. Catalogues whose separations are all clear of the edges of the bins get exact numbers and exact totals.", "quantifier": "all catalogues with non-negative position weights, all trees, all slops, all max_n", "why_tests_cant": "The order in which cells are used and bins are finished early depends on the tree; a row used twice or lost in a rare order of cells changes a few triangles among millions, and the tests of slop allow relative errors.", "anchors": ["src/Corr3.cpp: multipole, multipoleSplit1, multipoleFinish, splitC2CellsOrCalculateGn, calculateZeta"]}
{"id": "C81", "title": "Columns of a catalogue read from a file", "statement": "A catalogue that is read from a file has, for each quantity, the numbers of the column that is named for it in the extension that is named for it. Value columns of random catalogues are left out. Columns that are needed for the requested outputs and are not in the file are refused before anything is read; a file that has been accepted can be read. The result does not depend on the order in which a set of extensions is gone through.", "quantifier": "all configurations, all files with any extensions and columns, all orders of sets", "why_tests_cant": "There are 21 quantities, each with its own column, extension and expression; the tests use a handful of combinations, always with one order of the set.", "anchors": ["treecorr/catalog.py: Catalog._check_file, Catalog._read_file"]}
{"id": "C82", "title": "The programs corr2 and corr3 correlate the right catalogues and write the outputs asked for", "statement": "With input that suffices, corr2 writes every output that is asked for and no other, each once, computed from the documented correlations: data with data, and where randoms are given and the statistic asks for them, randoms with randoms, data with the randoms of the second file, randoms of the first file with data. Input that does not suffice is refused with a TypeError, and exactly then; what has been written before is right. What is written for an output does not depend on which others are asked for. The columns that are taken as needed in a file are those that are used of it; of randoms only positions are used. corr3 likewise writes counts of data, randoms and mixed triangles.", "quantifier": "all sets of outputs asked for, all settings of the statistics, all combinations of files given", "why_tests_cant": "There are 2^21 sets of outputs, 16 combinations of files and 3^7 settings of statistics; the tests run a few dozen.", "anchors": ["treecorr/exec_corr2.py: corr2", "treecorr/exec_corr3.py: corr3", "treecorr/catalog.py: isKColRequired, isZColRequired, isVColRequired, isGColRequired, isTColRequired, isQColRequired"]}
{"id": "C83", "title": "Catalogues written to files, and patches saved in a directory, come back the same", "statement": "A catalogue that is written to a file and read back, with the same units and the columns that were written, has the same positions, values, weights and patch numbers. With save_patch_dir, get_patches gives the same patches as without it: with and without low_mem, for catalogues of arrays and of files, in a first run and in later ones, whatever subset of the files is left from an interrupted run. Afterwards the directory holds the patches, and no other file has been touched.", "quantifier": "all catalogues, all units, all sets of columns, all states of the directory, all sequences of two runs", "why_tests_cant": "Tests write a few catalogues into empty directories and read them at once; files left by other runs, settings that differ between runs and columns that come from flags or expressions are not tried.", "anchors": ["treecorr/catalog.py: Catalog.write, Catalog.write_patches, Catalog.read_patches, Catalog.get_patches, Catalog.get_patch_file_names"]}
{"id": "C84", "title": "Questions about neighbours mean the same however they are spelt", "statement": "count_near and get_near accept the documented ways to give a position and a separation, and no others: in order or by name, angles as Angle objects or as numbers with units, a CelestialCoord for ra and dec. Each has the documented meaning, so that two spellings of one question get the same answer; on the sphere the answer is the rows whose angle from the direction is at most the separation. Any other call, with a missing, surplus or unknown argument or an impossible declination, is a TypeError or a ValueError, never a wrong answer.", "quantifier": "all lists of arguments and all sets of keywords, flat, spherical and in three dimensions, all catalogues", "why_tests_cant": "The number of arguments, their kinds and the keywords combine into far more calls than the few dozen that are tried; that no other call is accepted cannot be tested.", "anchors": ["treecorr/util.py: parse_xyzsep", "treecorr/field.py: Field.count_near, Field.get_near"]}
{"id": "C85", "title": "What a catalogue answers does not depend on what was asked before", "statement": "A Catalog loads its file when it is needed, can be unloaded, and keeps what it has computed. Whatever sequence of questions, loads, unloads, changes of the field cache and selections was made, each question gets the answer that belongs to its present rows: the columns, the sum of weights, the number of objects, the number of patches, the patches, their centres and the fields. A centre is the weighted mean of the rows of its patch, and lies within every convex region that holds them; if the patches were made from centres or by k-means it is that centre.", "quantifier": "all catalogues of arrays and of files, all sequences of operations, all sources of patches", "why_tests_cant": "Tests ask a fresh object a few questions; what is stale depends on the order of all that was done before.", "anchors": ["treecorr/catalog.py: Catalog.load, Catalog.unload, Catalog.select, Catalog.get_patch_centers, Catalog.get_patches, Catalog.npatch, Catalog.sumw, Catalog.nobj, Catalog.sumw2, Catalog.getNField, Catalog.resize_cache, Catalog.clear_cache"]}
{"id": "C86", "title": "A saved three-point correlation can be read back", "statement": "After write, from_file of the class, and of Corr3 without naming a class, makes an object with the same bins, settings, means, weights, counts, correlation and errors; with write_patch_results also the same patch results, and for NNN the same randoms; with write_cov also the same covariance. FITS and HDF5 give the same numbers, ASCII the numbers as printed.", "quantifier": "all processed NNN, KKK and GGG objects with LogRUV, LogSAS or LogMultipole bins, all parameters, all sets of patch triples, all options of write, all file types", "why_tests_cant": "Tests write a handful of objects; which columns, header entries and tables a file needs depends on the class, the kind of bins, the options and which patch triples are empty.", "anchors": ["treecorr/corr3base.py: Corr3._write, Corr3._read, Corr3._read_from_data, Corr3.from_file", "treecorr/nnncorrelation.py: NNNCorrelation.write, NNNCorrelation.from_file, NNNCorrelation._do_read", "treecorr/kkkcorrelation.py: KKKCorrelation.write", "treecorr/gggcorrelation.py: GGGCorrelation.write"]}
{"id": "C87", "title": "A copy is independent of the original", "statement": "After copy, what is done with the copy (process, +=, clear, calculateXi, asking for the covariance) changes nothing in the original, its later results included, and what is done with the original changes nothing in the copy; clear makes an object like a new one.", "quantifier": "all programs that make, copy, clear, process, add and use any number of two-point objects, in any order, with any catalogues with or without patches", "why_tests_cant": "Tests copy an object and compare it at once; parts shared by both show only after particular later operations on one of them.", "anchors": ["treecorr/corr2base.py: Corr2.copy, Corr2.clear, Corr2.process, Corr2.__iadd__, Corr2.cov", "treecorr/nncorrelation.py: NNCorrelation.copy, NNCorrelation.calculateXi"]}
{"id": "C88", "title": "A catalogue can be made again from what is printed, and == compares the contents", "statement": "eval(repr(cat)) is a catalogue equal to cat. == of catalogues is true exactly when they have the same positions, values, weights and patches; it is reflexive, symmetric and transitive, and equal catalogues have the same number of rows and total weight.", "quantifier": "all catalogues the constructor can make, from arrays or from files, loaded or not, whole or single patches, with any columns, weights, zero weights and patch numbers", "why_tests_cant": "Tests compare a few catalogues; which columns and options must be printed depends on the weights, the coordinates and the patches.", "anchors": ["treecorr/catalog.py: Catalog.__repr__, Catalog.__eq__, Catalog.__init__, Catalog.patch, Catalog._set_npatch"]}
{"id": "C89", "title": "Configuration files and command-line variables mean what the last assignment says", "statement": "read_config of a parameter file gives every key the value of its last assignment, where a line +name stands for the contents of the file name, to any depth; comments and empty lines say nothing; the kind of file follows from its extension unless it is given. In corr2 and corr3 the variables on the command line count after the file, and the options -v and -l count before what the file says.", "quantifier": "all files, all nestings of included parameter, YAML and JSON files, all lists of variables and options", "why_tests_cant": "Tests read a few fixed files; the value of a key depends on the order of assignments across arbitrarily nested files, which may include one another.", "anchors": ["treecorr/config.py: read_config, _read_params_file, parse_variable", "scripts/corr2: main", "scripts/corr3: main"]}
{"id": "C90", "title": "ASCII files keep numbers to the precision that was asked for", "statement": "A catalogue or a set of patch centers that is written to an ASCII file with the default precision is read back with exactly the same numbers. With a smaller precision p every number that is read differs from what was written by at most 10^-p of it. All lines of a file have their columns at the same place.", "quantifier": "all finite double-precision numbers (also subnormal ones), all tables, all precisions", "why_tests_cant": "A test writes a few numbers and compares with a tolerance; whether 17 digits identify every one of 2^64 doubles, next to powers of two and ten as well, needs an argument.", "anchors": ["treecorr/writer.py: AsciiWriter.set_precision, write", "treecorr/reader.py: AsciiReader.read_data", "treecorr/catalog.py: Catalog.write, write_patch_centers, read_patch_centers"]}
{"id": "C91", "title": "Files are read as the kind they were written as", "statement": "Whatever name is chosen, write without file_type makes a FITS, HDF or ASCII file according to the extension, in capital or small letters, and reading the same name without file_type expects the same kind; a file_type that is given counts instead of the extension.", "quantifier": "all file names, with directories and any number of dots, and all given types", "why_tests_cant": "Tests use a handful of names; names with dots in directories, leading dots or odd extensions are unlimited.", "anchors": ["treecorr/util.py: parse_file_type, make_writer, make_reader", "treecorr/catalog.py: Catalog.__init__, Catalog.write"]}
{"id": "C92", "title": "A variance given by the user is the one that is used for the noise", "statement": "If vark, varz, varv, varg, vart or varq is given for a catalogue, that value is what process uses for the shot noise, with and without patches; for several catalogues it is the average weighted by their weights. If none is given, the variance is that of all rows, and patches do not matter.", "quantifier": "all catalogues with and without weights, all patches, all given values, all lists of catalogues", "why_tests_cant": "Tests set vark on one small catalogue without patches; the claim is about every division into patches and every list.", "anchors": ["treecorr/catalog.py: Catalog.__init__, vark, varg, get_patches, calculateVarK, calculateVarG", "treecorr/corr2base.py: process"]}
{"id": "C93", "title": "Only objects with the same bins are added", "statement": "corr += other is accepted only if other is of the same class and has the same bins (the same edges, in the same units); then every bin of the sum is the sum of the two bins, and the bins of corr stay as they are. Objects with the same bins are accepted, objects of other classes give TypeError and others ValueError.", "quantifier": "all pairs of two-point and of three-point objects, all bin types, units, metrics and coordinates", "why_tests_cant": "Tests add a few objects that differ in one parameter; the claim is about every pair of objects.", "anchors": ["treecorr/corr2base.py: Corr2.__iadd__, _set_metric, left_edges, right_edges", "treecorr/corr3base.py: Corr3.__iadd__, _equal_binning, _set_metric", "treecorr/nncorrelation.py: NNCorrelation.__iadd__", "treecorr/util.py: parse_metric"]}
{"id": "C94", "title": "Every file that is named is read once, in order", "statement": "read_catalogs reads each file named in file_name (a list, or a string with names separated by white space) or in the text file file_list (one name on a line), once for each time it is named, in that order, and returns all their patches. Naming files in both ways is a TypeError. Files given under a rand key are taken as randoms.", "quantifier": "all configurations, all names, all texts of list files", "why_tests_cant": "Tests read one or two files with plain names; the claim is about every name and every layout of the list file.", "anchors": ["treecorr/catalog.py: read_catalogs"]}
{"id": "C95", "title": "Equal two-point objects can stand for each other", "statement": "== of two-point objects is reflexive, symmetric and transitive. Equal objects have the same bins with the same numbers in them, adding the same object to both gives equal objects or the same error, and they give the same results with the same randoms.", "quantifier": "all pairs of two-point objects, all objects added to them, all randoms", "why_tests_cant": "Tests compare an object with its copy; the claim is about all pairs that compare equal and everything done with them.", "anchors": ["treecorr/corr2base.py: Corr2.__eq__, __iadd__", "treecorr/nncorrelation.py: NNCorrelation.calculateXi"]}
