"""Status of each property: id -> (status, note).  Theorem names are collected from
lean/Verif/Props/*.lean by gen.py (every theorem named Cnn_...)."""
STATUS = {
 'C01': ('proved', 'heap model with sharing; acyclicity is a hypothesis of the read-your-write half, with the counterexample for cyclic dictionaries'),
 'C02': ('proved', 'tuple keys incl. nested tuples and partial effects'),
 'C03': ('proved', 'all spellings of a path'),
 'C04': ('proved', 'any history of operations with slash-free keys'),
 'C05': ('proved', 'copy / union / |= and sharing'),
 'C06': ('proved', 'literal keys in constructor/update, with the unreachable-key counterexample'),
 'C07': ('proved', 'memory model with arrays as views on buffers; value semantics over any history'),
 'C08': ('proved', 'row selection by slice / integers / mask; concatenation'),
 'C09': ('proved', 'associativity, splitting, subcol/subset commutation, all on the modelled functions'),
 'C10': ('proved', "Tree model of an HDF5 file; h5py's dtype rules are parameters. All data (any depth), all flags."),
 'C11': ('proved', 'Offending data are rejected with TypeError before any change; data without an offending entry are passed on.'),
 'C12': ('proved', "Also for failing dumps; success iff none of the data's names exists."),
 'C13': ('proved', "Exact contents after 'ac' dumps, frame, idempotence; recorded: broadcasting when shapes differ."),
 'C14': ('proved', 'A failed dump equals a successful dump of a truncation of the data; later items untouched.'),
 'C15': ('proved', 'All creating functions, bulk dump included; an empty dump accepts any flag (recorded).'),
 'C16': ('proved', 'All objects, all paths; dump and assignment included.'),
 'C17': ('proved', "File objects, modes and the with statement over a file system of images; h5py's own locking and flushing are outside the model."),
 'C18': ('proved', 'load_from/dump_to as compositions of the modelled file open, group get/create and Group.load/dump.'),
 'C19': ('proved', 'The view, membership, tuple indexing and assignment.'),
 'C20': ('proved', 'create, create_empty, assignment, any operation sequence, dump/load round trip.'),
 'C21': ('proved', 'Datasets and attributes; the pattern is any predicate on keys (the regex engine is not modelled).'),
 'C22': ('proved', 'Classes as typedicts nested to any depth; the constructor stores its keyword arguments; str fields need a codec with decode(encode(s)) = s.'),
 'C23': ('proved', "The listing text as a function of the tree; numpy's string forms of values, dtypes and shapes are an arbitrary formatter."),
 'C24': ('proved', 'Trees with soft and external links in several files, path resolution with a link limit; hard links are not modelled.'),
 'C25': ('proved', ''),
 'C26': ('proved', ''),
 'C27': ('proved', ''),
 'C28': ('proved', ''),
 'C29': ('proved', ''),
 'C30': ('proved', 'np.put semantics (cyclic source) modelled; an empty source is a no-op.'),
 'C31': ('proved', 'NaN is modelled as an extra value comparing false with everything.'),
 'C32': ('proved', 'Includes the counterexample for coordinates further than one box length away.'),
 'C33': ('proved', ''),
 'C34': ('proved', ''),
 'C35': ('proved', 'Real arithmetic.'),
 'C36': ('proved', 'Degeneracy bounds (1e-10 clips of normalize) are explicit hypotheses; on the polar axis the counterexample is proved.'),
 'C37': ('proved', ''),
 'C38': ('proved', 'The point function acts row by row; trailing output axes are part of the entry type.'),
 'C39': ('proved', ''),
 'C40': ('proved', ''),
 'C41': ('proved', ''),
 'C42': ('proved', ''),
 'C43': ('proved', 'np.histogram is modelled by its documented bins; the sub_h defect is C43_subH_defect.'),
 'C44': ('proved', 'For all lists, weights, masks. C44_nan_masked_out records the limit: a NaN in a masked-out position still poisons Sum/Mean (0*NaN).'),
 'C45': ('proved', 'Permutation, scaling, uniform weights for mean/sd; C45_uniform_median_differs and C45_ties_differ are proved counterexamples for the weighted median/quantile.'),
 'C46': ('proved', 'C46_stdDev_empty_defect: the fill value goes through sqrt for StdDev (NaN for the default).'),
 'C47': ('proved', 'For every correct argsort (unstable order of ties included), both weighted and unweighted; Median = Quantile(0.5).'),
 'C48': ('proved', "All five 3-value intervals and 'mean+sd'; two-value names fail with ValueError, unknown ones with KeyError."),
 'C49': ('proved', 'Sum, Mean, StdDev with the broadcast 0-d count, Count, and the generic row loop.'),
 'C50': ('proved', 'For every outcome of the random generator; the one-shot iterator and n_resample defects are theorems.'),
 'C51': ('proved', 'Columns of constant length; sd floor included.'),
 'C52': ('proved', 'Includes exact acceptance condition; the normal CDF enters as an arbitrary strictly monotone pair of inverses. The check and the table of probabilities also with rounding and special values; scipy interpolation in doubles is not modelled.'),
 'C53': ('proved', 'Ball volume proved equal to the Lebesgue volume of the Euclidean ball in every dimension.'),
 'C54': ('proved', 'For every neighbour list the tree may return; a one-shot iterator of reductions fails (C54_local_one_shot_defect).'),
 'C55': ('proved', 'n-dimensional; C55_last_edge_defect: points on the last edge are counted but evaluated as outside.'),
 'C56': ('proved', ''),
 'C57': ('proved', "Includes totality of the loop and agreement with searchsorted(side='right')-1."),
 'C58': ('proved', ''),
 'C59': ('proved', 'Over any ordered field; rounding not modelled.'),
 'C60': ('proved', ''),
 'C61': ('proved', 'Scalar-valued tables; trailing axes are element-wise.'),
 'C62': ('proved', 'Exact acceptance condition; the documented sortedness requirement is not enforced by the code (C62_unsorted_accepted).'),
 'C63': ('proved', ''),
 'C64': ('proved', ''),
 'C65': ('proved', ''),
 'C66': ('proved', ''),
 'C67': ('proved', ''),
 'C68': ('proved', 'Joining both as a function of fields and on HDF5 groups; dump/load round trip on HDF5 groups.'),
 'C69': ('proved', ''),
 'C70': ('proved', ''),
 'C71': ('proved', ''),
 'C72': ('proved', 'Sort-order independent: for every argsort satisfying SortOK. Exact arithmetic.'),
 'C73': ('proved', 'Completeness in the periodic metric, and soundness up to one cell per axis.'),
 'C74': ('proved', 'Exact multiplicity; at most once if 2r + cell <= box; recorded duplicates for larger radii.'),
 'C75': ('proved', "Over the reals; scipy's ball search enters as a specified oracle in C75_query."),
 'C76': ('proved', 'cubic = 48 distinct = all orthogonal integer matrices = signed permutations, square = 8; group laws; over any ring; len() defect recorded'),
 'C77': ('proved', 'composition law for any list of operations, lexicographic products, size, isometry'),
 'C78': ('proved', 'C78_kpc_defect: the kpc_to_m entry of the constants table is off by 1e6 (recorded defect).'),
 'C79': ('proved', 'exact reals; flat LCDM with 0 < omega_m0 < 1.'),
 'C80': ('proved', 'exact reals.'),
 'C81': ('proved', 'exact reals; the quadrature is an arbitrary homogeneous functional, and the exact integral for C81_exact.'),
 'C82': ('proved', 'C82_sign_defect: negative angles are converted wrongly (recorded defect).'),
 'C83': ('proved', 'C83_stale: the name of a replaced parameter stays in the table (recorded defect).'),
 'C84': ('proved', 'C84_reentrant: a fallback asking for its own key is the exception to the rule (recorded limit).'),
 'C85': ('proved', ''),
 'C86': ('proved', 'C86_as_datatables: that option always fails (recorded defect); the limits of the round trip are stated.'),
 'C87': ('proved', 'C87_skip_forms, C87_length_unchecked: recorded defect and limit.'),
 'C88': ('proved', ''),
 'C89': ('proved', ''),
 'C90': ('proved', 'Runtime config context: sections saved/restored; shared-section hazard and whole-section replacement stated.'),
 'C91': ('proved', 'Levels enclose the fraction from both sides for all grids; nested; shift used by scatter; flat grids give equal levels.'),
 'C92': ('proved', 'Bins partition; on matches fit off the edges; densities normalised; recorded defect: lower edge counted by fit but evaluated to 0 (smallest data points of Scatter2D).'),
 'C93': ('proved', 'Recorded defects: argsort and IndexArray constructors always raise; the parts that work are characterised.'),
 'C94': ('proved', ''),
 'C95': ('proved', ''),
 'C96': ('proved', ''),
 'C97': ('proved', 'mixins of MutableMapping'),
 'C98': ('proved', 'Exact reals; interp1d as scipy documents it. mu and c_to_v_max2vir also in doubles, with a logarithm of stated accuracy.'),
 'C99': ('proved', ''),
 'C100': ('proved', ''),
 'C101': ('proved', ''),
 'C102': ('proved', ''),
 'C103': ('proved', ''),
 'C104': ('proved', ''),
 'C105': ('proved', 'Exact real arithmetic; np.quantile of an empty array (numpy-version dependent) is an error of unspecified kind; division by a zero width or volume is not covered.'),
 'C106': ('proved', "Only the default interp_kw (slinear, extrapolate) is modelled; matplotlib's acceptance of calls is an arbitrary predicate."),
 'C107': ('proved', "np.loadtxt's outcome is an argument of the model (a table of records or an error)."),
 'C108': ('proved', 'value trees; json acceptance only, text layout not modelled; cyclic object graphs not modelled'),
 'C109': ('proved', 'print text exact, time string is an input'),
 'C110': ('proved', 'real arithmetic; numpy mean/std/quantile as defined'),
 'C111': ('proved', 'Construction of LambdaCDM, configuration files, predefined models.'),
 'C112': ('proved', "Over the reals; astropy's FlatLambdaCDM by its documented formulas."),
 'C113': ('proved', "Integrals are exact; astropy's root finder by its specification."),
 'C114': ('proved', 'hmf by its documented grid; two recorded defects.'),
 'C115': ('proved', 'scipy interp1d by its documented behaviour.'),
 'C116': ('proved', "Contract of scipy's cKDTree is a hypothesis (KD.OK); reals."),
 'C117': ('proved', 'As C116; exact arithmetic.'),
 'C118': ('proved', 'Constructors of the reduction classes are abstract.'),
 'C119': ('proved', 'float64 arrays; set_value for numbers and equal shapes (numpy broadcasting not modelled).'),
 'C120': ('proved', 'float64 data.'),
 'C121': ('proved', "Bins of finite doubles, at most 2^50 bins, no overflow or underflow; the machine's conversion of out-of-range values is a parameter."),
 'C122': ('proved', 'shift_to for positions and references of the box, box sizes from 2^-1021 to 2^1022.'),
 'C123': ('proved', 'Error margins are explicit; at most 2^20 cells per side so that n^3 fits into int64.'),
 'C124': ('proved', 'Masses are 0 or at least 2^-800; no fused multiply-add (numba compiles without fastmath).'),
 'C125': ('proved', 'default dtype (float) and shape; sequential accumulation as written in the numba loop (no reassociation: fastmath is off)'),
 'C126': ('proved', 'float64 fields; data values 0 or at least 2^-800 in size and at most 2^1000'),
 'C127': ('proved', 'Base/Float32, Model/FloatWeb. Thresholds given as numpy float64 scalars (numpy >= 2 compares them in float64) are covered by C127_init and C127_largest.'),
 'C128': ('proved', 'Model/FloatLinear. Positive and negative zero are not distinguished; numba compiles without fastmath (no fused multiply-add, no reassociation).'),
 'C129': ('proved', "matplotlib's checks (either colors or cmap, at least 2 x 2, strictly increasing levels, two levels for contourf) are part of the model, its other checks are not; numbers are those of an ordered field."),
 'C130': ('proved', 'np.column_stack and np.row_stack are modelled after numpy, dtypes are left out; columns of more than two dimensions are covered by the model but not by the theorems.'),
 'C131': ('proved', "Numbers are elements of an ordered field (no rounding; np.arange's length near an exact multiple of the step can differ by rounding). np.quantile of an empty array is not covered."),
 'C132': ('proved', "One-dimensional arrays; signed zeros are not distinguished; the machine's square root is a parameter; hypotheses on size exclude overflow."),
 'C133': ('proved', "Arrays of any dimension; numpy's basic indexing is modelled (integers and slices; no Ellipsis, newaxis, or index arrays). Creation of a wrapper is a new identity."),
 'C134': ('proved', 'For every name, item and recursion limit; RecursionError is written runtimeError (its base class).'),
 'C135': ('proved', 'For all trees; the defects (no iteration, no length of DatasetManager) are theorems.'),
 'C136': ('proved', 'Atoms have a decidable reflexive equality; the identity of tuples is not modelled.'),
 'C137': ('proved', "numpy's default integer taken as 64 bits."),
 'C138': ('proved', "numpy's quantile (method linear) and median written out; sorting as a stable merge sort."),
 'C139': ('proved', 'For probabilities p <= 0 or p >= 2^-60 (every value in ps_map is) and elements up to 2^900; the search of np.interp and argsort enter through their contracts on finite input, an instance of which is given.'),
 'C140': ('proved', 'Table entries are scalars (two-dimensional y); doubles without signed zeros.'),
 'C141': ('proved', 'numpy.linalg.norm along an axis taken as sqrt(add.reduce(x*x)); doubles without signed zeros.'),
 'C142': ('proved', "Column by column (broadcasting not modelled); doubles without signed zeros; numpy's mean and std written out."),
 'C143': ('proved', 'float(text) is correctly rounded decimal notation (no exponents, inf, nan); signed zeros are one zero.'),
 'C144': ('proved', 'np.searchsorted and np.sort by their contracts (NaN last); the densities themselves are given.'),
 'C145': ('proved', 'Leaves are opaque: their own conversion is a parameter and allocates nothing visible here; RecursionError is the RuntimeError of the model.'),
 'C146': ('proved', 'One axis at a time; np.searchsorted by its contract for ordered arrays; quantiles as in C138; the size limits are hypotheses of the theorems.'),
 'C147': ('proved', 'continuity at k = 0, limits on large and small scales, bounds 1/k, large-scale power law and its amplitude'),
 'C148': ('proved', 'Numbers are exact; that representations share the meta dictionary, arrays and matrices with the object is not expressed.'),
 'C149': ('proved', 'Model/FloatSubBins: combine_adjacent_bins, edges_to_centers, edges_to_widths, insert_sub_bins_into_edges and from_overlapped_bins without weights over the doubles of Base/Float64; np.histogram by its contract; weighted overlapping histograms are covered over exact numbers (C43) and through C149_combine_error once the sub-bin weights are given'),
 'C150': ('proved', 'by_histogram front end with all array shapes; the missing check of query columns recorded'),
 'C151': ('proved', 'np.histogramdd arithmetic modelled in double precision; underflow and overflow of the quotients excluded by hypothesis'),
 'C152': ('proved', 'numpy Generator abstract, with the stated contract on shapes and ranges; real numbers'),
 'C153': ('proved', 'doubles; the sort of np.histogram is a parameter; searchsorted and the bin of a sample by their contracts'),
 'C154': ('proved', 'np.log10 is a parameter; np.histogram by its contract (counts) or written out (weights)'),
 'C155': ('proved', 'exact arithmetic; trailing axes flattened in C order'),
 'C156': ('proved', 'scalar integer selections (which drop the axis) are not modelled'),
 'C157': ('proved', "numba's x**3 is x*(x*x); the critical density today is a parameter; the conversions between mass and radius (cube roots) are not part of it."),
 'C158': ('proved', 'grids without cells are not modelled; rounding to nearest throughout'),
 'C159': ('proved', 'np.exp is a parameter with the stated properties; kd-tree results are parameters'),
 'C160': ('proved', 'The kd-tree query (distances, indices) is a parameter; one query point at a time. Default max_dx (a tenth of the mean standard deviation) is not computed here.'),
 'C161': ('proved', 'Every field of the unit system, critical density, mass-radius conversion; exact set of refused arguments. The cube root of the C library is a parameter of which the accuracy is assumed.'),
 'C162': ('proved', 'Virial radius, velocity, dynamical time and density with rounding, for arrays (elementwise). The powers of the C library are parameters of stated accuracy; an instance meeting the accuracy is constructed.'),
}
