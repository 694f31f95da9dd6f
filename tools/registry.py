"""Single source for properties.jsonl, MANIFEST.json and the per-property part of
DESIGN.md.  P(id, title, statement, quantifier, why, anchors, plan, status, theorems, note)"""
PROPS = []

def P(id, title, statement, quantifier, why, anchors, plan,
      status="planned", theorems=(), note=""):
    PROPS.append(dict(id=id, title=title, statement=statement, quantifier=quantifier,
                      why_tests_cant=why, anchors=anchors, plan=plan, status=status,
                      theorems=list(theorems), note=note))

S = "src/pyhipp/"

# ---------------------------------------------------------------- containers
P("C01", "DataDict: read-your-write through nested paths",
  "After `d[path] = v` succeeds, `d[path]` returns exactly `v`, and every other slash path whose look-up does not go through the written slot returns what it returned before. `del d[path]` makes `d[path]` raise KeyError and likewise leaves other paths alone. (For self-referential dictionaries the first half is false; the counterexample is recorded.)",
  "all heaps of nested dictionaries (shared sub-dictionaries allowed), all paths of any depth, all values",
  "Tests fix one nesting depth and one key; sharing between sub-dictionaries and arbitrary depth are unbounded.",
  [S+"core/containers/data_dict.py: DataDict.__getitem__/__setitem__/__delitem__/__split_key"],
  "Object heap of ordered dictionaries (Verif/Model/DataDict.lean); induction over the path; acyclicity or 'slot not on the path' as explicit hypothesis, cyclic counterexample proved.")
P("C02", "DataDict: tuple keys are element-wise and ordered",
  "`d[k1,...,kn]` returns the tuple of `d[ki]` (or the error of the first failing one); `d[k1..kn] = (v1..vn)` performs the assignments left to right; a length mismatch raises AssertionError and changes nothing; `del d[k1..kn]` deletes left to right and a failing key leaves the earlier deletions in place.",
  "all dictionaries, all tuples of keys and values of any length (repetitions and nested tuples included)",
  "Unbounded tuple length, repeated keys and failure position.",
  [S+"core/containers/data_dict.py: DataDict.__getitem__/__setitem__/__delitem__"],
  "Recursive key type (name or tuple); induction over the tuple.")
P("C03", "DataDict: slash normalisation",
  "Leading, trailing and doubled slashes in a key are irrelevant: two keys that contain a slash and have the same non-empty components are interchangeable in get, set and del, and a leading slash is equivalent to the plain key; a key made of slashes only raises AssertionError and changes nothing.",
  "all strings as keys, all dictionaries",
  "Infinite set of spellings of the same path.",
  [S+"core/containers/data_dict.py: DataDict.__split_key"],
  "Keys are character lists; split is modelled after str.split; theorem on join/split.")
P("C04", "DataDict: insertion-ordered map under any history",
  "Under any sequence of item assignment/deletion/update/clear with slash-free keys a DataDict behaves like a mathematical map: look-up, `in`, `len`, iteration agree with the abstract map, each key occurs once in iteration, re-assignment keeps a key's position and new keys go last.",
  "all operation sequences of any length over all keys and values",
  "A test runs one history.",
  [S+"core/containers/data_dict.py: DataDict", S+"core/containers/data_table.py: DataTable"],
  "Refinement of the ordered association list to Key -> Option Value by induction over operation lists.")
P("C05", "DataDict: copy and union do not disturb operands",
  "`d.copy()` and `d | m` return new dictionaries: later top-level assignments to the result are not visible in `d` or `m` and vice versa; `d | m` has m's value wherever m has the key and d's otherwise, d's keys first; nested dictionaries stay shared (shallow copy), and `d |= m` equals `d.update(m)`.",
  "all heaps, all dictionaries, all later assignments",
  "Aliasing must hold for every later mutation.",
  [S+"core/containers/data_dict.py: DataDict.copy/__or__/__ior__/update"],
  "Heap model with fresh object allocation; frame lemmas.")
P("C06", "DataDict: constructor and update take keys literally",
  "Keys passed to the constructor, `update` or `|=` are stored verbatim; in particular a key containing '/' appears in iteration and in `in`, but `d[key]` performs a nested look-up instead and does not return the stored value unless a nested entry exists; `in` never looks through slashes.",
  "all dictionaries and all keys",
  "Interaction of two code paths over all key strings.",
  [S+"core/containers/data_dict.py: DataDict.__init__/update/__contains__/__getitem__"],
  "Direct theorem on the heap model; witness of an unreachable stored item.")
P("C07", "DataTable: columns are isolated by copying, reads are references",
  "Assignment, construction with copy=True, `update`, `copy`, `subset` and `concat` store copies: mutating the caller's array afterwards never changes the table, and mutating the new table never changes the source table. `t[key]` returns the stored column itself: in-place changes through it are visible in the table.",
  "all tables, arrays, and subsequent in-place mutations",
  "Aliasing claims quantify over all later writes.",
  [S+"core/containers/data_table.py: DataTable.__init__/__setitem__/__getitem__/update/copy/subset/concat"],
  "Heap of array buffers; a table maps keys to buffer ids; freshness and frame lemmas.")
P("C08", "DataTable: row selection and concatenation keep rows aligned",
  "`t.subset(idx)`/`t.iloc[idx]` applies the same row selection to every column, so row j of the result is row idx[j] of t in every column; `t.concat(u,...)` has t's columns in t's order, row i of the result is row i of the stacked tables, missing columns raise KeyError, extra columns are ignored; if all columns had equal length they still do.",
  "all tables, index lists/slices with any step/boolean masks, any number of concatenated tables",
  "Unbounded number of rows, columns and tables.",
  [S+"core/containers/data_table.py: DataTable.concat/subset/subcol/iloc"],
  "Tables as ordered maps to row lists; list induction.")
P("C09", "DataTable: subset of a concatenation / associativity of concat",
  "concat is associative, selecting the first len(t) rows of t.concat(u) gives back t, the remaining rows give u restricted to t's columns, and column selection commutes with row selection.",
  "all tables with equal column sets",
  "Algebraic law over all tables.",
  [S+"core/containers/data_table.py: DataTable.concat/subset/subcol"],
  "List algebra.")

# ---------------------------------------------------------------- hdf5
P("C10", "HDF5: dump then load round-trips every supported nested dict",
  "Dumping a supported nested mapping into an empty group and loading the group returns a mapping with the same keys at every level and the same values, str values coming back as bytes (their UTF-8 encoding) and mappings as DataDict.",
  "all finite nested mappings with distinct slash-free non-empty keys, any depth and width",
  "Unbounded nesting depth and arbitrary key sets.",
  [S+"io/h5/named_objs.py: Group.dump/load/create_group, DatasetManager.create", S+"io/h5/utils.py: Utils.is_data_dict_supported"],
  "Tree model of an HDF5 group; mutual induction over the nested mapping.")
P("C11", "HDF5: unsupported input is rejected before anything is written",
  "If any key at any depth is not a str or any leaf is not str/bytes/ndarray/scalar, `Group.dump` raises TypeError and the file is unchanged; otherwise no TypeError comes from the scan.",
  "all nested values, offending item at any position and depth, all file contents",
  "The offending item may be anywhere in an unbounded structure.",
  [S+"io/h5/named_objs.py: Group.dump", S+"io/h5/utils.py: Utils.is_data_dict_supported"],
  "Scan modelled as recursive function; theorem relates it to an inductive 'supported' predicate.")
P("C12", "HDF5: flag 'x' never alters existing objects",
  "A dump with the default flag 'x' - successful or failing at any point - leaves every dataset and group that existed before with the same contents; if a top-level key already exists it raises ValueError.",
  "all files, all data, every failure point",
  "Every failure point of a non-atomic operation.",
  [S+"io/h5/named_objs.py: Group.dump, Group.create_group, DatasetManager.create"],
  "Order on trees ('extends'); induction over the dumped mapping with state returned also on error.")
P("C13", "HDF5: flag 'ac' overwrites exactly the named datasets",
  "A successful dump with 'ac'/'ca' makes every leaf of the mapping readable with the dumped value (when shape/dtype agree), creates missing groups, and leaves every dataset not named in the mapping untouched; repeating it changes nothing further.",
  "all files and mappings",
  "Frame condition over all other paths.",
  [S+"io/h5/named_objs.py: Group.dump, DatasetManager.create"],
  "Path look-up specification; induction.")
P("C14", "HDF5: a failing dump leaves exactly a prefix",
  "If a dump fails, the file contains the effect of dumping exactly the items before the failing one in mapping order (recursively), nothing of the later ones.",
  "all mappings, all failure positions",
  "Every crash/failure point.",
  [S+"io/h5/named_objs.py: Group.dump"],
  "State-passing model; induction over the item list.")
P("C15", "HDF5: an unknown creation flag is rejected without effect",
  "create_group, datasets.create, create_empty, create_soft_link, create_external_link, attrs.create/create_empty with a flag other than 'x','ac','ca' raise ValueError and change nothing.",
  "all strings as flag, all keys, all files",
  "Infinite flag domain times file states.",
  [S+"io/h5/named_objs.py: create*, AttrManager.create*"],
  "Case analysis on the flag in each modelled function.")
P("C16", "HDF5: create_group / create semantics for existing names",
  "For an existing name: flag 'x' raises ValueError; 'ac' opens an existing group unchanged (idempotent), raises ValueError if the name is a dataset; datasets.create with 'ac' raises ValueError if the name is a group. In no case is the existing object replaced by an object of the other kind.",
  "all files, keys, flags",
  "Type confusion must be excluded for every state.",
  [S+"io/h5/named_objs.py: Group.create_group, DatasetManager.create/create_empty"],
  "Case analysis on the tree model.")
P("C17", "HDF5: file open flags",
  "Opening with 'r'/'a' fails when the file does not exist and never changes contents; 'x' fails when it exists and leaves it unchanged, else creates an empty file; 'ac'/'ca' open unchanged or create empty; 'w' always yields an empty file; any other flag raises ValueError before touching the file system; 'r' refuses writes.",
  "all file systems, paths and flags",
  "All file-system states.",
  [S+"io/h5/named_objs.py: File.__init__, File._flag_to_raw_flag"],
  "File system as map path -> tree; flag table transcribed; h5py mode semantics assumed and recorded.")
P("C18", "HDF5: dump_to(key) / load_from(key) round trip",
  "`File.dump_to(p, data, key)` followed by `File.load_from(p, key)` returns the data (normalised as in C10) for any slash path key, creating missing parent groups and leaving all data outside `key` unchanged; with key None or '/' the root is used; with create_parent=False missing parents raise KeyError and nothing is created.",
  "all paths of any depth, all files, all data",
  "Unbounded path depth and arbitrary other file contents.",
  [S+"io/h5/named_objs.py: File.dump_to/load_from"],
  "Tree model; induction over the key path.")
P("C19", "HDF5: the dataset view shows exactly the datasets",
  "`g.datasets`' keys/items/values list exactly the children that are datasets, `k in g.datasets` iff `g.datasets[k]` succeeds (child groups raise KeyError), `g.datasets[k]=v` raises KeyError for missing or group names and otherwise only changes k.",
  "all groups and keys",
  "All group states.",
  [S+"io/h5/named_objs.py: DatasetManager"],
  "Direct theorems on the model.")
P("C20", "HDF5: attribute manager",
  "attrs.create with 'x' raises ValueError iff the key exists and never changes an existing value, with 'ac' sets it; after a successful create/assign reading returns the value and other attributes are unchanged; assigning to a missing attribute raises KeyError; create_empty with 'ac' on an existing key changes nothing; load(dump d) = d on an empty manager.",
  "all attribute states, keys, values, operation sequences",
  "All states and histories.",
  [S+"io/h5/named_objs.py: AttrManager"],
  "Ordered-map model of attributes.")
P("C21", "HDF5: selective load",
  "datasets.load(key_re, keys) and attrs.load return a dict with exactly the requested keys (all dataset keys by default) that match the pattern at the start of the key, in the requested order, each mapped to its current value; requesting a missing key that matches raises KeyError.",
  "all groups, key lists and patterns",
  "Arbitrary patterns and key sets.",
  [S+"io/h5/named_objs.py: DatasetManager.load, AttrManager.load", S+"io/h5/utils.py: Utils.find_matched_keys, KeyList.matched"],
  "Pattern is an abstract predicate on keys.")
P("C22", "GroupLike objects survive to_h5/from_h5",
  "For a class whose fields are str, plain data, DataTables or nested GroupLike classes, from_h5_group(to_h5_group(obj)) rebuilds an object with equal fields at every nesting level; a DataTable comes back with the same columns, in alphabetical order; explicit init_kw override loaded fields.",
  "all schemas (any nesting depth) and all objects of the schema",
  "Unbounded schema depth.",
  [S+"io/h5/abc.py: GroupLike, to_h5_data, from_h5_data", S+"core/containers/data_table.py: DataTable._to_h5_data, DataTable._from_h5_data"],
  "Schema as an inductive type; induction over the schema on top of C10.")
P("C23", "HDF5: tree listing respects depth limit",
  "`what(max_depth=m)` with m>=1 shows no entry nested deeper than m-1 levels, shows every entry above that, and equals the unlimited listing when the tree is shallower than m.",
  "all trees and depth limits",
  "Unbounded trees.",
  [S+"io/h5/named_objs.py: Group.what"],
  "Listing modelled as list of (depth, name) lines plus the rendered text.")
P("C24", "HDF5: deleting a child and links",
  "`del g[k]` removes exactly child k; create_soft_link on an existing name never changes it ('x' raises ValueError, 'ac' is a no-op) and otherwise adds exactly one link whose look-up resolves to the target path.",
  "all groups, keys, targets",
  "All states.",
  [S+"io/h5/named_objs.py: Group.__delitem__/create_soft_link/create_external_link"],
  "Tree with link nodes; resolution with fuel.")

# ---------------------------------------------------------------- dataproc
P("C25", "count_to_offset is the exact prefix-sum",
  "count_to_offset(c) has length len(c)+1, starts at 0, ends at sum(c), and consecutive differences give back c; with has_end=False exactly the last entry is dropped; count_to_offset_pairs(c)[i] = (off[i], off[i+1]), and for non-negative counts the ranges are disjoint, ordered and tile [0,sum(c)).",
  "all integer count lists",
  "Unbounded length.",
  [S+"core/dataproc/data_structs.py: Array.count_to_offset/count_to_offset_pairs"],
  "List induction over Int.")
P("C26", "Chunks partition a sequence",
  "slices_by_sizes(sizes, seq) yields one slice per size; for non-negative sizes summing to len(seq) the slices have exactly those lengths and concatenate to seq; several sequences are cut at the same places; ranges_by_sizes equals count_to_offset_pairs. Sizes that do not fit are not refused: chunk i has min(size, elements left) elements, the rest of the sequence is left out, and a negative size gives an empty chunk and makes the next one repeat elements.",
  "all size lists, all sequences",
  "Unbounded length.",
  [S+"core/dataproc/iter.py: Chunks"],
  "Generator as list; python slice semantics modelled.")
P("C27", "combine_dicts is right-biased",
  "combine_dicts(d1,...,dn, **kw) maps k to kw[k] if present, else to the value in the last non-None di containing k; key order is first-occurrence order; inputs None are skipped and inputs are unchanged.",
  "all lists of optional dicts",
  "Any number of dicts.",
  [S+"core/dataproc/data_structs.py: Dict.combine_dicts"],
  "Ordered map fold.")
P("C28", "boolean mask / index conversion round trip",
  "idx_to_bool(len(b), bool_to_idx(b)) = b; bool_to_idx(idx_to_bool(n, idx)) is the strictly increasing list of distinct (wrapped) indices; any index outside [-n, n) raises IndexError.",
  "all boolean arrays, all n and index lists (negative, repeated, unordered)",
  "Unbounded arrays.",
  [S+"core/dataproc/mask.py: Mask.bool_to_idx/idx_to_bool"],
  "List model; numpy wrap-around indexing.")
P("C29", "Mask.zip takes the first true mask",
  "out[i] is arrays[m][i] for the smallest m with masks[m][i] true, and the default (0 if not given) when none is true.",
  "all numbers of masks and all lengths",
  "Unbounded.",
  [S+"core/dataproc/mask.py: Mask.zip"],
  "Model of np.select (built from the last to the first); list induction.")
P("C30", "Mask.put / on_array(s) / on_dict",
  "put changes exactly the positions where the mask is true, position i receiving src[i mod len(src)]; on_arrays/on_dict apply the same mask to all arrays, keeping keys and order, so rows stay aligned.",
  "all arrays, masks, dictionaries",
  "Unbounded.",
  [S+"core/dataproc/mask.py: Mask.put/on_array/on_arrays/on_dict"],
  "List model.")
P("C31", "Range filter keeps exactly the half-open interval",
  "Range(min,max)(x) returns, in order, exactly the elements with min <= e < max (an omitted bound is no constraint; NaN is dropped as soon as a bound is given); filtering twice equals filtering once; two filters commute and compose to the intersection.",
  "all arrays and bounds, NaN included",
  "Unbounded arrays.",
  [S+"core/dataproc/filter.py: Range"],
  "List filter over a NaN-extended linear order.")
P("C32", "PeriodicBox.shift_in",
  "For every coordinate within one box length of the box ([-L, 2L)) the result lies in [0,L), differs from the input by 0 or ±L, and is unchanged if already inside; with `where` only selected coordinates change; test_bound is true afterwards; outside that range the result is not guaranteed to be inside (counterexample).",
  "all coordinates, L>0, masks, arrays of any size",
  "Continuum of inputs.",
  [S+"core/dataproc/frame.py: PeriodicBox.shift_in/test_bound"],
  "Ordered-field model, element-wise with two sequential masks.")
P("C33", "PeriodicBox.shift_to gives the nearest image",
  "For x, x_ref in [0,L) the result differs from x by 0 or ±L, lies in [x_ref-L/2, x_ref+L/2), and no periodic image of x is closer to x_ref; `where` leaves unselected entries unchanged.",
  "all coordinates, references, L>0",
  "Continuum of inputs.",
  [S+"core/dataproc/frame.py: PeriodicBox.shift_to"],
  "Ordered-field model.")
P("C34", "Num.bound is clamping and scalar/array versions agree",
  "bound(x,lo,hi) returns x when lo<=x<=hi, lo below, hi above (hi wins when lo>hi), each bound optional, is idempotent and monotone, NaN passes through, and the scalar and array versions agree element-wise; copy=True never changes the input array.",
  "all values and bounds incl. NaN",
  "Continuum of inputs.",
  [S+"core/dataproc/num.py: Num.bound/bound_scalar/bound_array"],
  "NaN-extended linear order.")
P("C35", "Num.normalize / safe_div never divide by less than lo",
  "normalize(v) has norm <= 1, exactly 1 when |v| >= lo, is parallel to v; safe_div(x,y) = x/max(y,lo), finite for lo>0 and equal to x/y when y>=lo; safe_lg(x)=log10(max(x,lo)) is monotone and bounded below by log10(lo).",
  "all vectors of any dimension, all reals",
  "Continuum.",
  [S+"core/dataproc/num.py: Num.normalize/safe_div/safe_lg/safe_ln"],
  "Real-valued model (Mathlib sqrt, log).")
P("C36", "Polar.rt_to_cart is a rotation away from the polar axis",
  "For a position x not on the z axis (and not degenerately short), rt_to_cart(x, ·) is linear, preserves lengths and angles, maps (0,0,1) to the unit radial vector; on the z axis it is not length-preserving (counterexample).",
  "all positions and vectors in R^3",
  "Continuum.",
  [S+"core/dataproc/frame.py: Polar.rt_to_cart", S+"core/dataproc/num.py: Num.normalize"],
  "Real 3-vectors; nlinarith/field_simp on explicit components.")
P("C37", "Grid1d.locate / GridMd.locate",
  "For sorted locs, locate(x) is the unique i in [-1, n-1] such that locs[j] <= x exactly for j <= i; so locs[i] <= x < locs[i+1], -1 below the first and n-1 at or above the last; GridMd.locate does this per dimension; construction rejects unsorted or empty locs.",
  "all sorted arrays (repetitions allowed), all x, any dimension",
  "Unbounded.",
  [S+"core/dataproc/grid.py: Grid1d.__init__/locate, GridMd.locate"],
  "Linear order; searchsorted specified by counting.")
P("C38", "Grid centers and applied",
  "centers has one entry fewer, each center lies between its two locs and is sorted, so centers of a valid grid with >=2 locs is a valid grid; GridMd.applied(f) puts f evaluated at the grid point of multi-index I at position I, for ij and xy indexing, with one (N, M) array or M arrays of length N as input, with trailing axes, and for several results each on its own; other numbers of rows are refused, except that a result with an empty trailing axis is accepted with any number of rows.",
  "all grids, all point functions",
  "Unbounded sizes and dimension.",
  [S+"core/dataproc/grid.py: Grid1d.centers, GridMd.applied/locs/locs_xy"],
  "Ordered field; row-major flattening lemma.")

# ---------------------------------------------------------------- stats
P("C39", "Bins.locate contract for both implementations",
  "EqualSpaceBins.locate and BiSearchBins.locate return i with edges[i] <= x < edges[i+1] for x inside, -1 below and n_bins at or above the end, and the two classes agree on the same edges.",
  "all ranges, n_bins >= 1, all x; all edge arrays (unsorted input is sorted first)",
  "Continuum of inputs.",
  [S+"stats/binning.py: EqualSpaceBins, BiSearchBins"],
  "Ordered field with floor.")
P("C40", "Bins.locate_bound / locate_nearest",
  "locate_bound always returns a valid bin index, equal to locate when that is valid; locate_nearest returns an edge index whose edge minimises |x - edge| over all edges.",
  "all bins and x, in and out of range",
  "Continuum.",
  [S+"stats/binning.py: Bins.locate_bound/locate_nearest"],
  "Ordered field.")
P("C41", "BinnedData accumulates an exact histogram",
  "After any sequence of add calls, data[b] is the total weight (count) of all points ever added with locate = b; out-of-range points contribute nothing; the result does not depend on the order or grouping of the calls.",
  "all histories of add calls",
  "All histories.",
  [S+"stats/binning.py: BinnedData.add"],
  "Fold over history; induction.")
P("C42", "Sub-bin edges and adjacent-bin combination",
  "insert_sub_bins_into_edges(e,s) has (len(e)-1)*s+1 entries, contains e[i] at position i*s, and is sorted if e is; combine_adjacent_bins(x,m)[i] = sum of x[i..i+m-1] with len(x)-m+1 entries, rejected by AssertionError otherwise; edges_to_centers/widths with stride.",
  "all edges, s>=1, m>=1",
  "Unbounded.",
  [S+"stats/binning.py: Bin"],
  "List model over an ordered field.")
P("C43", "Overlapped-bin histogram",
  "from_overlapped_bins returns h[i] = weighted count of samples in sub-bins i..i+s-1, x[i]/dx[i] center and width of the merged interval; total count relations; 'sub_h' has one entry per sub-bin (violated: it returns the combined histogram).",
  "all samples, edges, sub_bins, weights",
  "Unbounded.",
  [S+"stats/binning.py: Hist1D.from_overlapped_bins"],
  "np.histogram modelled (last bin closed); combination law; negation for sub_h.")
P("C44", "Masked reduction equals reduction of the selected elements",
  "For Count, Sum, Mean, StdDev, Quantile, Median: r(x, w, mask) equals r(x[mask], w[mask]) (for Sum/Mean/StdDev by algebra, for the others by construction).",
  "all arrays, weights, masks",
  "Unbounded.",
  [S+"stats/reduction.py: Count, Sum, Mean, StdDev, Quantile, Median"],
  "List model over a field.")
P("C45", "Weighted reductions are scale-free and permutation-invariant",
  "Mean, StdDev, weighted Quantile/Median do not change if all weights are multiplied by c>0; Count, Sum, Mean, StdDev do not depend on the order of the samples; uniform weights reproduce the unweighted Mean/StdDev.",
  "all arrays, weights, c>0, permutations",
  "Continuum and all permutations.",
  [S+"stats/reduction.py"],
  "Field algebra; List.Perm.")
P("C46", "Mean/StdDev sanity: bounds, shifts and empty selections",
  "With non-negative weights of positive sum the Mean lies between min and max; StdDev is >= 0, is 0 for constant data, is invariant under shifts and scales with |c|; an empty selection yields empty_fill for Mean (StdDev instead takes the square root of the fill value: violated, recorded).",
  "all arrays, weights",
  "Continuum.",
  [S+"stats/reduction.py: Mean, StdDev"],
  "Ordered field / real sqrt.")
P("C47", "Weighted quantiles are monotone and within range",
  "For positive weights the weighted quantile lies between min and max of the selected data, is non-decreasing in p, equals the maximum at p=1 and the minimum for p not above the first normalised weight.",
  "all data, weights, p",
  "Continuum.",
  [S+"stats/reduction.py: Quantile._impl_with_weight"],
  "np.interp modelled; induction over sorted data.")
P("C48", "Errorbar returns center and non-negative errors",
  "errorbar(x) = (median, median-lo, hi-median) with both errors >= 0, or (mean, sd, sd); reconstructing center-lower and center+upper gives the quantiles.",
  "all data",
  "Continuum.",
  [S+"stats/reduction.py: Errorbar"],
  "Corollary of C47.")
P("C49", "2-D reductions are row-wise",
  "For 2-D input the result's i-th entry is the 1-D reduction of row i with weight/mask row i (Count without mask returns one number for all rows); so for error bars, except that quantile error bars of a matrix without rows are a ValueError (recorded).",
  "all matrices",
  "Unbounded.",
  [S+"stats/reduction.py: Reduce._impl_2d, Mean._impl, StdDev._impl, Errorbar._impl"],
  "List-of-lists model with numpy broadcasting of the 0-d count.")
P("C50", "Bootstrap resampling keeps rows together",
  "In every resample all columns of one data set are indexed by the same id list; sizes are min(n, max_n); every resampled row is a row of the input; output has mean and sd of the samples for each key_out, `_samples` on request, and other keys from the first sample; a one-shot iterator for dsets_in is exhausted after the first resample, one for the maximal sizes makes the second resample fail (recorded).",
  "all data sets, random streams, numbers of resamples",
  "All random outcomes.",
  [S+"stats/sampling.py: Bootstrap"],
  "RNG as arbitrary stream of index lists.")
P("C51", "Standardize is invertible",
  "backward(forward(x)) = x and forward(backward(y)) = y for every x when sd_lb > 0; training columns are mapped to mean 0, and variance 1 whenever their sd is not below sd_lb.",
  "all training sets and inputs",
  "Continuum.",
  [S+"stats/preprocessing.py: Standardize"],
  "Real model.")
P("C52", "ProbTransToNorm round trip",
  "With distinct training values, back(forw(x)) = x for every x in the training range and forw(back(p)) = p for p in [0,1] (with_norm=False; with_norm=True given the normal CDF and its inverse cancel); forw is strictly increasing, maps min to 0 and max to 1. With doubles, a sample passes the constructor's check exactly if it has at least two values, no NaN and no two equal (fewer: ValueError; otherwise AssertionError), and its table of probabilities is strictly increasing from exactly 0 to exactly 1, the i-th within one rounding of i/(n-1), for fewer than 2^52 values.",
  "all distinct samples, all x in range; all samples of doubles",
  "Continuum.",
  [S+"stats/prob_dist.py: ProbTransToNorm"],
  "Piecewise-linear interpolation over an ordered field.")
P("C53", "Kernels and ball volume",
  "Gaussian kernel values are in (0,1], even, non-increasing in |d|; Tophat is 1 exactly for d<radius; the ball-volume recursion equals pi^(n/2) r^n / Gamma(n/2+1) for every dimension n.",
  "all distances, radii, dimensions",
  "Unbounded dimension.",
  [S+"stats/kernel.py: Gaussian, Tophat"],
  "Real model; Mathlib Gamma; strong induction.")
P("C54", "Neighbour regression basics",
  "A constant target is predicted as that constant by the mean reduction wherever a neighbour with positive weight exists; masked_fraction lies in [0,1]; output entries follow the order of query points and reductions; entries of invalid points (count<min_count) are exactly those flagged.",
  "all training sets, queries, weights; any neighbour-search result",
  "Continuum.",
  [S+"stats/regression.py"],
  "kd-tree as arbitrary neighbour function.")
P("C55", "Histogram density estimate",
  "by_histogram evaluates at x the density of the bin [e_i,e_{i+1}) containing x in every dimension and out_fill outside; the estimate is non-negative for non-negative weights and integrates to 1.",
  "all grids, data, weights",
  "Continuum.",
  [S+"stats/density_estimation.py: _Histogram"],
  "1-d/n-d bin model.")
P("C56", "Rng determinism and sharing",
  "Two Rng objects built from the same integer seed produce identical outputs for the same call sequence; Rng(rng) shares the stream with rng, so interleaved calls consume one common stream.",
  "all seeds, all call sequences",
  "All histories.",
  [S+"stats/random.py: Rng"],
  "Generator as abstract state machine in a heap.")

# ---------------------------------------------------------------- numerical
P("C57", "bisearch",
  "For a non-empty sorted array bisearch terminates and returns the unique i in [-1,n) with x[j] <= v exactly for j <= i; an empty array raises AssertionError; it agrees with numpy's searchsorted(side='right')-1.",
  "all sorted arrays, all targets",
  "Unbounded.",
  [S+"numerical/interpolate.py: bisearch"],
  "Loop as well-founded recursion with invariant.")
P("C58", "bisearch_nearest",
  "Returns an index whose entry is nearest to the target among all entries; the array version is element-wise.",
  "all sorted arrays",
  "Unbounded.",
  [S+"numerical/interpolate.py: bisearch_nearest/bisearch_nearest_array"],
  "Ordered field.")
P("C59", "Linear interpolation",
  "Weights are non-negative and sum to 1; value_at(x_i)=y_i at every node; outside the nodes the end values are returned; the value is always between the minimum and maximum of the two bracketing node values; affine functions are reproduced exactly; non-decreasing data give a non-decreasing interpolant.",
  "all strictly increasing nodes, all x",
  "Continuum.",
  [S+"numerical/interpolate.py: bisearch_interp_weight/bisearch_interp/Linear.value_at"],
  "Ordered field on top of C57.")
P("C60", "Linear.derivative",
  "For affine data the derivative interpolant is the constant slope everywhere; end nodes use one-sided and inner nodes central differences; the result has as many nodes.",
  "all node sets with >= 2 nodes",
  "Unbounded.",
  [S+"numerical/interpolate.py: Linear.derivative"],
  "Ordered field.")
P("C61", "Bilinear interpolation",
  "bisearch_interp_2d equals interpolating along one axis and then the other (in either order), reproduces node values and stays within the range of the four corners; interp_fix_oob returns y_left/y_right outside.",
  "all node grids",
  "Continuum.",
  [S+"numerical/interpolate.py: bisearch_interp_2d/bisearch_interp_fix_oob"],
  "Ordered field.")
P("C62", "Linear constructor check",
  "The constructor rejects node arrays of different length or fewer than 2 nodes; it should reject unsorted nodes (violated: any array without equal neighbours is accepted).",
  "all node arrays",
  "Unbounded.",
  [S+"numerical/interpolate.py: Linear.__init__"],
  "Exact acceptance condition proved; unsorted witness.")

# ---------------------------------------------------------------- fields
P("C63", "CIC mass assignment conserves mass",
  "After any sequence of add calls the sum over all cells equals the sum of the weights added, for any positions (inside or outside the box) and any grid size n>=1; with non-negative weights all cells stay non-negative.",
  "all histories of point sets, all positions and weights",
  "Continuum and all histories.",
  [S+"field/cubic_box/mass_assignment.py: _LinearShapeFn.weights_at, _Linear.add_1/add, DensityField.add"],
  "Ordered field with floor; grid as function on Fin n^3.")
P("C64", "CIC is linear, order-independent and periodic",
  "The field depends only on the multiset of (position, weight); splitting the points over several add calls or processes and summing gives the same field; shifting a point by a multiple of the box length in any axis changes nothing; scaling weights scales the field.",
  "all point sets, permutations, splits, shifts",
  "All schedules.",
  [S+"field/cubic_box/mass_assignment.py: _Linear, DensityField.join_dumps"],
  "Additivity lemma; List.Perm; floor periodicity.")
P("C65", "CIC weights follow the linear shape function",
  "weights_at(x) returns indices in [0,n), weights in [0,1] summing to 1, and each weight equals the triangular shape function of the distance in grid units; a point on a grid node puts all its mass there.",
  "all x, n>=1, l>0",
  "Continuum.",
  [S+"field/cubic_box/mass_assignment.py: _LinearShapeFn.weights_at/shape_at_x"],
  "Ordered field with floor.")
P("C66", "Field interpolation is the adjoint of assignment",
  "value_at of a constant field is that constant; the value lies between field minimum and maximum; at a node it equals the node value; and sum_i w_i value_at(x_i) = sum_cells data * (field assigned from (x,w)); it is periodic.",
  "all fields, point sets",
  "Continuum.",
  [S+"field/cubic_box/cosmic_web.py: FieldInterpolator._value_at"],
  "Bilinear algebra over the eight corners.")
P("C67", "Mesh cell index",
  "x_to_xi(x) is in [0,n), is periodic in the box length, and the node it denotes is within half a cell of some periodic image of x.",
  "all x, n>=1, l_box>0",
  "Continuum.",
  [S+"field/cubic_box/mesh.py: _Mesh.x_to_xi/x_to_xi_nd"],
  "Ordered field with floor.")
P("C68", "Joining dumps equals one big field",
  "join_dumps of fields built from disjoint parts of a point set writes the field of the whole set with the l_box/n_grids of the first; a single input is copied; no input is an error; dump/load of a DensityField round-trips.",
  "all partitions of all point sets",
  "All partitions.",
  [S+"field/cubic_box/mass_assignment.py: DensityField.join_dumps/dump/load"],
  "Sum of fields; C63 additivity.")
P("C69", "Fourier wave numbers and smoothing windows",
  "The index-to-wavenumber map used in every Fourier loop sends i to the representative of i mod N in (-N/2, N/2], so it is injective and k(N-i) = -k(i) away from Nyquist; Gaussian and tophat windows are 1 at k=0 (mean preserved) and even in k; the Gaussian window is in (0,1]; the CIC correction divides by a positive number at every grid mode.",
  "all N, all modes",
  "Unbounded grid size.",
  [S+"field/cubic_box/smoothing.py: _Gaussian, _Tophat, _smooth", S+"field/cubic_box/mass_assignment.py: shape_at_ki"],
  "Integer arithmetic; real sin/exp from Mathlib.")
P("C70", "Tidal field solves the Poisson equation",
  "In every Fourier mode k != 0 the trace of the tidal tensor equals the smoothed overdensity and is zero at k=0; the tensor is symmetric; normalisation gives zero mean overdensity and rejects mean density below 1e-10.",
  "all density fields, all modes",
  "Unbounded grid size.",
  [S+"field/cubic_box/gravity.py: _GreenFn3d, _TidalTensor, TidalField._solve_grav/_find_tidal_ij/_normalize"],
  "Field algebra per mode.")
P("C71", "Cosmic-web classification is a partition",
  "Each cell has exactly one of the four types, equal to the number of eigenvalues above the threshold; the four fractions sum to 1; grid_points_of_web_type(t) lists exactly the nodes that web_type_at classifies as t; construction rejects unsorted eigenvalues; raising the threshold never increases a cell's type.",
  "all eigenvalue fields, thresholds, points",
  "Unbounded grids.",
  [S+"field/cubic_box/cosmic_web.py: TidalClassifier"],
  "List/Fin model over an ordered field.")
P("C72", "kd_mesh: the cell table partitions the points",
  "cell_firsts is non-decreasing from 0 to the number of points and the slice of cell c contains exactly the points whose (periodic) cell index is c, every input point occurring exactly once.",
  "all point sets, n>=1",
  "Unbounded.",
  [S+"field/neighbor/kd_mesh.py: _PE3Mesh, _PE3_from_meshing_points"],
  "argsort as arbitrary sorting permutation; nested loop invariant.")
P("C73", "kd_mesh: neighbour query is complete",
  "query_points reports, for each query point i, every stored point within distance r_i in the periodic metric.",
  "all point sets, query points, radii >= 0",
  "Continuum.",
  [S+"field/neighbor/kd_mesh.py: _PE3.query_points"],
  "Ordered field with floor on top of C72.")
P("C74", "kd_mesh: no double reporting for small radii",
  "If the query window spans at most n cells per axis each stored point is reported at most once; for larger radii points are reported several times (counterexample).",
  "all point sets and radii",
  "Continuum.",
  [S+"field/neighbor/kd_mesh.py: _PE3.query_points"],
  "Injectivity of i mod n on windows of length <= n.")
P("C75", "PE distance is the minimum-image distance",
  "For points in [0,L)^d the distance reported by query_r_1(return_d=True) is the minimum over all periodic images; it is at most sqrt(d) L/2 and symmetric.",
  "all points, dimension d",
  "Continuum.",
  [S+"field/neighbor/kd_tree.py: PE.__d/query_r_1"],
  "Component-wise minimality; real sqrt.")

# ---------------------------------------------------------------- groups, astro
P("C76", "Point groups",
  "Group.create('cubic') has 48 distinct operations, closed under composition and inverse, and consists exactly of the signed permutation matrices; 'square' has 8 with the same properties; other names raise KeyError.",
  "all pairs of operations",
  "Closure over all pairs and completeness over all integer orthogonal matrices.",
  [S+"group_theory/point_group.py: Group.create, Op"],
  "Integer matrices; kernel decide over the complete finite table plus a lemma characterising integer orthogonal matrices.")
P("C77", "Composition of operations",
  "(a.combined(b))(x) = a(b(x)) for every vector; Group.combined lists all products once per pair, in lexicographic order, so its size is the product of sizes; operations of the predefined groups preserve length and angles.",
  "all operations, groups, vectors",
  "Continuum.",
  [S+"group_theory/point_group.py: Op.combined/__call__, Group.combined"],
  "Matrix algebra over a commutative ring.")
P("C78", "Unit systems are consistent",
  "G, c, H0, m_sun expressed in a unit system multiply back to their SI value; 1 Mpc = 10^3 kpc = 10^6 pc and 1 Gyr = 10^3 Myr = 10^6 kyr = 10^9 yr in the constants table (violated for kpc).",
  "all positive base units",
  "Continuum.",
  [S+"astro/quantity/unit_system.py: _Constants, _UnitSystem"],
  "Field algebra; the kpc defect proved.")
P("C79", "Flat Lambda-CDM background",
  "omega_m(z)+omega_l(z)=1; omega_m is increasing and H(z) is increasing in z; a2z and z2a are inverse; mean(z)=crit(z)*omega_m(z); values at z=0 are the parameters.",
  "all parameters with 0<omega_m0<1 and z>-1",
  "Continuum.",
  [S+"astro/cosmology/flat_lambda_cdm_nr.py"],
  "Real algebra.")
P("C80", "Mass-radius conversion",
  "m_to_r and r_to_m are mutually inverse on positive values; likewise halo r_vir reproduces M = 4/3 pi r^3 rho, v_vir^2 = G M / r, and t_dyn = r_phy/v does not depend on mass at fixed density.",
  "all positive masses, radii, densities",
  "Continuum.",
  [S+"astro/cosmology/flat_lambda_cdm_nr.py: _Densities", S+"astro/cosmology/halo_theory.py: HaloTheory.r_vir/v_vir/__vir_props"],
  "Real powers.")
P("C81", "Growth factor and power-spectrum normalisation",
  "growth_factor(0)=1, delta_crit(0)=1.686; sigma_sqr(8,0)=sigma_8^2 after construction; sigma_sqr(r,z)=D1(z)^2 sigma_sqr(r,0); Delta^2 = k^3 P/(2 pi^2). In doubles growth_factor(0) is 1 up to 9*2^-52 and delta_crit(0) is 1.686 up to a relative 11*2^-52, both are positive and finite and within a relative 2^-36 of the formula of Carroll et al. 1992 (relative to today) at every redshift above -1 up to 2^100, and z = -1 raises ZeroDivisionError, for every Omega_m0 from 2^-100 to 1.",
  "all parameters, scales, redshifts; any linear quadrature",
  "Continuum.",
  [S+"astro/cosmology/power_spectrum.py: _GrowthFactorCarroll92, _PowerSpectrumFlatLambdaCDMNR"],
  "Real algebra; scipy.quad as a linear functional.")
P("C82", "Sexagesimal conversion",
  "dms_to_deg is additive and exact for non-negative fields, hms_to_deg = 15 * dms_to_deg; for negative declinations with positive minutes the sign applies only to the degree field (recorded defect: result is not -(|d|+m/60+s/3600)).",
  "all fields",
  "Continuum.",
  [S+"astro/coords/cvt.py"],
  "Field algebra and text parsing of 'a:b:c'.")
P("C83", "ParamList name look-up",
  "p[name] returns the last parameter with that name; p[i] the i-th; after p[i]=q, p[i] and p[q.name] are q; a name that no longer belongs to any parameter should raise KeyError (violated: stale entry).",
  "all lists and assignment histories",
  "All histories.",
  [S+"astro/cosmology/param.py: ParamList"],
  "List plus ordered map; induction.")
P("C84", "HasCache calls the fallback at most once per key",
  "get_cache_or returns the cached value if the key is present (fallback not called); otherwise it returns and stores the fallback's value; a raising fallback stores nothing for that key; over any history without put_cache a key's value never changes once obtained.",
  "all histories of calls, including fallbacks that re-enter the cache",
  "All histories.",
  [S+"core/abc.py: HasCache, HasMultiCache"],
  "State machine with call log.")
P("C85", "Config files: inner nodes override outer ones",
  "ConfigFileParser.get(keys) returns exactly the requested keys, each with the value of the innermost visited node (init node, then nested nodes in order) that defines it; if none defines a key, KeyError; a missing node is a KeyError.",
  "all YAML trees, node paths, key lists",
  "Unbounded.",
  [S+"io/yaml.py: ConfigFileParser.get"],
  "Tree model.")
P("C86", "Excel: nested dict <-> sheet names",
  "Dumping a nested dict writes one sheet per table named by the '.'-joined path, and loading with reorder=True rebuilds the same nesting, provided keys are non-empty and contain no '.' and no sub-dict is empty; distinct paths never collide.",
  "all nested dicts",
  "Unbounded depth.",
  [S+"io/excel/__init__.py: Excel.dump_file/load_file/__reorder_input"],
  "Tree flatten/unflatten with string join/split.")
P("C87", "Fortran sections",
  "Reading (load_sect) or skipping (skip_sect) a well-formed section leaves the file position right after it, load_sect returns the payload, so any mixture of loads and skips over a file of sections sees the right payloads; a corrupt trailing marker raises AssertionError.",
  "all section lists, all load/skip schedules",
  "All schedules and sizes.",
  [S+"io/binary/fortran.py: BinaryFile"],
  "Byte list and position; little-endian int32 decoding.")

# ---------------------------------------------------------------- plot
P("C88", "Artist formatter keys are closed",
  "Formatter updates with unknown keys raise KeyError; over any history the key set never changes, and each key reads as its last accepted value; MarkerFormatter/FillFormatter.c set face and edge together and leave components passed as None unchanged.",
  "all histories",
  "All histories.",
  [S+"plot/artist_formatter.py: ArtistFormatter, MarkerFormatter, LineFormatter, FillFormatter"],
  "Ordered map state machine.")
P("C89", "Subplot layout arguments",
  "scalar n means one row; margin m is equivalent to extent with right/top = 1-m and left/bottom = m and takes precedence; two-element extent/margin (e1,e2) means left=bottom=e1, right=top=e2 (resp. 1-e2); scalars apply to all sides.",
  "all argument forms",
  "All argument shapes.",
  [S+"plot/artist_formatter.py: SubplotsFormatter.get_subplots_kw"],
  "Sum-type arguments.")
P("C90", "RuntimeConfig isolation",
  "No history of constructing, updating or styling RuntimeConfig instances changes the class defaults or another instance; a section given in an update replaces the whole section, other sections are kept; stylesheets apply in order, an unknown name raises KeyError after the earlier ones were applied.",
  "all histories over any number of instances",
  "All histories.",
  [S+"plot/runtime_config.py: RuntimeConfig"],
  "Heap model of two-level dicts.")
P("C91", "Contour levels enclose the requested mass",
  "z_level_at_percentile(p) returns a level such that the cells with density >= level hold at least a fraction p of the total, and the cells with density > level hold at most p; levels are non-increasing in p.",
  "all non-negative density grids, p in [0,1]",
  "Continuum.",
  [S+"plot/two_dim.py: Scatter2D.cum_prob_mass/z_level_at_percentile"],
  "Sorted prefix sums.")
P("C92", "Histogram2D evaluation",
  "on(x,y) returns the density of the bin containing (x,y) and 0 outside; true for points not on bin edges; on edges it uses the bin to the left and returns 0 at the lower boundary (recorded mismatch with fit).",
  "all edges and points",
  "Continuum.",
  [S+"plot/two_dim.py: Histogram2D.on/fit"],
  "searchsorted left vs right.")
P("C93", "Array.argsort / IndexArray constructors",
  "Array.argsort(axis=None) should return the flat sorting indices (violated: the constructor arguments are swapped and it always raises); IndexArray construction always raises.",
  "all arrays",
  "All inputs fail.",
  [S+"core/arrays/array.py: Array.argsort, FlatIndexArray, IndexArray"],
  "Exception-valued model.")
P("C94", "Random directions are unit vectors",
  "For every stream of draws, uniform_sphere returns one unit vector per draw whose z component is the drawn cos(theta), the polar form has theta in [0, pi] with cos(theta) the drawn value and phi the drawn angle, and uniform_circle returns unit vectors of the plane.",
  "all draws of cos(theta) in [-1, 1] and phi",
  "All random outcomes.",
  [S+"stats/random.py: Rng.uniform_sphere, Rng.uniform_circle"],
  "Draws as arbitrary lists; real trigonometry.")
P("C95", "Noise",
  "RandomNoise adds sigma times the draw to every value; with in_lg it multiplies by 10^(sigma z), so the sign is kept and lg(out/x) = sigma z; sigma = 0 returns the input; one row of the input's length per repeat. With doubles: sigma = 0 returns every value exactly (infinities and NaN too), additive noise on values up to 2^1000 is x + sigma z to two roundings and keeps the order of two values under the same draw, a finite factor never changes a sign nor makes NaN (an infinite one turns zero into NaN), and a negative number of repeats is refused.",
  "all inputs, draws, sigma and repeats",
  "All random outcomes.",
  [S+"stats/sampling.py: RandomNoise"],
  "Draws as arbitrary lists; real powers.")
P("C96", "Neighbour density estimates",
  "The local and k-nearest estimates are the weight of the counted neighbours (training weights normalised to 1) over the volume of the ball, with the neighbour count and radius reported; with a kernel the neighbour weights are averaged with the kernel, so without training weights the kernel has no effect on the result (recorded).",
  "all training weights, kernels, neighbour-search results",
  "Continuum.",
  [S+"stats/density_estimation.py: _LocalKernelDensityEstimation, _KnnDensityEstimation"],
  "Neighbour lists as arbitrary inputs; real sums.")
P("C97", "DataDict: get / pop / setdefault follow the path rules of []",
  "get(key, default) is d[key] with KeyError (and only KeyError) replaced by the default; pop(path) returns d[path] and removes exactly that entry, leaving everything else unchanged, and changes nothing if d[path] raises; setdefault(path, v) returns an existing value with no change or stores v under the whole path.",
  "all trees, keys, paths and values",
  "All shapes of nested dictionaries and paths.",
  [S+"core/containers/data_dict.py: DataDict (MutableMapping mixins)"],
  "Heap model of DataDict; the mixin code of collections.abc transcribed.")
P("C98", "NFW concentration from v_max / v_vir",
  "For an NFW profile, v_max/v_vir grows strictly with the concentration on the tabulated range; v_max2vir_to_c returns the tabulated concentration exactly at every tabulated ratio, is monotone between, stays inside the tabulated range, and raises ValueError for a ratio below that of c = 2.1626 or above that of c = 1000. In double precision, for concentrations from 2 to 2^20, the computed mass function is within 2^-46 of the exact one and the square of the computed ratio within a relative 2^-42. Recorded: for positive concentrations up to 2^-53 the computed mass function is -c, and the ratio NaN.",
  "all concentrations and ratios, every table size n_interp >= 1",
  "Continuum; every table size.",
  [S+"astro/cosmology/halo_theory.py: NFWProfileCalculator.mu/c_to_v_max2vir/v_max2vir_to_c/_create_v_to_c"],
  "Real analysis: sign of the derivative of c/mu(c) past its minimum; interp1d as sorted nodes + chord.")
P("C99", "Frame settings reach matplotlib",
  "fmt_frame stores the given frame settings (unknown names: KeyError, nothing sent) and then sends to matplotlib exactly the calls the stored settings ask for: per setting one x call and/or one y call (a pair or a {'x','y'} mapping; a None half or a None setting sends nothing), tick_params and label_outer in a single call; stops at the first refused call. A pair for tick_params always fails with NameError (recorded), numbers and wrong-length sequences are rejected.",
  "all stored settings, all keyword mappings, all matplotlib back ends that accept or reject calls",
  "Every combination of settings, value shapes and refused calls.",
  [S+"plot/artist_formatter.py: FrameFormatter.apply", S+"plot/axes.py: Axes.fmt_frame"],
  "Axes as a record of formatters plus the list of calls sent; FrameAsks is the separate specification.")
P("C100", "The style of a drawing is the last one set",
  "After any history of fmt_* / draw / scale / lim / label calls, each style setting is the value most recently given to it by an accepted call (or its default); a drawing is sent to matplotlib once, with keywords made from the current settings, the colour combined with its alpha, and user keywords taking precedence; a bad colour sends nothing; last_draw is the latest drawn object. fmt_marker without a style switches markers off (recorded hazard).",
  "all histories of calls, all settings, all user keywords",
  "Histories are unbounded.",
  [S+"plot/axes.py: Axes.fmt*, c, plot, scatter, errorbar, fill_between, stairs, hist, text, last_draw"],
  "State machine over call histories; specification by the last accepted value.")
P("C101", "Error bands and legend positions",
  "errorfill draws the curve and then the band [y - err_lo, y + err_hi] (a number, one error per point, or a pair of rows); with the default yerr=None it always raises TypeError and draws nothing (recorded). leg expands each abbreviated location into a valid matplotlib location and leaves valid ones unchanged, except 'center left' and 'center right', which it turns into invalid names (recorded).",
  "all data arrays, error arrays, locations",
  "All arrays of all lengths.",
  [S+"plot/axes.py: Axes.errorfill, Axes.leg"],
  "Array arithmetic on lists; calls recorded.")
P("C102", "AxesArray acts on every Axes exactly once",
  "A formatting or drawing call on an AxesArray of any number of dimensions is made on every member once, in C order, until one fails, and the members already visited keep the effect; a zero-dimensional array cannot be iterated (TypeError).",
  "all shapes and members",
  "All shapes.",
  [S+"plot/axes.py: AxesArray"],
  "Flat C-order list of members with a failing fold.")
P("C103", "Figures and grids of axes",
  "subplots(n) makes one new figure and one grid in it with the requested rows and columns and layout; the figure has the given size or the size of one cell times columns and rows; the layout is 'tight' only if neither layout nor space is given; figure_kw, mpl_gridspec_kw and mpl_subplot_kw have the last word; the result is the Axes itself for one cell, a 1-D array for one row or column, else a 2-D array numbered row by row. A refused grid leaves the new figure behind, empty. Likewise subfigures. colorbar passes the raw axes of an Axes, of all axes of an AxesArray in C order, or of an iterable.",
  "all grids, sizes, layouts, spacings, keyword mappings",
  "All argument forms and grid sizes.",
  [S+"plot/shortcut.py: figure, subplots, subfigures", S+"plot/figure.py: FigureBase.subplots, subfigures, colorbar"],
  "List of figures with recorded calls; matplotlib's squeezed grid transcribed; GridOf is the separate specification.")
P("C104", "Colours are independent values",
  "A Color made from another Color is a copy: after any history of creations, copies, sequences and alpha() calls, each colour keeps its red, green, blue and has the last alpha set on itself. ColorSeq makes new colours per element, in order; a predefined sequence is the same every time whatever was done to earlier ones (unknown name: KeyError); from_cmap with a number n uses n equally spaced levels from 0 to 1 and alpha replaces every transparency.",
  "all histories, colour specifications, colour maps, numbers of levels",
  "Histories are unbounded.",
  [S+"plot/color.py: Color, ColorSeq"],
  "Heap of colours; matplotlib's conversion and colour maps as arbitrary functions.")
P("C105", "Binned volume density",
  "BinnedVolumeDensity.from_raw uses exactly the points in the window [lo, hi) that the arguments determine (given range, data extremes, quantiles, their intersection, or first and last of explicit edges); each of the n_bootstrap samples is made of rows of the window with their own weights (noise possibly added to the values); per coarse bin h is the total weight, y = h/(volume*width) and lg_y = log10(max(y, pad)); the result holds the samples, their entry-wise mean and standard deviation, edges, centres, widths and nothing else. Without noise the non-overlapping bins of a sample hold all the drawn weight. Points outside the window do not matter. Recorded: with the default range the largest value is never drawn.",
  "all data, weights, ranges, bin specifications, refinements, generators, noise",
  "All inputs and all draws of the generator.",
  [S+"astro/stats/lss.py: BinnedVolumeDensity.from_raw", S+"stats/binning.py: Bin.parse_p_range_spec"],
  "Composition of the models of Bin, Hist1D and Bootstrap with a stateful noise; generators as arbitrary functions meeting numpy's contract.")
P("C106", "Secondary axes and filled bands",
  "add_secondary_axis adds exactly one secondary axis, x for top and bottom, y for left and right, with the given transformations, labelled and ticked on its own axis only; the first axes is touched only to switch off the ticks of that side, if asked; other locations are a ValueError and nothing happens. The redshift axis uses exact mutual inverses; the interpolated axis, for a strictly monotone table in any order, uses piecewise linear functions through all points, extended linearly, that are exact inverses on the whole line; malformed tables are a ValueError. fill_between_xy draws along the first curve and back along the second. Recorded: add_secondary_identical_axis always raises TypeError; curve lengths are only checked in total.",
  "all axes states, locations, labels, ticks, tables, curves",
  "All tables and all real arguments.",
  [S+"astro/plot/shortcuts.py: Axes"],
  "On top of the model of plot.Axes; scipy's linear spline transcribed; inverses proved piece by piece.")
P("C107", "txt_to_h5 writes the columns of a text table",
  "On a group: one dataset per field of the dtype, named after it, holding that column (one element per record in order; a scalar if there is exactly one record), everything not named by a field unchanged, no file touched. On a file name with f_flag 'w': the file then holds exactly these datasets in field order, whatever was there, other files unchanged. If a column fails, the group is as a call with only the earlier fields would have left it. An unreadable table or a dtype without fields leaves a group unchanged, but a file opened with 'w' is already emptied. Unknown flags and other targets are refused without effect. Recorded: with a file name d_flag is ignored, so d_flag='x' silently overwrites an existing dataset.",
  "all tables, dtypes, groups, file systems, flags, failing columns",
  "All tables and all prior file contents; failure after any column.",
  [S+"io/h5/shortcuts.py: txt_to_h5"],
  "On top of the models of DatasetManager and File; the outcome of np.loadtxt is an argument; IsColumn is the separate specification.")

P("C108", "Representations list exactly the declared attributes, converted",
  "For a HasDictRepr object, to_simple_repr is a dictionary whose keys are 'type' (if enabled), then repr_attr_keys in order; each value is the attribute, converted by its own to_simple_repr if it is itself a HasSimpleRepr object. For a HasListRepr object it is a tuple (not a list) of the class name (if enabled) and the converted attribute values in order. A listed attribute named 'type' replaces the class name; entries added with super().to_simple_repr() | {...} win over those of the base. The representation fails exactly if a listed attribute cannot be read or converted, with the error of the first such attribute (AttributeError for a missing one). If objects occur only as attributes of objects, the result contains no object at any depth; objects inside Python lists are not converted. to_json succeeds exactly if the representation consists of texts, numbers, None and containers of these, and raises TypeError otherwise.",
  "all object trees: classes, listed keys, attribute values, properties that raise, nested to any depth",
  "the nesting depth and the attribute types are unbounded",
  [S+"core/abc.py: HasSimpleRepr, HasDictRepr, HasListRepr", S+"core/arrays/dtype.py: DType.to_simple_repr", S+"core/arrays/array.py: Array.to_simple_repr"],
  "Model/Repr: value trees with objects, structural recursion; Clean / Direct / IsJson as separate inductive specifications.")
P("C109", "A log object prints only while verbose, and the name defaults to the class name",
  "HasName keeps the given name as a text and uses the class name only for None. A HasLog object prints exactly for the log calls made while it is verbose: the verbosity set by the last verbose_on / verbose_off, or the constructor. What is printed is '[name]' and '[time]' as asked, a blank, the arguments, separated by sep, and end; by default one line '[name] ' followed by the arguments without separators. A given sep also surrounds the blank. While it is not verbose any number of calls print nothing.",
  "all histories of verbose_on, verbose_off, name assignments and log calls with all keyword values",
  "histories are unbounded",
  [S+"core/abc.py: HasName, HasLog"],
  "Model/Repr: a state machine with the printed text; induction over the history.")
P("C110", "Array summaries are frozen at the first read and nested",
  "A statistic of SummaryFloatArray1D is that of the array at its first read (directly or through the representation) and keeps this value however the array is changed or replaced afterwards, until it is deleted; size always follows the current array. For a non-empty array min <= 3sigma_lo <= 2sigma_lo <= 1sigma_lo <= median <= 1sigma_hi <= 2sigma_hi <= 3sigma_hi <= max, the mean is within the range, the standard deviation is non-negative, its square is <x^2>-<x>^2 and it vanishes exactly for constant data. For an empty array mean, stddev and median are NaN and the intervals are filled with -1e10. The representation lists type, size and the six statistics; to_json always raises TypeError because the intervals are arrays.",
  "all arrays of real numbers, all histories of reads, representations, deletions and changes of the array",
  "arrays and histories are unbounded; the nesting of quantiles holds for every array",
  [S+"stats/summary.py: SummaryFloatArray1D"],
  "Model/Summary: cache as a partial function, induction over histories; quantile lemmas of C47.")
P("C111", "LambdaCDM is built from exactly the given parameters",
  "from_parameters succeeds exactly if hubble, omega_m0, t_cmb and omega_b0 are given and 0 <= omega_b0 <= omega_m0 (KeyError for a missing one, ValueError otherwise); the model then reads every given parameter back, every other name is a KeyError, and it carries the given name, data directory and meta data, or '', the current directory and {}. from_astropy_model keeps the astropy model. from_conf_file takes out 'parameters', 'name' and 'data_dir' (relative to the file unless absolute) and keeps the rest as meta data, in order; every malformed file has its exception. A predefined model is read from its file only once; a failing name is not remembered. Recorded: changing a parameter in place changes the value that is read but not the expansion history.",
  "all parameter dictionaries, files, histories of predefined models",
  "All dictionaries and all file contents.",
  [S+"astro/cosmology/model.py: LambdaCDM.__init__, from_conf_file, from_parameters, from_astropy_model, _Predefined"],
  "Model/LambdaCDM: dictionaries and an abstract file system; ModelOf is the separate specification.")
P("C112", "The derived quantities of LambdaCDM obey the Friedmann equations",
  "For every model made by a constructor with hubble > 0, and every z >= 0: matter, dark energy and radiation add up to 1, radiation vanishes exactly for t_cmb = 0, baryons do not exceed matter; today's values are omega_m0 and omega_b0; matter and baryons dilute as (1+z)^3, radiation as (1+z)^4, dark energy not at all; big_hubble(0) is 100 km/s/Mpc in 1/Gyr whatever h is, big_hubble increases with z and big_hubble^2 = 8 pi G rho_crit / 3 in the model's units; the comoving virial density relative to the mean is independent of z. omega_l0 does not enter: omega_l(0) = 1 - omega_m0 - radiation, so in the documented '737' example omega_l(0) < omega_l0.",
  "all parameters, all real redshifts z >= 0, all positive physical constants",
  "All real parameters and redshifts.",
  [S+"astro/cosmology/model.py: big_hubble, omega_m, omega_l, omega_b, rho_crit, rho_matter, baryon_fraction0"],
  "astropy's FlatLambdaCDM by its documented formulas over the reals, unit system of C78; field arithmetic.")
P("C113", "Distances and times of LambdaCDM are the cosmological integrals and at_comoving is the inverse",
  "comoving_at(z) is c times the integral of 1/H, in Mpc/h, independent of h; 0 today, strictly increasing, at most c z / H0. luminosity_at = (1+z) comoving_at = (1+z)^2 angular_diameter_at, and the distance modulus is that of the luminosity distance in Mpc. lookback_at and age are the integrals of 1/((1+z)H) up to and beyond z; with matter they are finite, add up to age(0), lookback increases and age decreases. at_comoving returns the only redshift with the given distance and recovers z from comoving_at(z) if the distance is at least 1e-4 Mpc/h; smaller distances are treated as 1e-4.",
  "all parameters, all real redshifts and distances, every solver that returns roots",
  "Integrals over unbounded intervals, all real arguments.",
  [S+"astro/cosmology/model.py: DistanceCalculator, TimeCalculator, RedshiftCalculator, LambdaCDM.age"],
  "Mathlib integrals; integrability from the bound E >= sqrt(min(1, Om0)) (1+z); monotonicity from positivity of the integrand.")
P("C114", "mass_function asks hmf for exactly the requested mass grid",
  "For mass_def '200crit', '200mean' or 'custom' the package hmf gets Mmin = lgM_min + 10, Mmax = lgM_max + 10 + dlgM/1000, dlog10m and z from the arguments whatever impl_kw says; the mass definition from impl_kw if given there, else from mass_def; everything else from impl_kw; any other mass_def is a ValueError without a call. The masses returned are lgM_min + i dlgM for exactly the i with lgM_min + i dlgM < lgM_max + dlgM/1000, so a range of n steps gives n+1 masses ending at lgM_max, one value each. impl_kw is not changed for the two named definitions. Recorded: 'custom' writes the four keywords into the caller's dictionary, even if the package raises; this is harmless for the shared default dictionary after any history of calls. Recorded: the cosmology of the model is not passed, so all models give the same mass function.",
  "all arguments, dictionaries, histories of calls, every package obeying its documentation",
  "All dictionaries, all histories of calls sharing one default object, all real grids.",
  [S+"astro/cosmology/halo_theory.py: HaloTheory.mass_function"],
  "Model/HaloTheory: the package as a function of the keyword dictionary; fixedKw / defKw / OnGrid as separate specification.")
P("C115", "The tabulated functions of HaloTheory interpolate the data file, read once",
  "lg_sigma, dlg_sigma_dlg_m and lg_delta_c are exact at the tabulated points, linear between neighbouring points, and a ValueError outside the tabulated range; the order of the points does not matter. The file must exist, hold the five datasets (KeyError) with equal lengths, at least two points and no abscissa twice (ValueError). After the first evaluation that finds usable tables every later evaluation uses these, whatever happens to the file; a failing attempt leaves no trace. The representation lists range and mean step (last-first)/(n-1) of the five quantities; to_json is a TypeError. Recorded: the tables belong to the data directory, so shipped models that share a directory share them although their parameters differ.",
  "all tables, files, real arguments, histories of evaluations",
  "All tables and all real arguments, all histories.",
  [S+"astro/cosmology/halo_theory.py: HaloTheory.lg_sigma, dlg_sigma_dlg_m, lg_delta_c, to_simple_repr"],
  "interp1d of C98 extended to tables in any order; cache as an optional value, induction over histories.")
P("C116", "The kernel regressions see exactly the training points near the prediction point",
  "by_local_kernel: every prediction is the reduction of exactly the training points within max_dx (inclusive) of its own prediction point, weighted by training weight times kernel(distance); one value per prediction point, in order; out['y_<name>'] is the entry of the last reduction so named. The order of the training rows, the layout of the kd-tree and the order in which it reports neighbours do not matter (for mean, sum, count, standard deviation). by_knn: where no two training points are equally far, the prediction is the weighted mean over the k nearest, cut strictly at max_dx, the fill value if none is left. 1-d input is a column; arrays of more dimensions, empty sets, other dimensions, k larger than the training set are refused. Recorded: without max_dx the radius is taken from the spread of the *prediction* points, so a single prediction point has no neighbours, and predictions depend on which other points are asked for in the same call.",
  "all training sets, prediction points, weights, kernels, radii, reductions; every kd-tree keeping the contract of scipy's",
  "All data sets and all neighbour orders of a correct tree.",
  [S+"stats/regression.py: KernelRegressionND, _KnnRegression, _LocalKernelRegression", S+"stats/kernel.py: Kernal.__call__"],
  "Model/KernelReg: the tree is any structure whose queries satisfy the documented contract; samples/within/nearest as separate specification.")
P("C117", "The density estimates are weight fractions over the volume of the ball actually searched",
  "DensityEstimationND.by_local_kernel: the density at a prediction point is the weight fraction of the training points within max_dx over the volume of the ball of that radius (with a kernel the kernel-weighted mean weight times their number), together with their number and the largest distance. by_knn: the count is the number of the k nearest closer than max_dx, the radius the distance of the k-th cut at max_dx, the density their weight fraction over the volume of that ball. The volume is positive for every positive radius. Recorded: without max_dx a single prediction point has a ball of volume 0.",
  "all training sets, prediction points, weights, kernels, radii, dimensions",
  "All data sets, dimensions and trees.",
  [S+"stats/density_estimation.py: DensityEstimationND"],
  "Same model as C116; the ball volume by its recursion over the dimension.")
P("C118", "Specifications of reductions name exactly the reductions that are computed",
  "A name stands for its class with default arguments, labelled with the name as written; (name, kwargs) builds that class with exactly these arguments; an object is used as it is, labelled with the key of its class; an unknown name is a KeyError in every form; a list gives one named reduction per item, in order, and fails exactly if one item does. Recorded: a tuple of names or objects is never accepted as a collection (it is read as a pair), and a mapping name -> kwargs is accepted as the collection of its keys, dropping all the kwargs; surrounding slashes are accepted and stay in the label.",
  "all specifications, of any length, all constructors",
  "All nested specifications.",
  [S+"stats/reduction.py: _Predefined.create, _Predefined.iter, predefined"],
  "Model/ReduceSpec: specifications as a data type; Names is the separate table.")
P("C119", "Copies are independent for ever and references are shared",
  "HasValue(x), Array(x), Array.copied(), flatten(), sorted(), zeros, ones and as_array(copy=True) make arrays that share memory with no existing array and change none; with copy=False an array is used itself, flatten(copy=False) is a view exactly for C-contiguous data. set_value stores the values the source had before the call (also if the source overlaps the target); arrays that share no memory are unchanged, arrays that do change exactly at the common elements; another shape is a ValueError that changes nothing. In every program of such operations an array changes only by set_value on an array it shares memory with. Lists and numbers are copied (or refused under numpy 2 with copy=False). as_array gives one result per argument, in order, None for None.",
  "all memories, arrays (views included), programs of any length",
  "All histories of aliasing and assignment.",
  [S+"core/abc.py: HasValue", S+"core/arrays/array.py: Array", S+"core/dataproc/data_structs.py: Array.as_array"],
  "Model/ArrayRef: arrays as positions in memory blocks; Fresh/Shares as specification; induction over programs.")
P("C120", "A Field is a cube on its mesh; copies have their own data",
  "A Field is accepted exactly for data whose shape is [n, n, n] with n the number of cells of the mesh (AssertionError otherwise; without a mesh one of n cells and unit box is made); it refers to the given data and mesh and reports the shape of its data. copied() always succeeds with new data of the same contents on the same mesh; new_zeros is a new field of zeros.",
  "all data arrays, meshes",
  "All shapes and memories.",
  [S+"field/cubic_box/field.py: Field, _Field"],
  "On the memory model of C119.")
P("C121", "Bins in double precision: monotone, exact away from the edges, wrong exactly at some edges",
  "With every operation rounded as IEEE binary64, EqualSpaceBins.locate always answers in -1..n (locate_bound in 0..n-1) for every double, NaN and infinities included, on every machine; it is monotone; the lower edge is in bin 0 and no number above it is reported below; a number within the bins but 2^-49 (relative, in units of bins) away from every edge gets its true bin; the upper edge is in bin n or n-1, and in bin n if n is a power of two. Recorded defects: for (0, 100) with 11 bins the upper edge is located in (and counted in) the last bin; for (0, 1) with 9 bins x_edges[7] is in bin 6; on x86-64 +inf and numbers beyond 2^63 bins are reported as below the bins.",
  "all doubles, all bins of at most 2^50 bins without overflow or underflow",
  "All doubles; exact-arithmetic tests do not see rounding.",
  [S+"stats/binning.py: EqualSpaceBins.__init__, locate, x_edges, Bins.locate_bound, BinnedData.add"],
  "Base/Float64: round-to-nearest-even on rationals with the exponent range of binary64, infinities and NaN; monotonicity and error bounds of rounding; Sterbenz.")
P("C122", "Periodic boxes in double precision",
  "With IEEE rounding, PeriodicBox.shift_in maps every double of [-L, 2L) to a double of [0, L) (never to L): exactly x or x-L from 0 on, below 0 the correctly rounded x+L, or 0 when that rounds up to L; it is the same point of the periodic line up to 2^-53 L; shifting again changes nothing; afterwards test_bound is true, and it is false for anything farther out, NaN and infinities. shift_to of positions of the box gives x, x-L exactly or x+L rounded, within half a box (plus 2^-52 L) of the reference, and no periodic image is nearer by more than 2^-50 L. Elements excluded by where are unchanged, NaN stays NaN.",
  "all doubles in the stated ranges, all masks, all array sizes",
  "All doubles; rounding up to the box size is the classical bug of such code.",
  [S+"core/dataproc/frame.py: PeriodicBox"],
  "On Base/Float64; Sterbenz for exact subtraction, monotone rounding for the bounds.")
P("C123", "Mesh cells and neighbour search in double precision",
  "With IEEE rounding: x_to_xi is a valid index and the cell code one of n^3 for every double on every machine; the table built from any points (NaN included, any sort order) holds in each cell exactly its points; cell numbers are monotone. query_points reports every stored point within the radius when no periodic image is involved, without any margin; through the periodic boundary it reports every point within the radius less 2^-50 of coordinates and radius; everything reported is a stored point within the radius plus one cell plus that margin along each axis. Recorded defect: for a box of 100 with 11 cells, the query at 90 with radius 10 misses the point at 0 (distance exactly 10), although the documentation guarantees all points within the distance.",
  "all doubles within 2^60 cells, meshes up to 2^20 cells per side, sort orders, machines",
  "All doubles and sort orders.",
  [S+"field/cubic_box/mesh.py: _Mesh.x_to_xi", S+"field/neighbor/kd_mesh.py: _PE3Mesh, _PE3, _PE3_from_meshing_points"],
  "Model/FloatMesh: the code with rounded operations; error analysis of the cell number; counting argument of C72-C74.")
P("C124", "Cloud-in-cell conserves mass in double precision",
  "With IEEE rounding, the two weights of a coordinate are doubles of [0, 1] whose sum is exactly 1, at neighbouring periodic cells, and the upper one is the fractional part of the computed position up to 2^-53. A point makes eight non-negative deposits at cells of the mesh that add up to its mass up to three roundings. After N points of total mass M have been added to an empty field in any order every cell is a finite non-negative double, nothing is written outside the mesh, and the sum over all cells is M up to 2^-48 N M.",
  "all doubles within 2^61 cells, all lists of points up to 2^48, all masses",
  "All positions and sequences of additions.",
  [S+"field/cubic_box/mass_assignment.py: _LinearShapeFn.weights_at, _Linear.add_1, add"],
  "Sterbenz and multiples of 2^-53 for the exact sum; error propagation by induction over the deposits; sum over cells.")
P("C125", "Histograms in double precision: exact counts, bounded rounding, bins never mix",
  "BinnedData with its default dtype: add with weights raises AssertionError exactly if the lengths differ (nothing changes), otherwise every bin becomes its old value plus, one after the other in input order and each addition rounded, the weights of exactly the elements located in it (NaN and infinities never reach another bin); add without weights is add with weights 1.0 and never fails; two batches are bit for bit one concatenated batch, over any program of calls. Counts of up to 2^53 elements are exact; integer weights are summed exactly in any order while their absolute values add up to at most 2^53; weights of either sign are summed up to ((1+2^-53)^(k-1)-1) Sum|w| where k is the number of elements of that bin alone. Recorded: a bin that has counted 2^53 elements never grows again.",
  "all bins, elements, weights (NaN, infinities), programs of calls",
  "All inputs and call histories.",
  [S+"stats/binning.py: BinnedData.add"],
  "Model/FloatHist; per-bin sequential sums, error propagation by induction over the weights.")
P("C126", "Field interpolation in double precision",
  "FieldInterpolator.value_at: the value at a point is, up to 2^-48 of the largest field value, the combination of the eight surrounding cells with weights that are non-negative and add up to exactly 1, hence never outside the range of the field by more than that, at every point however far outside the box; it is the exact trilinear interpolation of the periodic field at the exact position up to (2^-47 + 2^-50 (|p1|+|p2|+|p3|)) M; on a node it is exactly the value of the node. An array is accepted exactly if it has three columns, one value per row, in order. Recorded: a NaN in any of the eight cells makes the value NaN even where its weight is zero.",
  "all doubles within 2^61 cells, meshes up to 2^20 cells a side, all finite fields",
  "All positions and fields.",
  [S+"field/cubic_box/cosmic_web.py: FieldInterpolator.value_at", S+"field/cubic_box/mass_assignment.py: _LinearShapeFn.weights_at"],
  "Model/FloatInterp; lerp/trilinear over exact numbers as separate specification, Lipschitz bound for the position error, error propagation of ten roundings.")
P("C127", "Cosmic-web types with single-precision eigenvalues",
  "TidalClassifier(lam, mesh, lam_th): construction succeeds exactly if the array has shape (n, n, n, 3) and the eigenvalues of every node, rounded to float32, are sorted; otherwise (in particular with a NaN anywhere) AssertionError; eigenvalues sorted as doubles are never refused because of rounding. With the default threshold the type of a node is exactly the number of eigenvalues larger than 2^-150; with another threshold an eigenvalue at most the threshold is never counted and one that exceeds it by more than the float32 rounding always is; the counted ones are always the largest ones. web_type_at and lam_at look at the same node, always inside the mesh (NaN and infinite coordinates included) and nearest to the point; tables without three columns are refused. grid_points_of_web_type returns, in C order and each once, exactly the nodes of the type: web_type_at of the returned float32 coordinates gives that type back. Fractions are exact counts over n^3 up to 2^-53, 0 only if no node and 1 only if every node has the type, and the four counts add up to n^3. new_from_file and new_density_field_from_file build from the stored datasets exactly what the constructors build; missing datasets are KeyErrors, an array that does not fit the mesh is an AssertionError. Recorded: three positive eigenvalues of 2^-151 are a void.",
  "all arrays of doubles (NaN, infinities, any magnitude), thresholds, meshes, points, names, groups",
  "All eigenvalue arrays and coordinates, including those that rounding changes.",
  [S+"field/cubic_box/cosmic_web.py: TidalClassifier, FieldInterpolator.new_density_field_from_file", S+"field/cubic_box/mesh.py: _Mesh.x_to_xi_nd", S+"field/cubic_box/field.py: _Field"],
  "Base/Float32 (rounding to single precision from its definition), Model/FloatWeb; monotonicity of the conversion, exact characterisation of the numbers that round to a positive single, round trip of node coordinates by error bounds.")
P("C128", "Search and linear interpolation in double precision",
  "bisearch on sorted finite doubles: the index of the last element not larger than the number (-1 if none); -1 for -inf, the last index for +inf and for NaN. bisearch_nearest: no node is closer than the chosen one up to a factor 1 + 2^-51. Linear.value_at / bisearch_interp: between two nodes the straight line through them up to 2^-49 of the larger node value (plus 2^-1073), hence inside their range up to that; exactly the node's value at a node; exactly the boundary value outside (also at -inf and +inf). bisearch_interp_fix_oob: the given values strictly outside the nodes, interpolation inside and at both ends. Linear(..., check=True) succeeds exactly if there are at least two nodes, as many values, and no two adjacent finite nodes are equal, AssertionError otherwise; unsorted nodes, NaN and repeated infinities are not noticed. derivative(): an interpolation on the same nodes; the value at node i is the slope between its neighbours (one-sided at the ends) with relative error at most 2^-50. value_at never divides by zero on weakly increasing nodes; derivative() raises ZeroDivisionError exactly if the two nodes around some node (at an end: the end and its neighbour) coincide, which the constructor admits (nodes 0, 1, 0). Recorded: value_at(nan) is the last node's value, not NaN; an infinite boundary value gives NaN everywhere outside, and an infinite right neighbour makes the value at a finite node NaN.",
  "all strictly increasing doubles of at most 2^1021 as nodes, all finite node values of at most 2^1022, every double as argument",
  "All node sets, values and arguments, and every pattern of roundings.",
  [S+"numerical/interpolate.py: bisearch, bisearch_nearest, linear_interp_weight, bisearch_interp_weight, bisearch_interp, bisearch_interp_fix_oob, Linear.__init__, Linear.value_at, Linear.derivative"],
  "Model/FloatLinear; the search agrees with the exact one (comparisons do not round), weights within 2^-50 by relative error bounds of the distances, error of the weighted sum; `line` as the specification.")

P("C129", "Scatter2D.mesh and Scatter2D.contour: what is handed to matplotlib, and when it is refused",
  "mesh() never fails: it adds one pcolormesh of the histogram's edges, whose cell in row j and column i is the (transformed) density of the bin (i, j); every keyword of the caller wins over the defaults. contour(ps) on a density of at least 2 x 2 cells: the levels passed enclose the fractions ps, with as many line widths (1 to 3) and styles (dashes 3 to 6, last one solid) as fractions, on the bin centres; it is drawn if and only if the levels are strictly increasing, otherwise ValueError; the default fractions 99, 95 and 68 % give ascending levels. use_fill draws contourf with linewidths always dropped. A failed call leaves the list of drawn objects unchanged; over any history the list only grows, at most one per call. Recorded: the fractions must be strictly decreasing (any other order raises); a density with one cell holding more than two of the requested fractions can never be contoured (for the defaults: more than 95 % in one cell); cmap= without colors=None always raises; use_fill with one fraction always raises; an empty ps raises; fewer than two bins in a direction raises TypeError.",
  "all scatters, transforms, fractions in [0, 1], colours, styles, keyword dictionaries and histories of calls",
  "All densities, fractions, keywords and histories.",
  [S+"plot/two_dim.py: Scatter2D.mesh, Scatter2D.contour"],
  "Model/Scatter2D over Model/TwoDim: the recorded calls plus matplotlib's own checks; levels from C91.")

P("C130", "DataTable.col_stacked and row_stacked put the table's entries where they belong",
  "col_stacked() of a table with n rows and at least one column (plain numbers, or vectors of w components) is a two-dimensional array whose row i is the table's row i, the components side by side in the order of the columns; ValueError for an empty table and for columns of different numbers of rows. row_stacked() of plain columns has one row per column and is the transpose of col_stacked(). Recorded: with a column of vectors row_stacked() raises ValueError unless the vectors have as many components as the table has rows; then it silently mixes columns with rows.",
  "all tables with any number of rows and columns of plain numbers or vectors of any length",
  "All numbers of columns, rows and components.",
  [S+"core/containers/data_table.py: DataTable.col_stacked, DataTable.row_stacked"],
  "Model/TableStack; arrays as shape and index function, the block of an index by induction on the columns.")

P("C131", "Making grids: slices, GridMd.at, and the range of data",
  "An axis start:stop:n j with n >= 2 and start <= stop is exactly n equally spaced locations from start to stop, both included (a missing start is 0, -n j means n j, a fraction is cut to an integer); n = 1 is the start alone; n = 0, or start > stop with n >= 2, is an AssertionError. An axis start:stop:d with d > 0 (1 if left out) is exactly the start + i*d below stop; AssertionError if there is none, ZeroDivisionError for d = 0, AssertionError for d < 0 unless only one location results. A grid made of a grid has the same locations. GridMd(...) and GridMd.at[...] succeed exactly if there is an axis and every axis does, and keep their order. from_data_range: axis k has n[k] equally spaced locations from the p_lo to the p_hi quantile of data k; with the defaults it runs from the minimum to the maximum and locate() of every data point is between 0 and n - 1, the last only for the maximum. Probabilities outside [0, 1] and negative n are ValueErrors; no data, n = 0 and a reversed range are AssertionErrors. Recorded: an n array shorter than the data silently drops dimensions, and locate() of points with a wrong number of columns returns min(columns, dimensions) lists without complaint.",
  "all slices, locations, data arrays, probabilities, numbers of points, points",
  "All starts, stops, steps and data sets.",
  [S+"core/dataproc/grid.py: Grid1d.__init__, _GridMdAt.__getitem__, GridMd.__init__, GridMd.from_data_range, GridMd.locate"],
  "Model/GridMake over Model/Grid and np.quantile of Model/Reduction; `steps a d n` as the specification.")

P("C132", "Sum, Mean and StdDev in double precision, whatever order numpy adds in",
  "For one-dimensional arrays of doubles and every order of the additions: the Sum over the kept entries (mask true, or all) differs from the exact sum by at most (n-1)*2^-52 times the sum of their absolute values; integers whose absolute values add up to at most 2^53 are summed exactly. Mean: within n*2^-52 of the mean absolute value (plus 2^-1075) of the exact mean, hence within the range of the data up to that; not negative for data that are not negative. Weighted Mean (weights not negative, positive total): within n*2^-50 of the weighted mean absolute value, where products of values and weights below 2^-1022 add an error of n*2^-1072 over the total weight; not negative for data that are not negative. Weighted StdDev: the square root of a number that is never negative, within (n+1)*2^-50 of the exact weighted variance plus the squared error of the weighted mean. StdDev: the square root of a number that is never negative (so never NaN), within (n+3)*2^-52 of the exact variance plus the squared error of the mean. If the order depends only on the number of elements, larger data never have a smaller sum. Weights or masks of another length: AssertionError, and nothing else is refused. Nothing kept: Mean is the fill value. Recorded: a NaN anywhere makes Sum and Mean NaN even where the mask or a zero weight leaves it out, and so does an infinity the mask leaves out; all kept weights zero gives NaN, not the fill value; StdDev of nothing is NaN (the root of the fill value -1e10); Mean([0.1]*3) exceeds 0.1 and its StdDev is positive.",
  "all arrays of doubles (finite for the bounds; n up to 2^52, sums of absolute values up to 2^1022), masks, weights, and every order of summation",
  "All data, masks, weights and orders of additions, which differ between machines.",
  [S+"stats/reduction.py: Reduce.__call__, Count._impl, Sum._impl, Mean._impl, StdDev._impl"],
  "Model/FloatReduce: an order of summation is a binary tree over the elements; error bound (1+2^-53)^(n-1) by induction on the tree.")

P("C133", "Arrays of axes and of sub-figures hold the same objects however they are indexed",
  "AxesArray(array) and SubFigureArray(array) keep the shape, keep every element that is wrapped already as the same object and wrap every other one in a new object of its own. For arrays of any number of dimensions: indexing with integers and slices in any mixture makes no new object; if no dimension is left the result is the element itself, otherwise an array whose element j is the very object at the place j stands for (integers count from the end if negative, else IndexError; slices select start, start + step, ... before stop as Python does; missing components take the dimension in full, too many are an IndexError; step 0 is a ValueError). T has the reversed shape and at the reversed index the same object, and T.T is the array again; flat and to_list() have the same objects in C order, to_list(flat=False) as nested lists; size is their number. len is the first dimension and iterating yields exactly axs[0] ... axs[n-1]; both are TypeErrors without dimensions. SubFigureArray.subplots asks every sub-figure exactly once in C order and puts each answer at the place of its sub-figure; the first exception stops it and is passed on. Recorded: on an array with no rows but some columns it is a ValueError.",
  "all shapes, arrays, indices (integers and slices with any bounds and steps), and all behaviours of SubFigure.subplots",
  "All shapes and all indices; a test looks at a few layouts.",
  [S+"plot/axes.py: AxesArray", S+"plot/figure.py: SubFigureArray"],
  "Model/AxesView: arrays as shape and elements in C order, objects as identities; index arithmetic by induction on the shape.")

P("C134", "Columns, datasets and HDF5 attributes as attributes of the object",
  "On a DataTable, an AttrManager and a DatasetManager made by their constructors: t.name is t[name] for every name that neither the class nor the instance has, with AttributeError in place of KeyError if there is no such item; a name of the class or of the instance wins, and the item of that name is only reached as t[name]. hasattr agrees with dir(), which lists names of the class, instance variables and items. Assigning t.x = v never writes an item: it shadows the item x, which keeps its value. Recorded: on an object whose constructor has not run, every missing attribute is a RecursionError whatever the recursion limit, so copy.copy, copy.deepcopy and unpickling of every DataTable fail; columns named like methods (such as 'keys') are hidden from attribute access.",
  "all tables and managers with any items, all names, all recursion limits",
  "All names, items and recursion limits.",
  [S+"core/containers/data_table.py: DataTable.__getattr__, DataTable.__dir__", S+"io/h5/named_objs.py: AttrManager.__getattr__, AttrManager.__dir__, DatasetManager.__getattr__, DatasetManager.__dir__"],
  "Model/AttrAccess: Python's attribute protocol with a recursion limit; RecursionError by induction on the limit.")

P("C135", "HDF5 groups, datasets and attributes as containers",
  "x[name], name in x, keys(), values() and items() of a Group, a DatasetManager and an AttrManager agree: in holds exactly for the keys, x[name] is the value in items() and KeyError otherwise, dict(x) is items(). len of a Group and of an AttrManager is the number of keys. A KeyList contains exactly the keys it was made of. Recorded: none of the three can be iterated over, even if empty (TypeError: iteration falls back on integer keys); a DatasetManager has no length, so len() and ls() are TypeErrors and an empty one is true in a condition.",
  "all HDF5 trees, attributes and names",
  "All trees and names.",
  [S+"io/h5/named_objs.py: Group, DatasetManager, AttrManager", S+"io/h5/utils.py: KeyList"],
  "Model/H5Views over Model of HDF5 trees; Python's iteration protocol with a fuel argument.")

P("C136", "Inherited mapping methods: popitem, ==, and get, pop, setdefault of tables",
  "popitem() of a DataDict and of a DataTable returns and removes the first item (not the last, as dict does), KeyError if empty; called once per item it yields the items in order and leaves nothing. v == w of DataDicts, dicts and tuples nested at most as deep as the recursion limit answers whether they have the same contents: the same keys in any order with the same contents, DataDict or dict alike; this is an equivalence, a copy is equal to its original, and for mappings that contain themselves an answer, if any, is right. DataTable.get gives the column or the default, pop removes exactly one column. Recorded: an item of a DataDict whose key has a slash is out of reach of d[...] = v, del and pop, so popitem() can never empty such a dict, and returns and removes what the path leads to; DataTable.setdefault returns the default, not the column it has made, so writes through it are lost; t == u of tables is a ValueError as soon as the first column has two rows and is another object (so t == t.copy() fails), although t == t is True.",
  "all DataDicts and dicts in any (also cyclic) heap, all keys, all tables",
  "All nestings, orders, keys and histories of pops.",
  [S+"core/containers/data_dict.py: DataDict", S+"core/containers/data_table.py: DataTable"],
  "Model/MapMixins over Model/DataDict and Model/DataTable; `Same` as the specification of equal contents, induction on the recursion limit.")

P("C137", "Offsets and cell numbers in machine integers",
  "count_to_offset of counts of a signed integer type gives int64 offsets that are exactly the prefix sums as long as every partial sum fits in 64 bits (in particular for non-negative counts adding up to less than 2^63), and off[i]:off[i+1] then selects exactly stretch i. Recorded: beyond that the offsets are right only modulo 2^64 and some are negative, without complaint; counts of an unsigned type give float64 offsets, which no slice accepts (TypeError) and which are exact only up to 2^53 (2^53 and 1 give an empty second stretch). The flat cell number (i0*n + i1)*n + i2 of the meshes comes out exactly in int64 for up to 2^21 cells per axis, for every position including NaN and infinities, so that the neighbour search and the field code work on the cells that the exact arithmetic means; n_grids**3 is exact below 2^21. Recorded: at 2^21 it is -2^63, and above the last cell has a negative number. The cell to the right of a finite double within the range of int64 never overflows.",
  "all lists of counts of every integer type, all meshes and positions",
  "All counts and all cells.",
  [S+"core/dataproc/data_structs.py: Array.count_to_offset", S+"field/neighbor/kd_mesh.py: _PE3Mesh.x2xi_f", S+"field/cubic_box/mesh.py: _Mesh.total_n_grids", S+"field/cubic_box/mass_assignment.py: _LinearShapeFn.weights_at"],
  "Model/Int64: two's complement wrap-around after every operation; refinement to Model/Dataproc and Model/FloatMesh.")

P("C138", "Quantiles, median and error bars without weights in double precision",
  "Quantile(ps)(x) of finite doubles (up to 2^1021 in absolute value, any mask that keeps something) is q(p) for each p in [0, 1], with one function q that is monotone without exception, lies between the smallest and the largest kept element, is the smallest at 0 and the largest at 1, is the k-th element itself where (n-1)p = k exactly, and elsewhere equals the linear interpolation between order statistics at a probability that differs by one rounding, up to 2^-51 of the largest magnitude. Median is the middle element, or a double between the two middle ones within rounding of their mean. Errorbar('median+Nsigma') is the quantile at one half with non-negative finite errors, the rounded distances to the tail quantiles. A NaN among the kept elements makes them NaN; a probability outside [0, 1] or NaN is a ValueError, unless nothing is kept or weights are given. The two-value keys cannot be used for error bars (ValueError), unknown keys are KeyErrors, and when nothing is kept the fill value comes with errors exactly 0.",
  "all lists of doubles up to 2^1021 and of length up to 2^53, all masks, all probabilities",
  "All data, masks and probabilities; monotonicity is over all pairs of doubles.",
  [S+"stats/reduction.py: Quantile, Median, Errorbar, Reduce._impl_1d"],
  "Model/FloatQuantile: numpy's linear method and its two-sided _lerp in double precision; monotonicity from the monotonicity of rounding and a bracket per interval.")

P("C139", "Weighted quantiles, medians and error bars in double precision",
  "With weights (non-negative doubles, not all zero among the kept ones; elements up to 2^900), Quantile(ps)(x, w) is q(p) for each probability p that is a double and not a positive number below 2^-60, always a finite double. q is the polyline through the elements in order and their cumulated weight fractions, up to n*2^-49 of the fraction and 2^-48 of the largest magnitude of the value; so the elements clearly below q(p) carry no more than the fraction p of the weight and the elements up to any element above q(p) at least p, q is never below all elements nor above all of them by more than that error, is monotone up to it, and is exactly the smallest element for negative p and exactly the largest for p clearly above 1. This holds for every order of the additions, every sort (elements that compare equal in any order), and, with sort=False, for elements that are in order. The median (whose weights are normalised twice) is such a quantile at one half; the errors of Errorbar are finite and negative at most by rounding. One kept element is the result whatever the probability and the weight. If all kept weights are zero, every result is NaN or one of the elements. Recorded: none of the bounds is exact: the 0.84 quantile of three negative elements can be 0.0, above all of them and above the quantile at the next larger probability.",
  "all lists of at most 2^44 kept doubles, all weights and masks, all usual probabilities, all orders of addition and ties of the sort",
  "All data, weights and probabilities, and all orders in which numpy may add.",
  [S+"stats/reduction.py: Quantile, Median, Errorbar, Reduce._impl_1d"],
  "Props/FloatQuantileW over Model/FloatQuantile: error analysis of the normalisation, the running sums and one interval of np.interp; IsQuantile and OnPolyline as specifications.")

P("C140", "Two-dimensional interpolation in double precision",
  "bisearch_interp_2d for strictly increasing finite nodes along both axes (up to 2^1021) and finite table entries of at most M <= 2^1020 gives, for any finite coordinates, a finite double within 2^-48*M + 2^-1072 of the exact bilinear function on the cell of the point (a point outside counts as moved onto the boundary), hence within that error of the range of the four corners. At a node of both axes it is the entry of the table bit for bit, and coordinates beyond the nodes, infinite ones included, give the entry of the nearest end. Recorded: a NaN coordinate silently counts as the last node; an infinite or NaN entry turns the result at its lower and left neighbours' nodes into NaN.",
  "all node sets, tables and coordinates",
  "All doubles in three arrays at once.",
  [S+"numerical/interpolate.py: bisearch_interp_2d, bisearch_interp_weight, bisearch"],
  "Model/FloatBilinear on top of Model/FloatLinear: relative errors of the weights, their products, the four terms and the three additions.")

P("C141", "Safe division and normalisation of vectors in double precision",
  "Num.safe_div of a finite numerator is never NaN unless the denominator is: it is the correctly rounded x/y for y >= lo, 0 for an infinite y, and the correctly rounded x/lo for every y below lo. Num.normalize of a vector of k doubles (k <= 2^40, components up to 2^480, lo at least 2^-100) divides all components by one double N >= lo and rounds: if the vector is longer than lo, the result has a squared length within (k+10)*2^-51 of 1, if it is shorter N is lo itself, and the result is never longer than 1 by more than that; components keep their signs and zeros stay zeros; whatever the order in which numpy adds the squares. Recorded: a vector with a component of 2^512 (1.3e154) or more, or an infinite one, is not normalised: finite components all become 0 and infinite ones NaN; one NaN component makes all NaN; negative denominators count as lo.",
  "all vectors and bounds, all orders of addition, all doubles as denominators",
  "All vectors of every length and every order of the additions.",
  [S+"core/dataproc/num.py: Num.safe_div, Num.norm, Num.normalize"],
  "Model/FloatNum over Model/FloatReduce; the machine's square root enters through the contract that its square has a relative error of 2^-50, of which an instance is given.")

P("C142", "Standardisation in double precision",
  "Standardize trained on a column of n <= 2^40 doubles (up to 2^480, any order of numpy's additions): mean is the exact mean up to n*2^-52 of the mean magnitude; sd squared is the exact mean square distance from that mean up to a relative (n+10)*2^-51 if that is above sd_lb squared, sd is exactly sd_lb if it is below, and never smaller than sd_lb. The standardised training column is finite, has a mean square of 1 up to (n+14)*2^-51 if its standard deviation exceeds sd_lb and never a larger one, and a mean of 0 up to the error of the mean divided by sd_lb. Forward then backward reproduces every double x up to 2^-51*|x-mean| + 2^-53*|x|; backward then forward reproduces q up to 6*2^-53*|q| + 2^-52*|mean|/sd (with terms of the size of the smallest doubles). Recorded: a constant column does not give zeros: three copies of 0.1*2^40 standardise to -1, -1, -1, because the mean is off by 2^-16, far above sd_lb = 1e-10.",
  "all columns, all values, all orders of addition",
  "All columns of every length and every order of the additions.",
  [S+"stats/preprocessing.py: Standardize"],
  "Model/FloatStandardize over Model/FloatReduce and Model/FloatNum; error analysis with the square root through its contract.")

P("C143", "Sexagesimal angles in double precision",
  "dms_to_deg of three doubles (up to 2^1000) is a finite double within 2^-51*(|d|+|m|/60+|s|/3600) of d + m/60 + s/3600 (plus 2^-1073), hms_to_deg within twice that of 15 times it; decimal text of any length comes out within 2^-50 (2^-49 for hours) of the angle it denotes, rounding of the fields included, and is rejected exactly when a field is no number or their number is not three. Neither function ever decreases when a field increases; whole degrees and quarters given as minutes are exact; whole degrees below 360 with minutes in [0,59] and seconds in [0,60] come out between that degree and the next, hours in the 15 degrees of that hour, so never beyond 360 - but 23:59:59.99... can be 360 itself. Angles that differ by 2^-41 degrees or more come out in the right order; closer ones need not (0:31:59.99... comes out above 0:32:00). NaN in a field gives NaN.",
  "all triples of doubles and all texts",
  "All doubles and texts of any length.",
  [S+"astro/coords/cvt.py: dms_to_deg, hms_to_deg"],
  "Model/FloatCoords: error analysis of two quotients and two additions, monotonicity of rounding; the ranges by monotonicity and the exhaustive 360 (24) whole degrees (hours).")

P("C144", "Contour levels and hidden points in double precision",
  "For cell densities that are doubles, not negative and not all zero (n <= 2^44 cells), Scatter2D.z_level_at_percentile gives for each fraction p in [0,1] a density of the mesh such that the cells at or above it hold at least p - n*2^-49 of the exact total and the cells above it at most p + n*2^-49; a larger fraction never has a higher level, and p = 1 gives the smallest density. scatter(hidden_in_p=p) draws exactly the points whose density is below a level that is a density of the mesh, not above the contour of p, and encloses at least p - n*2^-49. If a density is minus infinity (z_transform=log10 with an empty cell) every level is minus infinity and no point at all is drawn; a NaN makes every level the smallest density; all-zero densities have the level 0 and no point is drawn; no cells raise IndexError.",
  "all density arrays, all fractions",
  "All arrays of doubles of any length, and all fractions.",
  [S+"plot/two_dim.py: Scatter2D.cum_prob_mass, Scatter2D.z_level_at_percentile, Scatter2D.scatter"],
  "Model/FloatContour over Model/FloatQuantile's running sums: relative errors of the running sums and quotients, and the search in the rounded fractions.")

P("C145", "The simple representation of a DataDict",
  "d.to_simple_repr() changes no existing object. It returns a new built-in dict; every DataDict reached through DataDicts becomes a new built-in dict with the same keys in the same order, leaves are converted with their own to_simple_repr, everything else is the same object. A look-up along any keys gives in the result the same error as in d, or what the value becomes. It succeeds exactly if all leaves reached through DataDicts can be converted and the nesting of DataDicts is below the recursion limit, and raises otherwise the error of a leaf or RecursionError; a DataDict that contains itself has no representation whatever the limit. Changing a dict that stands for a DataDict is never visible in d; built-in dicts inside d are shared with the result, so assigning there assigns in d, and a DataDict inside a built-in dict is still a DataDict in the result.",
  "all nestings of DataDicts, dicts, tuples and leaves, all recursion limits",
  "All object graphs of any size and depth, including cyclic ones, and all look-ups.",
  [S+"core/containers/data_dict.py: DataDict.to_simple_repr"],
  "Model/DataDictRepr over the heap of Model/DataDict: induction on the recursion limit with the original heap kept; a relation between old and new values as specification.")
P("C146", "Grids in double precision",
  "Grid1d accepts an array of doubles exactly if it is not empty and neighbours are in order (no NaN among two or more, not twice the same infinity), otherwise AssertionError; a lone NaN is accepted. locate is exact for every number that is not NaN: location i is at or below x exactly if i ≤ locate(x), and the result is in -1 … n-1; NaN goes to the last. The centres of a grid up to 2^1022 are a grid with one location less, each a double nearest to the exact centre, between its neighbours, and strictly between them if any double is; a single location has no centres, and from 2^1023 they overflow and are refused. np.linspace(a, b, n) for ends up to 2^1020, equal or at least 2^-900 apart, is a grid from exactly a to exactly b, never outside, each location within 2^-50(|a|+|b|) of an exact division; on subnormal ranges or ranges whose width overflows it can be refused. from_data_range with 0 ≤ p_lo ≤ p_hi ≤ 1 is that grid between the two quantiles; with the defaults it covers the data: every datum is located in 0 … n-1 and only the maximum in n-1; NaN in the data is refused. A slice start:stop:nj starts at start and is as close, but its last location can miss stop (0:1:50j ends below 1). A slice start:stop:step with step > 0 is a grid that starts at start, whose number of locations is ⌈(stop-start)/step⌉ ± 1, with location i at most i·2^-50(|start|+step) off; it can contain a location at or past stop (1:1.3:0.1).",
  "all arrays of doubles with NaN and infinities, all ranges, steps and numbers of locations within the stated sizes, all samples and probabilities",
  "Holds for all doubles; rounding errors at the ends and in the count show only for particular combinations.",
  [S+"core/dataproc/grid.py: Grid1d.__init__, Grid1d.centers, Grid1d.extent, Grid1d.locate, GridMd.from_data_range"],
  "Model/FloatGrid over Base/Float64 (round-to-nearest-even on rationals) with np.linspace, np.mgrid and np.arange written out; error analysis with relative errors, monotonicity of rounding.")
P("C147", "Transfer functions and power spectrum on large and small scales",
  "With baryon wiggles, for all positive parameters with a baryon fraction below one, T(k) and its baryon and cold dark matter parts are continuous at all k, including k = 0, where the special case 1 is the limit of the formula; they tend to 0 for k to ±infinity at least as fast as 1/|k|, and the cold dark matter part is strictly between 0 and 1 for k ≠ 0. Without wiggles T tends to a limit L ≥ 1 for k to 0 (L ≤ 1.02 if Ω_m h² ≥ 0.05; the formula is not normalised to one) and to 0 for k to infinity, at least as fast as 1/k. Hence P(k, z)/k^n tends to 2π² norm (1000 L D1(z))² on large scales for both variants, L = 1 with wiggles; P vanishes for k to 0 if n > 0 and for k to infinity if n < 2, the dimensionless spectrum vanishes for k to 0 if n > -3. With exact integration and sigma_8 ≠ 0 the amplitude of the large-scale power law without wiggles is positive at every z > -1.",
  "all cosmologies accepted with a baryon fraction below one (with wiggles) or usable (without), all wavenumbers and redshifts, all integration routines",
  "Limits and continuity are statements about all wavenumbers; a few samples cannot show them.",
  [S+"astro/cosmology/power_spectrum.py: _TransferFunctionEH98._transfer_function, _TransferFunctionEH99._transfer_function, _PowerSpectrumFlatLambdaCDMNR.power, big_delta_sqr"],
  "Model/PowerSpectrum over the reals: positivity of the coefficients, sinc and rational rewriting of the pieces singular at k = 0, log x ≤ x for the decay.")

P("C148", "Representations of parameters, cosmologies, bins and groups, and what can be rebuilt from their JSON",
  "ParamList.to_json lists, at any time, the names and current values in order. LambdaCDM.to_json is the document with name, data_dir, meta and all parameters (name, current value) in order; it fails (TypeError) exactly if a value of the meta data cannot be written. The document determines the model: from_parameters with these four entries makes the same model if it was not changed since it was made, and the consistent one if a parameter was changed in place. The predefined cosmologies are listed under their names in the order of loading. EqualSpaceBins can be written unless the range was given as an array; its range and number of bins rebuild it, x_step is x_span / n_bins. The edges in the representation of BiSearchBins are the sorted given edges and rebuild it; x_span is the largest minus the smallest edge and x_step_mean is x_span / n_bins. A Group is represented by its matrices in order. Recorded: BiSearchBins, BinnedData and Groups that are not empty cannot be written (TypeError: arrays); a file holding LambdaCDM.to_json() is refused by from_conf_file (KeyError), whatever the cosmology.",
  "all parameter lists and values, cosmologies, meta data, file systems, bins, counts, groups",
  "All parameters, meta data and bins; the round trip must hold for every model.",
  [S+"astro/cosmology/param.py: Param.to_simple_repr, ParamList.to_simple_repr", S+"astro/cosmology/model.py: LambdaCDM.to_simple_repr, from_conf_file, from_parameters, _Predefined.to_simple_repr", S+"stats/binning.py: EqualSpaceBins.to_simple_repr, BiSearchBins.to_simple_repr, BinnedData.to_simple_repr", S+"group_theory/point_group.py: Op.to_simple_repr, Group.to_simple_repr", S+"core/abc.py: HasSimpleRepr.to_json"],
  "Model/ConcreteRepr on top of the models of Repr, Param, LambdaCDM, Binning and PointGroup.")
P("C149", "Sub-bins, centres, widths and overlapping bins in double precision",
  "combine_adjacent_bins(x, m) of floats is accepted iff 1 ≤ m ≤ len(x) (AssertionError otherwise); entry i is x[i] + … + x[i+m-1] added from left to right with every addition rounded, at most ((1+2^-53)^(m-1) - 1) Σ|x| off, exact for integers whose absolute values add up to at most 2^53. edges_to_widths of increasing edges has relative error at most 2^-53, is never negative and zero only for equal edges; edges_to_centers gives a double nearest to the exact centre, between its edges and non-decreasing; for edges from 2^1023 centre and width overflow. insert_sub_bins_into_edges(e, s) keeps every original edge unchanged at position i·s, does not decrease, never leaves the bin that is refined, and is within 2^-50(|e_i|+|e_{i+1}|) of the exact division, for edges equal or at least 2^-900 apart, up to 2^1020, s up to 2^50 (recorded: for subnormal bins the edges can descend, and repeating one edge changes the sub-edges of other bins by a rounding). The counts of the sub-bins of a bin add up exactly to the count of the bin. from_overlapped_bins without weights counts in entry i exactly the samples that compare as in [e_i, e_{i+s}) in double precision, the last one closed, NaN and infinities nowhere, with e the edges used: n+1 increasing edges from exactly a to exactly b for a number of bins, or the given array if it does not descend (ValueError otherwise).",
  "all arrays of doubles, edges, samples with NaN and infinities, numbers of bins, sub-bins and strides within the stated sizes",
  "Rounding shows only for particular edges and refinements; the statements are about all doubles and all sizes.",
  [S+"stats/binning.py: Bin.combine_adjacent_bins, Bin.edges_to_widths, Bin.edges_to_centers, Bin.insert_sub_bins_into_edges, Hist1D.from_overlapped_bins"],
  "Model/FloatSubBins over Base/Float64 with np.linspace for arrays of ends written out; np.histogram by its documented contract (comparison with the edges it returns); error analysis as for C125 and C146.")
P("C150", "Histogram density estimate on whole arrays",
  "by_histogram on arrays of data and queries with as many columns as the grid has axes returns one value and one flag per query point: the weight of the data in the point's half-open cell (over the cell's volume and the weight in the box for density=True), out_fill and the flag beyond the axes; ids and clipped_ids are the cell's indices. The result at a point does not depend on the other points queried, nor on the order of the data; with density only the proportions of the weights matter, without it the histogram is additive in the data and proportional to the weights. A 1-D array is one column. Data with another number of columns are refused, queries are not: extra columns are ignored, and with fewer columns `h` is a slice of the histogram per point (recorded).",
  "all grids, data, weights, query arrays of any number of columns",
  "Unbounded arrays and dimensions over a continuum.",
  [S+"stats/density_estimation.py: DensityEstimationND.by_histogram, _Histogram", S+"core/dataproc/grid.py: GridMd.locate"],
  "Model/HistDensity over the fitted histogram of C55: NumPy advanced indexing written out index by index; search characterised by the sorted edges.")
P("C151", "Histogram density estimate in double precision",
  "On doubles the cell of a data point and of a query point is decided by exact comparison with the edges; NaN and infinite coordinates are in no cell. Unweighted counts are exact up to 2^53 points, integer weights up to a total of 2^53, other weights are summed in the order of the data with relative error (1+2^-53)^k - 1. Densities are NaN everywhere if no data lie in the box, exactly 0 in cells without data, and otherwise within a relative (2D+1) 2^-52 of count/volume/total for D axes; times the volumes they add up to 1 within (2D+1) 2^-52. With non-negative weights the same holds of weight/volume/total weight, within (2n+C+2D+1) 2^-52 for n data points and C cells.",
  "all finite ascending edges up to 2^1022, all data (NaN and infinities included), any order of summation in hist.sum(); quotients in the normal range",
  "Rounding over all inputs; arbitrary dimension.",
  [S+"stats/density_estimation.py: _Histogram"],
  "Model/FloatHistDensity over Base/Float64 with np.histogramdd written out; reduction to the exact model of C55 on the finite points; chain of relative errors.")
P("C152", "Random directions: arrays, formats and the numbers drawn",
  "uniform_sphere draws size numbers from [-1, 1] and then size numbers from [0, 2 pi], whatever stack and cartesian are, so the stream continues identically. The stack=False arrays have shape size; stack=True gives shape size + (3,) (or (2,)) with the same numbers at [..., 0], [..., 1], [..., 2]. From the same state, z = cos(theta) is the first number drawn, phi the second, x = sin(theta) cos(phi), y = sin(theta) sin(phi), x^2+y^2+z^2 = 1, theta in [0, pi]. uniform_circle gives (cos theta, sin theta). The jitted _Rng returns the same numbers from the same state, and its lg_normal is 10 to the power of what normal would draw: positive, with that number as decimal logarithm.",
  "all generators keeping numpy's contract, states, sizes of any dimension, flags",
  "All random outcomes, shapes and states.",
  [S+"stats/random.py: Rng.uniform_sphere, Rng.uniform_circle, _Rng", S+"core/dataproc/frame.py: Polar.unit_vec_to_cart, Polar.unit_vec_to_cart_2d"],
  "Model/RngArrays: state-passing model of the calls to the generator over an abstract generator with numpy's contract; index arithmetic of np.stack.")
P("C153", "Weighted overlapping histograms in double precision",
  "from_overlapped_bins with weights on doubles: entry i is the weight of the samples that compare as in [e_i, e_{i+s}) (the last window closed; NaN and infinite samples nowhere), computed from the weights with rounding. For a number of bins only the weights inside the window matter: with N samples, e the edges used, the error is at most ((1+2^-53)^(N + N/65536 + s) - 1) times the sum of the absolute weights in the window. For an array of edges the sums are differences of cumulative sums, so that all weights at or below the upper edge of the window enter: the error is at most 2γA plus a relative rounding of the window, with A the sum of the absolute weights up to the upper edge and γ = (1+2^-53)^(N+N/65536+1) - 1, whatever order the sort leaves equal samples in. Integer weights whose absolute values up to the upper edge add up to at most 2^53 are summed exactly in both cases. Weights of another length are a ValueError, a bad number of sub-bins an AssertionError. Recorded: with an array of edges one NaN weight makes every window that ends above its sample NaN, also windows the sample is not in, and a weight is lost next to a much larger weight in another bin; neither happens if the same bins are given by their number.",
  "all arrays of samples and weights, edges, strides, sorts leaving equal samples in any order",
  "Rounding, cancellation and NaN show only for particular weights and orders; the bound is for all doubles and all lengths.",
  [S+"stats/binning.py: Hist1D.from_overlapped_bins", S+"astro/stats/lss.py: BinnedVolumeDensity.from_raw"],
  "Model/FloatOverlap: np.bincount and the cumulative sums of np.histogram written out over Base/Float64, blocks of 65536; calculus of absolute errors against the exact weight.")
P("C154", "Binned volume densities in double precision",
  "For every resample (after the noise), BinnedVolumeDensity computes in double precision: x, dx, sub_e of the overlapping histogram; h the exact number of samples in [e_i, e_{i+s}) (up to 2^53 samples), or the weights as in C153; y within a relative 3 * 2^-52 (and an underflow of 2^-1075) of h over volume and exact width, never negative for counts, exactly 0 where no sample is, NaN in a window of width 0 without samples; lg_y is log10 of y, of the padding exactly where y is below it. For windows of one bin, y times volume and width adds up to the number of samples between the first and the last edge within a relative 3 * 2^-52. With weights and a number of bins y is the weight in the window over volume and width, with the error of C153 and a relative 3 * 2^-52.",
  "all arrays of doubles with NaN and infinities, weights, edges up to 2^1022, strides, positive volumes with volume * width in the normal range, paddings",
  "Rounding over all inputs and sizes.",
  [S+"astro/stats/lss.py: BinnedVolumeDensity.__hist", S+"stats/binning.py: Hist1D.from_overlapped_bins", S+"core/dataproc/num.py: Num.safe_lg"],
  "Model/FloatVolume over Model/FloatSubBins (C149) and Model/FloatOverlap (C153); error analysis of one product and one quotient.")
P("C155", "Arrays with trailing axes are binned, combined and interpolated entry by entry",
  "bisearch_interp and bisearch_interp_2d on values y of shape (n, ...) or (n1, n2, ...) return an array of the trailing shape whose entry J is the scalar interpolation of y[:, J] or y[:, :, J]; they fail where that fails. combine_adjacent_bins of an array of shape (n, ...) accepts the same numbers of bins and combines every entry along the first axis. BinnedData with a shape: after any history of add calls entry (b, J) is the total of entry J of the weights of all samples ever added in bin b; a weight given as a number, or the 1 of a call without weights, counts for every entry; a failing call changes nothing.",
  "all arrays of any trailing shape, all histories of add calls mixing weights of numbers, rows and none",
  "Unbounded shapes, sizes and histories.",
  [S+"numerical/interpolate.py: bisearch_interp, bisearch_interp_2d", S+"stats/binning.py: Bin.combine_adjacent_bins, BinnedData.add, BinnedData.__init__"],
  "Model/TrailingAxes: arrays as lists of rows; reduction to the one-dimensional models of C41, C42, C59 column by column.")
P("C156", "Mask selections: values, views and copies",
  "Mask.on_array(mask, a) holds the selected rows in the order of the selection and fails exactly as a[mask]; no existing array changes. With copy=True, or with an index array or boolean mask, the result is independent: no in-place changes of existing arrays reach it, and none of its changes reach an existing array. With a slice and copy=False (the default) it is a view: changing its element j changes exactly the element of a it was selected from, and the other way round. on_arrays returns the bare array for one argument and a tuple otherwise, one result per argument in order. on_dict keeps keys and order; on a DataTable the values are always copies, and equal those of subset.",
  "all memories and arrays, slices with any steps, index arrays, masks, numbers of arrays, dicts and tables, sequences of in-place changes",
  "Aliasing over all later histories of in-place changes.",
  [S+"core/dataproc/mask.py: Mask.on_array, Mask.on_arrays, Mask.on_dict", S+"core/containers/data_table.py: DataTable.__setitem__, DataTable.subset"],
  "Model/MaskMemory over the memory model of Model/DataTable; induction over arrays and items.")
P("C157", "Background cosmology in double precision",
  "With a matter fraction Om between 2^-100 and 1 and a redshift above -1 up to 2^100, all doubles: E^2(z), Omega_m(z), Omega_l(z), the square of E(z), the critical density and the mean density are finite and within 7, 14, 14, 12, 8 and 7 units of 2^-52 (relative) of the exact formulas; so are the square of H(z) (15 units) and the baryon fraction. Omega_m(z) and Omega_l(z) are between 0 and 1 and add up to 1 within 2 units of 2^-52; E^2 never decreases with redshift. At z = 0, for every Om between 0 and 1, E, H, Omega_m, critical and mean density are exactly the values of today. a2z and z2a invert each other within 4 units of 2^-52 for 2^-100 <= a <= 1; beyond, for a large scale factor, the round trip is lost: a = 2^60 comes back as infinity, or for a number with ZeroDivisionError. For numbers (not arrays) a vanishing divisor (E^2 = 0, a = 0, z = -1, no matter) raises ZeroDivisionError, and only that raises; above z = -1 nothing does. NaN gives NaN; at infinite redshift E^2 is infinite, Omega_l is 0 and Omega_m is NaN.",
  "all doubles in the given ranges, every correctly rounded square root",
  "Rounding over all pairs of doubles.",
  [S+"astro/cosmology/flat_lambda_cdm_nr.py: _FlatLambdaCDMNR.efunc_sqr, efunc, omega_m, omega_l, big_hubble, a2z, z2a, _Densities.crit, mean0, mean"],
  "Model/FloatCosmology on the doubles of Base/Float64; relative-error calculus; the budget from rounding to nearest of two quotients with the same divisor.")
P("C158", "Density contrast in double precision",
  "The density contrast of the Fourier smoothing and the tidal field, for a grid of up to 2^40 non-negative doubles up to 2^480 and whatever order the mean is summed in: ValueError exactly when the computed mean is below 1e-10, decided by the exact mean up to a relative n 2^-52; a grid without matter is refused. Otherwise every contrast is finite, at least -1, exactly -1 in empty cells, grows with density, within (n+1) 2^-51 rho/mean + 2^-52 of rho/mean - 1, and the contrasts average to 0 within (n+2) 2^-51. Particle counts up to 2^53 have a correctly rounded mean, and a uniform grid of counts has contrast exactly 0; other uniform grids need not (0.1 on 2x2x2 cells gives 2^-52). A NaN cell makes all contrasts NaN; an infinite cell is not refused: it becomes NaN and every finite cell becomes -1.",
  "all grids of doubles, all orders of summation",
  "Rounding over all grids and orders of summation.",
  [S+"field/cubic_box/smoothing.py: FourierSpaceSmoothing._normalize", S+"field/cubic_box/gravity.py: TidalField._normalize"],
  "Model/FloatContrast; summation error of C132, relative-error calculus for the quotient and the subtraction.")
P("C159", "Kernels, ball volumes and masked fractions in double precision",
  "Gaussian kernel with a width between 2^-500 and 2^500 (either sign): every weight is between 0 and 1, 1 at distance 0, 0 from 40 widths on, never larger farther away if the platform's exponential is monotone; a width of 2^-540 gives NaN at distance 0. The mean of neighbours that are all 40 or more widths away is NaN. Top-hat: 1 strictly inside, else 0. The ball volume in n <= 100 dimensions is within 2n 2^-52 (relative) of its recursion without rounding. masked_fraction_by_knn: between 0 and 1, exactly 0 when no neighbour is masked; for a total weight of at least 2^-30 exactly 1 when all are masked and within (n+1) 2^-49 of the exact fraction; below 1e-10 the fraction is too small. Masking more neighbours never lowers it. Without weights and kernel it is the number of masked neighbours within reach over the number within reach, correctly rounded, and 0 if there is none.",
  "all widths, distances, dimensions, weights, masks, kernels with values in [0,1], all orders of summation that depend on the number of neighbours alone",
  "Rounding over all inputs and orders of summation.",
  [S+"stats/kernel.py: Gaussian._impl, Tophat._impl, Tophat._ball_volume", S+"stats/regression.py: KernelRegressionND.masked_fraction_by_knn, _KnnRegression.__call__"],
  "Model/FloatKernel; order on doubles, monotone rounding of a fixed order of additions, relative-error calculus.")
P("C160", "Neighbour density estimates in double precision",
  "Training weights: without weights each of N points has 1/N correctly rounded; given weights (0 to 2^480, total at least 2^-500, N <= 2^40) become doubles between 0 and 1 within a relative (N+1) 2^-51 of weight over total, all-zero weights become NaN. by_local_kernel and by_knn in n <= 100 dimensions with k <= 2^40 neighbours: without a kernel the density is the weight of the neighbours that count (d < max_dx) over the ball's volume, within a relative (k+n+1) 2^-50 and an underflow of 2^-1075, exactly 0 if none counts (with a kernel too); with a kernel with values in [0,1] and total at least 2^-30 it is the weight with the kernel scaled to mean 1, within a relative (k+n+2) 2^-48. Neighbour number and radius are exact. If all k neighbours coincide with the query the estimate is infinite (NaN for weight 0), for max_dx = 0 NaN; with a Gaussian kernel and all neighbours 40 or more widths away it is NaN, not 0.",
  "all weights, neighbours, radii between 2^-c and 2^c with n(c+5) <= 900, kernels, orders of summation",
  "Rounding over all inputs and orders of summation.",
  [S+"stats/density_estimation.py: _LocalKernelDensityEstimation.fit, _LocalKernelDensityEstimation.__call__, _KnnDensityEstimation.fit, _KnnDensityEstimation.__call__"],
  "Model/FloatNeighbour; error of sums of terms known up to an error, relative-error calculus for the volume and the quotient; a sum of non-negative doubles is at least each of them.")
P("C161", "Units, critical density and mass-radius conversion in double precision",
  "For base units between 2^-160 and 2^160 (m, s, kg) every field of the compiled unit system (units of velocity, density, Hubble parameter and gravity constant; pc, yr, solar mass, proton mass, Salpeter time, c and G in these units) is a finite positive double within at most 7 units of 2^-52 of its exact value. For a Hubble parameter between 2^-20 and 2^20 the units of a cosmology are Mpc/h, Gyr/h and 10^10 Msun/h within 3 units, G (which should not depend on h) is within 18 and the critical density of today, 27.7536627 in these units, within 25. r_to_m is 4/3 pi r^3 rho_crit Omega_m within 32 units, and the radius of a mass leads back to the mass within 62 units plus the error of the C library's cube root. The constructor raises ZeroDivisionError if and only if a base unit is zero or t^2, l^3, l/t or l^3/t^2/m is rounded to zero (in particular for a time unit below 2^-538 s or a length unit below 2^-360 m), and raises nothing else. Recorded: a length unit of 2^342 m or more overflows silently (G becomes 0, the critical density then raises ZeroDivisionError); the constant kpc_to_m is 1000 Mpc.",
  "all doubles in the given ranges; for the exceptions all doubles including infinities and NaN",
  "Rounding over all base units, Hubble parameters, radii and masses.",
  [S+"astro/quantity/unit_system.py: _Constants, _UnitSystem", S+"astro/cosmology/flat_lambda_cdm_nr.py: _make_us_for_cosmology, _Densities.crit0, mean0, r_to_m, m_to_r"],
  "Model/FloatUnits on the doubles of Base/Float64; boxes of powers of two with a count of roundings, closed under multiplication and division.")
P("C162", "Virial radius, velocity and dynamical time in double precision",
  "For masses, comoving densities (2^-100 to 2^100), gravity constants (2^-60 to 2^60) and redshifts 0 to 2^20, all virial properties are finite positive doubles: the sphere of the returned radius has the given mass within K + 4 units of 2^-52 (K: error of the C library's cube root), the physical radius is the comoving one over 1 + z within 3 units, v^2 r = G m within 11, t_dyn = r / v within 1. Hence the dynamical time depends on the density alone, not on the mass (t^2 4/3 pi G rho_physical = 1 within K + 26 units), and for an overdensity f of the model's density rho(z) on f rho(z) alone. The comoving density is f rho(z)/(1+z)^3 within K' + 8 units. The radius does not decrease with the mass. Recorded edges: mass 0 gives radius 0 but NaN velocity and dynamical time; density 0 an infinite radius, velocity 0 and infinite dynamical time; a NaN mass gives NaN; z = -1 an infinite physical radius.",
  "all doubles in the given ranges; every cube root / power function of the stated accuracy",
  "Rounding over all masses, densities and redshifts; the cancellation of the mass is a relation between all outputs.",
  [S+"astro/cosmology/halo_theory.py: VirialProperties, HaloTheory.rho_vir_mean, rho_vir_crit, r_vir, v_vir, vir_props_mean, vir_props_crit"],
  "Model/FloatHalo on the doubles of Base/Float64 with the rounding boxes of C161; the C library's powers are parameters with a stated accuracy.")
