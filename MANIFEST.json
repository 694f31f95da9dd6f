{
 "claims": [
  {
   "property": "C01",
   "status": "proved",
   "theorems": [
    "Pyhipp.DataDict.C01_get_after_set",
    "Pyhipp.DataDict.C01_get_after_del",
    "Pyhipp.DataDict.C01_frame",
    "Pyhipp.DataDict.C01_failure_atomic",
    "Pyhipp.DataDict.C01_succeeds_iff",
    "Pyhipp.DataDict.C01_cyclic_counterexample"
   ],
   "note": "heap model with sharing; acyclicity is a hypothesis of the read-your-write half, with the counterexample for cyclic dictionaries"
  },
  {
   "property": "C02",
   "status": "proved",
   "theorems": [
    "Pyhipp.DataDict.C02_get",
    "Pyhipp.DataDict.C02_set",
    "Pyhipp.DataDict.C02_del",
    "Pyhipp.DataDict.C02_partial_effect"
   ],
   "note": "tuple keys incl. nested tuples and partial effects"
  },
  {
   "property": "C03",
   "status": "proved",
   "theorems": [
    "Pyhipp.DataDict.C03_normalise",
    "Pyhipp.DataDict.C03_leading",
    "Pyhipp.DataDict.C03_total",
    "Pyhipp.DataDict.C03_only_slashes"
   ],
   "note": "all spellings of a path"
  },
  {
   "property": "C04",
   "status": "proved",
   "theorems": [
    "Pyhipp.DataDict.C04_wf",
    "Pyhipp.DataDict.C04_history",
    "Pyhipp.DataDict.C04_errors"
   ],
   "note": "any history of operations with slash-free keys"
  },
  {
   "property": "C05",
   "status": "proved",
   "theorems": [
    "Pyhipp.DataDict.C05_copy",
    "Pyhipp.DataDict.C05_or",
    "Pyhipp.DataDict.C05_ior",
    "Pyhipp.DataDict.C05_shared"
   ],
   "note": "copy / union / |= and sharing"
  },
  {
   "property": "C06",
   "status": "proved",
   "theorems": [
    "Pyhipp.DataDict.C06_constructor",
    "Pyhipp.DataDict.C06_update",
    "Pyhipp.DataDict.C06_contains",
    "Pyhipp.DataDict.C06_literal_slash_unreachable",
    "Pyhipp.DataDict.C06_unreachable_example"
   ],
   "note": "literal keys in constructor/update, with the unreachable-key counterexample"
  },
  {
   "property": "C07",
   "status": "proved",
   "theorems": [
    "Pyhipp.DataTable.C07_isolation",
    "Pyhipp.DataTable.C07_construct",
    "Pyhipp.DataTable.C07_setitem",
    "Pyhipp.DataTable.C07_update",
    "Pyhipp.DataTable.C07_reference",
    "Pyhipp.DataTable.C07_value_semantics",
    "Pyhipp.DataTable.C07_errors",
    "Pyhipp.DataTable.C07_get_many"
   ],
   "note": "memory model with arrays as views on buffers; value semantics over any history"
  },
  {
   "property": "C08",
   "status": "proved",
   "theorems": [
    "Pyhipp.DataTable.C08_positions",
    "Pyhipp.DataTable.C08_subset",
    "Pyhipp.DataTable.C08_concat",
    "Pyhipp.DataTable.C08_rows_aligned",
    "Pyhipp.DataTable.C08_concat_rows",
    "Pyhipp.TableRow.C08_row"
   ],
   "note": "row selection by slice / integers / mask; concatenation"
  },
  {
   "property": "C09",
   "status": "proved",
   "theorems": [
    "Pyhipp.DataTable.C09_subcol",
    "Pyhipp.DataTable.C09_assoc",
    "Pyhipp.DataTable.C09_split",
    "Pyhipp.DataTable.C09_commute"
   ],
   "note": "associativity, splitting, subcol/subset commutation, all on the modelled functions"
  },
  {
   "property": "C10",
   "status": "proved",
   "theorems": [
    "Pyhipp.H5.C10_round_trip"
   ],
   "note": "Tree model of an HDF5 file; h5py's dtype rules are parameters. All data (any depth), all flags."
  },
  {
   "property": "C11",
   "status": "proved",
   "theorems": [
    "Pyhipp.H5.C11_rejected",
    "Pyhipp.H5.C11_accepted"
   ],
   "note": "Offending data are rejected with TypeError before any change; data without an offending entry are passed on."
  },
  {
   "property": "C12",
   "status": "proved",
   "theorems": [
    "Pyhipp.H5.C12_keeps",
    "Pyhipp.H5.C12_existing_raises",
    "Pyhipp.H5.C12_succeeds_iff"
   ],
   "note": "Also for failing dumps; success iff none of the data's names exists."
  },
  {
   "property": "C13",
   "status": "proved",
   "theorems": [
    "Pyhipp.H5.C13_leaves",
    "Pyhipp.H5.C13_frame",
    "Pyhipp.H5.C13_overwrite",
    "Pyhipp.H5.C13_idempotent",
    "Pyhipp.H5.C13_broadcast_example",
    "Pyhipp.H5.C13_shapes"
   ],
   "note": "Exact contents after 'ac' dumps, frame, idempotence; recorded: broadcasting when shapes differ."
  },
  {
   "property": "C14",
   "status": "proved",
   "theorems": [
    "Pyhipp.H5.C14_prefix",
    "Pyhipp.H5.C14_later_untouched"
   ],
   "note": "A failed dump equals a successful dump of a truncation of the data; later items untouched."
  },
  {
   "property": "C15",
   "status": "proved",
   "theorems": [
    "Pyhipp.H5.C15_unknown_flag_link",
    "Pyhipp.H5.C15_unknown_flag",
    "Pyhipp.H5.C15_unknown_flag_dump",
    "Pyhipp.H5.C15_empty_dump_accepts"
   ],
   "note": "All creating functions, bulk dump included; an empty dump accepts any flag (recorded)."
  },
  {
   "property": "C16",
   "status": "proved",
   "theorems": [
    "Pyhipp.H5.C16_create_group_existing",
    "Pyhipp.H5.C16_create_group_new",
    "Pyhipp.H5.C16_create_group_succeeds",
    "Pyhipp.H5.C16_create_dataset_existing",
    "Pyhipp.H5.C16_never_replaces"
   ],
   "note": "All objects, all paths; dump and assignment included."
  },
  {
   "property": "C17",
   "status": "proved",
   "theorems": [
    "Pyhipp.H5.C17_open_existing",
    "Pyhipp.H5.C17_open_x",
    "Pyhipp.H5.C17_open_ac",
    "Pyhipp.H5.C17_open_w",
    "Pyhipp.H5.C17_unknown_flag",
    "Pyhipp.H5.C17_read_only",
    "Pyhipp.H5.C17_files_unchanged"
   ],
   "note": "File objects, modes and the with statement over a file system of images; h5py's own locking and flushing are outside the model."
  },
  {
   "property": "C18",
   "status": "proved",
   "theorems": [
    "Pyhipp.H5.C18_round_trip",
    "Pyhipp.H5.C18_root",
    "Pyhipp.H5.C18_root_round_trip",
    "Pyhipp.H5.C18_parents"
   ],
   "note": "load_from/dump_to as compositions of the modelled file open, group get/create and Group.load/dump."
  },
  {
   "property": "C19",
   "status": "proved",
   "theorems": [
    "Pyhipp.H5.C19_unsupported",
    "Pyhipp.H5.C19_items",
    "Pyhipp.H5.C19_contains_iff_get",
    "Pyhipp.H5.C19_gets",
    "Pyhipp.H5.C19_set"
   ],
   "note": "The view, membership, tuple indexing and assignment."
  },
  {
   "property": "C20",
   "status": "proved",
   "theorems": [
    "Pyhipp.H5.C20_string",
    "Pyhipp.H5.C20_create",
    "Pyhipp.H5.C20_set",
    "Pyhipp.H5.C20_create_empty",
    "Pyhipp.H5.C20_history",
    "Pyhipp.H5.C20_dump_load"
   ],
   "note": "create, create_empty, assignment, any operation sequence, dump/load round trip."
  },
  {
   "property": "C21",
   "status": "proved",
   "theorems": [
    "Pyhipp.H5.C21_dataset_load",
    "Pyhipp.H5.C21_attr_load",
    "Pyhipp.H5.C21_load_all"
   ],
   "note": "Datasets and attributes; the pattern is any predicate on keys (the regex engine is not modelled)."
  },
  {
   "property": "C22",
   "status": "proved",
   "theorems": [
    "Pyhipp.H5.C22_round_trip",
    "Pyhipp.H5.C22_init_kw",
    "Pyhipp.H5.C22_missing",
    "Pyhipp.H5.C22_file_round_trip",
    "Pyhipp.H5.C22_table",
    "Pyhipp.H5.C22_undeclared_str",
    "Pyhipp.H5.C22_missing_attr",
    "Pyhipp.H5.C22_table_object_column"
   ],
   "note": "Classes as typedicts nested to any depth; the constructor stores its keyword arguments; str fields need a codec with decode(encode(s)) = s."
  },
  {
   "property": "C23",
   "status": "proved",
   "theorems": [
    "Pyhipp.H5.C23_attrs",
    "Pyhipp.H5.C23_text",
    "Pyhipp.H5.C23_entries",
    "Pyhipp.H5.C23_order",
    "Pyhipp.H5.C23_limited",
    "Pyhipp.H5.C23_shallow",
    "Pyhipp.H5.C23_no_limit",
    "Pyhipp.H5.C23_last_mark",
    "Pyhipp.H5.C23_last_mark_example",
    "Pyhipp.H5.C23_dataset",
    "Pyhipp.H5.C23_indent"
   ],
   "note": "The listing text as a function of the tree; numpy's string forms of values, dtypes and shapes are an arbitrary formatter."
  },
  {
   "property": "C24",
   "status": "proved",
   "theorems": [
    "Pyhipp.H5.C24_existing",
    "Pyhipp.H5.C24_soft_link",
    "Pyhipp.H5.C24_external_link",
    "Pyhipp.H5.C24_soft_link_resolves",
    "Pyhipp.H5.C24_external_link_resolves",
    "Pyhipp.H5.C24_dangling",
    "Pyhipp.H5.C24_failure",
    "Pyhipp.H5.C24_del",
    "Pyhipp.H5.C24_no_links",
    "Pyhipp.H5.C24_plain_del",
    "Pyhipp.H5.C24_plain_del_missing"
   ],
   "note": "Trees with soft and external links in several files, path resolution with a link limit; hard links are not modelled."
  },
  {
   "property": "C25",
   "status": "proved",
   "theorems": [
    "Pyhipp.Dataproc.C25_offset_prefix_sum",
    "Pyhipp.Dataproc.C25_offset_diff",
    "Pyhipp.Dataproc.C25_offset_no_end",
    "Pyhipp.Dataproc.C25_pairs",
    "Pyhipp.Dataproc.C25_pairs_tile"
   ],
   "note": ""
  },
  {
   "property": "C26",
   "status": "proved",
   "theorems": [
    "Pyhipp.Dataproc.C26_ranges_eq_offset_pairs",
    "Pyhipp.Dataproc.C26_slices",
    "Pyhipp.Dataproc.C26_no_seq",
    "Pyhipp.Dataproc.C26_chunks",
    "Pyhipp.Dataproc.C26_chunk_lengths",
    "Pyhipp.Dataproc.C26_negative",
    "Pyhipp.Dataproc.C26_chunks_forms"
   ],
   "note": ""
  },
  {
   "property": "C27",
   "status": "proved",
   "theorems": [
    "Pyhipp.Dataproc.C27_combine_lookup",
    "Pyhipp.Dataproc.C27_combine_keys"
   ],
   "note": ""
  },
  {
   "property": "C28",
   "status": "proved",
   "theorems": [
    "Pyhipp.Dataproc.C28_boolToIdx",
    "Pyhipp.Dataproc.C28_idxToBool",
    "Pyhipp.Dataproc.C28_roundtrip_bool",
    "Pyhipp.Dataproc.C28_roundtrip_idx"
   ],
   "note": ""
  },
  {
   "property": "C29",
   "status": "proved",
   "theorems": [
    "Pyhipp.Dataproc.C29_zip",
    "Pyhipp.Dataproc.C29_zip_error"
   ],
   "note": ""
  },
  {
   "property": "C30",
   "status": "proved",
   "theorems": [
    "Pyhipp.Dataproc.C30_put",
    "Pyhipp.Dataproc.C30_put_size",
    "Pyhipp.Dataproc.C30_onArray",
    "Pyhipp.Dataproc.C30_slice",
    "Pyhipp.Dataproc.C30_onArrays_aligned",
    "Pyhipp.Dataproc.C30_onDict"
   ],
   "note": "np.put semantics (cyclic source) modelled; an empty source is a no-op."
  },
  {
   "property": "C31",
   "status": "proved",
   "theorems": [
    "Pyhipp.Dataproc.C31_keep_iff",
    "Pyhipp.Dataproc.C31_filter",
    "Pyhipp.Dataproc.C31_compose"
   ],
   "note": "NaN is modelled as an extra value comparing false with everything."
  },
  {
   "property": "C32",
   "status": "proved",
   "theorems": [
    "Pyhipp.Frame.C32_shift_in",
    "Pyhipp.Frame.C32_copy",
    "Pyhipp.Frame.C32_test_bound_iff",
    "Pyhipp.Frame.C32_then_test_bound",
    "Pyhipp.Frame.C32_far_outside"
   ],
   "note": "Includes the counterexample for coordinates further than one box length away."
  },
  {
   "property": "C33",
   "status": "proved",
   "theorems": [
    "Pyhipp.Frame.C33_shift_to",
    "Pyhipp.Frame.C33_copy"
   ],
   "note": ""
  },
  {
   "property": "C34",
   "status": "proved",
   "theorems": [
    "Pyhipp.Frame.C34_clamp",
    "Pyhipp.Frame.C34_cases",
    "Pyhipp.Frame.C34_nan",
    "Pyhipp.Frame.C34_nan_bound",
    "Pyhipp.Frame.C34_idempotent",
    "Pyhipp.Frame.C34_monotone",
    "Pyhipp.Frame.C34_array"
   ],
   "note": ""
  },
  {
   "property": "C35",
   "status": "proved",
   "theorems": [
    "Pyhipp.Frame.C35_normalize",
    "Pyhipp.Frame.C35_safe_div",
    "Pyhipp.Frame.C35_safe_log"
   ],
   "note": "Real arithmetic."
  },
  {
   "property": "C36",
   "status": "proved",
   "theorems": [
    "Pyhipp.Frame.C36_isometry",
    "Pyhipp.Frame.C36_linear",
    "Pyhipp.Frame.C36_radial",
    "Pyhipp.Frame.C36_axis_degenerate",
    "Pyhipp.Frame.C36_unit_vec"
   ],
   "note": "Degeneracy bounds (1e-10 clips of normalize) are explicit hypotheses; on the polar axis the counterexample is proved."
  },
  {
   "property": "C37",
   "status": "proved",
   "theorems": [
    "Pyhipp.Grid.C37_init",
    "Pyhipp.Grid.C37_locate",
    "Pyhipp.Grid.C37_locate_unique",
    "Pyhipp.Grid.C37_locate_cases",
    "Pyhipp.Grid.C37_locateMd",
    "Pyhipp.Grid.C37_initMd"
   ],
   "note": ""
  },
  {
   "property": "C38",
   "status": "proved",
   "theorems": [
    "Pyhipp.Grid.C38_centers",
    "Pyhipp.Grid.C38_centers_single",
    "Pyhipp.Grid.C38_centers_md",
    "Pyhipp.Grid.C38_extent",
    "Pyhipp.Grid.C38_applied_ij",
    "Pyhipp.Grid.C38_applied_xy",
    "Pyhipp.Grid.C38_applied_1d",
    "Pyhipp.Grid.C38_applied_bad_length",
    "Pyhipp.GridApplied.C38_points",
    "Pyhipp.GridApplied.C38_result",
    "Pyhipp.GridApplied.C38_empty_rows"
   ],
   "note": "The point function acts row by row; trailing output axes are part of the entry type."
  },
  {
   "property": "C39",
   "status": "proved",
   "theorems": [
    "Pyhipp.Binning.C39_equal_init",
    "Pyhipp.Binning.C39_bisearch_init",
    "Pyhipp.Binning.C39_bisearch_edges",
    "Pyhipp.Binning.C39_edges",
    "Pyhipp.Binning.C39_equal_edges",
    "Pyhipp.Binning.C39_locate",
    "Pyhipp.Binning.C39_locate_cases",
    "Pyhipp.Binning.C39_agree",
    "Pyhipp.Binning.C39_agree_equal"
   ],
   "note": ""
  },
  {
   "property": "C40",
   "status": "proved",
   "theorems": [
    "Pyhipp.Binning.C40_locateBound",
    "Pyhipp.Binning.C40_locateBound_sides",
    "Pyhipp.Binning.C40_locateNearest"
   ],
   "note": ""
  },
  {
   "property": "C41",
   "status": "proved",
   "theorems": [
    "Pyhipp.Binning.C41_histogram",
    "Pyhipp.Binning.C41_order_free",
    "Pyhipp.Binning.C41_reject",
    "Pyhipp.Binning.C41_total"
   ],
   "note": ""
  },
  {
   "property": "C42",
   "status": "proved",
   "theorems": [
    "Pyhipp.Binning.C42_insert",
    "Pyhipp.Binning.C42_insert_keeps_edges",
    "Pyhipp.Binning.C42_insert_sorted",
    "Pyhipp.Binning.C42_centers_widths",
    "Pyhipp.Binning.C42_combine",
    "Pyhipp.Binning.C42_parse_edges",
    "Pyhipp.Binning.C42_parse_num"
   ],
   "note": ""
  },
  {
   "property": "C43",
   "status": "proved",
   "theorems": [
    "Pyhipp.Binning.C43_overlap",
    "Pyhipp.Binning.C43_subH_defect"
   ],
   "note": "np.histogram is modelled by its documented bins; the sub_h defect is C43_subH_defect."
  },
  {
   "property": "C44",
   "status": "proved",
   "theorems": [
    "Pyhipp.Reduction.C44_call_shape",
    "Pyhipp.Reduction.C44_count",
    "Pyhipp.Reduction.C44_sum",
    "Pyhipp.Reduction.C44_mean",
    "Pyhipp.Reduction.C44_stdDev",
    "Pyhipp.Reduction.C44_quantile",
    "Pyhipp.Reduction.C44_median",
    "Pyhipp.Reduction.C44_nan_masked_out"
   ],
   "note": "For all lists, weights, masks. C44_nan_masked_out records the limit: a NaN in a masked-out position still poisons Sum/Mean (0*NaN)."
  },
  {
   "property": "C45",
   "status": "proved",
   "theorems": [
    "Pyhipp.Reduction.C45_perm",
    "Pyhipp.Reduction.C45_perm_stdDev",
    "Pyhipp.Reduction.C45_mean_scale",
    "Pyhipp.Reduction.C45_stdDev_scale",
    "Pyhipp.Reduction.C45_quantile_scale",
    "Pyhipp.Reduction.C45_median_scale",
    "Pyhipp.Reduction.C45_uniform_mean",
    "Pyhipp.Reduction.C45_uniform_stdDev",
    "Pyhipp.Reduction.C45_uniform_median_differs",
    "Pyhipp.Reduction.C45_ties_differ"
   ],
   "note": "Permutation, scaling, uniform weights for mean/sd; C45_uniform_median_differs and C45_ties_differ are proved counterexamples for the weighted median/quantile."
  },
  {
   "property": "C46",
   "status": "proved",
   "theorems": [
    "Pyhipp.Reduction.C46_mean_empty",
    "Pyhipp.Reduction.C46_mean_value",
    "Pyhipp.Reduction.C46_mean_bounds",
    "Pyhipp.Reduction.C46_mean_affine",
    "Pyhipp.Reduction.C46_stdDev_value",
    "Pyhipp.Reduction.C46_stdDev_const",
    "Pyhipp.Reduction.C46_stdDev_affine",
    "Pyhipp.Reduction.C46_stdDev_empty_defect"
   ],
   "note": "C46_stdDev_empty_defect: the fill value goes through sqrt for StdDev (NaN for the default)."
  },
  {
   "property": "C47",
   "status": "proved",
   "theorems": [
    "Pyhipp.Reduction.C47_weighted",
    "Pyhipp.Reduction.C47_unweighted",
    "Pyhipp.Reduction.C47_median"
   ],
   "note": "For every correct argsort (unstable order of ties included), both weighted and unweighted; Median = Quantile(0.5)."
  },
  {
   "property": "C48",
   "status": "proved",
   "theorems": [
    "Pyhipp.Reduction.C48_quantile",
    "Pyhipp.Reduction.C48_empty",
    "Pyhipp.Reduction.C48_reject",
    "Pyhipp.Reduction.C48_mean_sd"
   ],
   "note": "All five 3-value intervals and 'mean+sd'; two-value names fail with ValueError, unknown ones with KeyError."
  },
  {
   "property": "C49",
   "status": "proved",
   "theorems": [
    "Pyhipp.Reduction.C49_impl2d",
    "Pyhipp.Reduction.C49_sum",
    "Pyhipp.Reduction.C49_mean",
    "Pyhipp.Reduction.C49_stdDev",
    "Pyhipp.Reduction.C49_count",
    "Pyhipp.Reduction.C49_errorbar",
    "Pyhipp.Reduction.C49_errorbar_no_rows",
    "Pyhipp.Reduction.C49_errorbar_mean_sd"
   ],
   "note": "Sum, Mean, StdDev with the broadcast 0-d count, Count, and the generic row loop."
  },
  {
   "property": "C50",
   "status": "proved",
   "theorems": [
    "Pyhipp.Stats.C50_reject",
    "Pyhipp.Stats.C50_resample",
    "Pyhipp.Stats.C50_output",
    "Pyhipp.Stats.C50_missing_key",
    "Pyhipp.Stats.C50_short_column",
    "Pyhipp.Stats.C50_no_resample",
    "Pyhipp.Stats.C50_one_shot_defect",
    "Pyhipp.Stats.C50_one_shot_sizes_defect",
    "Pyhipp.Stats.C50_loop"
   ],
   "note": "For every outcome of the random generator; the one-shot iterator and n_resample defects are theorems."
  },
  {
   "property": "C51",
   "status": "proved",
   "theorems": [
    "Pyhipp.Stats.C51_roundtrip",
    "Pyhipp.Stats.C51_train"
   ],
   "note": "Columns of constant length; sd floor included."
  },
  {
   "property": "C52",
   "status": "proved",
   "theorems": [
    "Pyhipp.FloatProb.C52_accept_double",
    "Pyhipp.FloatProb.C52_table_double",
    "Pyhipp.Stats.C52_accept",
    "Pyhipp.Stats.C52_roundtrip"
   ],
   "note": "Includes exact acceptance condition; the normal CDF enters as an arbitrary strictly monotone pair of inverses. The check and the table of probabilities also with rounding and special values; scipy interpolation in doubles is not modelled."
  },
  {
   "property": "C53",
   "status": "proved",
   "theorems": [
    "Pyhipp.Stats.C53_gaussian",
    "Pyhipp.Stats.C53_tophat",
    "Pyhipp.Stats.C53_volume",
    "Pyhipp.Stats.C53_volume_closed",
    "Pyhipp.Stats.C53_volume_reject",
    "Pyhipp.Stats.C53_create"
   ],
   "note": "Ball volume proved equal to the Lebesgue volume of the Euclidean ball in every dimension."
  },
  {
   "property": "C54",
   "status": "proved",
   "theorems": [
    "Pyhipp.Regression.C54_mean",
    "Pyhipp.Regression.C54_constant",
    "Pyhipp.Regression.C54_bounds",
    "Pyhipp.Regression.C54_masked_fraction",
    "Pyhipp.Regression.C54_invalid",
    "Pyhipp.Regression.C54_order",
    "Pyhipp.Regression.C54_local",
    "Pyhipp.Regression.C54_local_one_shot_defect"
   ],
   "note": "For every neighbour list the tree may return; a one-shot iterator of reductions fails (C54_local_one_shot_defect)."
  },
  {
   "property": "C55",
   "status": "proved",
   "theorems": [
    "Pyhipp.Regression.C55_fit",
    "Pyhipp.Regression.C55_refused",
    "Pyhipp.Regression.C55_integral",
    "Pyhipp.Regression.C55_eval",
    "Pyhipp.Regression.C55_value",
    "Pyhipp.Regression.C55_nonneg",
    "Pyhipp.Regression.C55_last_edge_defect"
   ],
   "note": "n-dimensional; C55_last_edge_defect: points on the last edge are counted but evaluated as outside."
  },
  {
   "property": "C56",
   "status": "proved",
   "theorems": [
    "Pyhipp.Stats.C56_stream",
    "Pyhipp.Stats.C56_seed",
    "Pyhipp.Stats.C56_sharing"
   ],
   "note": ""
  },
  {
   "property": "C57",
   "status": "proved",
   "theorems": [
    "Pyhipp.Interpolate.C57_bisearch",
    "Pyhipp.Interpolate.C57_bisearch_bracket",
    "Pyhipp.Interpolate.C57_bisearch_unique",
    "Pyhipp.Interpolate.C57_bisearch_eq_searchsorted",
    "Pyhipp.Interpolate.C57_bisearch_empty"
   ],
   "note": "Includes totality of the loop and agreement with searchsorted(side='right')-1."
  },
  {
   "property": "C58",
   "status": "proved",
   "theorems": [
    "Pyhipp.Interpolate.C58_nearest",
    "Pyhipp.Interpolate.C58_nearest_array",
    "Pyhipp.Interpolate.C58_nearest_array_total"
   ],
   "note": ""
  },
  {
   "property": "C59",
   "status": "proved",
   "theorems": [
    "Pyhipp.Interpolate.C59_weights",
    "Pyhipp.Interpolate.C59_at_node",
    "Pyhipp.Interpolate.C59_outside",
    "Pyhipp.Interpolate.C59_inside",
    "Pyhipp.Interpolate.C59_between_neighbours",
    "Pyhipp.Interpolate.C59_between",
    "Pyhipp.Interpolate.C59_affine",
    "Pyhipp.Interpolate.C59_monotone"
   ],
   "note": "Over any ordered field; rounding not modelled."
  },
  {
   "property": "C60",
   "status": "proved",
   "theorems": [
    "Pyhipp.Interpolate.C60_derivative",
    "Pyhipp.Interpolate.C60_derivative_affine"
   ],
   "note": ""
  },
  {
   "property": "C61",
   "status": "proved",
   "theorems": [
    "Pyhipp.Interpolate.C61_rows_first",
    "Pyhipp.Interpolate.C61_transpose",
    "Pyhipp.Interpolate.C61_at_node",
    "Pyhipp.Interpolate.C61_between",
    "Pyhipp.Interpolate.C61_fix_oob"
   ],
   "note": "Scalar-valued tables; trailing axes are element-wise."
  },
  {
   "property": "C62",
   "status": "proved",
   "theorems": [
    "Pyhipp.Interpolate.C62_init_iff",
    "Pyhipp.Interpolate.C62_unsorted_accepted"
   ],
   "note": "Exact acceptance condition; the documented sortedness requirement is not enforced by the code (C62_unsorted_accepted)."
  },
  {
   "property": "C63",
   "status": "proved",
   "theorems": [
    "Pyhipp.CubicBox.C63_mass",
    "Pyhipp.CubicBox.C63_reject"
   ],
   "note": ""
  },
  {
   "property": "C64",
   "status": "proved",
   "theorems": [
    "Pyhipp.CubicBox.C64_order_free",
    "Pyhipp.CubicBox.C64_linear",
    "Pyhipp.CubicBox.C64_periodic"
   ],
   "note": ""
  },
  {
   "property": "C65",
   "status": "proved",
   "theorems": [
    "Pyhipp.CubicBox.C65_weights",
    "Pyhipp.CubicBox.C65_node"
   ],
   "note": ""
  },
  {
   "property": "C66",
   "status": "proved",
   "theorems": [
    "Pyhipp.CubicBox.C66_adjoint",
    "Pyhipp.CubicBox.C66_bounds",
    "Pyhipp.CubicBox.C66_node",
    "Pyhipp.CubicBox.C66_periodic"
   ],
   "note": ""
  },
  {
   "property": "C67",
   "status": "proved",
   "theorems": [
    "Pyhipp.CubicBox.C67_nearest",
    "Pyhipp.CubicBox.C67_periodic",
    "Pyhipp.CubicBox.C67_node",
    "Pyhipp.CubicBox.C67_volume"
   ],
   "note": ""
  },
  {
   "property": "C68",
   "status": "proved",
   "theorems": [
    "Pyhipp.CubicBox.C68_join",
    "Pyhipp.CubicBox.C68_edge",
    "Pyhipp.CubicBox.C68_unchecked",
    "Pyhipp.CubicBox.C68_dump_load",
    "Pyhipp.CubicBox.C68_join_files",
    "Pyhipp.CubicBox.C68_join_nothing",
    "Pyhipp.CubicBox.C68_load_accepts",
    "Pyhipp.CubicBox.C68_join_mismatch",
    "Pyhipp.CubicBox.C68_iadd_reject",
    "Pyhipp.CubicBox.C68_join_missing"
   ],
   "note": "Joining both as a function of fields and on HDF5 groups; dump/load round trip on HDF5 groups."
  },
  {
   "property": "C69",
   "status": "proved",
   "theorems": [
    "Pyhipp.CubicBox.C69_wave_number",
    "Pyhipp.CubicBox.C69_gaussian",
    "Pyhipp.CubicBox.C69_tophat",
    "Pyhipp.CubicBox.C69_cic",
    "Pyhipp.CubicBox.C69_method",
    "Pyhipp.CubicBox.C69_convolution",
    "Pyhipp.CubicBox.C69_mean",
    "Pyhipp.CubicBox.C69_constant",
    "Pyhipp.CubicBox.C69_zero_radius",
    "Pyhipp.CubicBox.C69_equivariant",
    "Pyhipp.CubicBox.C69_odd_defect",
    "Pyhipp.CubicBox.C69_fourier_space",
    "Pyhipp.CubicBox.C69_fourier_space_odd_defect"
   ],
   "note": ""
  },
  {
   "property": "C70",
   "status": "proved",
   "theorems": [
    "Pyhipp.CubicBox.C70_normalize",
    "Pyhipp.CubicBox.C70_tidal",
    "Pyhipp.CubicBox.C70_eigenvalues",
    "Pyhipp.CubicBox.C70_reject"
   ],
   "note": ""
  },
  {
   "property": "C71",
   "status": "proved",
   "theorems": [
    "Pyhipp.CubicBox.C71_init",
    "Pyhipp.CubicBox.C71_type",
    "Pyhipp.CubicBox.C71_grid_points",
    "Pyhipp.CubicBox.C71_lam_at",
    "Pyhipp.CubicBox.C71_names",
    "Pyhipp.CubicBox.C71_fractions"
   ],
   "note": ""
  },
  {
   "property": "C72",
   "status": "proved",
   "theorems": [
    "Pyhipp.Neighbor.C72_cell",
    "Pyhipp.Neighbor.C72_table"
   ],
   "note": "Sort-order independent: for every argsort satisfying SortOK. Exact arithmetic."
  },
  {
   "property": "C73",
   "status": "proved",
   "theorems": [
    "Pyhipp.Neighbor.C73_complete",
    "Pyhipp.Neighbor.C73_sound"
   ],
   "note": "Completeness in the periodic metric, and soundness up to one cell per axis."
  },
  {
   "property": "C74",
   "status": "proved",
   "theorems": [
    "Pyhipp.Neighbor.C74_multiplicity",
    "Pyhipp.Neighbor.C74_at_most_once",
    "Pyhipp.Neighbor.C74_duplicates"
   ],
   "note": "Exact multiplicity; at most once if 2r + cell <= box; recorded duplicates for larger radii."
  },
  {
   "property": "C75",
   "status": "proved",
   "theorems": [
    "Pyhipp.Neighbor.C75_minimum_image",
    "Pyhipp.Neighbor.C75_symmetric",
    "Pyhipp.Neighbor.C75_bounds",
    "Pyhipp.Neighbor.C75_reject",
    "Pyhipp.Neighbor.C75_query"
   ],
   "note": "Over the reals; scipy's ball search enters as a specified oracle in C75_query."
  },
  {
   "property": "C76",
   "status": "proved",
   "theorems": [
    "Pyhipp.PointGroup.C76_cubic",
    "Pyhipp.PointGroup.C76_square",
    "Pyhipp.PointGroup.C76_group",
    "Pyhipp.PointGroup.C76_signed_permutations",
    "Pyhipp.PointGroup.C76_unknown",
    "Pyhipp.PointGroup.C76_over_ring",
    "Pyhipp.PointGroup.C76_isometries",
    "Pyhipp.PointGroup.C76_len_broken",
    "Pyhipp.PointGroup.C76_cubic_group",
    "Pyhipp.PointGroup.C76_square_group",
    "Pyhipp.PointGroup.C76_square_over_ring",
    "Pyhipp.PointGroup.C76_cubic_order",
    "Pyhipp.PointGroup.C76_square_order",
    "Pyhipp.PointGroup.C76_cubic_turns"
   ],
   "note": "cubic = 48 distinct = all orthogonal integer matrices = signed permutations, square = 8; group laws; over any ring; len() defect recorded"
  },
  {
   "property": "C77",
   "status": "proved",
   "theorems": [
    "Pyhipp.PointGroup.C77_call",
    "Pyhipp.PointGroup.C77_calls",
    "Pyhipp.PointGroup.C77_components",
    "Pyhipp.PointGroup.C77_combined_groups",
    "Pyhipp.PointGroup.C77_size",
    "Pyhipp.PointGroup.C77_isometry"
   ],
   "note": "composition law for any list of operations, lexicographic products, size, isometry"
  },
  {
   "property": "C78",
   "status": "proved",
   "theorems": [
    "Pyhipp.Cosmology.C78_constants",
    "Pyhipp.Cosmology.C78_dynamics",
    "Pyhipp.Cosmology.C78_table",
    "Pyhipp.Cosmology.C78_kpc_defect",
    "Pyhipp.Cosmology.C78_astropy",
    "Pyhipp.Cosmology.C78_agree",
    "Pyhipp.Cosmology.C78_cosmology",
    "Pyhipp.Cosmology.C78_for_cosmology",
    "Pyhipp.Cosmology.C78_hubble"
   ],
   "note": "C78_kpc_defect: the kpc_to_m entry of the constants table is off by 1e6 (recorded defect)."
  },
  {
   "property": "C79",
   "status": "proved",
   "theorems": [
    "Pyhipp.Cosmology.C79_friedmann",
    "Pyhipp.Cosmology.C79_flat",
    "Pyhipp.Cosmology.C79_monotone",
    "Pyhipp.Cosmology.C79_a_z",
    "Pyhipp.Cosmology.C79_today",
    "Pyhipp.Cosmology.C79_densities",
    "Pyhipp.Cosmology.C79_baryons"
   ],
   "note": "exact reals; flat LCDM with 0 < omega_m0 < 1."
  },
  {
   "property": "C80",
   "status": "proved",
   "theorems": [
    "Pyhipp.Cosmology.C80_inverse",
    "Pyhipp.Cosmology.C80_monotone",
    "Pyhipp.Cosmology.C80_r_vir",
    "Pyhipp.Cosmology.C80_v_vir",
    "Pyhipp.Cosmology.C80_vir_props",
    "Pyhipp.Cosmology.C80_t_dyn",
    "Pyhipp.Cosmology.C80_t_dyn_halo"
   ],
   "note": "exact reals."
  },
  {
   "property": "C81",
   "status": "proved",
   "theorems": [
    "Pyhipp.Cosmology.C81_planck",
    "Pyhipp.Cosmology.C81_carroll",
    "Pyhipp.Cosmology.C81_today",
    "Pyhipp.Cosmology.C81_growth_decreasing",
    "Pyhipp.FloatGrowth.C81_today_double",
    "Pyhipp.FloatGrowth.C81_future_double",
    "Pyhipp.FloatGrowth.C81_growth_double",
    "Pyhipp.Cosmology.C81_sigma8",
    "Pyhipp.Cosmology.C81_sigma8_mass",
    "Pyhipp.Cosmology.C81_sigma_growth",
    "Pyhipp.Cosmology.C81_sigma_integral",
    "Pyhipp.Cosmology.C81_delta_power",
    "Pyhipp.Cosmology.C81_power_growth",
    "Pyhipp.Cosmology.C81_tf_norm",
    "Pyhipp.Cosmology.C81_window",
    "Pyhipp.Cosmology.C81_j1",
    "Pyhipp.Cosmology.C81_eh99",
    "Pyhipp.Cosmology.C81_exact",
    "Pyhipp.Cosmology.C81_eh98_even",
    "Pyhipp.Cosmology.C81_eh98_mix",
    "Pyhipp.Cosmology.C81_rejected",
    "Pyhipp.Cosmology.C81_interp"
   ],
   "note": "exact reals; the quadrature is an arbitrary homogeneous functional, and the exact integral for C81_exact."
  },
  {
   "property": "C82",
   "status": "proved",
   "theorems": [
    "Pyhipp.Coords.C82_tuple",
    "Pyhipp.Coords.C82_hms",
    "Pyhipp.Coords.C82_fields",
    "Pyhipp.Coords.C82_only_valueError",
    "Pyhipp.Coords.C82_text",
    "Pyhipp.Coords.C82_text_fields",
    "Pyhipp.Coords.C82_whole",
    "Pyhipp.Coords.C82_order",
    "Pyhipp.Coords.C82_circle",
    "Pyhipp.Coords.C82_sign_defect",
    "Pyhipp.Coords.C82_decimal",
    "Pyhipp.Coords.C82_fraction"
   ],
   "note": "C82_sign_defect: negative angles are converted wrongly (recorded defect)."
  },
  {
   "property": "C83",
   "status": "proved",
   "theorems": [
    "Pyhipp.Param.C83_index",
    "Pyhipp.Param.C83_history",
    "Pyhipp.Param.C83_found",
    "Pyhipp.Param.C83_new",
    "Pyhipp.Param.C83_assign",
    "Pyhipp.Param.C83_stale",
    "Pyhipp.Param.C83_set_values",
    "Pyhipp.Param.C83_set_values_count",
    "Pyhipp.Param.C83_set_values_partial_write",
    "Pyhipp.Param.C83_set_scalar",
    "Pyhipp.Param.C83_length_kept"
   ],
   "note": "C83_stale: the name of a replaced parameter stays in the table (recorded defect)."
  },
  {
   "property": "C84",
   "status": "proved",
   "theorems": [
    "Pyhipp.Cache.C84_hit",
    "Pyhipp.Cache.C84_miss",
    "Pyhipp.Cache.C84_again",
    "Pyhipp.Cache.C84_retry",
    "Pyhipp.Cache.C84_once",
    "Pyhipp.Cache.C84_reentrant",
    "Pyhipp.Cache.C84_put",
    "Pyhipp.Cache.C84_multi",
    "Pyhipp.Cache.C84_multi_raise"
   ],
   "note": "C84_reentrant: a fallback asking for its own key is the exception to the rule (recorded limit)."
  },
  {
   "property": "C85",
   "status": "proved",
   "theorems": [
    "Pyhipp.Yaml.C85_get",
    "Pyhipp.Yaml.C85_undefined",
    "Pyhipp.Yaml.C85_missing_node",
    "Pyhipp.Yaml.C85_missing_init",
    "Pyhipp.Yaml.C85_empty_node",
    "Pyhipp.Yaml.C85_no_file",
    "Pyhipp.Yaml.C85_text_node",
    "Pyhipp.Yaml.C85_list_node"
   ],
   "note": ""
  },
  {
   "property": "C86",
   "status": "proved",
   "theorems": [
    "Pyhipp.Excel.C86_sheets",
    "Pyhipp.Excel.C86_roundtrip",
    "Pyhipp.Excel.C86_prefix",
    "Pyhipp.Excel.C86_flat",
    "Pyhipp.Excel.C86_as_datatables",
    "Pyhipp.Excel.C86_empty_lost",
    "Pyhipp.Excel.C86_dot_collision",
    "Pyhipp.Excel.C86_empty_key",
    "Pyhipp.Excel.C86_sheet_and_sub"
   ],
   "note": "C86_as_datatables: that option always fails (recorded defect); the limits of the round trip are stated."
  },
  {
   "property": "C87",
   "status": "proved",
   "theorems": [
    "Pyhipp.Fortran.C87_mark",
    "Pyhipp.Fortran.C87_load",
    "Pyhipp.Fortran.C87_skip",
    "Pyhipp.Fortran.C87_schedule",
    "Pyhipp.Fortran.C87_marks",
    "Pyhipp.Fortran.C87_length_unchecked",
    "Pyhipp.Fortran.C87_truncated",
    "Pyhipp.Fortran.C87_skip_forms",
    "Pyhipp.Fortran.C87_bytes",
    "Pyhipp.Fortran.C87_seek",
    "Pyhipp.Fortran.C87_seek_relative"
   ],
   "note": "C87_skip_forms, C87_length_unchecked: recorded defect and limit."
  },
  {
   "property": "C88",
   "status": "proved",
   "theorems": [
    "Pyhipp.Plot.C88_history",
    "Pyhipp.Plot.C88_raises",
    "Pyhipp.Plot.C88_success",
    "Pyhipp.Plot.C88_names",
    "Pyhipp.Plot.C88_initial",
    "Pyhipp.Plot.C88_face_edge",
    "Pyhipp.Plot.C88_line_color",
    "Pyhipp.Plot.C88_color",
    "Pyhipp.Plot.C88_wrap",
    "Pyhipp.Plot.C88_nested",
    "Pyhipp.Plot.C88_nested_deep",
    "Pyhipp.Plot.C88_wrap_any",
    "Pyhipp.Plot.C88_defaults"
   ],
   "note": ""
  },
  {
   "property": "C89",
   "status": "proved",
   "theorems": [
    "Pyhipp.Plot.C89_extent",
    "Pyhipp.Plot.C89_margin",
    "Pyhipp.Plot.C89_margin_is_extent",
    "Pyhipp.Plot.C89_invalid",
    "Pyhipp.Plot.C89_subfigures"
   ],
   "note": ""
  },
  {
   "property": "C90",
   "status": "proved",
   "theorems": [
    "Pyhipp.RuntimeConfig.C90_class_untouched",
    "Pyhipp.RuntimeConfig.C90_isolation",
    "Pyhipp.RuntimeConfig.C90_create",
    "Pyhipp.RuntimeConfig.C90_update",
    "Pyhipp.RuntimeConfig.C90_styles",
    "Pyhipp.RuntimeConfig.C90_unknown_style",
    "Pyhipp.RuntimeConfig.C90_set_global",
    "Pyhipp.RuntimeConfig.C90_shared_sections",
    "Pyhipp.RuntimeConfig.C90_mathtext_it",
    "Pyhipp.RuntimeConfig.C90_shipped"
   ],
   "note": "Runtime config context: sections saved/restored; shared-section hazard and whole-section replacement stated."
  },
  {
   "property": "C91",
   "status": "proved",
   "theorems": [
    "Pyhipp.TwoDim.C91_encloses",
    "Pyhipp.TwoDim.C91_nested",
    "Pyhipp.TwoDim.C91_shifted",
    "Pyhipp.TwoDim.C91_flat",
    "Pyhipp.TwoDim.C91_empty",
    "Pyhipp.TwoDim.C91_scatter"
   ],
   "note": "Levels enclose the fraction from both sides for all grids; nested; shift used by scatter; flat grids give equal levels."
  },
  {
   "property": "C92",
   "status": "proved",
   "theorems": [
    "Pyhipp.TwoDim.C92_bins_partition",
    "Pyhipp.TwoDim.C92_on_bin",
    "Pyhipp.TwoDim.C92_on_matches_fit",
    "Pyhipp.TwoDim.C92_outside_zero",
    "Pyhipp.TwoDim.C92_fixed",
    "Pyhipp.TwoDim.C92_density",
    "Pyhipp.TwoDim.C92_normalised",
    "Pyhipp.TwoDim.C92_lower_edge",
    "Pyhipp.TwoDim.C92_fit",
    "Pyhipp.TwoDim.C92_fit_edges",
    "Pyhipp.TwoDim.C92_fit_rejects",
    "Pyhipp.TwoDim.C92_scatter_covers",
    "Pyhipp.TwoDim.C92_scatter_minimum",
    "Pyhipp.TwoDim.C92_scatter_range",
    "Pyhipp.TwoDim.C92_meshgrid",
    "Pyhipp.TwoDim.C92_coords",
    "Pyhipp.TwoDim.C92_coords_few",
    "Pyhipp.TwoDim.C92_mesh",
    "Pyhipp.TwoDim.C92_knn",
    "Pyhipp.TwoDim.C92_knn_rejects"
   ],
   "note": "Bins partition; on matches fit off the edges; densities normalised; recorded defect: lower edge counted by fit but evaluated to 0 (smallest data points of Scatter2D)."
  },
  {
   "property": "C93",
   "status": "proved",
   "theorems": [
    "Pyhipp.ArrayObj.C93_argsort_raises",
    "Pyhipp.ArrayObj.C93_flat_index",
    "Pyhipp.ArrayObj.C93_flat_index_dims",
    "Pyhipp.ArrayObj.C93_argsort_axis",
    "Pyhipp.ArrayObj.C93_index_array_raises",
    "Pyhipp.ArrayObj.C93_index_array_valid",
    "Pyhipp.ArrayObj.C93_shape",
    "Pyhipp.ArrayObj.C93_copy"
   ],
   "note": "Recorded defects: argsort and IndexArray constructors always raise; the parts that work are characterised."
  },
  {
   "property": "C94",
   "status": "proved",
   "theorems": [
    "Pyhipp.Stats.C94_unit"
   ],
   "note": ""
  },
  {
   "property": "C95",
   "status": "proved",
   "theorems": [
    "Pyhipp.FloatNoise.C95_zero_double",
    "Pyhipp.FloatNoise.C95_add_double",
    "Pyhipp.FloatNoise.C95_order_double",
    "Pyhipp.FloatNoise.C95_sign_double",
    "Pyhipp.FloatNoise.C95_shape_double",
    "Pyhipp.Stats.C95_noise"
   ],
   "note": ""
  },
  {
   "property": "C96",
   "status": "proved",
   "theorems": [
    "Pyhipp.Regression.C96_fit_weight",
    "Pyhipp.Regression.C96_local",
    "Pyhipp.Regression.C96_kernel_no_effect",
    "Pyhipp.Regression.C96_knn"
   ],
   "note": ""
  },
  {
   "property": "C97",
   "status": "proved",
   "theorems": [
    "Pyhipp.DataDict.C97_get",
    "Pyhipp.DataDict.C97_pop",
    "Pyhipp.DataDict.C97_setdefault"
   ],
   "note": "mixins of MutableMapping"
  },
  {
   "property": "C98",
   "status": "proved",
   "theorems": [
    "Pyhipp.FloatNFW.C98_tiny",
    "Pyhipp.FloatNFW.C98_mu_double",
    "Pyhipp.FloatNFW.C98_ratio_double",
    "Pyhipp.Cosmology.C98_mu",
    "Pyhipp.Cosmology.C98_increasing",
    "Pyhipp.Cosmology.C98_invert",
    "Pyhipp.Cosmology.C98_monotone"
   ],
   "note": "Exact reals; interp1d as scipy documents it. mu and c_to_v_max2vir also in doubles, with a logarithm of stated accuracy."
  },
  {
   "property": "C99",
   "status": "proved",
   "theorems": [
    "Pyhipp.Plot.C99_apply",
    "Pyhipp.Plot.C99_tick_params_pair",
    "Pyhipp.Plot.C99_tick_part",
    "Pyhipp.Plot.C99_malformed",
    "Pyhipp.Plot.C99_fmt_frame",
    "Pyhipp.Plot.C99_shortcuts"
   ],
   "note": ""
  },
  {
   "property": "C100",
   "status": "proved",
   "theorems": [
    "Pyhipp.Plot.C100_unknown_setting",
    "Pyhipp.Plot.C100_history",
    "Pyhipp.Plot.C100_new",
    "Pyhipp.Plot.C100_marker_style_reset",
    "Pyhipp.Plot.C100_fmt",
    "Pyhipp.Plot.C100_fmt_kw",
    "Pyhipp.Plot.C100_plot",
    "Pyhipp.Plot.C100_scatter",
    "Pyhipp.Plot.C100_errorbar",
    "Pyhipp.Plot.C100_fills",
    "Pyhipp.Plot.C100_text",
    "Pyhipp.Plot.C100_text_coords",
    "Pyhipp.Plot.C100_bad_color",
    "Pyhipp.Plot.C100_last_draw"
   ],
   "note": ""
  },
  {
   "property": "C101",
   "status": "proved",
   "theorems": [
    "Pyhipp.Plot.C101_legend_location",
    "Pyhipp.Plot.C101_legend",
    "Pyhipp.Plot.C101_band",
    "Pyhipp.Plot.C101_band_shapes",
    "Pyhipp.Plot.C101_errorfill",
    "Pyhipp.Plot.C101_errorfill_kw",
    "Pyhipp.Plot.C101_errorfill_default"
   ],
   "note": ""
  },
  {
   "property": "C102",
   "status": "proved",
   "theorems": [
    "Pyhipp.Plot.C102_all",
    "Pyhipp.Plot.C102_effect",
    "Pyhipp.Plot.C102_zero_dim"
   ],
   "note": ""
  },
  {
   "property": "C103",
   "status": "proved",
   "theorems": [
    "Pyhipp.Plot.C103_subplots",
    "Pyhipp.Plot.C103_subplots_margin",
    "Pyhipp.Plot.C103_not_positive",
    "Pyhipp.Plot.C103_subfigures",
    "Pyhipp.Plot.C103_shortcut",
    "Pyhipp.Plot.C103_shortcut_subfigures",
    "Pyhipp.Plot.C103_figure",
    "Pyhipp.Plot.C103_colorbar"
   ],
   "note": ""
  },
  {
   "property": "C104",
   "status": "proved",
   "theorems": [
    "Pyhipp.Plot.C104_new",
    "Pyhipp.Plot.C104_history",
    "Pyhipp.Plot.C104_seq",
    "Pyhipp.Plot.C104_predefined",
    "Pyhipp.Plot.C104_from_cmap",
    "Pyhipp.Plot.C104_levels"
   ],
   "note": ""
  },
  {
   "property": "C105",
   "status": "proved",
   "theorems": [
    "Pyhipp.Lss.C105_density",
    "Pyhipp.Lss.C105_total",
    "Pyhipp.Lss.C105_maximum_dropped",
    "Pyhipp.Lss.C105_reject",
    "Pyhipp.Lss.C105_edges_ignore_quantiles",
    "Pyhipp.Lss.C105_outside_ignored",
    "Pyhipp.Lss.C105_is_bootstrap",
    "Pyhipp.Lss.C105_succeeds",
    "Pyhipp.Lss.C105_defaults",
    "Pyhipp.Lss.C105_range"
   ],
   "note": "Exact real arithmetic; np.quantile of an empty array (numpy-version dependent) is an error of unspecified kind; division by a zero width or volume is not covered."
  },
  {
   "property": "C106",
   "status": "proved",
   "theorems": [
    "Pyhipp.Plot.C106_secondary",
    "Pyhipp.Plot.C106_reject",
    "Pyhipp.Plot.C106_identical_defect",
    "Pyhipp.Plot.C106_redshift",
    "Pyhipp.Plot.C106_interp",
    "Pyhipp.Plot.C106_interp_reject",
    "Pyhipp.Plot.C106_polygon",
    "Pyhipp.Plot.C106_polygon_lengths"
   ],
   "note": "Only the default interp_kw (slinear, extrapolate) is modelled; matplotlib's acceptance of calls is an arbitrary predicate."
  },
  {
   "property": "C107",
   "status": "proved",
   "theorems": [
    "Pyhipp.H5.C107_group",
    "Pyhipp.H5.C107_file",
    "Pyhipp.H5.C107_unreadable",
    "Pyhipp.H5.C107_prefix",
    "Pyhipp.H5.C107_d_flag_ignored",
    "Pyhipp.H5.C107_x_overwrites",
    "Pyhipp.H5.C107_reject",
    "Pyhipp.H5.C107_frame"
   ],
   "note": "np.loadtxt's outcome is an argument of the model (a table of records or an error)."
  },
  {
   "property": "C108",
   "status": "proved",
   "theorems": [
    "Pyhipp.Repr.C108_dict",
    "Pyhipp.Repr.C108_order",
    "Pyhipp.Repr.C108_type_shadowed",
    "Pyhipp.Repr.C108_tuple",
    "Pyhipp.Repr.C108_error",
    "Pyhipp.Repr.C108_extra",
    "Pyhipp.Repr.C108_plain",
    "Pyhipp.Repr.C108_json",
    "Pyhipp.Repr.C108_json_error",
    "Pyhipp.Repr.C108_container_defect",
    "Pyhipp.Repr.C108_example"
   ],
   "note": "value trees; json acceptance only, text layout not modelled; cyclic object graphs not modelled"
  },
  {
   "property": "C109",
   "status": "proved",
   "theorems": [
    "Pyhipp.Repr.C109_name",
    "Pyhipp.Repr.C109_state",
    "Pyhipp.Repr.C109_output",
    "Pyhipp.Repr.C109_silent",
    "Pyhipp.Repr.C109_line"
   ],
   "note": "print text exact, time string is an input"
  },
  {
   "property": "C110",
   "status": "proved",
   "theorems": [
    "Pyhipp.Summary.C110_frozen",
    "Pyhipp.Summary.C110_fresh",
    "Pyhipp.Summary.C110_size",
    "Pyhipp.Summary.C110_nested",
    "Pyhipp.Summary.C110_moments",
    "Pyhipp.Summary.C110_empty",
    "Pyhipp.Summary.C110_repr",
    "Pyhipp.Summary.C110_json_defect"
   ],
   "note": "real arithmetic; numpy mean/std/quantile as defined"
  },
  {
   "property": "C111",
   "status": "proved",
   "theorems": [
    "Pyhipp.LCDM.C111_accepts",
    "Pyhipp.LCDM.C111_parameters",
    "Pyhipp.LCDM.C111_astropy",
    "Pyhipp.LCDM.C111_conf",
    "Pyhipp.LCDM.C111_conf_errors",
    "Pyhipp.LCDM.C111_data_dir",
    "Pyhipp.LCDM.C111_conf_model",
    "Pyhipp.LCDM.C111_stale",
    "Pyhipp.LCDM.C111_predefined",
    "Pyhipp.LCDM.C111_import",
    "Pyhipp.LCDM.C111_tng"
   ],
   "note": "Construction of LambdaCDM, configuration files, predefined models."
  },
  {
   "property": "C112",
   "status": "proved",
   "theorems": [
    "Pyhipp.LCDM.C112_budget",
    "Pyhipp.LCDM.C112_today",
    "Pyhipp.LCDM.C112_dark_energy",
    "Pyhipp.LCDM.C112_example",
    "Pyhipp.LCDM.C112_dilution",
    "Pyhipp.LCDM.C112_virial",
    "Pyhipp.LCDM.C112_hubble",
    "Pyhipp.LCDM.C112_big_hubble0"
   ],
   "note": "Over the reals; astropy's FlatLambdaCDM by its documented formulas."
  },
  {
   "property": "C113",
   "status": "proved",
   "theorems": [
    "Pyhipp.LCDM.C113_comoving",
    "Pyhipp.LCDM.C113_times",
    "Pyhipp.LCDM.C113_monotone",
    "Pyhipp.LCDM.C113_distances",
    "Pyhipp.LCDM.C113_age",
    "Pyhipp.LCDM.C113_inverse",
    "Pyhipp.LCDM.C113_roundtrip"
   ],
   "note": "Integrals are exact; astropy's root finder by its specification."
  },
  {
   "property": "C114",
   "status": "proved",
   "theorems": [
    "Pyhipp.LCDM.C114_sent",
    "Pyhipp.LCDM.C114_unknown",
    "Pyhipp.LCDM.C114_mutation",
    "Pyhipp.LCDM.C114_shared_default",
    "Pyhipp.LCDM.C114_cosmology_ignored",
    "Pyhipp.LCDM.C114_grid"
   ],
   "note": "hmf by its documented grid; two recorded defects."
  },
  {
   "property": "C115",
   "status": "proved",
   "theorems": [
    "Pyhipp.LCDM.C115_load",
    "Pyhipp.LCDM.C115_frozen",
    "Pyhipp.LCDM.C115_values",
    "Pyhipp.LCDM.C115_tables",
    "Pyhipp.LCDM.C115_shared",
    "Pyhipp.LCDM.C115_info",
    "Pyhipp.LCDM.C115_repr"
   ],
   "note": "scipy interp1d by its documented behaviour."
  },
  {
   "property": "C116",
   "status": "proved",
   "theorems": [
    "Pyhipp.KernelReg.C116_local",
    "Pyhipp.KernelReg.C116_symmetric",
    "Pyhipp.KernelReg.C116_train_order",
    "Pyhipp.KernelReg.C116_knn",
    "Pyhipp.KernelReg.C116_reject",
    "Pyhipp.KernelReg.C116_column",
    "Pyhipp.KernelReg.C116_default_radius_defect",
    "Pyhipp.KernelReg.C116_batch_defect"
   ],
   "note": "Contract of scipy's cKDTree is a hypothesis (KD.OK); reals."
  },
  {
   "property": "C117",
   "status": "proved",
   "theorems": [
    "Pyhipp.KernelReg.C117_local",
    "Pyhipp.KernelReg.C117_zero_volume",
    "Pyhipp.KernelReg.C117_knn"
   ],
   "note": "As C116; exact arithmetic."
  },
  {
   "property": "C118",
   "status": "proved",
   "theorems": [
    "Pyhipp.ReduceSpec.C118_name",
    "Pyhipp.ReduceSpec.C118_pair",
    "Pyhipp.ReduceSpec.C118_object",
    "Pyhipp.ReduceSpec.C118_unknown",
    "Pyhipp.ReduceSpec.C118_collection",
    "Pyhipp.ReduceSpec.C118_tuple_defect",
    "Pyhipp.ReduceSpec.C118_tuple_error",
    "Pyhipp.ReduceSpec.C118_mapping_defect",
    "Pyhipp.ReduceSpec.C118_slash",
    "Pyhipp.ReduceSpec.C118_pair_bad_name"
   ],
   "note": "Constructors of the reduction classes are abstract."
  },
  {
   "property": "C119",
   "status": "proved",
   "theorems": [
    "Pyhipp.ArrayRef.C119_copy",
    "Pyhipp.ArrayRef.C119_sequence",
    "Pyhipp.ArrayRef.C119_full",
    "Pyhipp.ArrayRef.C119_reference",
    "Pyhipp.ArrayRef.C119_set_value",
    "Pyhipp.ArrayRef.C119_set_value_shape",
    "Pyhipp.ArrayRef.C119_history",
    "Pyhipp.ArrayRef.C119_alias",
    "Pyhipp.ArrayRef.C119_as_array",
    "Pyhipp.ArrayRef.C119_contiguous"
   ],
   "note": "float64 arrays; set_value for numbers and equal shapes (numpy broadcasting not modelled)."
  },
  {
   "property": "C120",
   "status": "proved",
   "theorems": [
    "Pyhipp.ArrayRef.C120_field",
    "Pyhipp.ArrayRef.C120_copied",
    "Pyhipp.ArrayRef.C120_zeros"
   ],
   "note": "float64 data."
  },
  {
   "property": "C121",
   "status": "proved",
   "theorems": [
    "Pyhipp.FloatBins.C121_range",
    "Pyhipp.FloatBins.C121_monotone",
    "Pyhipp.FloatBins.C121_lower",
    "Pyhipp.FloatBins.C121_interior",
    "Pyhipp.FloatBins.C121_upper",
    "Pyhipp.FloatBins.C121_upper_pow2",
    "Pyhipp.FloatBins.C121_upper_defect",
    "Pyhipp.FloatBins.C121_edge_defect",
    "Pyhipp.FloatBins.C121_huge_defect",
    "Pyhipp.FloatBins.C121_tiny_defect",
    "Pyhipp.FloatBins.C121_rounding"
   ],
   "note": "Bins of finite doubles, at most 2^50 bins, no overflow or underflow; the machine's conversion of out-of-range values is a parameter."
  },
  {
   "property": "C122",
   "status": "proved",
   "theorems": [
    "Pyhipp.FloatBox.C122_shift_in",
    "Pyhipp.FloatBox.C122_shift_in_idem",
    "Pyhipp.FloatBox.C122_shift_in_special",
    "Pyhipp.FloatBox.C122_shift_in_array",
    "Pyhipp.FloatBox.C122_test_bound",
    "Pyhipp.FloatBox.C122_then_test_bound",
    "Pyhipp.FloatBox.C122_tiny_negative",
    "Pyhipp.FloatBox.C122_far",
    "Pyhipp.FloatBox.C122_shift_to",
    "Pyhipp.FloatBox.C122_nearest",
    "Pyhipp.FloatBox.C122_shift_to_array"
   ],
   "note": "shift_to for positions and references of the box, box sizes from 2^-1021 to 2^1022."
  },
  {
   "property": "C123",
   "status": "proved",
   "theorems": [
    "Pyhipp.FloatMesh.C123_index",
    "Pyhipp.FloatMesh.C123_table",
    "Pyhipp.FloatMesh.C123_monotone",
    "Pyhipp.FloatMesh.C123_complete",
    "Pyhipp.FloatMesh.C123_complete_periodic",
    "Pyhipp.FloatMesh.C123_sound",
    "Pyhipp.FloatMesh.C123_stored",
    "Pyhipp.FloatMesh.C123_periodic_defect",
    "Pyhipp.FloatMesh.C123_nearest_node"
   ],
   "note": "Error margins are explicit; at most 2^20 cells per side so that n^3 fits into int64."
  },
  {
   "property": "C124",
   "status": "proved",
   "theorems": [
    "Pyhipp.FloatMesh.C124_weights",
    "Pyhipp.FloatMesh.C124_deposits",
    "Pyhipp.FloatMesh.C124_conserve",
    "Pyhipp.FloatMesh.C124_add",
    "Pyhipp.FloatMesh.C124_tiny_negative"
   ],
   "note": "Masses are 0 or at least 2^-800; no fused multiply-add (numba compiles without fastmath)."
  },
  {
   "property": "C125",
   "status": "proved",
   "theorems": [
    "Pyhipp.FloatHist.C125_weighted",
    "Pyhipp.FloatHist.C125_unweighted",
    "Pyhipp.FloatHist.C125_batches",
    "Pyhipp.FloatHist.C125_error",
    "Pyhipp.FloatHist.C125_integers",
    "Pyhipp.FloatHist.C125_counts",
    "Pyhipp.FloatHist.C125_saturation",
    "Pyhipp.FloatHist.C125_history",
    "Pyhipp.FloatHist.C125_edge_defect"
   ],
   "note": "default dtype (float) and shape; sequential accumulation as written in the numba loop (no reassociation: fastmath is off)"
  },
  {
   "property": "C126",
   "status": "proved",
   "theorems": [
    "Pyhipp.FloatMesh.C126_weighted",
    "Pyhipp.FloatMesh.C126_trilinear",
    "Pyhipp.FloatMesh.C126_between",
    "Pyhipp.FloatMesh.C126_nan",
    "Pyhipp.FloatMesh.C126_node",
    "Pyhipp.FloatMesh.C126_rows"
   ],
   "note": "float64 fields; data values 0 or at least 2^-800 in size and at most 2^1000"
  },
  {
   "property": "C127",
   "status": "proved",
   "theorems": [
    "Pyhipp.F32.C127_rounding",
    "Pyhipp.FloatWeb.C127_init",
    "Pyhipp.FloatWeb.C127_accepts",
    "Pyhipp.FloatWeb.C127_nan",
    "Pyhipp.FloatWeb.C127_largest",
    "Pyhipp.FloatWeb.C127_threshold",
    "Pyhipp.FloatWeb.C127_default",
    "Pyhipp.FloatWeb.C127_at",
    "Pyhipp.FloatWeb.C127_nearest",
    "Pyhipp.FloatWeb.C127_names",
    "Pyhipp.FloatWeb.C127_grid_points",
    "Pyhipp.FloatWeb.C127_fraction",
    "Pyhipp.FloatWeb.C127_from_file",
    "Pyhipp.FloatWeb.C127_from_file_integers",
    "Pyhipp.FloatWeb.C127_from_file_scalars",
    "Pyhipp.FloatWeb.C127_from_file_missing",
    "Pyhipp.FloatWeb.C127_density_from_file",
    "Pyhipp.FloatWeb.C127_tiny"
   ],
   "note": "Base/Float32, Model/FloatWeb. Thresholds given as numpy float64 scalars (numpy >= 2 compares them in float64) are covered by C127_init and C127_largest."
  },
  {
   "property": "C128",
   "status": "proved",
   "theorems": [
    "Pyhipp.FloatLinear.C128_search",
    "Pyhipp.FloatLinear.C128_linear",
    "Pyhipp.FloatLinear.C128_range",
    "Pyhipp.FloatLinear.C128_node",
    "Pyhipp.FloatLinear.C128_outside",
    "Pyhipp.FloatLinear.C128_nan",
    "Pyhipp.FloatLinear.C128_inf",
    "Pyhipp.FloatLinear.C128_fix_oob",
    "Pyhipp.FloatLinear.C128_nearest",
    "Pyhipp.FloatLinear.C128_init",
    "Pyhipp.FloatLinear.C128_derivative",
    "Pyhipp.FloatLinear.C128_zero_division"
   ],
   "note": "Model/FloatLinear. Positive and negative zero are not distinguished; numba compiles without fastmath (no fused multiply-add, no reassociation)."
  },
  {
   "property": "C129",
   "status": "proved",
   "theorems": [
    "Pyhipp.TwoDim.C129_mesh",
    "Pyhipp.TwoDim.C129_mesh_cells",
    "Pyhipp.TwoDim.C129_contour",
    "Pyhipp.TwoDim.C129_order",
    "Pyhipp.TwoDim.C129_default",
    "Pyhipp.TwoDim.C129_peak",
    "Pyhipp.TwoDim.C129_cmap",
    "Pyhipp.TwoDim.C129_widths",
    "Pyhipp.TwoDim.C129_styles",
    "Pyhipp.TwoDim.C129_no_fractions",
    "Pyhipp.TwoDim.C129_fill",
    "Pyhipp.TwoDim.C129_fill_one",
    "Pyhipp.TwoDim.C129_small",
    "Pyhipp.TwoDim.C129_history"
   ],
   "note": "matplotlib's checks (either colors or cmap, at least 2 x 2, strictly increasing levels, two levels for contourf) are part of the model, its other checks are not; numbers are those of an ordered field."
  },
  {
   "property": "C130",
   "status": "proved",
   "theorems": [
    "Pyhipp.TableStack.C130_col_stacked",
    "Pyhipp.TableStack.C130_col_stacked_errors",
    "Pyhipp.TableStack.C130_row_stacked",
    "Pyhipp.TableStack.C130_row_stacked_mixed",
    "Pyhipp.TableStack.C130_row_stacked_mixes"
   ],
   "note": "np.column_stack and np.row_stack are modelled after numpy, dtypes are left out; columns of more than two dimensions are covered by the model but not by the theorems."
  },
  {
   "property": "C131",
   "status": "proved",
   "theorems": [
    "Pyhipp.GridMake.C131_complex",
    "Pyhipp.GridMake.C131_complex_ends",
    "Pyhipp.GridMake.C131_complex_bad",
    "Pyhipp.GridMake.C131_complex_fraction",
    "Pyhipp.GridMake.C131_real",
    "Pyhipp.GridMake.C131_real_bad",
    "Pyhipp.GridMake.C131_real_negative",
    "Pyhipp.GridMake.C131_copy",
    "Pyhipp.GridMake.C131_at",
    "Pyhipp.GridMake.C131_range",
    "Pyhipp.GridMake.C131_range_scalar",
    "Pyhipp.GridMake.C131_range_covers",
    "Pyhipp.GridMake.C131_range_bad",
    "Pyhipp.GridMake.C131_locate"
   ],
   "note": "Numbers are elements of an ordered field (no rounding; np.arange's length near an exact multiple of the step can differ by rounding). np.quantile of an empty array is not covered."
  },
  {
   "property": "C132",
   "status": "proved",
   "theorems": [
    "Pyhipp.FloatReduce.C132_shapes",
    "Pyhipp.FloatReduce.C132_refused",
    "Pyhipp.FloatReduce.C132_sum",
    "Pyhipp.FloatReduce.C132_integers",
    "Pyhipp.FloatReduce.C132_nan",
    "Pyhipp.FloatReduce.C132_empty",
    "Pyhipp.FloatReduce.C132_empty_sd",
    "Pyhipp.FloatReduce.C132_mean",
    "Pyhipp.FloatReduce.C132_range",
    "Pyhipp.FloatReduce.C132_nonneg",
    "Pyhipp.FloatReduce.C132_weighted",
    "Pyhipp.FloatReduce.C132_zero_weights",
    "Pyhipp.FloatReduce.C132_monotone",
    "Pyhipp.FloatReduce.C132_sd",
    "Pyhipp.FloatReduce.C132_constant",
    "Pyhipp.FloatReduce.C132_weighted_all",
    "Pyhipp.FloatReduce.C132_weighted_sd"
   ],
   "note": "One-dimensional arrays; signed zeros are not distinguished; the machine's square root is a parameter; hypotheses on size exclude overflow."
  },
  {
   "property": "C133",
   "status": "proved",
   "theorems": [
    "Pyhipp.AxesView.C133_new",
    "Pyhipp.AxesView.C133_copy",
    "Pyhipp.AxesView.C133_T",
    "Pyhipp.AxesView.C133_flat",
    "Pyhipp.AxesView.C133_nested",
    "Pyhipp.AxesView.C133_index",
    "Pyhipp.AxesView.C133_index_error",
    "Pyhipp.AxesView.C133_integer",
    "Pyhipp.AxesView.C133_slices",
    "Pyhipp.AxesView.C133_step",
    "Pyhipp.AxesView.C133_dims",
    "Pyhipp.AxesView.C133_len",
    "Pyhipp.AxesView.C133_row",
    "Pyhipp.AxesView.C133_iter",
    "Pyhipp.AxesView.C133_subplots",
    "Pyhipp.AxesView.C133_subplots_place",
    "Pyhipp.AxesView.C133_subplots_empty"
   ],
   "note": "Arrays of any dimension; numpy's basic indexing is modelled (integers and slices; no Ellipsis, newaxis, or index arrays). Creation of a wrapper is a new identity."
  },
  {
   "property": "C134",
   "status": "proved",
   "theorems": [
    "Pyhipp.AttrAccess.C134_access",
    "Pyhipp.AttrAccess.C134_dir",
    "Pyhipp.AttrAccess.C134_classes",
    "Pyhipp.AttrAccess.C134_init",
    "Pyhipp.AttrAccess.C134_setattr",
    "Pyhipp.AttrAccess.C134_recursion",
    "Pyhipp.AttrAccess.C134_copy_defect",
    "Pyhipp.AttrAccess.C134_shadow",
    "Pyhipp.AttrAccess.C134_hidden",
    "Pyhipp.AttrAccess.C134_len"
   ],
   "note": "For every name, item and recursion limit; RecursionError is written runtimeError (its base class)."
  },
  {
   "property": "C135",
   "status": "proved",
   "theorems": [
    "Pyhipp.H5.C135_get",
    "Pyhipp.H5.C135_iterate",
    "Pyhipp.H5.C135_dict",
    "Pyhipp.H5.C135_ok",
    "Pyhipp.H5.C135_missing",
    "Pyhipp.H5.C135_len",
    "Pyhipp.H5.C135_datasets_defect",
    "Pyhipp.H5.C135_keylist"
   ],
   "note": "For all trees; the defects (no iteration, no length of DatasetManager) are theorems."
  },
  {
   "property": "C136",
   "status": "proved",
   "theorems": [
    "Pyhipp.DataDict.C136_popitem",
    "Pyhipp.DataDict.C136_popitem_empty",
    "Pyhipp.DataDict.C136_popitem_all",
    "Pyhipp.DataDict.C136_popitem_too_many",
    "Pyhipp.DataDict.C136_slash_untouched",
    "Pyhipp.DataDict.C136_popitem_slash",
    "Pyhipp.DataDict.C136_popitem_path",
    "Pyhipp.DataDict.C136_equivalence",
    "Pyhipp.DataDict.C136_eq",
    "Pyhipp.DataDict.C136_eq_shared",
    "Pyhipp.DataDict.C136_eq_cyclic",
    "Pyhipp.DataDict.C136_copy_equal",
    "Pyhipp.DataTable.C136_table_popitem",
    "Pyhipp.DataTable.C136_table_popitem_all",
    "Pyhipp.DataTable.C136_table_popitem_too_many",
    "Pyhipp.DataTable.C136_table_get_pop",
    "Pyhipp.DataTable.C136_table_setdefault",
    "Pyhipp.DataTable.C136_table_eq_defect",
    "Pyhipp.DataTable.C136_table_eq_self",
    "Pyhipp.DataTable.C136_table_eq_one_row"
   ],
   "note": "Atoms have a decidable reflexive equality; the identity of tuples is not modelled."
  },
  {
   "property": "C137",
   "status": "proved",
   "theorems": [
    "Pyhipp.Int64.C137_offset_exact",
    "Pyhipp.Int64.C137_offset_total",
    "Pyhipp.Int64.C137_offset_overflow",
    "Pyhipp.Int64.C137_unsigned_slice",
    "Pyhipp.Int64.C137_signed_slice",
    "Pyhipp.Int64.C137_slice_end",
    "Pyhipp.Int64.C137_unsigned_exact",
    "Pyhipp.Int64.C137_unsigned_rounded",
    "Pyhipp.Int64.C137_cell_exact",
    "Pyhipp.Int64.C137_mesh",
    "Pyhipp.Int64.C137_total",
    "Pyhipp.Int64.C137_overflow",
    "Pyhipp.Int64.C137_right"
   ],
   "note": "numpy's default integer taken as 64 bits."
  },
  {
   "property": "C138",
   "status": "proved",
   "theorems": [
    "Pyhipp.FloatQuantile.C138_quantile",
    "Pyhipp.FloatQuantile.C138_nan",
    "Pyhipp.FloatQuantile.C138_invalid",
    "Pyhipp.FloatQuantile.C138_median",
    "Pyhipp.FloatQuantile.C138_errorbar",
    "Pyhipp.FloatQuantile.C138_errorbar_other",
    "Pyhipp.FloatQuantile.C138_errorbar_sigmas"
   ],
   "note": "numpy's quantile (method linear) and median written out; sorting as a stable merge sort."
  },
  {
   "property": "C139",
   "status": "proved",
   "theorems": [
    "Pyhipp.FloatQuantile.C139_quantile",
    "Pyhipp.FloatQuantile.C139_median",
    "Pyhipp.FloatQuantile.C139_errorbar",
    "Pyhipp.FloatQuantile.C139_one",
    "Pyhipp.FloatQuantile.C139_zero_weights",
    "Pyhipp.FloatQuantile.C139_not_exact"
   ],
   "note": "For probabilities p <= 0 or p >= 2^-60 (every value in ps_map is) and elements up to 2^900; the search of np.interp and argsort enter through their contracts on finite input, an instance of which is given."
  },
  {
   "property": "C140",
   "status": "proved",
   "theorems": [
    "Pyhipp.FloatBilinear.C140_bilinear",
    "Pyhipp.FloatBilinear.C140_cell",
    "Pyhipp.FloatBilinear.C140_range",
    "Pyhipp.FloatBilinear.C140_nodes",
    "Pyhipp.FloatBilinear.C140_inf"
   ],
   "note": "Table entries are scalars (two-dimensional y); doubles without signed zeros."
  },
  {
   "property": "C141",
   "status": "proved",
   "theorems": [
    "Pyhipp.FloatNum.C141_normalize",
    "Pyhipp.FloatNum.C141_unit",
    "Pyhipp.FloatNum.C141_huge",
    "Pyhipp.FloatNum.C141_nan",
    "Pyhipp.FloatNum.C141_safe_div",
    "Pyhipp.FloatNum.C141_negative"
   ],
   "note": "numpy.linalg.norm along an axis taken as sqrt(add.reduce(x*x)); doubles without signed zeros."
  },
  {
   "property": "C142",
   "status": "proved",
   "theorems": [
    "Pyhipp.FloatStandardize.C142_round_trip",
    "Pyhipp.FloatStandardize.C142_round_trip_back",
    "Pyhipp.FloatStandardize.C142_train",
    "Pyhipp.FloatStandardize.C142_standardised",
    "Pyhipp.FloatStandardize.C142_constant"
   ],
   "note": "Column by column (broadcasting not modelled); doubles without signed zeros; numpy's mean and std written out."
  },
  {
   "property": "C143",
   "status": "proved",
   "theorems": [
    "Pyhipp.FloatCoords.C143_dms",
    "Pyhipp.FloatCoords.C143_hms",
    "Pyhipp.FloatCoords.C143_monotone",
    "Pyhipp.FloatCoords.C143_dms_range",
    "Pyhipp.FloatCoords.C143_hms_range",
    "Pyhipp.FloatCoords.C143_full_turn",
    "Pyhipp.FloatCoords.C143_order",
    "Pyhipp.FloatCoords.C143_order_defect",
    "Pyhipp.FloatCoords.C143_exact",
    "Pyhipp.FloatCoords.C143_nan",
    "Pyhipp.FloatCoords.C143_fields",
    "Pyhipp.FloatCoords.C143_text_error",
    "Pyhipp.FloatCoords.C143_text",
    "Pyhipp.FloatCoords.C143_text_hms"
   ],
   "note": "float(text) is correctly rounded decimal notation (no exponents, inf, nan); signed zeros are one zero."
  },
  {
   "property": "C144",
   "status": "proved",
   "theorems": [
    "Pyhipp.FloatContour.C144_encloses",
    "Pyhipp.FloatContour.C144_scatter",
    "Pyhipp.FloatContour.C144_nan",
    "Pyhipp.FloatContour.C144_minus_inf",
    "Pyhipp.FloatContour.C144_empty",
    "Pyhipp.FloatContour.C144_zero"
   ],
   "note": "np.searchsorted and np.sort by their contracts (NaN last); the densities themselves are given."
  },
  {
   "property": "C145",
   "status": "proved",
   "theorems": [
    "Pyhipp.DataDict.C145_becomes",
    "Pyhipp.DataDict.C145_succeeds",
    "Pyhipp.DataDict.C145_cycle",
    "Pyhipp.DataDict.C145_paths",
    "Pyhipp.DataDict.C145_sharing",
    "Pyhipp.DataDict.C145_hidden"
   ],
   "note": "Leaves are opaque: their own conversion is a parameter and allocates nothing visible here; RecursionError is the RuntimeError of the model."
  },
  {
   "property": "C146",
   "status": "proved",
   "theorems": [
    "Pyhipp.FloatGrid.C146_accepted",
    "Pyhipp.FloatGrid.C146_single_nan",
    "Pyhipp.FloatGrid.C146_locate",
    "Pyhipp.FloatGrid.C146_center",
    "Pyhipp.FloatGrid.C146_centers",
    "Pyhipp.FloatGrid.C146_no_centers",
    "Pyhipp.FloatGrid.C146_centers_overflow",
    "Pyhipp.FloatGrid.C146_linspace",
    "Pyhipp.FloatGrid.C146_linspace_subnormal",
    "Pyhipp.FloatGrid.C146_linspace_overflow",
    "Pyhipp.FloatGrid.C146_mgrid",
    "Pyhipp.FloatGrid.C146_mgrid_short",
    "Pyhipp.FloatGrid.C146_from_data_range",
    "Pyhipp.FloatGrid.C146_from_data_range_covers",
    "Pyhipp.FloatGrid.C146_from_nan",
    "Pyhipp.FloatGrid.C146_reversed",
    "Pyhipp.FloatGrid.C146_arange",
    "Pyhipp.FloatGrid.C146_arange_past_stop",
    "Pyhipp.FloatGrid.C146_arange_empty"
   ],
   "note": "One axis at a time; np.searchsorted by its contract for ordered arrays; quantiles as in C138; the size limits are hypotheses of the theorems."
  },
  {
   "property": "C147",
   "status": "proved",
   "theorems": [
    "Pyhipp.Cosmology.C147_wiggles",
    "Pyhipp.Cosmology.C147_plain",
    "Pyhipp.Cosmology.C147_power",
    "Pyhipp.Cosmology.C147_amplitude"
   ],
   "note": "continuity at k = 0, limits on large and small scales, bounds 1/k, large-scale power law and its amplitude"
  },
  {
   "property": "C148",
   "status": "proved",
   "theorems": [
    "Pyhipp.ConcreteRepr.C148_params",
    "Pyhipp.ConcreteRepr.C148_lcdm",
    "Pyhipp.ConcreteRepr.C148_lcdm_error",
    "Pyhipp.ConcreteRepr.C148_lcdm_restore",
    "Pyhipp.ConcreteRepr.C148_lcdm_changed",
    "Pyhipp.ConcreteRepr.C148_lcdm_conf_defect",
    "Pyhipp.ConcreteRepr.C148_predefined",
    "Pyhipp.ConcreteRepr.C148_equal",
    "Pyhipp.ConcreteRepr.C148_equal_tuple",
    "Pyhipp.ConcreteRepr.C148_bisearch",
    "Pyhipp.ConcreteRepr.C148_binned",
    "Pyhipp.ConcreteRepr.C148_group"
   ],
   "note": "Numbers are exact; that representations share the meta dictionary, arrays and matrices with the object is not expressed."
  },
  {
   "property": "C149",
   "status": "proved",
   "theorems": [
    "Pyhipp.FloatSubBins.C149_combine",
    "Pyhipp.FloatSubBins.C149_combine_error",
    "Pyhipp.FloatSubBins.C149_combine_integers",
    "Pyhipp.FloatSubBins.C149_widths",
    "Pyhipp.FloatSubBins.C149_centers",
    "Pyhipp.FloatSubBins.C149_center_overflow",
    "Pyhipp.FloatSubBins.C149_insert",
    "Pyhipp.FloatSubBins.C149_insert_one",
    "Pyhipp.FloatSubBins.C149_insert_subnormal",
    "Pyhipp.FloatSubBins.C149_repeated_edge",
    "Pyhipp.FloatSubBins.C149_overlap",
    "Pyhipp.FloatSubBins.C149_refine",
    "Pyhipp.FloatSubBins.C149_equal_bins",
    "Pyhipp.FloatSubBins.C149_edges"
   ],
   "note": "Model/FloatSubBins: combine_adjacent_bins, edges_to_centers, edges_to_widths, insert_sub_bins_into_edges and from_overlapped_bins without weights over the doubles of Base/Float64; np.histogram by its contract; weighted overlapping histograms are covered over exact numbers (C43) and through C149_combine_error once the sub-bin weights are given"
  },
  {
   "property": "C150",
   "status": "proved",
   "theorems": [
    "Pyhipp.HistDensity.C150_cases",
    "Pyhipp.HistDensity.C150_call",
    "Pyhipp.HistDensity.C150_value",
    "Pyhipp.HistDensity.C150_pointwise",
    "Pyhipp.HistDensity.C150_extra_columns",
    "Pyhipp.HistDensity.C150_fewer_columns",
    "Pyhipp.HistDensity.C150_refused",
    "Pyhipp.HistDensity.C150_data_order",
    "Pyhipp.HistDensity.C150_weight_scale",
    "Pyhipp.HistDensity.C150_additive"
   ],
   "note": "by_histogram front end with all array shapes; the missing check of query columns recorded"
  },
  {
   "property": "C151",
   "status": "proved",
   "theorems": [
    "Pyhipp.FloatHistDensity.C151_counts",
    "Pyhipp.FloatHistDensity.C151_weights",
    "Pyhipp.FloatHistDensity.C151_integers",
    "Pyhipp.FloatHistDensity.C151_density",
    "Pyhipp.FloatHistDensity.C151_integral",
    "Pyhipp.FloatHistDensity.C151_eval",
    "Pyhipp.FloatHistDensity.C151_weighted_density",
    "Pyhipp.FloatHistDensity.C151_weighted_integral"
   ],
   "note": "np.histogramdd arithmetic modelled in double precision; underflow and overflow of the quotients excluded by hypothesis"
  },
  {
   "property": "C152",
   "status": "proved",
   "theorems": [
    "Pyhipp.RngArrays.C152_lg_normal",
    "Pyhipp.RngArrays.C152_draws",
    "Pyhipp.RngArrays.C152_jit",
    "Pyhipp.RngArrays.C152_sphere",
    "Pyhipp.RngArrays.C152_circle",
    "Pyhipp.RngArrays.C152_forward"
   ],
   "note": "numpy Generator abstract, with the stated contract on shapes and ranges; real numbers"
  },
  {
   "property": "C153",
   "status": "proved",
   "theorems": [
    "Pyhipp.FloatOverlap.C153_equal_bins",
    "Pyhipp.FloatOverlap.C153_edges",
    "Pyhipp.FloatOverlap.C153_integers",
    "Pyhipp.FloatOverlap.C153_refused",
    "Pyhipp.FloatOverlap.C153_nan",
    "Pyhipp.FloatOverlap.C153_absorbed"
   ],
   "note": "doubles; the sort of np.histogram is a parameter; searchsorted and the bin of a sample by their contracts"
  },
  {
   "property": "C154",
   "status": "proved",
   "theorems": [
    "Pyhipp.FloatVolume.C154_counts",
    "Pyhipp.FloatVolume.C154_weights",
    "Pyhipp.FloatVolume.C154_weighted_density",
    "Pyhipp.FloatVolume.C154_total"
   ],
   "note": "np.log10 is a parameter; np.histogram by its contract (counts) or written out (weights)"
  },
  {
   "property": "C155",
   "status": "proved",
   "theorems": [
    "Pyhipp.TrailingAxes.C155_interp",
    "Pyhipp.TrailingAxes.C155_interp_2d",
    "Pyhipp.TrailingAxes.C155_combine",
    "Pyhipp.TrailingAxes.C155_add",
    "Pyhipp.TrailingAxes.C155_histogram"
   ],
   "note": "exact arithmetic; trailing axes flattened in C order"
  },
  {
   "property": "C156",
   "status": "proved",
   "theorems": [
    "Pyhipp.MaskMemory.C156_on_array",
    "Pyhipp.MaskMemory.C156_isolated",
    "Pyhipp.MaskMemory.C156_shared",
    "Pyhipp.MaskMemory.C156_on_arrays",
    "Pyhipp.MaskMemory.C156_on_dict",
    "Pyhipp.MaskMemory.C156_subset"
   ],
   "note": "scalar integer selections (which drop the axis) are not modelled"
  },
  {
   "property": "C157",
   "status": "proved",
   "theorems": [
    "Pyhipp.FloatCosmology.C157_accuracy",
    "Pyhipp.FloatCosmology.C157_today",
    "Pyhipp.FloatCosmology.C157_budget",
    "Pyhipp.FloatCosmology.C157_monotone",
    "Pyhipp.FloatCosmology.C157_scale",
    "Pyhipp.FloatCosmology.C157_future",
    "Pyhipp.FloatCosmology.C157_scalar",
    "Pyhipp.FloatCosmology.C157_densities",
    "Pyhipp.FloatCosmology.C157_special",
    "Pyhipp.FloatCosmology.C157_hubble",
    "Pyhipp.FloatCosmology.C157_baryons",
    "Pyhipp.FloatCosmology.C157_scalar_ok"
   ],
   "note": "numba's x**3 is x*(x*x); the critical density today is a parameter; the conversions between mass and radius (cube roots) are not part of it."
  },
  {
   "property": "C158",
   "status": "proved",
   "theorems": [
    "Pyhipp.FloatContrast.C158_refused",
    "Pyhipp.FloatContrast.C158_void",
    "Pyhipp.FloatContrast.C158_values",
    "Pyhipp.FloatContrast.C158_nan",
    "Pyhipp.FloatContrast.C158_inf",
    "Pyhipp.FloatContrast.C158_counts",
    "Pyhipp.FloatContrast.C158_uniform"
   ],
   "note": "grids without cells are not modelled; rounding to nearest throughout"
  },
  {
   "property": "C159",
   "status": "proved",
   "theorems": [
    "Pyhipp.FloatKernel.C159_gaussian",
    "Pyhipp.FloatKernel.C159_nearer",
    "Pyhipp.FloatKernel.C159_tiny",
    "Pyhipp.FloatKernel.C159_tophat",
    "Pyhipp.FloatKernel.C159_far",
    "Pyhipp.FloatKernel.C159_volume",
    "Pyhipp.FloatKernel.C159_fraction",
    "Pyhipp.FloatKernel.C159_more",
    "Pyhipp.FloatKernel.C159_counts",
    "Pyhipp.FloatKernel.C159_thin"
   ],
   "note": "np.exp is a parameter with the stated properties; kd-tree results are parameters"
  },
  {
   "property": "C160",
   "status": "proved",
   "theorems": [
    "Pyhipp.FloatNeighbour.C160_knn",
    "Pyhipp.FloatNeighbour.C160_local",
    "Pyhipp.FloatNeighbour.C160_knn_kernel",
    "Pyhipp.FloatNeighbour.C160_local_kernel",
    "Pyhipp.FloatNeighbour.C160_radius",
    "Pyhipp.FloatNeighbour.C160_coincide",
    "Pyhipp.FloatNeighbour.C160_far",
    "Pyhipp.FloatNeighbour.C160_weights_none",
    "Pyhipp.FloatNeighbour.C160_weights",
    "Pyhipp.FloatNeighbour.C160_weights_zero",
    "Pyhipp.FloatNeighbour.C160_unweighted",
    "Pyhipp.FloatNeighbour.C160_none"
   ],
   "note": "The kd-tree query (distances, indices) is a parameter; one query point at a time. Default max_dx (a tenth of the mean standard deviation) is not computed here."
  },
  {
   "property": "C161",
   "status": "proved",
   "theorems": [
    "Pyhipp.FloatUnits.C161_units",
    "Pyhipp.FloatUnits.C161_constants",
    "Pyhipp.FloatUnits.C161_cosmology",
    "Pyhipp.FloatUnits.C161_crit0",
    "Pyhipp.FloatUnits.C161_mass",
    "Pyhipp.FloatUnits.C161_round_trip",
    "Pyhipp.FloatUnits.C161_zero",
    "Pyhipp.FloatUnits.C161_tiny",
    "Pyhipp.FloatUnits.C161_overflow",
    "Pyhipp.FloatUnits.C161_pi"
   ],
   "note": "Every field of the unit system, critical density, mass-radius conversion; exact set of refused arguments. The cube root of the C library is a parameter of which the accuracy is assumed."
  },
  {
   "property": "C162",
   "status": "proved",
   "theorems": [
    "Pyhipp.FloatHalo.C162_virial",
    "Pyhipp.FloatHalo.C162_dynamical_time",
    "Pyhipp.FloatHalo.C162_density",
    "Pyhipp.FloatHalo.C162_overdensity",
    "Pyhipp.FloatHalo.C162_monotone",
    "Pyhipp.FloatHalo.C162_edges",
    "Pyhipp.FloatHalo.C162_kmps"
   ],
   "note": "Virial radius, velocity, dynamical time and density with rounding, for arrays (elementwise). The powers of the C library are parameters of stated accuracy; an instance meeting the accuracy is constructed."
  }
 ]
}