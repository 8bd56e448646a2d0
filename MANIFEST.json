{
 "claims": [
  {
   "property": "C01",
   "status": "proved",
   "theorems": [
    "Gcs.C01_reduced_selects_same",
    "Gcs.C01_zero_step"
   ],
   "note": "Lists of any length; any slice."
  },
  {
   "property": "C02",
   "status": "proved",
   "theorems": [
    "Gcs.C02_nitems"
   ],
   "note": ""
  },
  {
   "property": "C03",
   "status": "proved",
   "theorems": [
    "Gcs.C03_idempotent",
    "Gcs.C03_canonical"
   ],
   "note": ""
  },
  {
   "property": "C04",
   "status": "proved",
   "theorems": [
    "Gcs.C04_index_strided"
   ],
   "note": "Positive sizes; ints wrap modulo the size as the library does."
  },
  {
   "property": "C05",
   "status": "proved",
   "theorems": [
    "Gcs.C05_apply_slices",
    "Gcs.C05_shape_strided"
   ],
   "note": "When several items fail, the exception class may differ; success and results agree."
  },
  {
   "property": "C06",
   "status": "proved",
   "theorems": [
    "Gcs.C06_normalize_index",
    "Gcs.C06_normalize_index_raises"
   ],
   "note": ""
  },
  {
   "property": "C07",
   "status": "proved",
   "theorems": [
    "Gcs.C07_chain"
   ],
   "note": ""
  },
  {
   "property": "C08",
   "status": "proved",
   "theorems": [
    "Gcs.C08_extgcd"
   ],
   "note": ""
  },
  {
   "property": "C09",
   "status": "proved",
   "theorems": [
    "Gcs.C09_diophantine_complete"
   ],
   "note": ""
  },
  {
   "property": "C10",
   "status": "proved",
   "theorems": [
    "Gcs.C10_diophantine_none"
   ],
   "note": ""
  },
  {
   "property": "C11",
   "status": "proved",
   "theorems": [
    "Gcs.C11_elimination"
   ],
   "note": ""
  },
  {
   "property": "C12",
   "status": "proved",
   "theorems": [
    "Gcs.C12_solve_index_sound",
    "Gcs.C12_dot"
   ],
   "note": ""
  },
  {
   "property": "C13",
   "status": "proved",
   "theorems": [
    "Gcs.C13_solve_index_contiguous"
   ],
   "note": ""
  },
  {
   "property": "C14",
   "status": "proved",
   "theorems": [
    "Gcs.C14_solve_index_slice"
   ],
   "note": ""
  },
  {
   "property": "C15",
   "status": "proved",
   "theorems": [
    "Gcs.C15_solve_index_no_axes"
   ],
   "note": "the described defect is proved"
  },
  {
   "property": "C16",
   "status": "proved",
   "theorems": [
    "Gcs.C16_zero_stride"
   ],
   "note": "the described behaviour is proved"
  },
  {
   "property": "C17",
   "status": "proved",
   "theorems": [
    "Gcs.C17_uncompress_compress",
    "Gcs.C17_compress_uncompress"
   ],
   "note": ""
  },
  {
   "property": "C18",
   "status": "proved",
   "theorems": [
    "Gcs.C18_compress_counts",
    "Gcs.C18_compress_raises"
   ],
   "note": ""
  },
  {
   "property": "C19",
   "status": "proved",
   "theorems": [
    "Gcs.C19_reduction_promotion",
    "Gcs.C19_too_many_groups"
   ],
   "note": ""
  },
  {
   "property": "C20",
   "status": "proved",
   "theorems": [
    "Gcs.C20_reduce_promote"
   ],
   "note": ""
  },
  {
   "property": "C21",
   "status": "proved",
   "theorems": [
    "Gcs.C21_row_major"
   ],
   "note": ""
  },
  {
   "property": "C22",
   "status": "proved",
   "theorems": [
    "Gcs.C22_coo_search"
   ],
   "note": ""
  },
  {
   "property": "C23",
   "status": "proved",
   "theorems": [
    "Gcs.C23_flatcoo_search"
   ],
   "note": ""
  },
  {
   "property": "C24",
   "status": "proved",
   "theorems": [
    "Gcs.C24_csr_search"
   ],
   "note": ""
  },
  {
   "property": "C25",
   "status": "proved",
   "theorems": [
    "Gcs.C25_strided_reads"
   ],
   "note": ""
  },
  {
   "property": "C26",
   "status": "proved",
   "theorems": [
    "Gcs.C26_coo_reads"
   ],
   "note": ""
  },
  {
   "property": "C27",
   "status": "proved",
   "theorems": [
    "Gcs.C27_flatcoo_reads"
   ],
   "note": ""
  },
  {
   "property": "C28",
   "status": "proved",
   "theorems": [
    "Gcs.C28_csr_reads",
    "Gcs.C28_csr_empty"
   ],
   "note": ""
  },
  {
   "property": "C29",
   "status": "proved",
   "theorems": [
    "Gcs.C29_dm_reads"
   ],
   "note": ""
  },
  {
   "property": "C30",
   "status": "proved",
   "theorems": [
    "Gcs.C30_conversions"
   ],
   "note": ""
  },
  {
   "property": "C31",
   "status": "proved",
   "theorems": [
    "Gcs.C31_strided_slice",
    "Gcs.C31_chain_of_slices"
   ],
   "note": ""
  },
  {
   "property": "C32",
   "status": "proved",
   "theorems": [
    "Gcs.C32_coo_slice",
    "Gcs.C31_chain_of_slices"
   ],
   "note": ""
  },
  {
   "property": "C33",
   "status": "proved",
   "theorems": [
    "Gcs.C33_flatcoo_slice",
    "Gcs.C31_chain_of_slices"
   ],
   "note": "The stored set of a slice is stated for selections without an empty axis; elements() of a FlatCOO with an empty axis can raise."
  },
  {
   "property": "C34",
   "status": "proved",
   "theorems": [
    "Gcs.C34_csr_slice",
    "Gcs.C31_chain_of_slices"
   ],
   "note": ""
  },
  {
   "property": "C35",
   "status": "proved",
   "theorems": [
    "Gcs.C35_dm_slice",
    "Gcs.C35_dm_slice_safe"
   ],
   "note": ""
  },
  {
   "property": "C36",
   "status": "proved",
   "theorems": [
    "Gcs.C36_dm_slice_of_slice"
   ],
   "note": ""
  },
  {
   "property": "C37",
   "status": "proved",
   "theorems": [
    "Gcs.C37_strided_assign",
    "Gcs.C37_strided_assign_storage"
   ],
   "note": ""
  },
  {
   "property": "C38",
   "status": "proved",
   "theorems": [
    "Gcs.C38_sparse_assign"
   ],
   "note": ""
  },
  {
   "property": "C39",
   "status": "proved",
   "theorems": [
    "Gcs.C39_sparse_element_assign"
   ],
   "note": ""
  },
  {
   "property": "C40",
   "status": "proved",
   "theorems": [
    "Gcs.C40_views",
    "Gcs.C40_assign_to_slice",
    "Gcs.C40_assign_to_original",
    "Gcs.C40_dm_views",
    "Gcs.C40_buffer_views"
   ],
   "note": "Strided with positive sizes; also DM (when the slice is a view) and Buffer."
  },
  {
   "property": "C41",
   "status": "proved",
   "theorems": [
    "Gcs.C41_independent",
    "Gcs.C41_assign_to_copy"
   ],
   "note": "Programs are sequences of statements on numbered objects (Model/Heap.lean)."
  },
  {
   "property": "C42",
   "status": "proved",
   "theorems": [
    "Gcs.C42_copy",
    "Gcs.C42_copy_same"
   ],
   "note": ""
  },
  {
   "property": "C43",
   "status": "proved",
   "theorems": [
    "Gcs.C43_convert_unspecified"
   ],
   "note": ""
  },
  {
   "property": "C44",
   "status": "proved",
   "theorems": [
    "Gcs.C44_elements",
    "Gcs.C44_buffer_elements"
   ],
   "note": "For FlatCOO with positive sizes; elements() of a FlatCOO with an empty axis can raise."
  },
  {
   "property": "C45",
   "status": "proved",
   "theorems": [
    "Gcs.C45_equal_iff",
    "Gcs.C45_equivalence",
    "Gcs.C45_equal_places",
    "Gcs.C45_equal_reads"
   ],
   "note": ""
  },
  {
   "property": "C46",
   "status": "proved",
   "theorems": [
    "Gcs.C46_is_full",
    "Gcs.C46_dm",
    "Gcs.C46_dm_slice"
   ],
   "note": "C46_dm_slice is a defect of the code"
  },
  {
   "property": "C47",
   "status": "proved",
   "theorems": [
    "Gcs.C47_buffer_slice",
    "Gcs.C47_zero_step"
   ],
   "note": ""
  },
  {
   "property": "C48",
   "status": "proved",
   "theorems": [
    "Gcs.C48_assign_prefix",
    "Gcs.C48_program"
   ],
   "note": ""
  },
  {
   "property": "C49",
   "status": "proved",
   "theorems": [
    "Gcs.C49_history",
    "Gcs.C49_wf"
   ],
   "note": "For all programs of the model of several objects (Model/Heap.lean), without any condition on the sizes."
  },
  {
   "property": "C50",
   "status": "proved",
   "theorems": [
    "Gcs.C50_coo_flatcoo_coo",
    "Gcs.C50_flatcoo_coo_flatcoo",
    "Gcs.C50_coo_csr_coo",
    "Gcs.C50_coo_strided_coo"
   ],
   "note": ""
  },
  {
   "property": "C51",
   "status": "proved",
   "theorems": [
    "Gcs.C51_solve_index_column_major"
   ],
   "note": "the described defect is proved"
  },
  {
   "property": "C52",
   "status": "proved",
   "theorems": [
    "Gcs.C52_equivalence",
    "Gcs.C52_eq_reads",
    "Gcs.C52_eq_iff_flatcoo",
    "Gcs.C52_eq_iff_csr",
    "Gcs.C52_copy_eq",
    "Gcs.C52_eq_equal",
    "Gcs.C52_reversed"
   ],
   "note": "NoneBefore excludes reversed slices; C52_reversed shows that it is needed. The converse for FlatCOO and CSR assumes the same unspecified value in the index buffers."
  },
  {
   "property": "C53",
   "status": "proved",
   "theorems": [
    "Gcs.C53_dm_assign",
    "Gcs.C53_dm_assign_storage",
    "Gcs.C53_dm_made",
    "Gcs.C53_dm_element_assign",
    "Gcs.C53_dm_sparse_assign"
   ],
   "note": "DistinctCells is shown for every DM made by fromobject over Buffer or Strided (C53_dm_made)."
  },
  {
   "property": "C54",
   "status": "proved",
   "theorems": [
    "Gcs.C54_equal_list",
    "Gcs.C54_equal_list_dense",
    "Gcs.C54_equal_list_sparse",
    "Gcs.C54_equal_list_buffer"
   ],
   "note": "Rectangular nested lists (HasShape)."
  },
  {
   "property": "C55",
   "status": "proved",
   "theorems": [
    "Gcs.C55_same_object"
   ],
   "note": "In any state of a program; identity of objects is modelled as the same descriptor on the same list."
  },
  {
   "property": "C56",
   "status": "proved",
   "theorems": [
    "Gcs.C56_self_assign",
    "Gcs.C56_shift",
    "Gcs.C56_smear"
   ],
   "note": "Strided with distinct addresses; stated for programs of the model of several objects."
  },
  {
   "property": "C57",
   "status": "proved",
   "theorems": [
    "Gcs.C57_no_broadcast"
   ],
   "note": "All classes; AssertionError of get_value."
  },
  {
   "property": "C58",
   "status": "proved",
   "theorems": [
    "Gcs.C58_assign_wraps"
   ],
   "note": "Assignments to a Strided; the value is of any class but Buffer."
  },
  {
   "property": "C59",
   "status": "proved",
   "theorems": [
    "Gcs.C59_extra_dropped",
    "Gcs.C59_missing"
   ],
   "note": "CSR needs an element different from the unspecified value, as in C28."
  },
  {
   "property": "C60",
   "status": "proved",
   "theorems": [
    "Gcs.C60_endless_loop",
    "Gcs.C60_empty_axis",
    "Gcs.C60_no_axes",
    "Gcs.C60_len",
    "Gcs.C60_buffer_loop",
    "Gcs.C60_in",
    "Gcs.C60_in_endless",
    "Gcs.C60_buffer_in"
   ],
   "note": "ZeroOff excludes reversed slices of DM (C36)."
  },
  {
   "property": "C61",
   "status": "proved",
   "theorems": [
    "Gcs.C61_slice_index",
    "Gcs.C61_offset_ignored",
    "Gcs.C61_promote_int",
    "Gcs.C61_promote_int_groups",
    "Gcs.C61_sort_agrees"
   ],
   "note": ""
  },
  {
   "property": "C62",
   "status": "proved",
   "theorems": [
    "Gcs.C62_coo",
    "Gcs.C62_flatcoo",
    "Gcs.C62_csr",
    "Gcs.C62_strided",
    "Gcs.C62_coo_any_order",
    "Gcs.C62_coo_unsorted"
   ],
   "note": "elements() of FlatCOO needs a shape without empty axes, as in C16."
  },
  {
   "property": "C63",
   "status": "proved",
   "theorems": [
    "Gcs.C63_coo",
    "Gcs.C63_flatcoo",
    "Gcs.C63_csr"
   ],
   "note": ""
  },
  {
   "property": "C64",
   "status": "proved",
   "theorems": [
    "Gcs.C64_interleaved",
    "Gcs.C64_all_or_nothing"
   ],
   "note": ""
  },
  {
   "property": "C65",
   "status": "proved",
   "theorems": [
    "Gcs.Version.C65_tagged",
    "Gcs.Version.C65_distinct",
    "Gcs.Version.C65_describe_long",
    "Gcs.Version.C65_bare_prefix",
    "Gcs.Version.C65_untagged",
    "Gcs.Version.C65_returns",
    "Gcs.Version.C65_raises",
    "Gcs.Version.C65_count_raises",
    "Gcs.Version.C65_line_break"
   ],
   "note": "White space and digits are the ASCII ones."
  },
  {
   "property": "C66",
   "status": "proved",
   "theorems": [
    "Gcs.Version.C66_archive_tag",
    "Gcs.Version.C66_archive_other_tags",
    "Gcs.Version.C66_archive_branch"
   ],
   "note": ""
  },
  {
   "property": "C67",
   "status": "proved",
   "theorems": [
    "Gcs.Text.C67_line",
    "Gcs.Text.C67_matrix",
    "Gcs.Text.C67_no_columns",
    "Gcs.Text.C67_buffer_form",
    "Gcs.Text.C67_buffer_repr",
    "Gcs.Text.C67_strided_repr",
    "Gcs.Text.C67_show"
   ],
   "note": ""
  },
  {
   "property": "C68",
   "status": "proved",
   "theorems": [
    "Gcs.C68_agrees",
    "Gcs.C68_agrees_dm",
    "Gcs.C68_assign_agrees",
    "Gcs.C68_element_assign",
    "Gcs.C68_strided_element",
    "Gcs.C68_list_items",
    "Gcs.C68_list_assign",
    "Gcs.C68_list_assign_missing",
    "Gcs.C68_parts_assign",
    "Gcs.C68_missing",
    "Gcs.C68_zero_dim"
   ],
   "note": ""
  },
  {
   "property": "C69",
   "status": "proved",
   "theorems": [
    "Gcs.C69_scalar",
    "Gcs.C69_buffer",
    "Gcs.C69_no_others",
    "Gcs.C69_index",
    "Gcs.C69_assign"
   ],
   "note": ""
  },
  {
   "property": "C70",
   "status": "proved",
   "theorems": [
    "Gcs.C70_pipeline",
    "Gcs.C70_independent"
   ],
   "note": ""
  },
  {
   "property": "C71",
   "status": "proved",
   "theorems": [
    "Gcs.C71_init",
    "Gcs.C71_no_reading",
    "Gcs.C71_no_writing",
    "Gcs.C71_no_elements",
    "Gcs.C71_convert",
    "Gcs.C71_copy",
    "Gcs.C71_eq",
    "Gcs.C71_attributes"
   ],
   "note": ""
  },
  {
   "property": "C72",
   "status": "proved",
   "theorems": [
    "Gcs.C72_index",
    "Gcs.C72_assign",
    "Gcs.C72_keep",
    "Gcs.C72_strided",
    "Gcs.C72_assign_keep",
    "Gcs.C72_elements",
    "Gcs.C72_equal",
    "Gcs.C72_convert"
   ],
   "note": ""
  },
  {
   "property": "C73",
   "status": "proved",
   "theorems": [
    "Gcs.C73_objects",
    "Gcs.C73_outcomes"
   ],
   "note": ""
  },
  {
   "property": "C74",
   "status": "proved",
   "theorems": [
    "Gcs.C74_objects",
    "Gcs.C74_outcomes"
   ],
   "note": ""
  },
  {
   "property": "C75",
   "status": "proved",
   "theorems": [
    "Gcs.C75_objects",
    "Gcs.C75_outcomes"
   ],
   "note": ""
  },
  {
   "property": "C76",
   "status": "proved",
   "theorems": [
    "Gcs.C76_mapped",
    "Gcs.C76_dm",
    "Gcs.C76_part",
    "Gcs.C76_repeated",
    "Gcs.C76_beyond",
    "Gcs.C76_reshape"
   ],
   "note": ""
  },
  {
   "property": "C77",
   "status": "proved",
   "theorems": [
    "Gcs.Version.C77_styles",
    "Gcs.Version.C77_bare_prefix",
    "Gcs.Version.C77_untagged",
    "Gcs.Version.C77_post_distinct",
    "Gcs.Version.C77_same_version",
    "Gcs.Version.C77_other_prefix",
    "Gcs.Version.C77_unknown_style",
    "Gcs.Version.C77_directory",
    "Gcs.Version.C77_no_file"
   ],
   "note": ""
  },
  {
   "property": "C78",
   "status": "proved",
   "theorems": [
    "Gcs.C78_buffer",
    "Gcs.C78_strided",
    "Gcs.C78_coo",
    "Gcs.C78_flatcoo",
    "Gcs.C78_csr",
    "Gcs.C78_dm"
   ],
   "note": ""
  },
  {
   "property": "C79",
   "status": "proved",
   "theorems": [
    "Gcs.Text.C79_repr_eq",
    "Gcs.Text.C79_c2sr",
    "Gcs.Text.C79_forms"
   ],
   "note": ""
  },
  {
   "property": "C80",
   "status": "proved",
   "theorems": [
    "Gcs.C80_programs",
    "Gcs.C80_unchanged"
   ],
   "note": ""
  },
  {
   "property": "C81",
   "status": "proved",
   "theorems": [
    "Gcs.C81_sparse",
    "Gcs.C81_dense",
    "Gcs.C81_stored",
    "Gcs.C81_sizes",
    "Gcs.C81_row_pointers",
    "Gcs.C81_dm"
   ],
   "note": "The text of GentleIntroductionToGCS.md says that the first row pointer is the first row with elements; it is always 0."
  },
  {
   "property": "C82",
   "status": "proved",
   "theorems": [
    "Gcs.C82_slice_lists",
    "Gcs.C82_count"
   ],
   "note": ""
  },
  {
   "property": "C83",
   "status": "proved",
   "theorems": [
    "Gcs.Version.C83_keywords"
   ],
   "note": "That the ref name is read as code is visible as the absence of a value: the model does not evaluate the code."
  },
  {
   "property": "C84",
   "status": "proved",
   "theorems": [
    "Gcs.C84_normalize_index",
    "Gcs.C84_apply_slices",
    "Gcs.C84_items"
   ],
   "note": ""
  },
  {
   "property": "C85",
   "status": "proved",
   "theorems": [
    "Gcs.C85_get_value",
    "Gcs.C85_agrees",
    "Gcs.C85_fromobject",
    "Gcs.C85_assign"
   ],
   "note": ""
  },
  {
   "property": "C86",
   "status": "proved",
   "theorems": [
    "Gcs.C86_dm_slice_any",
    "Gcs.C86_meant",
    "Gcs.C86_when_right",
    "Gcs.C86_twice",
    "Gcs.C86_twice_right"
   ],
   "note": "generalises C36"
  },
  {
   "property": "C87",
   "status": "proved",
   "theorems": [
    "Gcs.C87_read",
    "Gcs.C87_write"
   ],
   "note": ""
  },
  {
   "property": "C88",
   "status": "proved",
   "theorems": [
    "Gcs.Version.C88_setup",
    "Gcs.Version.C88_ascii",
    "Gcs.Version.C88_package",
    "Gcs.Version.C88_package_version"
   ],
   "note": "json.dumps, json.loads and the evaluation of text literals by Python are modelled (Model/VersionFile.lean). If the text holds three single quotes in a row, Python takes what follows for code; the model says that no dictionary is found then."
  },
  {
   "property": "C89",
   "status": "proved",
   "theorems": [
    "Gcs.Version.C89_agree",
    "Gcs.Version.C89_generations",
    "Gcs.Version.C89_incomplete"
   ],
   "note": ""
  },
  {
   "property": "C90",
   "status": "proved",
   "theorems": [
    "Gcs.C90_lists",
    "Gcs.C90_dm",
    "Gcs.C90_layout",
    "Gcs.C90_other_cuts"
   ],
   "note": ""
  },
  {
   "property": "C91",
   "status": "proved",
   "theorems": [
    "Gcs.C91_last_item",
    "Gcs.C91_two_axes",
    "Gcs.C91_two_axes_none",
    "Gcs.C91_complete",
    "Gcs.C91_one_axis",
    "Gcs.C91_unit_first"
   ],
   "note": ""
  },
  {
   "property": "C92",
   "status": "proved",
   "theorems": [
    "Gcs.Version.C92_result",
    "Gcs.Version.C92_unchanged",
    "Gcs.Version.C92_again",
    "Gcs.Version.C92_keeps",
    "Gcs.Version.C92_no_config",
    "Gcs.Version.C92_other_file",
    "Gcs.Version.C92_glued",
    "Gcs.Version.C92_blanks",
    "Gcs.Version.C92_white",
    "Gcs.Version.C92_scan"
   ],
   "note": ""
  },
  {
   "property": "C93",
   "status": "proved",
   "theorems": [
    "Gcs.C93_fromobject",
    "Gcs.C93_as_DM",
    "Gcs.C93_shortcuts",
    "Gcs.C93_copy",
    "Gcs.C93_copy_dm",
    "Gcs.C93_eq",
    "Gcs.C93_eq_copy",
    "Gcs.C93_equal",
    "Gcs.C93_row",
    "Gcs.C93_same",
    "Gcs.C93_reads",
    "Gcs.C93_nan_stored",
    "Gcs.C93_nan_kept"
   ],
   "note": ""
  },
  {
   "property": "C94",
   "status": "proved",
   "theorems": [
    "Gcs.C94_inside",
    "Gcs.C94_anywhere",
    "Gcs.C94_assign",
    "Gcs.C94_axes",
    "Gcs.C94_transpose",
    "Gcs.C94_diagonal",
    "Gcs.C94_windows",
    "Gcs.C94_windows_assign",
    "Gcs.C94_reversed",
    "Gcs.C94_reshape"
   ],
   "note": ""
  },
  {
   "property": "C95",
   "status": "proved",
   "theorems": [
    "Gcs.C95_objects",
    "Gcs.C95_outcomes",
    "Gcs.C95_made",
    "Gcs.C95_classes",
    "Gcs.C95_strided"
   ],
   "note": ""
  },
  {
   "property": "C96",
   "status": "proved",
   "theorems": [
    "Gcs.C96_frame",
    "Gcs.C96_values",
    "Gcs.C96_others",
    "Gcs.C96_order",
    "Gcs.C96_selected",
    "Gcs.C96_two_parts",
    "Gcs.C96_slices",
    "Gcs.C96_statements",
    "Gcs.C96_statements_from",
    "Gcs.C96_any_order",
    "Gcs.C96_untouched"
   ],
   "note": ""
  },
  {
   "property": "C97",
   "status": "proved",
   "theorems": [
    "Gcs.C97_not_equal",
    "Gcs.C97_other_types",
    "Gcs.C97_other_classes",
    "Gcs.C97_self",
    "Gcs.C97_distinct",
    "Gcs.C97_reflexive",
    "Gcs.C97_common_data",
    "Gcs.C97_symmetric",
    "Gcs.C97_elements"
   ],
   "note": ""
  },
  {
   "property": "C98",
   "status": "proved",
   "theorems": [
    "Gcs.C98_accepts",
    "Gcs.C98_item",
    "Gcs.C98_items",
    "Gcs.C98_slice",
    "Gcs.C98_slice_negative",
    "Gcs.C98_copy",
    "Gcs.C98_copy_unspecified",
    "Gcs.C98_eq",
    "Gcs.C98_natural"
   ],
   "note": ""
  },
  {
   "property": "C99",
   "status": "proved",
   "theorems": [
    "Gcs.C99_copy",
    "Gcs.C99_sees",
    "Gcs.C99_assign",
    "Gcs.C99_assign_indices",
    "Gcs.C99_assign_raises",
    "Gcs.C99_missing",
    "Gcs.C99_through_copy",
    "Gcs.C99_same_places",
    "Gcs.C99_elements",
    "Gcs.C99_others",
    "Gcs.C99_moved",
    "Gcs.C99_moved_coo",
    "Gcs.C99_moved_csr"
   ],
   "note": ""
  },
  {
   "property": "C100",
   "status": "proved",
   "theorems": [
    "Gcs.Version.C100_run",
    "Gcs.Version.C100_prints",
    "Gcs.Version.C100_pieces",
    "Gcs.Version.C100_summary",
    "Gcs.Version.C100_no_git",
    "Gcs.Version.C100_not_text"
   ],
   "note": ""
  },
  {
   "property": "C101",
   "status": "proved",
   "theorems": [
    "Gcs.Version.C101_root",
    "Gcs.Version.C101_register",
    "Gcs.Version.C101_handlers",
    "Gcs.Version.C101_build",
    "Gcs.Version.C101_versions",
    "Gcs.Version.C101_missing",
    "Gcs.Version.C101_setup_py",
    "Gcs.Version.C101_other_project"
   ],
   "note": ""
  },
  {
   "property": "C102",
   "status": "proved",
   "theorems": [
    "Gcs.Version.C102_commands",
    "Gcs.Version.C102_write",
    "Gcs.Version.C102_write_missing",
    "Gcs.Version.C102_build",
    "Gcs.Version.C102_installed",
    "Gcs.Version.C102_build_without",
    "Gcs.Version.C102_no_version",
    "Gcs.Version.C102_base_fails",
    "Gcs.Version.C102_sdist",
    "Gcs.Version.C102_sdist_missing",
    "Gcs.Version.C102_sdist_unnamed",
    "Gcs.Version.C102_freeze",
    "Gcs.Version.C102_freeze_fails",
    "Gcs.Version.C102_freeze_forgets",
    "Gcs.Version.C102_version"
   ],
   "note": ""
  },
  {
   "property": "C103",
   "status": "proved",
   "theorems": [
    "Gcs.Version.C103_old_python",
    "Gcs.Version.C103_runs",
    "Gcs.Version.C103_left",
    "Gcs.Version.C103_conda",
    "Gcs.Version.C103_lines",
    "Gcs.Version.C103_int"
   ],
   "note": ""
  }
 ]
}
