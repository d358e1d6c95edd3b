{
 "claims": [
  {
   "property": "C01",
   "status": "proved",
   "theorems": [
    "Rescan.CharReach.C01_case_tests",
    "Rescan.C01_tolower",
    "Rescan.C01_toupper",
    "Rescan.C01_isalpha",
    "Rescan.C01_inverse"
   ],
   "note": ""
  },
  {
   "property": "C02",
   "status": "proved",
   "theorems": [
    "Rescan.CharReach.C02_class_updates",
    "Rescan.BitField256.C02_single_updates"
   ],
   "note": ""
  },
  {
   "property": "C03",
   "status": "proved",
   "theorems": [
    "Rescan.CharReach.C03_class_updates",
    "Rescan.CharReach.C03_class_queries",
    "Rescan.BitField256.C03_whole_updates",
    "Rescan.BitField256.C03_whole_queries"
   ],
   "note": ""
  },
  {
   "property": "C04",
   "status": "proved",
   "theorems": [
    "Rescan.CharReach.C04_class_range",
    "Rescan.CharReach.C04_class_range_inverted",
    "Rescan.BitField256.C04_set_range",
    "Rescan.BitField256.C04_set_range_inverted"
   ],
   "note": ""
  },
  {
   "property": "C05",
   "status": "proved",
   "theorems": [
    "Rescan.CharReach.C05_class_count",
    "Rescan.BitField256.C05_count"
   ],
   "note": ""
  },
  {
   "property": "C06",
   "status": "proved",
   "theorems": [
    "Rescan.CharReach.C06_class_first_last",
    "Rescan.BitField256.C06_first_last"
   ],
   "note": ""
  },
  {
   "property": "C07",
   "status": "proved",
   "theorems": [
    "Rescan.CharReach.C07_class_find_next",
    "Rescan.CharReach.C07_class_iteration",
    "Rescan.BitField256.C07_find_next",
    "Rescan.BitField256.C07_iteration"
   ],
   "note": ""
  },
  {
   "property": "C08",
   "status": "proved",
   "theorems": [
    "Rescan.CharReach.C08_class_find_nth",
    "Rescan.BitField256.C08_find_nth"
   ],
   "note": ""
  },
  {
   "property": "C09",
   "status": "proved",
   "theorems": [
    "Rescan.CharReach.C09_class_pointwise",
    "Rescan.CharReach.C09_class_extensional",
    "Rescan.BitField256.C09_pointwise",
    "Rescan.BitField256.C09_assign",
    "Rescan.BitField256.C09_extensional"
   ],
   "note": ""
  },
  {
   "property": "C10",
   "status": "proved",
   "theorems": [
    "Rescan.CharReach.C10_class_total_order",
    "Rescan.CharReach.C10_class_order",
    "Rescan.BitField256.C10_total_order",
    "Rescan.BitField256.C10_order"
   ],
   "note": ""
  },
  {
   "property": "C11",
   "status": "proved",
   "theorems": [
    "Rescan.CharReach.C11_constructors",
    "Rescan.CharReach.C11_set_bytes",
    "Rescan.CharReach.C11_dot",
    "Rescan.CharReach.C11_from_range"
   ],
   "note": ""
  },
  {
   "property": "C12",
   "status": "proved",
   "theorems": [
    "Rescan.CharReach.C12_predicates",
    "Rescan.CharReach.C12_ranges"
   ],
   "note": ""
  },
  {
   "property": "C13",
   "status": "proved",
   "theorems": [
    "Rescan.CharReach.C13_is_caseless_char"
   ],
   "note": ""
  },
  {
   "property": "C14",
   "status": "proved",
   "theorems": [
    "Rescan.CharReach.C14_members",
    "Rescan.CharReach.C14_least",
    "Rescan.CharReach.C14_closure"
   ],
   "note": ""
  },
  {
   "property": "C15",
   "status": "proved",
   "theorems": [
    "Rescan.CharReach.C15_accepts",
    "Rescan.CharReach.C15_empty",
    "Rescan.CharReach.C15_tightest"
   ],
   "note": ""
  },
  {
   "property": "C16",
   "status": "partial",
   "theorems": [
    "Rescan.CharReach.C16_false",
    "Rescan.CharReach.C16_fill_bitvector_partial"
   ],
   "note": "The full statement is false of the code (C16_false, both profiles): `pos & 8` instead of `pos & 7`. C16_fill_bitvector_partial states exactly what is written and when it panics."
  },
  {
   "property": "C17",
   "status": "proved",
   "theorems": [
    "Rescan.CharReach.C17_display",
    "Rescan.CharReach.C17_display_injective"
   ],
   "note": ""
  },
  {
   "property": "C18",
   "status": "partial",
   "theorems": [
    "Rescan.C18_false",
    "Rescan.C18_u8",
    "Rescan.C18_rounding_partial",
    "Rescan.C18_fixed",
    "Rescan.C18_other_n",
    "Rescan.C18_signed_partial"
   ],
   "note": "False for every type wider than u8 (C18_false); proved in full for u8 (C18_u8); for all widths the result is the right one modulo 256 (C18_rounding_partial). C18_other_n: what happens when n is 0 or not a power of two. C18_signed_partial: the same for signed types."
  },
  {
   "property": "C19",
   "status": "proved",
   "theorems": [
    "Rescan.C19_conversion",
    "Rescan.C19_min"
   ],
   "note": ""
  },
  {
   "property": "C20",
   "status": "proved",
   "theorems": [
    "Rescan.Ue2Literal.C20_records"
   ],
   "note": ""
  },
  {
   "property": "C21",
   "status": "proved",
   "theorems": [
    "Rescan.C21_mixed"
   ],
   "note": ""
  },
  {
   "property": "C22",
   "status": "partial",
   "theorems": [
    "Rescan.Ue2Literal.C22_total_order",
    "Rescan.Ue2Literal.C22_order",
    "Rescan.Ue2Literal.C22_false",
    "Rescan.Ue2Literal.C22_eq_cmp_partial"
   ],
   "note": "Total order proved in full; agreement with == is false of the code (C22_false), the parts that hold are in C22_eq_cmp_partial."
  },
  {
   "property": "C23",
   "status": "proved",
   "theorems": [
    "Rescan.ReportManager.C23_refines",
    "Rescan.ReportManager.C23_ids",
    "Rescan.ReportManager.C23_limit",
    "Rescan.ReportManager.C23_panics"
   ],
   "note": "For every history and limit: C23_panics says exactly which of them panic (a limit above 2^32 and more than 2^32 different reports), the other theorems say what the rest do."
  },
  {
   "property": "C24",
   "status": "proved",
   "theorems": [
    "Rescan.ReportManager.C24_keys",
    "Rescan.ReportManager.C24_panics"
   ],
   "note": "For every history: C24_panics says exactly which of them panic (2^32 different ids before the last call), C24_keys what the rest do."
  },
  {
   "property": "C25",
   "status": "proved",
   "theorems": [
    "Rescan.ReportManager.C25_registration",
    "Rescan.ReportManager.C25_first_recorded"
   ],
   "note": ""
  },
  {
   "property": "C26",
   "status": "proved",
   "theorems": [
    "Rescan.CompileError.C26_construct",
    "Rescan.CompileError.C26_attach_again",
    "Rescan.CompileError.C26_display",
    "Rescan.CompileError.C26_display_determines"
   ],
   "note": ""
  },
  {
   "property": "C27",
   "status": "proved",
   "theorems": [
    "Rescan.C27_control_verbs"
   ],
   "note": ""
  },
  {
   "property": "C28",
   "status": "proved",
   "theorems": [
    "Rescan.C28_control_verb_effects"
   ],
   "note": ""
  },
  {
   "property": "C29",
   "status": "proved",
   "theorems": [
    "Rescan.C29_accepted_iff_balanced",
    "Rescan.C29_accepted_is_balanced"
   ],
   "note": ""
  },
  {
   "property": "C30",
   "status": "proved",
   "theorems": [
    "Rescan.C30_parse_print",
    "Rescan.C30_parse_sound"
   ],
   "note": ""
  },
  {
   "property": "C31",
   "status": "proved",
   "theorems": [
    "Rescan.C31_capture_numbering"
   ],
   "note": ""
  },
  {
   "property": "C32",
   "status": "partial",
   "theorems": [
    "Rescan.C32_unmatched",
    "Rescan.C32_missing",
    "Rescan.C32_false",
    "Rescan.C32_index_partial"
   ],
   "note": "The two error cases are characterised in full (C32_unmatched, C32_missing). The reported index is wrong in the code (C32_false); C32_index_partial gives the value that is printed."
  },
  {
   "property": "C33",
   "status": "partial",
   "theorems": [
    "Rescan.C33_false",
    "Rescan.C33_debug_false",
    "Rescan.C33_panics_partial"
   ],
   "note": "False of the code (C33_false in both profiles, C33_debug_false even for ASCII). C33_panics_partial says exactly when it panics."
  },
  {
   "property": "C34",
   "status": "proved",
   "theorems": [
    "Rescan.C34_literal_class",
    "Rescan.C34_every_char",
    "Rescan.C34_add"
   ],
   "note": ""
  },
  {
   "property": "C35",
   "status": "proved",
   "theorems": [
    "Rescan.C35_plain_characters",
    "Rescan.C35_only_caseless_matters"
   ],
   "note": ""
  },
  {
   "property": "C36",
   "status": "proved",
   "theorems": [
    "Rescan.C36_walk",
    "Rescan.C36_once_per_node",
    "Rescan.C36_code_visitors",
    "Rescan.C36_parser_trees_finalized",
    "Rescan.C36_pending_panics"
   ],
   "note": "For every visitor, whose during and post methods may also fail or change the state."
  },
  {
   "property": "C37",
   "status": "proved",
   "theorems": [
    "Rescan.C37_literal",
    "Rescan.C37_fast_path",
    "Rescan.C37_caseless_flag"
   ],
   "note": ""
  },
  {
   "property": "C38",
   "status": "proved",
   "theorems": [
    "Rescan.C38_literal_language",
    "Rescan.C38_pattern_language"
   ],
   "note": ""
  },
  {
   "property": "C39",
   "status": "proved",
   "theorems": [
    "Rescan.C39_not_mixed"
   ],
   "note": ""
  },
  {
   "property": "C40",
   "status": "proved",
   "theorems": [
    "Rescan.C40_edges",
    "Rescan.C40_positions"
   ],
   "note": ""
  },
  {
   "property": "C41",
   "status": "partial",
   "theorems": [
    "Rescan.C41_false",
    "Rescan.C41_accepts_nothing_partial"
   ],
   "note": "False of the code (C41_false). C41_accepts_nothing_partial: the graph built for any expression accepts nothing."
  },
  {
   "property": "C42",
   "status": "partial",
   "theorems": [
    "Rescan.C42_initial",
    "Rescan.C42_connect_successors",
    "Rescan.C42_connect_regions",
    "Rescan.C42_false",
    "Rescan.GlushkovBuildState.C42_connect_regions_accept"
   ],
   "note": "connect_successors and connect_regions are proved for all states; C42_connect_regions_accept covers lists with accept and accept-eod. The clause on epsilons from start is false of the code (C42_false)."
  },
  {
   "property": "C43",
   "status": "proved",
   "theorems": [
    "Rescan.C43_trie_content"
   ],
   "note": ""
  },
  {
   "property": "C44",
   "status": "proved",
   "theorems": [
    "Rescan.C44_trie_shape",
    "Rescan.C44_fits"
   ],
   "note": ""
  },
  {
   "property": "C45",
   "status": "proved",
   "theorems": [
    "Rescan.C45_poisoned_inert",
    "Rescan.C45_long_skipped",
    "Rescan.C45_poisoned_iff",
    "Rescan.C45_defaults"
   ],
   "note": ""
  },
  {
   "property": "C46",
   "status": "proved",
   "theorems": [
    "Rescan.C46_tries_hold",
    "Rescan.C46_case_separation"
   ],
   "note": ""
  },
  {
   "property": "C47",
   "status": "partial",
   "theorems": [
    "Rescan.C47_false",
    "Rescan.C47_min_width_partial"
   ],
   "note": "False of the code (C47_false): only literal expressions count. C47_min_width_partial gives the exact value."
  },
  {
   "property": "C48",
   "status": "partial",
   "theorems": [
    "Rescan.C48_one_report_partial",
    "Rescan.C48_false"
   ],
   "note": "False of the code (C48_false). C48_one_report_partial: all compiled literals share report 0."
  },
  {
   "property": "C49",
   "status": "proved",
   "theorems": [
    "Rescan.C49_first_bad",
    "Rescan.C49_reported"
   ],
   "note": ""
  },
  {
   "property": "C50",
   "status": "partial",
   "theorems": [
    "Rescan.C50_false",
    "Rescan.C50_checked_partial",
    "Rescan.C50_truncation_partial"
   ],
   "note": "False of the code (C50_false). C50_checked_partial: every expression with a flag and an id is checked. C50_truncation_partial: the others do not matter."
  },
  {
   "property": "C51",
   "status": "proved",
   "theorems": [
    "Rescan.C51_counts",
    "Rescan.C51_length",
    "Rescan.C51_defaults"
   ],
   "note": ""
  },
  {
   "property": "C52",
   "status": "partial",
   "theorems": [
    "Rescan.C52_false",
    "Rescan.C52_mode_partial"
   ],
   "note": "False of the code for stream modes with a horizon (C52_false). C52_mode_partial gives the mode recorded."
  },
  {
   "property": "C53",
   "status": "proved",
   "theorems": [
    "Rescan.C53_engine",
    "Rescan.C53_compiled"
   ],
   "note": ""
  },
  {
   "property": "C54",
   "status": "proved",
   "theorems": [
    "Rescan.C54_scan"
   ],
   "note": "Outside the crate no Scratch can be made (its field is private and it has no constructor), so scan can only be called from within."
  },
  {
   "property": "C55",
   "status": "proved",
   "theorems": [
    "Rescan.C55_compile",
    "Rescan.C55_compile_iff"
   ],
   "note": ""
  },
  {
   "property": "C56",
   "status": "proved",
   "theorems": [
    "Rescan.C56_quiet_som"
   ],
   "note": ""
  },
  {
   "property": "C57",
   "status": "partial",
   "theorems": [
    "Rescan.C57_false",
    "Rescan.C57_debug_false",
    "Rescan.C57_conflicts_partial"
   ],
   "note": "False of the code (C57_false both profiles, C57_debug_false even for literals). C57_conflicts_partial: release builds report conflicts between literal expressions."
  },
  {
   "property": "C58",
   "status": "proved",
   "theorems": [
    "Rescan.C58_outcome",
    "Rescan.C58_success_iff",
    "Rescan.C58_compile_multi"
   ],
   "note": ""
  },
  {
   "property": "C59",
   "status": "proved",
   "theorems": [
    "Rescan.Dump.C59_prefix_free",
    "Rescan.Dump.C59_unambiguous"
   ],
   "note": ""
  },
  {
   "property": "C60",
   "status": "partial",
   "theorems": [
    "Rescan.Dump.C60_false",
    "Rescan.Dump.C60_describe_range_partial",
    "Rescan.Dump.C60_bad_ranges",
    "Rescan.Dump.C60_inverted"
   ],
   "note": "False of the code (C60_false). C60_describe_range_partial covers all good ranges, C60_bad_ranges shows that exactly the others fail (debug panic, release endless loop), C60_inverted covers c1 > c2."
  },
  {
   "property": "C61",
   "status": "partial",
   "theorems": [
    "Rescan.Dump.C61_exact_partial",
    "Rescan.Dump.C61_items_unique",
    "Rescan.Dump.C61_read_back_partial",
    "Rescan.Dump.C61_equal_descriptions_partial",
    "Rescan.Dump.C61_runs_partial",
    "Rescan.Dump.C61_false",
    "Rescan.Dump.C61_simple_partial"
   ],
   "note": "False of the code (C61_false: the last run of a class is left out). C61_exact_partial: exactly when two described classes have the same description. For every class that is described at all: C61_read_back_partial says which bytes its description shows, C61_items_unique that the text determines the items, C61_equal_descriptions_partial that classes with equal descriptions differ only in left-out bytes, and C61_runs_partial that runs and complements of runs are told apart. C61_simple_partial: so are classes with at most one member or one missing byte."
  },
  {
   "property": "C62",
   "status": "proved",
   "theorems": [
    "Rescan.C62_dump_any",
    "Rescan.C62_tree_dump"
   ],
   "note": ""
  },
  {
   "property": "C63",
   "status": "proved",
   "theorems": [
    "Rescan.C63_modes"
   ],
   "note": ""
  },
  {
   "property": "C64",
   "status": "proved",
   "theorems": [
    "Rescan.C64_size_depth"
   ],
   "note": ""
  },
  {
   "property": "C65",
   "status": "partial",
   "theorems": [
    "Rescan.ReportManager.C65_false",
    "Rescan.ReportManager.C65_message_partial"
   ],
   "note": "False of the code (C65_false): the clause about the previous expression is inverted. C65_message_partial gives the exact message."
  },
  {
   "property": "C66",
   "status": "partial",
   "theorems": [
    "Rescan.C66_flags_partial",
    "Rescan.C66_false",
    "Rescan.C66_no_som"
   ],
   "note": "False of the code (C66_false). C66_flags_partial: SOM_LEFTMOST, ALLOWEMPTY and other unread flags have no effect beyond the QUIET check."
  },
  {
   "property": "C67",
   "status": "proved",
   "theorems": [
    "Rescan.C67_terminates",
    "Rescan.C67_one_character"
   ],
   "note": ""
  },
  {
   "property": "C68",
   "status": "proved",
   "theorems": [
    "Rescan.C68_tries",
    "Rescan.C68_language",
    "Rescan.C68_poisoned"
   ],
   "note": ""
  },
  {
   "property": "C69",
   "status": "partial",
   "theorems": [
    "Rescan.C69_false",
    "Rescan.C69_exhaust_partial"
   ],
   "note": "False of the code (C69_false: non-literal expressions are not counted). C69_exhaust_partial gives the exact flag and exhaustion keys."
  },
  {
   "property": "C70",
   "status": "proved",
   "theorems": [
    "Rescan.Dump.C70_describe_class_fails"
   ],
   "note": ""
  },
  {
   "property": "C71",
   "status": "proved",
   "theorems": [
    "Rescan.Dump.C71_class_text",
    "Rescan.Dump.C71_simple_text",
    "Rescan.Dump.C71_text_unique"
   ],
   "note": ""
  },
  {
   "property": "C72",
   "status": "partial",
   "theorems": [
    "Rescan.C72_false",
    "Rescan.C72_same_case_partial",
    "Rescan.C72_sensitive_text_partial",
    "Rescan.C72_exact_partial"
   ],
   "note": "False of the code (C72_false). C72_exact_partial says exactly which accepted patterns share a dump: those that are the same text once the letters of a caseless pattern are put in capitals. C72_same_case_partial and C72_sensitive_text_partial: within one case mode the dump determines the tree, and of a case-sensitive pattern also the text. The full statement was restated: classes remember a parse mode that no dump shows, so trees are compared without it (withoutModes); the repaired dump of C98 meets it (C98_dumps)."
  },
  {
   "property": "C73",
   "status": "proved",
   "theorems": [
    "Rescan.C73_record"
   ],
   "note": ""
  },
  {
   "property": "C74",
   "status": "partial",
   "theorems": [
    "Rescan.C74_all_reports",
    "Rescan.C74_vacuous",
    "Rescan.C74_add_expression_partial",
    "Rescan.C74_false",
    "Rescan.C74_any_order"
   ],
   "note": "False of the code (C74_false). C74_add_expression_partial: exact outcome, including the panic; C74_all_reports and C74_vacuous are proved in full."
  },
  {
   "property": "C75",
   "status": "proved",
   "theorems": [
    "Rescan.C75_flags",
    "Rescan.C75_independent",
    "Rescan.C75_parse_mode"
   ],
   "note": ""
  },
  {
   "property": "C76",
   "status": "partial",
   "theorems": [
    "Rescan.C76_false",
    "Rescan.C76_read_back_partial",
    "Rescan.C76_forms"
   ],
   "note": "False of the code for bytes below 16 other than tab, newline and carriage return (C76_false). C76_read_back_partial: exact for every byte."
  },
  {
   "property": "C77",
   "status": "proved",
   "theorems": [
    "Rescan.Dump.C77_no_limit",
    "Rescan.Dump.C77_limit_fails",
    "Rescan.Dump.C77_limit_text",
    "Rescan.Dump.C77_text_unique"
   ],
   "note": ""
  },
  {
   "property": "C78",
   "status": "proved",
   "theorems": [
    "Rescan.C78_parse",
    "Rescan.C78_compile",
    "Rescan.C78_compiled_state",
    "Rescan.C78_graph",
    "Rescan.C78_dump",
    "Rescan.C78_arith",
    "Rescan.C78_byte_sets"
   ],
   "note": "ProfilesAgree is proved through every function of the model that takes the build profile."
  },
  {
   "property": "C79",
   "status": "proved",
   "theorems": [
    "Rescan.C79_success",
    "Rescan.C79_sublist",
    "Rescan.C79_state",
    "Rescan.C79_poisoned"
   ],
   "note": "Success and the recorded state depend only on which expressions are given; poisoning also on how many, so it is proved for permutations. Settings must be sane (C58); the state clauses are for literal processing switched on."
  },
  {
   "property": "C80",
   "status": "proved",
   "theorems": [
    "Rescan.C80_union",
    "Rescan.C80_group",
    "Rescan.C80_group_star",
    "Rescan.C80_concat",
    "Rescan.C80_groups"
   ],
   "note": "Release builds only: a debug build panics on every composed pattern with a group after its first character (C33). The exception for (*...) is proved to be exactly a control verb."
  },
  {
   "property": "C81",
   "status": "proved",
   "theorems": [
    "Rescan.C81_acceptance",
    "Rescan.C81_closure",
    "Rescan.C81_pattern_case"
   ],
   "note": "All patterns, with or without control verb, for the first two parts."
  },
  {
   "property": "C82",
   "status": "proved",
   "theorems": [
    "Rescan.C82_language"
   ],
   "note": ""
  },
  {
   "property": "C83",
   "status": "proved",
   "theorems": [
    "Rescan.C83_class",
    "Rescan.C83_class_int",
    "Rescan.C83_tree",
    "Rescan.C83_parsed_tree",
    "Rescan.C83_failed_dump"
   ],
   "note": "Trees: release builds, or trees finalized as parser trees are (walks check that in debug builds)."
  },
  {
   "property": "C84",
   "status": "proved",
   "theorems": [
    "Rescan.C84_case",
    "Rescan.C84_bitfield",
    "Rescan.C84_charreach",
    "Rescan.C84_describe",
    "Rescan.C84_iterator",
    "Rescan.C84_literal",
    "Rescan.C84_trie"
   ],
   "note": "The one exception is fill_bitvector, whose shift by (pos & 8) does overflow; that is C16, and C84 states equality with it, panic included."
  },
  {
   "property": "C85",
   "status": "partial",
   "theorems": [
    "Rescan.C85_false",
    "Rescan.C85_char",
    "Rescan.C85_class_int",
    "Rescan.C85_class_partial",
    "Rescan.C85_class_exact_partial",
    "Rescan.C85_dot_string"
   ],
   "note": "False of whole classes (C85_false: the bytes up to the double quote). C85_char and C85_class_int are exact for bytes, ranges and lists of items, panics included; C85_class_partial covers every class for which quoting does not change which text is shorter; C85_class_exact_partial: at the length the dump uses, of no other compound class does it hold; C85_dot_string holds of all classes."
  },
  {
   "property": "C86",
   "status": "proved",
   "theorems": [
    "Rescan.C86_bounded",
    "Rescan.C86_compiled"
   ],
   "note": ""
  },
  {
   "property": "C87",
   "status": "proved",
   "theorems": [
    "Rescan.C87_pointer",
    "Rescan.C87_defined",
    "Rescan.C87_isolated",
    "Rescan.C87_move"
   ],
   "note": ""
  },
  {
   "property": "C88",
   "status": "proved",
   "theorems": [
    "Rescan.C88_success",
    "Rescan.C88_state"
   ],
   "note": ""
  },
  {
   "property": "C89",
   "status": "proved",
   "theorems": [
    "Rescan.C89_utf8",
    "Rescan.C89_split",
    "Rescan.C89_control_verbs",
    "Rescan.C89_step",
    "Rescan.C89_parse",
    "Rescan.C89_every_str"
   ],
   "note": ""
  },
  {
   "property": "C90",
   "status": "proved",
   "theorems": [
    "Rescan.Petgraph.C90_changes",
    "Rescan.Petgraph.C90_neighbors",
    "Rescan.Petgraph.C90_find"
   ],
   "note": "petgraph itself is not in /repo; its storage is modelled from knowledge of release 0.5."
  },
  {
   "property": "C91",
   "status": "proved",
   "theorems": [
    "Rescan.BitStore.C91_flags",
    "Rescan.BitStore.C91_order",
    "Rescan.BitStore.C91_limit"
   ],
   "note": "bit-vec itself is not in /repo; its storage is modelled from knowledge of release 0.6."
  },
  {
   "property": "C92",
   "status": "proved",
   "theorems": [
    "Rescan.Stored.C92_literal",
    "Rescan.Stored.C92_build",
    "Rescan.Stored.C92_new_graph",
    "Rescan.Stored.C92_graph"
   ],
   "note": "petgraph and bit-vec themselves are not in /repo; see C90 and C91."
  },
  {
   "property": "C93",
   "status": "proved",
   "theorems": [
    "Rescan.Stored.C93_ng",
    "Rescan.Stored.C93_compile",
    "Rescan.Stored.C93_str",
    "Rescan.Stored.C93_graph",
    "Rescan.Stored.C93_state"
   ],
   "note": "The report manager, parse trees and errors are the same Lean values on both sides; petgraph and bit-vec themselves are not in /repo (C90, C91)."
  },
  {
   "property": "C94",
   "status": "proved",
   "theorems": [
    "Rescan.Hashed.C94_reports",
    "Rescan.Hashed.C94_compile",
    "Rescan.Hashed.C94_deterministic",
    "Rescan.Hashed.C94_ng",
    "Rescan.Hashed.C94_state",
    "Rescan.Hashed.C94_any",
    "Rescan.Hashed.C94_add_expression"
   ],
   "note": "std's hash tables themselves are taken by their documented laws; here literals, graphs and patterns are plain lists (C93 has them on stored forms)."
  },
  {
   "property": "C95",
   "status": "proved",
   "theorems": [
    "Rescan.C95_state",
    "Rescan.C95_registered",
    "Rescan.C95_answer"
   ],
   "note": "a call that answers Err or panics ends the sequence: what it leaves behind is not described (the compiler drops the state then)."
  },
  {
   "property": "C96",
   "status": "proved",
   "theorems": [
    "Rescan.Borrows.C96_compile"
   ],
   "note": "One Ng in three places (rm, smwr, the rest); the heap memory of its hash tables and vectors is not tracked. Stacked Borrows as in Miri, with protectors and the exemption for types that are not Unpin."
  },
  {
   "property": "C97",
   "status": "partial",
   "theorems": [
    "Rescan.Borrows.C97_pointer_partial",
    "Rescan.Borrows.C97_drop",
    "Rescan.Borrows.C97_false"
   ],
   "note": "The full statement is false of the code (C97_false): the pointer is made from a shared reference, and the first taken literal, which changes the report manager through a mutable reference, ends its life. C97_pointer_partial: a step is undefined exactly if it makes the builder follow the pointer after a literal was taken. C97_drop: dropping the state is never undefined."
  },
  {
   "property": "C98",
   "status": "proved",
   "theorems": [
    "Rescan.C98_fill_bitvector",
    "Rescan.C98_rounding",
    "Rescan.C98_literal_eq",
    "Rescan.C98_describe_range",
    "Rescan.ReportManager.C98_conflict_message",
    "Rescan.ReportManager.C98_conflict_message_same",
    "Rescan.C98_filter_edges",
    "Rescan.C98_filter_edges_same",
    "Rescan.C98_parse_no_panic",
    "Rescan.C98_parse_same",
    "Rescan.C98_parse_index",
    "Rescan.C98_lengths",
    "Rescan.C98_mode",
    "Rescan.RepairedMore.C98_tree_dump",
    "Rescan.RepairedMore.C98_dumps",
    "Rescan.RepairedMore.C98_dot",
    "Rescan.RepairedMore.C98_dot_text_same",
    "Rescan.RepairedMore.C98_graphs_offered_exact",
    "Rescan.RepairedMore.C98_graphs_offered",
    "Rescan.RepairedMore.C98_graphs_offered_same",
    "Rescan.Borrows.C98_pointer_stacked",
    "Rescan.Borrows.C98_pointer_drop_stacked",
    "Rescan.Borrows.C98_pointer_compile_stacked",
    "Rescan.TreeBorrows.C98_pointer_tree",
    "Rescan.TreeBorrows.C98_pointer_drop_tree",
    "Rescan.TreeBorrows.C98_pointer_compile_tree",
    "Rescan.RepairedText.C98_describe_char",
    "Rescan.RepairedText.C98_describe_char_same",
    "Rescan.RepairedText.C98_range_text",
    "Rescan.RepairedText.C98_describe_class",
    "Rescan.RepairedText.C98_descriptions_of_mode",
    "Rescan.RepairedText.C98_descriptions"
   ],
   "note": "About hypothetical repairs, not about the code: each function is the model of the existing one with the cited line changed. Each statement is written for an arbitrary function, and an example shows that for the function of the code it is the refuted one. For C32 and C33 the pattern must have fewer than u32::MAX bytes, because the group counter is a u32. For C61 and C72 two lines change (C60's loop and the condition on the last range). The repair of C74 gives up on the small-write automaton instead of building one from the graph."
  },
  {
   "property": "C99",
   "status": "proved",
   "theorems": [
    "Rescan.TreeBorrows.C99_compile"
   ],
   "note": "One Ng in three places (rm, smwr, the rest); the heap memory of its hash tables and vectors is not tracked. Tree Borrows as published (PLDI 2025), with protectors and the accesses at the end of a call; reserved nodes with interior mutability and lazily initialised locations do not occur."
  },
  {
   "property": "C100",
   "status": "partial",
   "theorems": [
    "Rescan.TreeBorrows.C100_pointer_partial",
    "Rescan.TreeBorrows.C100_drop",
    "Rescan.TreeBorrows.C100_false",
    "Rescan.TreeBorrows.C100_writes"
   ],
   "note": "The full statement is false of the code (C100_false): the pointer is made from a shared reference, and the first taken literal writes to the report manager through another pointer, which disables it. C100_pointer_partial: a step is undefined exactly if it makes the builder follow the pointer after a literal was taken. C100_drop: dropping the state is never undefined. C100_writes: registering a report is taken to write whenever it changes the manager, and on a manager that is still globally exhaustible only then."
  },
  {
   "property": "C101",
   "status": "proved",
   "theorems": [
    "Rescan.C101_enough",
    "Rescan.C101_default",
    "Rescan.C101_exact",
    "Rescan.C101_nesting",
    "Rescan.C101_extremes",
    "Rescan.C101_overflow",
    "Rescan.C101_refused",
    "Rescan.C101_recursions"
   ],
   "note": "Counts the calls of the functions that are recursive over trees: walk_component, walk_component_alternation, walk_component_sequence (and the two for classes), the three note_positions, and one call per value of the three tree types dropped (the drop glue of Vec and Option in between, inlining and the size of each frame are up to the compiler). Functions that are not recursive use bounded room and are not counted. An overflow is modelled as the end of the process."
  },
  {
   "property": "C102",
   "status": "proved",
   "theorems": [
    "Rescan.C102_widths",
    "Rescan.C102_same_databases",
    "Rescan.C102_index"
   ],
   "note": "The conversions u32::try_from(usize) are kept as they are at every width; for w <= 32 the argument fits, being a length. Allocation limits that depend on the width (isize::MAX bytes) are not modelled."
  },
  {
   "property": "C103",
   "status": "proved",
   "theorems": [
    "Rescan.C103_same",
    "Rescan.C103_linear",
    "Rescan.C103_at_least",
    "Rescan.C103_parse",
    "Rescan.C103_tree",
    "Rescan.C103_graph",
    "Rescan.C103_literal",
    "Rescan.C103_trie",
    "Rescan.C103_looked"
   ],
   "note": "What counts as a step is a modelling decision written down at the head of Model/Work.lean: operations of fixed size, one vector, hash-table or graph operation (amortised, without degenerate hashing) and allocation are not counted. Fan (edges of a trie lead to nodes, siblings carry different bytes) is a hypothesis of C103_trie and C103_literal; it holds at the start and is kept, and C103_linear does without it."
  },
  {
   "property": "C104",
   "status": "proved",
   "theorems": [
    "Rescan.Borrows.C104_read",
    "Rescan.Borrows.C104_write",
    "Rescan.Borrows.C104_retag",
    "Rescan.TreeBorrows.C104_tree",
    "Rescan.TreeBorrows.C104_tree_retag",
    "Rescan.TreeBorrows.C104_tree_release",
    "Rescan.TreeBorrows.C104_tree_forward",
    "Rescan.TreeBorrows.C104_tree_reads"
   ],
   "note": "The rules themselves (after Jung et al., POPL 2020, and Villani et al., PLDI 2025, as implemented by Miri) are part of the trusted base; the theorems show that the executable form is the described one."
  },
  {
   "property": "C105",
   "status": "proved",
   "theorems": [
    "Rescan.C105_reference",
    "Rescan.C105_public",
    "Rescan.C105_read",
    "Rescan.C105_as_run"
   ],
   "note": "The limits of Grey must fit the integer types (Sane), as those of Grey::default do. The reference program keeps the faults of the code (wrong group positions, C32; the panic on setting the expression index twice in debug builds; the text of C65)."
  },
  {
   "property": "C106",
   "status": "proved",
   "theorems": [
    "Rescan.C106_language",
    "Rescan.C106_vertices",
    "Rescan.C106_vacuous"
   ],
   "note": "About a hypothetical completion of build_graph (Model/Completed.lean), not code that exists; every function of the code it uses is used as it is."
  },
  {
   "property": "C107",
   "status": "proved",
   "theorems": [
    "Rescan.C107_same_tree",
    "Rescan.C107_same_compile"
   ],
   "note": ""
  },
  {
   "property": "C108",
   "status": "proved",
   "theorems": [
    "Rescan.C108_reference",
    "Rescan.C108_no_panic",
    "Rescan.C108_success_iff",
    "Rescan.C108_refuses_more",
    "Rescan.C108_min_width",
    "Rescan.C108_reports",
    "Rescan.C108_ids",
    "Rescan.C108_conflicts",
    "Rescan.C108_som",
    "Rescan.C108_allowempty",
    "Rescan.C108_som_honoured",
    "Rescan.C108_exhaust",
    "Rescan.C108_checked",
    "Rescan.C108_mode",
    "Rescan.C108_graphs"
   ],
   "note": "About a hypothetical compiler (Model/Mended.lean), not code that exists; the functions of the code it calls are used as they are, or as in C98 and C106."
  },
  {
   "property": "C109",
   "status": "proved",
   "theorems": [
    "Rescan.Derived.C109_error",
    "Rescan.Derived.C109_error_text",
    "Rescan.Derived.C109_one_line",
    "Rescan.Derived.C109_set",
    "Rescan.Derived.C109_class",
    "Rescan.Derived.C109_depth",
    "Rescan.Derived.C109_output",
    "Rescan.Derived.C109_mode",
    "Rescan.Derived.C109_tree",
    "Rescan.Derived.C109_flags",
    "Rescan.Derived.C109_position_flags",
    "Rescan.Derived.C109_flags_text"
   ],
   "note": "Formats with a width, fill or hexadecimal flag are not covered. The Debug text of bitflags 1.x for undeclared bits in {:#?} (0x0x..) cannot be reached with safe code."
  },
  {
   "property": "C110",
   "status": "proved",
   "theorems": [
    "Rescan.Derived.C110_hash"
   ],
   "note": ""
  },
  {
   "property": "C111",
   "status": "proved",
   "theorems": [
    "Rescan.Whole.C111_ng",
    "Rescan.Whole.C111_compile",
    "Rescan.Whole.C111_str",
    "Rescan.Whole.C111_reference",
    "Rescan.Whole.C111_graph",
    "Rescan.Whole.C111_state",
    "Rescan.Whole.C111_add_expression"
   ],
   "note": "For texts of fewer than 2^64 bytes. C111_add_expression is for trees with fewer than 2^32 - 4 leaves; the code never makes that call."
  },
  {
   "property": "C112",
   "status": "proved",
   "theorems": [
    "Rescan.C112_enough",
    "Rescan.C112_no_leak",
    "Rescan.C112_needed",
    "Rescan.C112_raised",
    "Rescan.C112_message",
    "Rescan.C112_default",
    "Rescan.C112_parse",
    "Rescan.C112_graph"
   ],
   "note": "In elements, not bytes; what a panic itself allocates is not counted. The bound on messages is for settings whose limits fit the integer types."
  },
  {
   "property": "C113",
   "status": "proved",
   "theorems": [
    "Rescan.C113_depends",
    "Rescan.C113_larger_limits",
    "Rescan.C113_no_literals",
    "Rescan.C113_monotone",
    "Rescan.C113_no_reports",
    "Rescan.C113_nothing_recorded"
   ],
   "note": "Settings whose limits exceed the integer types are left out."
  },
  {
   "property": "C114",
   "status": "proved",
   "theorems": [
    "Rescan.C114_sequence",
    "Rescan.C114_sequence_language",
    "Rescan.C114_finalize",
    "Rescan.C114_graph_builder",
    "Rescan.C114_position_flags",
    "Rescan.ReportManager.C114_report_manager"
   ],
   "note": ""
  },
  {
   "property": "C115",
   "status": "proved",
   "theorems": [
    "Rescan.C115_words",
    "Rescan.C115_spelled",
    "Rescan.C115_languages",
    "Rescan.C115_no_groups",
    "Rescan.C115_closed"
   ],
   "note": ""
  },
  {
   "property": "C116",
   "status": "proved",
   "theorems": [
    "Rescan.C116_replace",
    "Rescan.C116_monotone"
   ],
   "note": ""
  },
  {
   "property": "C117",
   "status": "proved",
   "theorems": [
    "Rescan.C117_trees",
    "Rescan.C117_no_groups"
   ],
   "note": ""
  },
  {
   "property": "C118",
   "status": "proved",
   "theorems": [
    "Rescan.C118_compile",
    "Rescan.C118_parse",
    "Rescan.C118_language"
   ],
   "note": ""
  },
  {
   "property": "C119",
   "status": "proved",
   "theorems": [
    "Rescan.C119_tries"
   ],
   "note": ""
  },
  {
   "property": "C120",
   "status": "proved",
   "theorems": [
    "Rescan.C120_compile_multi",
    "Rescan.C120_compile"
   ],
   "note": ""
  },
  {
   "property": "C121",
   "status": "proved",
   "theorems": [
    "Rescan.C121_literals",
    "Rescan.C121_mended",
    "Rescan.C121_small",
    "Rescan.C121_mended_small",
    "Rescan.C121_complete",
    "Rescan.C121_lost",
    "Rescan.C121_short_findable",
    "Rescan.C121_long_unfindable",
    "Rescan.C121_others_unfindable",
    "Rescan.C121_ids_unfindable"
   ],
   "note": ""
  },
  {
   "property": "C122",
   "status": "proved",
   "theorems": [
    "Rescan.C122_state",
    "Rescan.C122_reports",
    "Rescan.C122_cost",
    "Rescan.C122_minimal",
    "Rescan.C122_literals",
    "Rescan.C122_not_minimal"
   ],
   "note": ""
  },
  {
   "property": "C123",
   "status": "proved",
   "theorems": [
    "Rescan.C123_order",
    "Rescan.C123_edges",
    "Rescan.C123_worst"
   ],
   "note": ""
  },
  {
   "property": "C124",
   "status": "proved",
   "theorems": [
    "Rescan.C124_language",
    "Rescan.C124_finite",
    "Rescan.C124_graph",
    "Rescan.C124_completed",
    "Rescan.C124_trie"
   ],
   "note": ""
  },
  {
   "property": "C125",
   "status": "proved",
   "theorems": [
    "Rescan.C125_context_free",
    "Rescan.C125_not_regular"
   ],
   "note": "Release builds; a debug build accepts fewer patterns (C33)."
  },
  {
   "property": "C126",
   "status": "proved",
   "theorems": [
    "Rescan.C126_form",
    "Rescan.C126_regular",
    "Rescan.C126_two_groups"
   ],
   "note": "The subtraction that overflows in debug builds is in push_sequence (C33)."
  }
 ]
}