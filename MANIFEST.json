{
 "claims": [
  {
   "property": "C01",
   "status": "proved",
   "theorems": [
    "Verif.Props.C01_split_statements",
    "Verif.Props.C01_split_join"
   ],
   "note": "every well-formed script (comments inside must be free of quotes, see C03)"
  },
  {
   "property": "C02",
   "status": "proved",
   "theorems": [
    "Verif.Props.C02_segments_located"
   ],
   "note": ""
  },
  {
   "property": "C03",
   "status": "partial",
   "theorems": [
    "Verif.Props.C03_comments_inert_partial",
    "Verif.Props.C03_line_comment_quote_violation",
    "Verif.Props.C03_block_comment_quote_violation"
   ],
   "note": "the full property is false of the code: quote characters inside comments; proved for comments without them"
  },
  {
   "property": "C04",
   "status": "proved",
   "theorems": [
    "Verif.Props.C04_split_fails_only_unterminated",
    "Verif.Props.C04_split_total"
   ],
   "note": ""
  },
  {
   "property": "C05",
   "status": "proved",
   "theorems": [
    "Verif.Props.C05_literal_extent"
   ],
   "note": ""
  },
  {
   "property": "C06",
   "status": "proved",
   "theorems": [
    "Verif.Props.C06_to_sql_parse_mapping",
    "Verif.Props.C06_rewritten_segments_allowed"
   ],
   "note": "uuid freshness is a hypothesis"
  },
  {
   "property": "C07",
   "status": "partial",
   "theorems": [
    "Verif.Props.C07_simultaneous_substitution_partial",
    "Verif.Props.C07_value",
    "Verif.Props.C07_plain_text_untouched",
    "Verif.Props.C07_reinterprets_values",
    "Verif.Props.C07_capitals_not_found"
   ],
   "note": "Holds when no inserted value contains '$'; violated otherwise (witness), and for variable names with capitals."
  },
  {
   "property": "C08",
   "status": "proved",
   "theorems": [
    "Verif.Props.C08_nearest_definition",
    "Verif.Props.C08_unknown_iff",
    "Verif.Props.C08_get_agrees"
   ],
   "note": ""
  },
  {
   "property": "C09",
   "status": "proved",
   "theorems": [
    "Verif.Props.C09_reads_latest_write",
    "Verif.Props.C09_isolation",
    "Verif.Props.C09_read_your_write",
    "Verif.Props.C09_new_context_inherits",
    "Verif.Props.C09_at_sign"
   ],
   "note": ""
  },
  {
   "property": "C10",
   "status": "proved",
   "theorems": [
    "Verif.Props.C10_each_task_completes_once",
    "Verif.Props.C10_submission_order",
    "Verif.Props.C10_first_round",
    "Verif.Props.C10_run_calls_accumulate",
    "Verif.Props.C10_run_only_appends"
   ],
   "note": "Over an abstract machine of statements and tasks, including streaming (re-queued) tasks."
  },
  {
   "property": "C11",
   "status": "proved",
   "theorems": [
    "Verif.Props.C11_failure_stops_this_call",
    "Verif.Props.C11_prompt_drops_leftovers"
   ],
   "note": "Streaming (re-queued) tasks are in C10. What the API does with the rest of the script is C86."
  },
  {
   "property": "C12",
   "status": "partial",
   "theorems": [
    "Verif.Props.C12_sets_in_order_partial",
    "Verif.Props.C12_violated",
    "Verif.Props.C12_violated_early"
   ],
   "note": "False in general (witnesses); proved for scripts where no SET follows a query using the variable."
  },
  {
   "property": "C13",
   "status": "proved",
   "theorems": [
    "Verif.Props.C13_scalar",
    "Verif.Props.C13_column",
    "Verif.Props.C13_mapping",
    "Verif.Props.C13_mappings",
    "Verif.Props.C13_several_variables",
    "Verif.Props.C13_one_column_two_variables_raises",
    "Verif.Props.C13_star",
    "Verif.Props.C13_star_several_raises",
    "Verif.Props.C13_no_rows_several_variables"
   ],
   "note": "All clauses, the refusals included. Of the rows the statement reads back; when these are not those of the query: C174."
  },
  {
   "property": "C14",
   "status": "proved",
   "theorems": [
    "Verif.Props.C14_precedence",
    "Verif.Props.get_wf"
   ],
   "note": "A session starts with a copy of the defaults as its own values, see C117; repeated reads: C16, C118."
  },
  {
   "property": "C15",
   "status": "proved",
   "theorems": [
    "Verif.Props.C15_right_biased",
    "Verif.Props.C15_idempotent",
    "Verif.Props.C15_appending_not_idempotent",
    "Verif.Props.mergeNamed_idem",
    "Verif.Props.C15_pipelines"
   ],
   "note": ""
  },
  {
   "property": "C16",
   "status": "proved",
   "theorems": [
    "Verif.Props.C16_own_write",
    "Verif.Props.C16_own_write_entry"
   ],
   "note": "Writes of other sessions, NULL, databases: C118."
  },
  {
   "property": "C17",
   "status": "proved",
   "theorems": [
    "Verif.Props.C17_count",
    "Verif.Props.C17_sum",
    "Verif.Props.C17_sum_integers",
    "Verif.Props.C17_max",
    "Verif.Props.C17_min",
    "Verif.Props.C17_group_concat",
    "Verif.Props.C17_group_array",
    "Verif.Props.C17_count_distinct",
    "Verif.Props.C17_group_uniq_array",
    "Verif.Props.C17_bit_and",
    "Verif.Props.C17_bit_or",
    "Verif.Props.C17_bit_xor",
    "Verif.Props.C17_bit_text_first_raises",
    "Verif.Props.C17_bit_booleans",
    "Verif.Props.C17_extreme_text_first",
    "Verif.Props.C17_extreme_number_first",
    "Verif.Props.C17_max_boolean_text"
   ],
   "note": "Groups of NULLs only are C87; mixed groups are characterised by the last theorems."
  },
  {
   "property": "C18",
   "status": "partial",
   "theorems": [
    "Verif.Props.C18_avg_partial",
    "Verif.Props.C18_avg_violated",
    "Verif.Props.C18_avg_all_null_violated",
    "Verif.Props.C18_avg_raises_iff"
   ],
   "note": "False in general (witnesses); proved when no NULL follows the first value."
  },
  {
   "property": "C19",
   "status": "proved",
   "theorems": [
    "Verif.Props.C19_count",
    "Verif.Props.C19_sum",
    "Verif.Props.C19_max",
    "Verif.Props.C19_min",
    "Verif.Props.C19_count_distinct",
    "Verif.Props.C19_bits"
   ],
   "note": "Other values: C113."
  },
  {
   "property": "C20",
   "status": "proved",
   "theorems": [
    "Verif.Props.C20_count",
    "Verif.Props.C20_sum",
    "Verif.Props.C20_max_min",
    "Verif.Props.C20_group_lists",
    "Verif.Props.C20_count_distinct",
    "Verif.Props.C20_bits"
   ],
   "note": "AVG and JSON_OBJECTAGG: C112; SUM over texts that are no numbers: C113."
  },
  {
   "property": "C21",
   "status": "proved",
   "theorems": [
    "Verif.Props.C21_batches_irrelevant",
    "Verif.Props.C21_any_values",
    "Verif.Props.C21_sum",
    "Verif.Props.C21_max_min",
    "Verif.Props.C21_bits"
   ],
   "note": "AVG and JSON_OBJECTAGG: C112."
  },
  {
   "property": "C22",
   "status": "proved",
   "theorems": [
    "Verif.Props.C22_deleted_after_last_reader",
    "Verif.Props.C22_only_own_collection",
    "Verif.Props.C22_nothing_left",
    "Verif.Props.C22_unknown_is_deleted",
    "Verif.Props.C22_free"
   ],
   "note": "Readers that rewrite the collection they read: C99."
  },
  {
   "property": "C23",
   "status": "proved",
   "theorems": [
    "Verif.Props.C23_lag",
    "Verif.Props.C23_lead",
    "Verif.Props.C23_lag_lead_one",
    "Verif.Props.C23_nth_value",
    "Verif.Props.C23_nth_value_from_end",
    "Verif.Props.C23_nth_value_zero",
    "Verif.Props.C23_first_last_row_number",
    "Verif.Props.C23_last_value_default_frame",
    "Verif.Props.C23_default_offset",
    "Verif.Props.C23_nth_value_one",
    "Verif.Props.C23_offset_kinds"
   ],
   "note": "Frame = whole partition."
  },
  {
   "property": "C24",
   "status": "proved",
   "theorems": [
    "Verif.Props.C24_ntile_range_monotone",
    "Verif.Props.C24_ntile_balanced",
    "Verif.Props.C24_ntile_nonpositive"
   ],
   "note": "Exact rational arithmetic instead of floats. The order of larger and smaller buckets is C88."
  },
  {
   "property": "C25",
   "status": "partial",
   "theorems": [
    "Verif.Props.C25_computed",
    "Verif.Props.C25_rank_correct_iff_partial",
    "Verif.Props.C25_dense_rank_correct_iff_partial",
    "Verif.Props.C25_violated"
   ],
   "note": "Exact characterisation of the partitions on which the ranks are right."
  },
  {
   "property": "C26",
   "status": "partial",
   "theorems": [
    "Verif.Props.C26_cume_dist_always_wrong",
    "Verif.Props.C26_percent_rank_computed",
    "Verif.Props.C26_percent_rank_first_row_partial",
    "Verif.Props.C26_percent_rank_last_row_wrong",
    "Verif.Props.C26_percent_rank_negative"
   ],
   "note": "CUME_DIST is wrong in every row, PERCENT_RANK in the last row of every partition with two rows."
  },
  {
   "property": "C27",
   "status": "proved",
   "theorems": [
    "Verif.Props.C27_comparison_null",
    "Verif.Props.C27_arithmetic_null",
    "Verif.Props.C27_error_is_null",
    "Verif.Props.C27_is_null",
    "Verif.Props.C27_failure_null",
    "Verif.Props.C32_null_text",
    "Verif.Props.C35_concat_null"
   ],
   "note": "All listed functions, all operands. Other NULL arguments of the text functions: C104, C105."
  },
  {
   "property": "C28",
   "status": "proved",
   "theorems": [
    "Verif.Props.C28_negations",
    "Verif.Props.C28_trichotomy",
    "Verif.Props.C28_mirror",
    "Verif.Props.C28_meaning",
    "Verif.Props.C28_lt_transitive"
   ],
   "note": "A number and a text: C89."
  },
  {
   "property": "C29",
   "status": "proved",
   "theorems": [
    "Verif.Props.C29_in",
    "Verif.Props.C29_in_is_disjunction",
    "Verif.Props.C29_not_in"
   ],
   "note": ""
  },
  {
   "property": "C30",
   "status": "proved",
   "theorems": [
    "Verif.Props.C30_integer_arithmetic",
    "Verif.Props.C30_modulo",
    "Verif.Props.C30_fraction_arithmetic",
    "Verif.Props.C30_modulo_fractions"
   ],
   "note": "The sign of MOD is C90; floats are rationals."
  },
  {
   "property": "C31",
   "status": "partial",
   "theorems": [
    "Verif.Props.C31_filter_partial",
    "Verif.Props.C31_value_partial",
    "Verif.Props.C31_having_partial",
    "Verif.Props.C31_having_between_violated",
    "Verif.Props.C31_case_constants_partial",
    "Verif.Props.C31_not_and_violated",
    "Verif.Props.C31_not_between_violated",
    "Verif.Props.C31_case_without_else_violated",
    "Verif.Props.C31_case_constants_violated",
    "Verif.Props.C31_is_true_violated"
   ],
   "note": "All expression trees of the class described; the excluded forms are violations (witnesses), except texts used as conditions."
  },
  {
   "property": "C32",
   "status": "proved",
   "theorems": [
    "Verif.Props.C32_left",
    "Verif.Props.C32_right",
    "Verif.Props.C32_substring",
    "Verif.Props.C32_substring_length",
    "Verif.Props.C32_left_substring",
    "Verif.Props.C32_left_right",
    "Verif.Props.C32_null_text",
    "Verif.Props.C32_char_length",
    "Verif.Props.C32_length",
    "Verif.Props.C32_boolean_count"
   ],
   "note": "Zero and negative counts: C104."
  },
  {
   "property": "C33",
   "status": "proved",
   "theorems": [
    "Verif.Props.C33_field",
    "Verif.Props.C33_equality",
    "Verif.Props.C33_find_in_set",
    "Verif.Props.C33_affixes",
    "Verif.Props.C33_equality_numbers",
    "Verif.Props.C33_find_in_set_null"
   ],
   "note": "ELT, numbers, NULL and the empty set: C91."
  },
  {
   "property": "C34",
   "status": "proved",
   "theorems": [
    "Verif.Props.C34_positive",
    "Verif.Props.C34_zero"
   ],
   "note": "c < 0: C106."
  },
  {
   "property": "C35",
   "status": "proved",
   "theorems": [
    "Verif.Props.C35_concat",
    "Verif.Props.C35_concat_null",
    "Verif.Props.C35_concat_assoc",
    "Verif.Props.C35_repeat",
    "Verif.Props.C35_repeat_add",
    "Verif.Props.C35_reverse",
    "Verif.Props.C35_insert",
    "Verif.Props.C35_replace",
    "Verif.Props.C35_replace_self",
    "Verif.Props.C35_strcmp",
    "Verif.Props.C35_trim"
   ],
   "note": "CONCAT_WS with NULL, INSERT outside the text, REPLACE of the empty text: C105."
  },
  {
   "property": "C36",
   "status": "partial",
   "theorems": [
    "Verif.Props.C36_like_computed",
    "Verif.Props.C36_like_partial",
    "Verif.Props.C36_like_null",
    "Verif.Props.C36_like_violated",
    "Verif.Props.C36_like_number_violated"
   ],
   "note": "Patterns without _, %% and escapes; exact for patterns that end with %."
  },
  {
   "property": "C37",
   "status": "partial",
   "theorems": [
    "Verif.Props.C37_path_roundtrip",
    "Verif.Props.C37_extract",
    "Verif.Props.C37_set_extract",
    "Verif.Props.C37_set_unaddressable",
    "Verif.Props.C37_text_index_violated",
    "Verif.Props.C37_wildcard_array",
    "Verif.Props.C37_wildcard_violated",
    "Verif.Props.C37_quoted_name",
    "Verif.Props.C37_half_quoted"
   ],
   "note": "Proved for every document and every path of unquoted names and indexes (quoted names and wildcards: C181; documents held by a row are updated in place: C156; documents given as texts: C178); indexes into texts violate it."
  },
  {
   "property": "C38",
   "status": "partial",
   "theorems": [
    "Verif.Props.C38_remove_member_partial",
    "Verif.Props.C38_remove_element_partial",
    "Verif.Props.C38_index_leg_violated",
    "Verif.Props.C38_index_leg_general"
   ],
   "note": "Proved when only the last leg may be an index; violated (proved) when an earlier leg is one."
  },
  {
   "property": "C39",
   "status": "proved",
   "theorems": [
    "Verif.Props.C39_depth",
    "Verif.Props.C39_depth_members",
    "Verif.Props.C39_length",
    "Verif.Props.C39_length_root",
    "Verif.Props.C39_contains_reflexive",
    "Verif.Props.C39_contains_path",
    "Verif.Props.C39_contains_same"
   ],
   "note": "Scalars, parts and null members: C101."
  },
  {
   "property": "C40",
   "status": "proved",
   "theorems": [
    "Verif.Props.C40_sub_months",
    "Verif.Props.C40_quarter",
    "Verif.Props.C40_fixed",
    "Verif.Props.C40_days",
    "Verif.Props.C40_sub_add",
    "Verif.Props.C40_text_interval"
   ],
   "note": "DATE_ADD of months and years: C111."
  },
  {
   "property": "C41",
   "status": "proved",
   "theorems": [
    "Verif.Props.C41_antisymmetric",
    "Verif.Props.C41_whole_units",
    "Verif.Props.C41_consistent",
    "Verif.Props.C41_datediff_antisymmetric",
    "Verif.Props.C41_time_roundtrip",
    "Verif.Props.C41_time_identity"
   ],
   "note": "Exact quotients instead of floats; units of a month and a year are blocks of 30 and 365 days (C102)."
  },
  {
   "property": "C42",
   "status": "partial",
   "theorems": [
    "Verif.Props.C42_pushdown_partial",
    "Verif.Props.C42_column_left",
    "Verif.Props.C42_constant_eq",
    "Verif.Props.C42_constant_left_violated",
    "Verif.Props.C42_in_column_violated",
    "Verif.Props.C42_typed_column_violated",
    "Verif.Props.C42_no_condition_overwritten",
    "Verif.Props.C42_inferred_type",
    "Verif.Props.constType_iff",
    "Verif.Props.C42_calls_partial"
   ],
   "note": "All clauses of C31's class; the three excluded forms are violations (witnesses). Data source assumed to compare as SQL does."
  },
  {
   "property": "C43",
   "status": "partial",
   "theorems": [
    "Verif.Props.C43_delete_partial",
    "Verif.Props.C43_rejected_iff",
    "Verif.Props.C43_constant_left_violated",
    "Verif.Props.C43_no_where"
   ],
   "note": "Exact characterisation of rejection; deletion exact up to C42's exceptions."
  },
  {
   "property": "C44",
   "status": "proved",
   "theorems": [
    "Verif.Props.C44_order",
    "Verif.Props.C44_terminates",
    "Verif.Props.C44_textual",
    "Verif.Props.C44_scopes",
    "Verif.Props.C44_no_joins"
   ],
   "note": "The values of whole columns and the cases left out: C122."
  },
  {
   "property": "C45",
   "status": "partial",
   "theorems": [
    "Verif.Props.C45_inner_partial",
    "Verif.Props.C45_left",
    "Verif.Props.C45_left_join_violated",
    "Verif.Props.C45_indirect_violated",
    "Verif.Props.C45_plain_join_violated",
    "Verif.Props.C45_ifnull_violated"
   ],
   "note": "Exact for INNER JOINs tied to the primary table by strict comparisons, and for LEFT JOINs alone; mixed, indirect, plain JOIN and IFNULL cases are proved violations. "
  },
  {
   "property": "C46",
   "status": "proved",
   "theorems": [
    "Verif.Props.C46_limit_offset",
    "Verif.Props.C46_offset"
   ],
   "note": "LIMIT 0 and DISTINCT: C114. The engine's @limit and slice are modelled by their documented meaning."
  },
  {
   "property": "C47",
   "status": "partial",
   "theorems": [
    "Verif.Props.C47_by_name_partial",
    "Verif.Props.C47_positional_partial",
    "Verif.Props.C47_row_count",
    "Verif.Props.C47_extra_columns_violated",
    "Verif.Props.C47_position_violated",
    "Verif.Props.C47_overwritten_violated",
    "Verif.Props.C47_duplicates_violated"
   ],
   "note": "Holds for branches with the same names in the same order; alignment by sorted names violates it otherwise (witnesses)."
  },
  {
   "property": "C48",
   "status": "proved",
   "theorems": [
    "Verif.Props.C48_set_integer",
    "Verif.Props.C48_parse_integer",
    "Verif.Props.C48_parse_quoted",
    "Verif.Props.C48_set_decimal"
   ],
   "note": "Quoted texts and negative decimals in SET: C92."
  },
  {
   "property": "C49",
   "status": "proved",
   "theorems": [
    "Verif.Props.C49_prompt_submits_iff",
    "Verif.Props.C49_prompt_submits_commands"
   ],
   "note": ""
  },
  {
   "property": "C50",
   "status": "proved",
   "theorems": [
    "Verif.Props.C50_integer_text_roundtrip",
    "Verif.Props.C50_longest_digit_prefix",
    "Verif.Props.C50_longest_decimal_prefix",
    "Verif.Props.C50_never_fails_on_digit"
   ],
   "note": ""
  },
  {
   "property": "C51",
   "status": "proved",
   "theorems": [
    "Verif.Props.C51_floor_ceil",
    "Verif.Props.C51_integers",
    "Verif.Props.C51_round_explicit",
    "Verif.Props.C51_abs_sign"
   ],
   "note": "Floats are rationals; ROUND(x) and ties: C93."
  },
  {
   "property": "C52",
   "status": "proved",
   "theorems": [
    "Verif.Props.C52_dayofyear",
    "Verif.Props.C52_weekday",
    "Verif.Props.C52_week"
   ],
   "note": "DAYOFWEEK, WEEK(x,1), YEARWEEK, MONTHNAME: C94."
  },
  {
   "property": "C53",
   "status": "partial",
   "theorems": [
    "Verif.Props.C53_on_partial",
    "Verif.Props.C53_recorded_partial",
    "Verif.Props.C53_other_table_violated",
    "Verif.Props.C53_right_side_violated",
    "Verif.Props.C53_accepted",
    "Verif.Props.C53_two_equations_refused"
   ],
   "note": "Proved for ON conditions that compare only the joined table's columns with constants; violations proved."
  },
  {
   "property": "C54",
   "status": "partial",
   "theorems": [
    "Verif.Props.C54_from_list_partial",
    "Verif.Props.C54_empty_violated",
    "Verif.Props.C54_lookahead_violated",
    "Verif.Props.C54_on_conjuncts"
   ],
   "note": "Proved when every table is compared with something and no comparison looks ahead."
  },
  {
   "property": "C55",
   "status": "partial",
   "theorems": [
    "Verif.Props.C55_order_by_partial",
    "Verif.Props.C55_alias_violated",
    "Verif.Props.C55_qualified_violated"
   ],
   "note": "Proved for every list of items when the result columns that share a name with a column of the table that is sorted on are that column; an alias that hides a column and a qualified column beside an alias of its name violate it (witnesses)."
  },
  {
   "property": "C56",
   "status": "proved",
   "theorems": [
    "Verif.Props.C56_memory",
    "Verif.Props.C56_push_succeeds",
    "Verif.Props.C56_closed",
    "Verif.Props.C56_init_once"
   ],
   "note": "Memory database semantics (append, query, delete) is assumed of the library. Contexts, terminal() and failing init files: C100."
  },
  {
   "property": "C57",
   "status": "partial",
   "theorems": [
    "Verif.Props.C57_select_partial"
   ],
   "note": "Proved for every select list of expressions (scalarOk), every WHERE in the scope of C42, HAVING in the scope of C31, ORDER BY in the scope of C55, LIMIT other than 0; joins, windows, subqueries and * are not part of this model."
  },
  {
   "property": "C58",
   "status": "partial",
   "theorems": [
    "Verif.Props.C58_grouped_partial",
    "Verif.Props.C58_alias_violated",
    "Verif.Props.C58_no_rows_violated",
    "Verif.Props.C58_limit_violated"
   ],
   "note": "Proved for every grouping, batch division and combination of clauses with the stated exceptions; the three exceptions are proved violations."
  },
  {
   "property": "C59",
   "status": "partial",
   "theorems": [
    "Verif.Props.C59_distinct_partial",
    "Verif.Props.C59_limit_violated",
    "Verif.Props.C59_aggregate_violated"
   ],
   "note": "Proved without GROUP BY and aggregates when values Python takes to be equal are the same value; violations proved."
  },
  {
   "property": "C60",
   "status": "proved",
   "theorems": [
    "Verif.Props.C60_memory_bound",
    "Verif.Props.C60_no_batch_size",
    "Verif.Props.C60_final_size"
   ],
   "note": ""
  },
  {
   "property": "C61",
   "status": "proved",
   "theorems": [
    "Verif.Props.C61_file",
    "Verif.Props.C61_terminal",
    "Verif.Props.C61_prompt",
    "Verif.Props.C61_pipe",
    "Verif.Props.C61_unquote",
    "Verif.Props.C61_extension"
   ],
   "note": "Text piped in without an argument: C95."
  },
  {
   "property": "C62",
   "status": "proved",
   "theorems": [
    "Verif.Props.C62_task_numbers",
    "Verif.Props.C62_same_root"
   ],
   "note": ""
  },
  {
   "property": "C63",
   "status": "partial",
   "theorems": [
    "Verif.Props.C63_right_join_partial",
    "Verif.Props.C63_hangs_violated",
    "Verif.Props.C63_where_right_table_violated",
    "Verif.Props.C63_where_is_null_violated",
    "Verif.Props.C63_on_constant_violated",
    "Verif.Props.C63_on_left_table_violated",
    "Verif.Props.C63_inner_violated",
    "Verif.Props.C63_or_violated",
    "Verif.Props.C63_two_right_refused",
    "Verif.Props.C63_chain_partial"
   ],
   "note": "Proved for RIGHT JOINs (first) followed by LEFT JOINs with a WHERE on the left table that rejects NULLs; the other cases are proved violations. Chains of RIGHT JOINs of any length, each tied to the table before it, are proved too (C63_chain_partial)."
  },
  {
   "property": "C64",
   "status": "proved",
   "theorems": [
    "Verif.Props.C64_json_objectagg",
    "Verif.Props.C64_key_text",
    "Verif.Props.C64_json_arrayagg",
    "Verif.Props.C64_json_objectagg_rows",
    "Verif.Props.C64_merge_empty"
   ],
   "note": "NULLs: C108; JSON_OBJECTAGG in parts: C112."
  },
  {
   "property": "C65",
   "status": "partial",
   "theorems": [
    "Verif.Props.C65_window_partial",
    "Verif.Props.C65_column_order_partial",
    "Verif.Props.C65_peers_violated",
    "Verif.Props.C65_alias_violated",
    "Verif.Props.C65_expr_column_violated",
    "Verif.Props.C65_column_order_violated",
    "Verif.Props.C65_order_by_expr_refused",
    "Verif.Props.C65_having_expr_refused",
    "Verif.Props.C65_functions"
   ],
   "note": "Proved for queries whose names in OVER do not name other columns of the select list, whose expressions of windows use only selected columns, without LIMIT 0, and (for aggregates over an ordered window) without peers; the columns of expressions of windows come last. Each exclusion is shown by a violating query. No joins, GROUP BY or DISTINCT beside windows."
  },
  {
   "property": "C66",
   "status": "proved",
   "theorems": [
    "Verif.Props.C66_distinct_tasks",
    "Verif.Props.C66_subqueries_first",
    "Verif.Props.C66_failure_stops",
    "Verif.Props.C66_success",
    "Verif.Props.C66_reads_find_what_was_written",
    "Verif.Props.C66_no_leftovers",
    "Verif.Props.C66_user_tables",
    "Verif.Props.C66_released"
   ],
   "note": "Not covered: streaming, WITH RECURSIVE (C76), correlated subqueries run per row (C71). Named queries of WITH: C115."
  },
  {
   "property": "C67",
   "status": "proved",
   "theorems": [
    "Verif.Props.C67_union_all"
   ],
   "note": "Other names: C47; other operations: C109."
  },
  {
   "property": "C68",
   "status": "proved",
   "theorems": [
    "Verif.Props.C68_text",
    "Verif.Props.C68_escapes",
    "Verif.Props.C68_constants",
    "Verif.Props.C68_pieces"
   ],
   "note": "Other characters, signs and bit strings: C110."
  },
  {
   "property": "C69",
   "status": "proved",
   "theorems": [
    "Verif.Props.C69_values",
    "Verif.Props.C69_too_many_refused",
    "Verif.Props.C69_update_type"
   ],
   "note": "The type of a column is the one declared or that of its first number; mixed columns and expressions: C121."
  },
  {
   "property": "C70",
   "status": "partial",
   "theorems": [
    "Verif.Props.C70_tables_partial",
    "Verif.Props.C70_mixed_formats_violated",
    "Verif.Props.C70_csv_and_json_violated",
    "Verif.Props.C70_similar_directories_violated",
    "Verif.Props.C70_format_violated",
    "Verif.Props.C70_stdio_violated",
    "Verif.Props.C70_capital_extension_violated"
   ],
   "note": "Proved for queries whose directories are read in one way each (Compatible); otherwise one table changes the meaning of another (proved, with witnesses). file:// names and table name variables are not modelled."
  },
  {
   "property": "C71",
   "status": "partial",
   "theorems": [
    "Verif.Props.C71_rows_partial",
    "Verif.Props.C71_exists_partial",
    "Verif.Props.C71_scalar_partial",
    "Verif.Props.C71_aggregate_partial",
    "Verif.Props.C71_repeated_equality_refused",
    "Verif.Props.C71_count_violated",
    "Verif.Props.C71_exists_aggregate_violated",
    "Verif.Props.C71_inequality_aggregate_violated",
    "Verif.Props.C71_limit_violated",
    "Verif.Props.C71_shadowed_table_violated",
    "Verif.Props.C71_joined_violated",
    "Verif.Props.C71_column_violated",
    "Verif.Props.C71_between_violated"
   ],
   "note": "Proved without LIMIT and with tables of different names; conditions on both queries that are not equalities of columns may mention the primary outer table only, not inside BETWEEN, and must not be a lone outer column; aggregates only for equalities of columns and outer rows with a match. Each of these restrictions is necessary (proved by the _violated theorems). The key lookup of the library is assumed to compare like =; DISTINCT, HAVING, ORDER BY and nested subqueries are not modelled. Of subqueries that are computed in two passes (AVG, expressions of aggregates ...: C174_correlated_violated) nothing is loaded; these theorems are about the others."
  },
  {
   "property": "C72",
   "status": "partial",
   "theorems": [
    "Verif.Props.C72_instr_partial",
    "Verif.Props.C72_substr_partial",
    "Verif.Props.C72_replace_one_partial",
    "Verif.Props.C72_replace_all_partial",
    "Verif.Props.C72_occurrences",
    "Verif.Props.C72_first",
    "Verif.Props.C72_no_match",
    "Verif.Props.C72_agree",
    "Verif.Props.C72_null",
    "Verif.Props.C72_invalid",
    "Verif.Props.C72_like_partial",
    "Verif.Props.C72_contains_violated",
    "Verif.Props.C72_prefix_dropped_violated",
    "Verif.Props.C72_replace_from_violated",
    "Verif.Props.C72_anchor_violated",
    "Verif.Props.C72_empty_match_violated",
    "Verif.Props.C72_flags",
    "Verif.Props.C72_default_flags",
    "Verif.Props.C72_digit_flags",
    "Verif.Props.C72_scan"
   ],
   "note": "For every matching engine without look-behind and empty matches; the first occurrence, absence of matches and the mutual agreement of the functions for every engine. REGEXP looks at the beginning only, REPLACE from a position loses the text before it, ^ and empty matches are found again (proved)."
  },
  {
   "property": "C73",
   "status": "proved",
   "theorems": [
    "Verif.Props.C73_extreme",
    "Verif.Props.C73_null",
    "Verif.Props.C73_mixed",
    "Verif.Props.C73_order",
    "Verif.Props.C73_least_le",
    "Verif.Props.C73_single"
   ],
   "note": "Floats are rationals. Single arguments (an error in MySQL) are characterised by C73_single."
  },
  {
   "property": "C74",
   "status": "proved",
   "theorems": [
    "Verif.Props.C74_base64",
    "Verif.Props.C74_base64_noise",
    "Verif.Props.C74_base64_size",
    "Verif.Props.C74_hex_text",
    "Verif.Props.C74_char",
    "Verif.Props.C74_ascii",
    "Verif.Props.C74_null",
    "Verif.Props.C74_unhex_case",
    "Verif.Props.C74_hex_twice",
    "Verif.Props.C74_base64_padding",
    "Verif.Props.C74_rest",
    "Verif.Props.C74_unhex_domain",
    "Verif.Props.C74_base64_alphabet",
    "Verif.Props.C74_conversions"
   ],
   "note": "UTF-8 is Lean's own. Numbers, empty and longer texts, addresses: C116."
  },
  {
   "property": "C75",
   "status": "proved",
   "theorems": [
    "Verif.Props.C75_bits",
    "Verif.Props.C75_shifts",
    "Verif.Props.C75_operands"
   ],
   "note": "The width of 64 bits and rounding: C107."
  },
  {
   "property": "C76",
   "status": "partial",
   "theorems": [
    "Verif.Props.C76_query_partial",
    "Verif.Props.C76_with_partial",
    "Verif.Props.C76_unique",
    "Verif.Props.C76_other_tables",
    "Verif.Props.C76_run_again_violated",
    "Verif.Props.C76_existing_table_violated",
    "Verif.Props.C76_prefix_violated",
    "Verif.Props.C76_two_recursions_violated",
    "Verif.Props.C76_joined_violated",
    "Verif.Props.C76_column_list_violated",
    "Verif.Props.C76_list_ignored_violated",
    "Verif.Props.C76_union_cycle_violated"
   ],
   "note": "Exact (both directions, termination included) for UNION ALL with at most one recursive SELECT, last, reading the query in its FROM, without a column list, and names that are no tables yet; each exclusion is a proved violation. That the library reads rows one at a time in the order written is assumed."
  },
  {
   "property": "C77",
   "status": "partial",
   "theorems": [
    "Verif.Props.C77_exact",
    "Verif.Props.C77_expression_partial",
    "Verif.Props.C77_unselected_violated",
    "Verif.Props.C77_alias_violated"
   ],
   "note": "Proved for expressions whose columns outside aggregates are selected under their own names; others are NULL or another column (proved)."
  },
  {
   "property": "C78",
   "status": "partial",
   "theorems": [
    "Verif.Props.C78_columns_partial",
    "Verif.Props.C78_star",
    "Verif.Props.C78_star_drops_violated",
    "Verif.Props.C78_star_first_violated",
    "Verif.Props.C78_star_joins_violated",
    "Verif.Props.C78_star_joins_subquery_violated",
    "Verif.Props.C78_table_star_violated",
    "Verif.Props.C78_own_name_violated",
    "Verif.Props.C78_unqualified_violated",
    "Verif.Props.C78_same_names_violated",
    "Verif.Props.C78_names_distinct",
    "Verif.Props.C78_database_name",
    "Verif.Props.C78_second_name"
   ],
   "note": "Proved for lists of references, expressions, t.* and * of subqueries with known columns, with different names; * over one table alone. * beside anything else, t.* of tables, tables without alias, unqualified columns of joined tables and equal names deviate (proved for all)."
  },
  {
   "property": "C79",
   "status": "proved",
   "theorems": [
    "Verif.Props.C79_history",
    "Verif.Props.C79_stored_text",
    "Verif.Props.C79_unfinished_line",
    "Verif.Props.C79_store_crash",
    "Verif.Props.C79_start_small",
    "Verif.Props.C79_trim"
   ],
   "note": "One prompt at a time. Crashes of a start: C96."
  },
  {
   "property": "C80",
   "status": "proved",
   "theorems": [
    "Verif.Props.C80_format",
    "Verif.Props.C80_format_unique"
   ],
   "note": "C's strftime in the C locale is modelled; the other specifiers: C119."
  },
  {
   "property": "C81",
   "status": "proved",
   "theorems": [
    "Verif.Props.C81_halves",
    "Verif.Props.C81_fields",
    "Verif.Props.C81_from_unixtime"
   ],
   "note": "Texts as arguments are parsed by the library and not modelled. UNIX_TIMESTAMP: C97."
  },
  {
   "property": "C82",
   "status": "proved",
   "theorems": [
    "Verif.Props.C82_set_variable",
    "Verif.Props.C82_set_global",
    "Verif.Props.C82_set_config"
   ],
   "note": "How sqlglot prints a SET statement is not modelled. GLOBAL settings, expressions, special names: C120."
  },
  {
   "property": "C83",
   "status": "proved",
   "theorems": [
    "Verif.Props.C83_isolation",
    "Verif.Props.C83_inherits",
    "Verif.Props.C83_in_place",
    "Verif.Props.C83_queries",
    "Verif.Props.C83_refused_file",
    "Verif.Props.C83_failure_stops",
    "Verif.Props.C83_self_execution"
   ],
   "note": "Streaming queries are left out (C10). Other names: C98."
  },
  {
   "property": "C84",
   "status": "partial",
   "theorems": [
    "Verif.Props.C84_explain_violated",
    "Verif.Props.C84_explain_others_partial"
   ],
   "note": "False for queries; other statements are refused without effect."
  },
  {
   "property": "C85",
   "status": "proved",
   "theorems": [
    "Verif.Props.C85_use",
    "Verif.Props.C85_show"
   ],
   "note": "Module names without blanks. Paths and AS: C103."
  },
  {
   "property": "C86",
   "status": "partial",
   "theorems": [
    "Verif.Props.C86_leftovers_run_first",
    "Verif.Props.C86_violated",
    "Verif.Props.C86_compile_error_leaves_statements"
   ],
   "note": "False of the API (proved for every machine, with a witness)."
  },
  {
   "property": "C87",
   "status": "partial",
   "theorems": [
    "Verif.Props.C87_sum_all_null_violated",
    "Verif.Props.C87_group_concat_all_null_violated",
    "Verif.Props.C87_bit_all_null",
    "Verif.Props.C87_all_null"
   ],
   "note": "False for every such group (proved)."
  },
  {
   "property": "C88",
   "status": "partial",
   "theorems": [
    "Verif.Props.C88_larger_first_violated",
    "Verif.Props.C88_larger_first_exact"
   ],
   "note": "Exact characterisation of where it holds, both directions."
  },
  {
   "property": "C89",
   "status": "partial",
   "theorems": [
    "Verif.Props.C89_mixed_violated"
   ],
   "note": "False (witnesses for = and <)."
  },
  {
   "property": "C90",
   "status": "partial",
   "theorems": [
    "Verif.Props.C90_mod_sign_violated",
    "Verif.Props.C90_mod_sign_exact"
   ],
   "note": "Exact characterisation, both directions."
  },
  {
   "property": "C91",
   "status": "partial",
   "theorems": [
    "Verif.Props.C91_elt_partial",
    "Verif.Props.C91_elt_field_partial",
    "Verif.Props.C91_elt_violated",
    "Verif.Props.C91_find_in_set_violated",
    "Verif.Props.C91_field_null_violated"
   ],
   "note": "Proved for all candidates but the last; violated for the last one of every list."
  },
  {
   "property": "C92",
   "status": "partial",
   "theorems": [
    "Verif.Props.C92_set_quoted_partial",
    "Verif.Props.C92_blanks_lost",
    "Verif.Props.C92_negative_decimal_refused"
   ],
   "note": "Texts without blanks at the ends and leading quote proved; negative decimals refused for all."
  },
  {
   "property": "C93",
   "status": "partial",
   "theorems": [
    "Verif.Props.C93_round_default_violated",
    "Verif.Props.C93_round_ties",
    "Verif.Props.C93_round_default",
    "Verif.Props.C93_round_default_exact",
    "Verif.Props.C93_round_call_violated",
    "Verif.Props.C93_round_call",
    "Verif.Props.C93_round_other"
   ],
   "note": "ROUND(x) is refuted for every x; exact characterisation of where ROUND(x) is an integer; ties characterised for every number of digits."
  },
  {
   "property": "C94",
   "status": "partial",
   "theorems": [
    "Verif.Props.C94_dayofweek_violated",
    "Verif.Props.C94_week_mode1_violated",
    "Verif.Props.C94_yearweek_partial",
    "Verif.Props.C94_yearweek_violated",
    "Verif.Props.C94_names"
   ],
   "note": "YEARWEEK partly, DAYNAME fully proved; the others deviate for every date."
  },
  {
   "property": "C95",
   "status": "partial",
   "theorems": [
    "Verif.Props.C95_pipe_without_argument_violated"
   ],
   "note": "False for every text."
  },
  {
   "property": "C96",
   "status": "partial",
   "theorems": [
    "Verif.Props.C96_trim_crash_violated",
    "Verif.Props.C96_trim_crash_partial"
   ],
   "note": "What is left is a prefix of the 50 newest (proved); possibly nothing (proved)."
  },
  {
   "property": "C97",
   "status": "partial",
   "theorems": [
    "Verif.Props.C97_unixtime_partial",
    "Verif.Props.C97_unixtime_violated"
   ],
   "note": "Exact characterisation."
  },
  {
   "property": "C98",
   "status": "partial",
   "theorems": [
    "Verif.Props.C98_shell_violated"
   ],
   "note": "False for every such name."
  },
  {
   "property": "C99",
   "status": "partial",
   "theorems": [
    "Verif.Props.C99_intermediate_reduce_never_released"
   ],
   "note": "False in every such history."
  },
  {
   "property": "C100",
   "status": "partial",
   "theorems": [
    "Verif.Props.C100_current_context",
    "Verif.Props.C100_terminal",
    "Verif.Props.C100_context_push_violated",
    "Verif.Props.C100_failed_init_violated",
    "Verif.Props.C100_nested_context_violated"
   ],
   "note": "terminal() and the current context are characterised exactly; the clauses are false."
  },
  {
   "property": "C101",
   "status": "partial",
   "theorems": [
    "Verif.Props.C101_scalar_length_violated",
    "Verif.Props.C101_contains_element_violated",
    "Verif.Props.C101_contains_part_violated",
    "Verif.Props.C101_null_member_violated"
   ],
   "note": "False (length of scalars: for every scalar; witnesses for the others)."
  },
  {
   "property": "C102",
   "status": "partial",
   "theorems": [
    "Verif.Props.C102_month_unit_violated",
    "Verif.Props.C102_datediff_sign_violated",
    "Verif.Props.C102_datediff_time_violated",
    "Verif.Props.C102_wraps_violated",
    "Verif.Props.C102_units"
   ],
   "note": "DATEDIFF has the opposite sign for every pair of days; the others by witnesses."
  },
  {
   "property": "C103",
   "status": "partial",
   "theorems": [
    "Verif.Props.C103_use_violated"
   ],
   "note": "False for every path that cannot be imported."
  },
  {
   "property": "C104",
   "status": "partial",
   "theorems": [
    "Verif.Props.C104_right_zero_violated",
    "Verif.Props.C104_negative_violated",
    "Verif.Props.C104_substring_negative_violated",
    "Verif.Props.C104_null_argument_violated"
   ],
   "note": "What is computed instead is proved for every text."
  },
  {
   "property": "C105",
   "status": "partial",
   "theorems": [
    "Verif.Props.C105_concat_ws_partial",
    "Verif.Props.C105_insert_violated",
    "Verif.Props.C105_replace_empty_violated"
   ],
   "note": "CONCAT_WS characterised; the others by witnesses."
  },
  {
   "property": "C106",
   "status": "partial",
   "theorems": [
    "Verif.Props.C106_negative_partial",
    "Verif.Props.C106_negative_violated"
   ],
   "note": "Computed value proved for every text."
  },
  {
   "property": "C107",
   "status": "partial",
   "theorems": [
    "Verif.Props.C107_width_violated",
    "Verif.Props.C107_fraction_violated"
   ],
   "note": "False for every operand (fractions: a witness)."
  },
  {
   "property": "C108",
   "status": "partial",
   "theorems": [
    "Verif.Props.C108_null_key_violated",
    "Verif.Props.C108_arrayagg_null_violated"
   ],
   "note": "False; see C64_json_arrayagg for the exact list."
  },
  {
   "property": "C109",
   "status": "partial",
   "theorems": [
    "Verif.Props.C109_operation_ignored_violated",
    "Verif.Props.C109_except_violated",
    "Verif.Props.C109_intersect_violated",
    "Verif.Props.C109_parentheses_refused"
   ],
   "note": "False: the result is that of UNION ALL for every statement without parentheses; every statement with parentheses is refused."
  },
  {
   "property": "C110",
   "status": "partial",
   "theorems": [
    "Verif.Props.C110_accent_violated",
    "Verif.Props.C110_sign_violated",
    "Verif.Props.C110_negated_variable_violated",
    "Verif.Props.C110_bits_violated"
   ],
   "note": "False: exact set of characters in C68_text; signs lost and bit strings NULL for all."
  },
  {
   "property": "C111",
   "status": "partial",
   "theorems": [
    "Verif.Props.C111_add_months_partial",
    "Verif.Props.C111_december_violated",
    "Verif.Props.C111_years_partial",
    "Verif.Props.C111_feb29_violated",
    "Verif.Props.C111_negative_violated",
    "Verif.Props.C111_microsecond_violated",
    "Verif.Props.C111_text_two_violated"
   ],
   "note": "Months proved for every target but December, years but February 29th; violations proved for all dates (negative months: a witness)."
  },
  {
   "property": "C112",
   "status": "partial",
   "theorems": [
    "Verif.Props.C112_avg_parts_partial",
    "Verif.Props.C112_avg_parts_violated",
    "Verif.Props.C112_json_objectagg_parts_violated",
    "Verif.Props.C112_avg_batches_partial",
    "Verif.Props.C112_avg_batches_violated",
    "Verif.Props.C112_json_objectagg_batches_violated"
   ],
   "note": "AVG proved without NULLs, for every division; JSON_OBJECTAGG false for every two non-empty parts."
  },
  {
   "property": "C113",
   "status": "partial",
   "theorems": [
    "Verif.Props.C113_sum_violated",
    "Verif.Props.C113_max_mixed_violated",
    "Verif.Props.C113_sum_parts_violated"
   ],
   "note": "False (witnesses)."
  },
  {
   "property": "C114",
   "status": "partial",
   "theorems": [
    "Verif.Props.C114_limit_zero_violated",
    "Verif.Props.C114_unguarded",
    "Verif.Props.C114_distinct_violated"
   ],
   "note": "LIMIT 0 false for every query with a row; the other cases are characterised exactly."
  },
  {
   "property": "C115",
   "status": "partial",
   "theorems": [
    "Verif.Props.C115_with_leftovers_violated"
   ],
   "note": "False (witness); see C76 for the conditions."
  },
  {
   "property": "C116",
   "status": "partial",
   "theorems": [
    "Verif.Props.C116_hex_empty_violated",
    "Verif.Props.C116_prefix_violated",
    "Verif.Props.C116_unhex_number_violated",
    "Verif.Props.C116_oct_partial",
    "Verif.Props.C116_oct_negative_violated",
    "Verif.Props.C116_ord_violated",
    "Verif.Props.C116_ascii_violated",
    "Verif.Props.C116_char_null_violated",
    "Verif.Props.C116_crc32_violated",
    "Verif.Props.C116_inet_partial",
    "Verif.Props.C116_inet_violated",
    "Verif.Props.C116_unhex_empty_violated"
   ],
   "note": "OCT of natural numbers and the addresses through UNHEX proved; the rest deviates for all."
  },
  {
   "property": "C117",
   "status": "partial",
   "theorems": [
    "Verif.Props.C117_default_key_violated"
   ],
   "note": "False for every key of the defaults."
  },
  {
   "property": "C118",
   "status": "partial",
   "theorems": [
    "Verif.Props.C118_reads_current_partial",
    "Verif.Props.C118_stale_violated",
    "Verif.Props.C118_null_violated",
    "Verif.Props.C118_bad_json_violated"
   ],
   "note": "Proved for histories in which no session is written to after one below it was read; otherwise false (proved)."
  },
  {
   "property": "C119",
   "status": "partial",
   "theorems": [
    "Verif.Props.C119_specifiers_violated",
    "Verif.Props.C119_rest_violated",
    "Verif.Props.C119_platform",
    "Verif.Props.C119_blank_hour_violated",
    "Verif.Props.C119_day_of_week_violated"
   ],
   "note": "False for every date for %c %D %h %i %M %W; the others by the stated cases."
  },
  {
   "property": "C120",
   "status": "partial",
   "theorems": [
    "Verif.Props.C120_config_name_violated",
    "Verif.Props.C120_global_config_violated",
    "Verif.Props.C120_global_expression_violated",
    "Verif.Props.C120_inherited_violated",
    "Verif.Props.C120_prefix_violated"
   ],
   "note": "False in every clause (proved for all names and values)."
  },
  {
   "property": "C121",
   "status": "partial",
   "theorems": [
    "Verif.Props.C121_no_columns_refused",
    "Verif.Props.C121_mixed_violated",
    "Verif.Props.C121_expression_violated"
   ],
   "note": "False (proved)."
  },
  {
   "property": "C122",
   "status": "partial",
   "theorems": [
    "Verif.Props.C122_value_partial",
    "Verif.Props.C122_cycle_violated",
    "Verif.Props.C122_between_violated",
    "Verif.Props.C122_between_scope_violated"
   ],
   "note": "Proved for tables with at most one row per key (several rows are multiplied by the library); BETWEEN and cycles are proved violations."
  },
  {
   "property": "C123",
   "status": "proved",
   "theorems": [
    "Verif.Props.C123_extends",
    "Verif.Props.C123_own_wins",
    "Verif.Props.C123_loads",
    "Verif.Props.C123_circle"
   ],
   "note": "For every set of files and depth of the stack; the files read are an inductive specification."
  },
  {
   "property": "C124",
   "status": "partial",
   "theorems": [
    "Verif.Props.C124_order_partial",
    "Verif.Props.C124_home_wins_violated",
    "Verif.Props.C124_witness_violated"
   ],
   "note": "Which of the two is seen is the order of a Python set; both outcomes exist for any two files (proved)."
  },
  {
   "property": "C125",
   "status": "proved",
   "theorems": [
    "Verif.Props.C125_precedence"
   ],
   "note": "Every setting of every configuration that loads."
  },
  {
   "property": "C126",
   "status": "proved",
   "theorems": [
    "Verif.Props.C126_databases",
    "Verif.Props.C126_redis"
   ],
   "note": "Every database and property but the four formats (C127)."
  },
  {
   "property": "C127",
   "status": "partial",
   "theorems": [
    "Verif.Props.C127_own_format_partial",
    "Verif.Props.C127_global_wins_violated"
   ],
   "note": "Kept only where no global format is set; replaced otherwise (proved)."
  },
  {
   "property": "C128",
   "status": "proved",
   "theorems": [
    "Verif.Props.C128_inits",
    "Verif.Props.C128_missing"
   ],
   "note": "The default configuration names no scripts."
  },
  {
   "property": "C129",
   "status": "partial",
   "theorems": [
    "Verif.Props.C129_twice_violated"
   ],
   "note": "A script is run at least as often as the file naming it is read; twice where two files extend it (proved)."
  },
  {
   "property": "C130",
   "status": "proved",
   "theorems": [
    "Verif.Props.C130_parse",
    "Verif.Props.C130_unknown_operator"
   ],
   "note": "Defaults containing # or } are excluded (see C131)."
  },
  {
   "property": "C131",
   "status": "partial",
   "theorems": [
    "Verif.Props.C131_percent_violated",
    "Verif.Props.C131_default_violated"
   ],
   "note": "Holds for views without %s in their text whose parameters are well formed (C130_parse); refuted otherwise."
  },
  {
   "property": "C132",
   "status": "partial",
   "theorems": [
    "Verif.Props.C132_join_select_partial",
    "Verif.Props.C132_order_violated",
    "Verif.Props.C132_order_refused"
   ],
   "note": "Proved for LEFT JOINs with at most one match, expressions without BETWEEN on joined columns, and the WHERE/HAVING/ORDER BY forms of C57; several matches per row are made by the library and not modelled. INNER, RIGHT and comma joins are rewritten to these (C45, C54, C63)."
  },
  {
   "property": "C133",
   "status": "partial",
   "theorems": [
    "Verif.Props.C133_join_grouped_partial"
   ],
   "note": "As C132, for the grouped queries of C58."
  },
  {
   "property": "C134",
   "status": "partial",
   "theorems": [
    "Verif.Props.C134_inner_select_partial",
    "Verif.Props.C134_refused"
   ],
   "note": "Proved for queries all of whose joins are INNER JOINs tied to the primary table by a comparison that is not true on NULLs (refuted otherwise: C45), with at most one match, and the forms of C132."
  },
  {
   "property": "C135",
   "status": "partial",
   "theorems": [
    "Verif.Props.C135_inner_grouped_partial"
   ],
   "note": "As C134, for the grouped queries of C58."
  },
  {
   "property": "C136",
   "status": "partial",
   "theorems": [
    "Verif.Props.C136_left_distinct_partial",
    "Verif.Props.C136_inner_distinct_partial"
   ],
   "note": "As C132 and C134, for the DISTINCT queries of C59."
  },
  {
   "property": "C137",
   "status": "partial",
   "theorems": [
    "Verif.Props.C137_annotation_partial",
    "Verif.Props.C137_unknown",
    "Verif.Props.C137_three_violated"
   ],
   "note": "Proved for up to two types; refuted for three or more, whose middle ones are never applied."
  },
  {
   "property": "C138",
   "status": "partial",
   "theorems": [
    "Verif.Props.C138_cast_partial",
    "Verif.Props.C138_order_reversed",
    "Verif.Props.C138_order_violated",
    "Verif.Props.C138_where_partial",
    "Verif.Props.C138_where_violated",
    "Verif.Props.C138_where_second_violated",
    "Verif.Props.C138_subquery_violated"
   ],
   "note": "Proved for plain columns in casts and for at most one annotated type in WHERE; refuted for casts of annotated columns, casts and second types in pushed WHERE conditions, and typed columns compared with subqueries."
  },
  {
   "property": "C139",
   "status": "partial",
   "theorems": [
    "Verif.Props.C139_columns_partial",
    "Verif.Props.C139_alias_violated"
   ],
   "note": "Proved unless one of the conditions joined by AND is a bare column with the name of a result column; refuted then."
  },
  {
   "property": "C140",
   "status": "partial",
   "theorems": [
    "Verif.Props.C140_call",
    "Verif.Props.C140_never_ends_partial",
    "Verif.Props.C140_too_many_violated",
    "Verif.Props.C140_default_partial",
    "Verif.Props.C140_default_violated"
   ],
   "note": "Proved for calls that give every parameter a value; refuted for functions without local variables and at most four parameters: too many arguments end the query and arguments left out are NULL instead of their default."
  },
  {
   "property": "C141",
   "status": "partial",
   "theorems": [
    "Verif.Props.C141_registered_partial",
    "Verif.Props.C141_others",
    "Verif.Props.C141_capitals_violated"
   ],
   "note": "Refuted for names with capital letters and the reserved names, which are never called."
  },
  {
   "property": "C142",
   "status": "partial",
   "theorems": [
    "Verif.Props.C142_math1",
    "Verif.Props.C142_math2",
    "Verif.Props.C142_log",
    "Verif.Props.C142_log_default_violated",
    "Verif.Props.C142_log_base"
   ],
   "note": "Proved for every function of one or two arguments, given the functions of Python's math as partial functions; LOG(x) is refuted (NULL for every x)."
  },
  {
   "property": "C143",
   "status": "proved",
   "theorems": [
    "Verif.Props.C143_row_index",
    "Verif.Props.C143_row_last"
   ],
   "note": "Rows in the order in which the columns are evaluated."
  },
  {
   "property": "C144",
   "status": "partial",
   "theorems": [
    "Verif.Props.C144_nested_partial",
    "Verif.Props.C144_tables_kept",
    "Verif.Props.C144_scope_violated"
   ],
   "note": "Under the conditions of C57, C58, C59 at each level, for UNION ALL of SELECTs with the same names, and for WITH names that are new and read only in their scope; joins, window columns, recursive WITH and subqueries in expressions are not part of this model."
  },
  {
   "property": "C145",
   "status": "partial",
   "theorems": [
    "Verif.Props.C145_insert_select_partial",
    "Verif.Props.C145_columns_violated",
    "Verif.Props.C145_count_violated",
    "Verif.Props.C145_with_violated"
   ],
   "note": "Proved without a list or with the names of the SELECT; refuted for every other list and for WITH after INSERT INTO."
  },
  {
   "property": "C146",
   "status": "partial",
   "theorems": [
    "Verif.Props.C146_select",
    "Verif.Props.C146_union_violated",
    "Verif.Props.C146_union_partial",
    "Verif.Props.C146_console"
   ],
   "note": "Names without ::; refuted for UNION unless the way is I."
  },
  {
   "property": "C147",
   "status": "partial",
   "theorems": [
    "Verif.Props.C147_from_select_partial",
    "Verif.Props.C147_from_grouped_partial",
    "Verif.Props.C147_join_dropped",
    "Verif.Props.C147_join_violated",
    "Verif.Props.C147_one_table"
   ],
   "note": "Proved for lists of tables alone, under the conditions of C54 and C132/C133 (every further table compared, at most one partner per row); joins after the list are dropped for every such statement (proved, with a witness)."
  },
  {
   "property": "C148",
   "status": "partial",
   "theorems": [
    "Verif.Props.C148_variables_in_select_partial",
    "Verif.Props.C148_running_counter",
    "Verif.Props.C148_neg_violated",
    "Verif.Props.C148_ifnull_violated"
   ],
   "note": "Proved unless a column is just the negation of a variable or an assignment stands in the first argument of IFNULL; aggregates of assignments are not modelled."
  },
  {
   "property": "C149",
   "status": "partial",
   "theorems": [
    "Verif.Props.C149_where_value",
    "Verif.Props.C149_where_in_partial",
    "Verif.Props.C149_where_in_violated",
    "Verif.Props.C149_where_in_neg_violated"
   ],
   "note": "Single values proved; IN lists proved if some element is no constant or all are literals, refuted otherwise."
  },
  {
   "property": "C150",
   "status": "proved",
   "theorems": [
    "Verif.Props.C150_raw_blocks",
    "Verif.Props.C150_bad_name",
    "Verif.Props.C150_plain_text_untouched",
    "Verif.Props.C150_literal_violated"
   ],
   "note": "For documented blocks (no endraw and no further block inside); how sqlglot reads the SET text, and the renaming of quoted names in it, are not part."
  },
  {
   "property": "C151",
   "status": "partial",
   "theorems": [
    "Verif.Props.C151_argument_partial",
    "Verif.Props.C151_builtin",
    "Verif.Props.C151_environment",
    "Verif.Props.C151_unknown",
    "Verif.Props.C151_change_dir",
    "Verif.Props.C151_value_cut_violated",
    "Verif.Props.C151_quoted_cut_violated"
   ],
   "note": "Proved for values without =; --k=v=w is refuted for all values."
  },
  {
   "property": "C152",
   "status": "partial",
   "theorems": [
    "Verif.Props.C152_options",
    "Verif.Props.C152_user_partial",
    "Verif.Props.C152_argument",
    "Verif.Props.C152_environment_violated",
    "Verif.Props.C152_defaults"
   ],
   "note": "Proved when the environment has no variable of the option's name; refuted otherwise (LIMIT, BATCH, TIMEOUT, ... in the environment become options)."
  },
  {
   "property": "C153",
   "status": "proved",
   "theorems": [
    "Verif.Props.C153_statements_act_alone",
    "Verif.Props.C153_queue_empty",
    "Verif.Props.C153_nothing_after_exit"
   ],
   "note": "Equivalence with a specification without queue, over an abstract machine of statements. A text with several statements is one statement to the machine (the library's parser reads the first only)."
  },
  {
   "property": "C154",
   "status": "partial",
   "theorems": [
    "Verif.Props.C154_exit_partial",
    "Verif.Props.C154_capitals_violated"
   ],
   "note": "Proved for small letters; refuted for every other spelling without ;."
  },
  {
   "property": "C155",
   "status": "partial",
   "theorems": [
    "Verif.Props.C155_statement_partial",
    "Verif.Props.C155_tables_kept"
   ],
   "note": "Under the hypotheses of C57-C59 (plain), C132-C136 (joins: at most one match per joined table), C147 (FROM a, b), C65 (windows: no peers) at every level, for the rows that level reads in SQL; names of WITH used once and in scope (C144_scope_violated); branches of UNION with equal column names. What is false without them is refuted at the single levels."
  },
  {
   "property": "C156",
   "status": "partial",
   "theorems": [
    "Verif.Props.C156_columns_partial",
    "Verif.Props.C156_shows_one",
    "Verif.Props.C156_alias_violated",
    "Verif.Props.C156_cycle_violated"
   ],
   "note": "Proved where no column changes a document another one uses, and JSON_SET puts in plain values. Refuted otherwise: the functions change the row's dictionaries in place, so other columns show the change (every dictionary, key and value), and JSON_SET(doc, '$.k', doc) makes a dictionary that contains itself. Paths with * in JSON_EXTRACT and JSON_EXTRACT with several paths not modelled on the heap."
  },
  {
   "property": "C157",
   "status": "proved",
   "theorems": [
    "Verif.Props.C157_select_accepted",
    "Verif.Props.C157_join_accepted",
    "Verif.Props.C157_between_excluded",
    "Verif.Props.C157_unused_violated"
   ],
   "note": "With C57-C59 and C132-C133 this makes their results total: compiled, and SQL's. The converse is not claimed (single refusals: C132_order_refused, C54, C63)."
  },
  {
   "property": "C158",
   "status": "partial",
   "theorems": [
    "Verif.Props.C158_select_partial",
    "Verif.Props.C158_grouped_partial",
    "Verif.Props.C158_distinct_partial",
    "Verif.Props.C158_window_partial",
    "Verif.Props.C158_window_accepted",
    "Verif.Props.C158_left_partial",
    "Verif.Props.C158_left_grouped_partial",
    "Verif.Props.C158_left_distinct_partial",
    "Verif.Props.C158_inner_accepted",
    "Verif.Props.C158_inner_partial",
    "Verif.Props.C158_inner_grouped_partial",
    "Verif.Props.C158_inner_distinct_partial"
   ],
   "note": "Under the conditions of C57-C59, C65, C132-C136 and C157, all stated about the query and the tables; LIMIT applies to the result when LimitsResult holds, and always with INNER JOINs. What is outside is refuted in those properties."
  },
  {
   "property": "C159",
   "status": "proved",
   "theorems": [
    "Verif.Props.C159_clause",
    "Verif.Props.C159_comma"
   ],
   "note": "The library's own reading of LIMIT n and OFFSET m, and that it asks for LIMIT before OFFSET, are assumptions (Reads)."
  },
  {
   "property": "C160",
   "status": "partial",
   "theorems": [
    "Verif.Props.C160_count_star",
    "Verif.Props.C160_count",
    "Verif.Props.C160_count_distinct",
    "Verif.Props.C160_count_combinations_partial",
    "Verif.Props.C160_null_combinations_violated",
    "Verif.Props.C160_parts",
    "Verif.Props.C160_batches"
   ],
   "note": "All forms proved but combinations with a NULL, which are counted (refuted for every group with one)."
  },
  {
   "property": "C161",
   "status": "partial",
   "theorems": [
    "Verif.Props.C161_named",
    "Verif.Props.C161_refused",
    "Verif.Props.C161_typed",
    "Verif.Props.C161_arguments_violated",
    "Verif.Props.C161_given"
   ],
   "note": "Which aggregate a call is, and refusals, proved; further arguments are ignored in every call. How the library puts the arguments of a call into `this` and the rest is assumed."
  },
  {
   "property": "C162",
   "status": "partial",
   "theorems": [
    "Verif.Props.C162_in_order_partial",
    "Verif.Props.C162_undefined",
    "Verif.Props.C162_old_value_violated",
    "Verif.Props.C162_file_violated",
    "Verif.Props.C162_null_violated"
   ],
   "note": "Proved where the value is known when the statement is compiled (Known), or is selected INTO the variable in the script and names a table that is no file (Selected); outside these the code does otherwise (three refutations). The query is an arbitrary function of the names it is given."
  },
  {
   "property": "C163",
   "status": "partial",
   "theorems": [
    "Verif.Props.C163_body_partial",
    "Verif.Props.C163_no_rows_violated",
    "Verif.Props.C163_distinct_violated"
   ],
   "note": "Equalities of columns only, and rows for an aggregate without GROUP BY; both restrictions are necessary (refuted). The select list, HAVING and ORDER BY are arbitrary functions of a group's rows. Of subqueries that are computed in two passes (AVG, expressions of aggregates ...: C174_correlated_violated) nothing is loaded; these theorems are about the others."
  },
  {
   "property": "C164",
   "status": "partial",
   "theorems": [
    "Verif.Props.C164_script_partial",
    "Verif.Props.C164_refused_does_nothing",
    "Verif.Props.C164_with_violated"
   ],
   "note": "The statements must meet what C155, C69 and C43 ask of them in the state in which they are reached, and a name of WITH may be used by one statement only (the restriction is necessary: C164_with_violated). SELECT INTO and variables inside SELECTs are C148/C149; compilation of the whole script before any execution is what the model follows."
  },
  {
   "property": "C165",
   "status": "partial",
   "theorems": [
    "Verif.Props.C165_statement_partial",
    "Verif.Props.C165_script_partial"
   ],
   "note": "Acceptance and result together, with no hypothesis about the compiled plan; the conditions on each SELECT are those of C57-C59, C65, C132-C136, C147 (each necessary there), a name of WITH is used by one statement only (C164_with_violated), and no table read by the definition of a WITH name begins with that name (C76: such statements are refused)."
  },
  {
   "property": "C166",
   "status": "partial",
   "theorems": [
    "Verif.Props.C166_key_partial",
    "Verif.Props.C166_text",
    "Verif.Props.C166_untyped_violated",
    "Verif.Props.C166_joined_mark_violated"
   ],
   "note": "The names of columns that are read are identifiers and a mark follows types in brackets; the second restriction is necessary (refuted). Which rows an updating mode matches by the key is the library's."
  },
  {
   "property": "C167",
   "status": "partial",
   "theorems": [
    "Verif.Props.C167_where_partial",
    "Verif.Props.C167_column",
    "Verif.Props.C167_star_violated",
    "Verif.Props.C167_not_in_empty_violated",
    "Verif.Props.C167_left_violated",
    "Verif.Props.C167_many_rows_violated",
    "Verif.Props.C167_accepted",
    "Verif.Props.C167_typed_violated"
   ],
   "note": "Each condition of the theorem beyond C42's is necessary (refuted without it). Subqueries inside other expressions are not modelled; the shape in which the library delivers a subquery's rows (NULL, a value, a list) is assumed."
  },
  {
   "property": "C168",
   "status": "partial",
   "theorems": [
    "Verif.Props.C168_accepted",
    "Verif.Props.C168_compiled",
    "Verif.Props.C168_statement_partial"
   ],
   "note": "Acceptance is unconditional; the result is proved under the conditions of C165 for each SELECT with the subqueries' results put in (C167 refutes the rest). C155, C164 and C165 cover these statements too."
  },
  {
   "property": "C169",
   "status": "partial",
   "theorems": [
    "Verif.Props.C169_having_partial",
    "Verif.Props.C169_accepted",
    "Verif.Props.C169_like_computed",
    "Verif.Props.C169_like_violated",
    "Verif.Props.C169_case_violated",
    "Verif.Props.C169_typed_violated",
    "Verif.Props.C169_many_rows_violated",
    "Verif.Props.C169_compiled",
    "Verif.Props.C169_statement_partial",
    "Verif.Props.C169_like_all",
    "Verif.Props.C169_scope"
   ],
   "note": "Exact for patterns that end with % and have no %%, _ or characters of regular expressions; the others are refuted. LIKE of values that are not texts raises in Python's re and is not modelled. C155, C164, C165 and C175 cover statements with such HAVING clauses (without LIKE); C168_accepted holds for them too."
  },
  {
   "property": "C170",
   "status": "partial",
   "theorems": [
    "Verif.Props.C170_kind_partial",
    "Verif.Props.C170_named",
    "Verif.Props.C170_grouped_partial",
    "Verif.Props.C170_paren_violated",
    "Verif.Props.C170_mixed_violated",
    "Verif.Props.C170_window_violated",
    "Verif.Props.C170_interval_violated",
    "Verif.Props.C170_names",
    "Verif.Props.C170_const",
    "Verif.Props.C170_convert"
   ],
   "note": "The excluded cases are refuted. sqlglot's class hierarchy is assumed as is_calculate is written for."
  },
  {
   "property": "C171",
   "status": "partial",
   "theorems": [
    "Verif.Props.C171_whole",
    "Verif.Props.C171_ordinary",
    "Verif.Props.C171_joins_violated",
    "Verif.Props.C171_alias_violated"
   ],
   "note": "Exact for all SELECTs over subqueries; columns inside INTERVAL are not found by the code. What the functions compute is the library's or the user's."
  },
  {
   "property": "C172",
   "status": "partial",
   "theorems": [
    "Verif.Props.C172_steps",
    "Verif.Props.C172_path",
    "Verif.Props.C172_nested",
    "Verif.Props.C172_refused",
    "Verif.Props.C172_null_violated",
    "Verif.Props.C172_list_violated",
    "Verif.Props.C172_numbers",
    "Verif.Props.C172_no_numbers"
   ],
   "note": "How the library reads the paths that are written (members, elements, slices) is assumed."
  },
  {
   "property": "C173",
   "status": "partial",
   "theorems": [
    "Verif.Props.C173_clock_partial",
    "Verif.Props.C173_curdate_partial",
    "Verif.Props.C173_curdate_violated",
    "Verif.Props.C173_statement_violated"
   ],
   "note": "CURDATE characterised exactly; refuted for every two zones."
  },
  {
   "property": "C174",
   "status": "partial",
   "theorems": [
    "Verif.Props.C174_second_pass",
    "Verif.Props.C174_into_partial",
    "Verif.Props.C174_correlated_partial",
    "Verif.Props.C174_nothing_loaded",
    "Verif.Props.C174_into_violated",
    "Verif.Props.C174_correlated_violated"
   ],
   "note": "Proved for queries of one pass; for those of two passes the negation is proved for every result."
  },
  {
   "property": "C175",
   "status": "partial",
   "theorems": [
    "Verif.Props.C175_script_partial",
    "Verif.Props.C175_scripts_partial",
    "Verif.Props.C175_one_at_a_time_partial",
    "Verif.Props.C175_set_after_violated",
    "Verif.Props.C175_values_violated",
    "Verif.Props.C175_into_accepted"
   ],
   "note": "Within one script SETs must stand before everything but SETs and VALUES, and VALUES must not read what an INTO before them assigns (both necessary: violated theorems); INTO needs a query of one pass (C174); names of WITH as in C164; the statements must meet the hypotheses of C155, C69, C43 in the state in which they are reached. Lists of only constants and variables in WHERE \u2026 IN are not covered (C149)."
  },
  {
   "property": "C176",
   "status": "partial",
   "theorems": [
    "Verif.Props.C176_ends",
    "Verif.Props.C176_same_partial",
    "Verif.Props.C176_outermost_partial",
    "Verif.Props.C176_tables_partial",
    "Verif.Props.C176_aggregates_partial",
    "Verif.Props.C176_subquery_violated",
    "Verif.Props.C176_cleared_violated",
    "Verif.Props.C176_average_violated",
    "Verif.Props.C176_resumed"
   ],
   "note": "Proved when subqueries do not yield before they have ended and the statement reads no temporary collection after its first yield; both are necessary (violated theorems, for all rows). What the memory database calls streaming is a parameter. Several streaming statements in the queue: C10."
  },
  {
   "property": "C177",
   "status": "partial",
   "theorems": [
    "Verif.Props.C177_stops_partial",
    "Verif.Props.C177_at_once_partial",
    "Verif.Props.C177_file",
    "Verif.Props.C177_lost_violated"
   ],
   "note": "Proved for signals in the subqueries or the first pass of a query; refuted for all other moments, for every script. Assumed of the library: a core task told to terminate raises SystemError instead of its next step."
  },
  {
   "property": "C178",
   "status": "partial",
   "theorems": [
    "Verif.Props.C178_roundtrip",
    "Verif.Props.C178_injective",
    "Verif.Props.C178_valid",
    "Verif.Props.C178_text_partial",
    "Verif.Props.C178_string_violated",
    "Verif.Props.C178_valid_violated",
    "Verif.Props.C178_grammar",
    "Verif.Props.C178_valid_grammar",
    "Verif.Props.C178_grammar_one",
    "Verif.Props.C178_encode_grammar"
   ],
   "note": "json.dumps and json.loads are written out in the model; that the reader accepts exactly the grammar of Spec/JsonText is proved (C178_grammar). Not modelled: NaN, Infinity, lone surrogates. Floats: assumed that Python reads back what it prints (a condition on the document). The last clause holds for documents that are not themselves texts (violated otherwise, for every such text)."
  },
  {
   "property": "C179",
   "status": "partial",
   "theorems": [
    "Verif.Props.C179_unknown_refused",
    "Verif.Props.C179_on_refused_partial",
    "Verif.Props.C179_constant_violated",
    "Verif.Props.C179_order_violated"
   ],
   "note": "ON: proved for conjuncts that relate columns (a column on one side and columns on the other, or no comparison); the comparisons with constants and ORDER BY are refuted. A conjunct with an expression on its left side looks at the columns of that side only. HAVING: C180."
  },
  {
   "property": "C180",
   "status": "partial",
   "theorems": [
    "Verif.Props.C180_having_partial",
    "Verif.Props.C180_no_tables",
    "Verif.Props.C180_unknown_refused",
    "Verif.Props.C180_table_violated",
    "Verif.Props.C180_other_column_violated",
    "Verif.Props.C180_expression_violated",
    "Verif.Props.C180_list_violated"
   ],
   "note": "Proved when the result column named c is t.c for every t.c in HAVING (necessary: C180_other_column_violated). Columns of the primary table are written without it inside expressions; typed columns (c[int]) in HAVING are not modelled."
  },
  {
   "property": "C181",
   "status": "partial",
   "theorems": [
    "Verif.Props.C181_names_partial",
    "Verif.Props.C181_elements_partial",
    "Verif.Props.C181_nothing_violated",
    "Verif.Props.C181_members_violated",
    "Verif.Props.C181_nested_violated",
    "Verif.Props.C181_quoted_violated",
    "Verif.Props.C181_star_name_violated",
    "Verif.Props.C181_set_violated"
   ],
   "note": "Proved for steps .name, [\"name\"], [number] and one [*] at an array; the other forms are refuted, each for all documents concerned. Indexes into texts: C37."
  },
  {
   "property": "C182",
   "status": "proved",
   "theorems": [
    "Verif.Props.C182_way",
    "Verif.Props.C182_place",
    "Verif.Props.C182_insert",
    "Verif.Props.C182_select"
   ],
   "note": "UNION ignores both (C146_union_violated). Of str.upper only four facts are used (structure Upper; an instance is given)."
  },
  {
   "property": "C183",
   "status": "partial",
   "theorems": [
    "Verif.Props.C183_query_reads",
    "Verif.Props.C183_query_reads_only",
    "Verif.Props.C183_script",
    "Verif.Props.C183_section",
    "Verif.Props.C183_parent_violated"
   ],
   "note": "What the session itself reads: C14, C118.. That the reader is asked at submission (CoreTasker.load in tasker.start) is the library; so is the merging of the extended configuration with the query's own."
  },
  {
   "property": "C184",
   "status": "proved",
   "theorems": [
    "Verif.Props.C184_options",
    "Verif.Props.C184_others"
   ],
   "note": "Of a query only what concerns its options is modelled. The options are those at the start of the tasks; what a task then does with them (raising @limit for a reduction, query.py:110, 139) is C65/C152. Names of subqueries (uuids) are assumed not to begin one another."
  },
  {
   "property": "C185",
   "status": "partial",
   "theorems": [
    "Verif.Props.C185_function",
    "Verif.Props.C185_implements",
    "Verif.Props.C185_expression",
    "Verif.Props.C185_statement_partial",
    "Verif.Props.C185_like_violated",
    "Verif.Props.C185_tree_partial",
    "Verif.Props.C185_comparison",
    "Verif.Props.C185_implements_comparisons"
   ],
   "note": "What the functions are is stated in Spec/Functions.Std (no definition of the model is used there); proved wherever Std gives a value on the rows concerned: negative counts, RIGHT(s,0), MOD of negative numbers, texts as numbers and LIKE patterns that do not end in % are left open there (C104, C90, C36). Functions outside the table: whatever `other` is. Comparisons (=, <>, <, IN, BETWEEN, CASE) are SQL's on two numbers, two texts (binary collation) or NULL, C185_comparison; a number with a text is left open (C89). C185_tree_partial: with joins, window functions, subqueries in WHERE and HAVING."
  },
  {
   "property": "C186",
   "status": "partial",
   "theorems": [
    "Verif.Props.C186_aggregate",
    "Verif.Props.C186_combine",
    "Verif.Props.C186_meaning",
    "Verif.Props.C186_tree_partial"
   ],
   "note": "Spec/Aggregates.StdAgg says what the aggregates are, as a relation; in the result the aggregates are any functions `agg` of the list of a group's values that agree with it, in place of the calculaters. Left open there, because the program differs from SQL: SUM of NULLs only (0 instead of NULL, C87), AVG of a group with NULLs (C18), GROUP_CONCAT of none (C87); also booleans, texts as numbers, mixed numbers and texts, and MAX/MIN when an equal number of the other kind is in the group (1 and 1.0). The conditions of C155 on statements (Ok) remain. COUNT(DISTINCT a, b), GROUP_ARRAY, BIT_* and the JSON aggregates are not among the names (they have properties of their own)."
  },
  {
   "property": "C187",
   "status": "partial",
   "theorems": [
    "Verif.Props.C187_called_partial",
    "Verif.Props.C187_known",
    "Verif.Props.C187_known_accepted",
    "Verif.Props.C187_arguments",
    "Verif.Props.C187_unprefixed_violated",
    "Verif.Props.C187_key_violated"
   ],
   "note": "Proved for all files, names and arguments, except the names with a meaning of their own (get_value, call_define, jit; add, sub, mul, div, mod when the parser does not know them: C141). How the parser keeps arguments by name (sqlglot's Func.from_arg_list) is assumed; which classes it has is a parameter; its check that required arguments are there is not modelled."
  }
 ]
}