{
 "claims": [
  {
   "property": "C01",
   "status": "proved",
   "theorems": [
    "Sqlf.Props.C01_plain_sql_unchanged",
    "Sqlf.Props.C01_without_references",
    "Sqlf.Props.C01_only_without_references"
   ],
   "note": ""
  },
  {
   "property": "C02",
   "status": "proved",
   "theorems": [
    "Sqlf.Props.C02_quoted_regions_opaque"
   ],
   "note": ""
  },
  {
   "property": "C03",
   "status": "proved",
   "theorems": [
    "Sqlf.Props.C03_doubled_markers_are_text"
   ],
   "note": ""
  },
  {
   "property": "C04",
   "status": "proved",
   "theorems": [
    "Sqlf.Props.C04_templates_read_back"
   ],
   "note": ""
  },
  {
   "property": "C05",
   "status": "proved",
   "theorems": [
    "Sqlf.Props.C05_parsing_terminates"
   ],
   "note": ""
  },
  {
   "property": "C06",
   "status": "partial",
   "theorems": [
    "Sqlf.Props.C06_build_stops_at_nul",
    "Sqlf.Props.C06_nothing_dropped_partial",
    "Sqlf.Props.C06_reading_stops_at_nul",
    "Sqlf.Props.C06_nul_drops_rest_counterexample",
    "Sqlf.Props.C06_text_kept_partial"
   ],
   "note": "False of the code for templates with a NUL byte (counterexample). Proved for every accepted template without NUL, and exactly for all: a template is read up to its first NUL (C06_reading_stops_at_nul); so a fragment builds exactly if and to what the text before the NUL does (C06_build_stops_at_nul)."
  },
  {
   "property": "C07",
   "status": "proved",
   "theorems": [
    "Sqlf.Props.C07_every_question_mark",
    "Sqlf.Props.C07_every_bind_variable",
    "Sqlf.Props.C07_question_marks_count_up",
    "Sqlf.Props.C07_dollar_numbers_kept"
   ],
   "note": ""
  },
  {
   "property": "C08",
   "status": "partial",
   "theorems": [
    "Sqlf.Props.C08_no_dollar_after_question_partial",
    "Sqlf.Props.C08_question_after_dollar_accepted_counterexample",
    "Sqlf.Props.C08_dollar_after_question_rejected_partial",
    "Sqlf.Props.C08_accepted_iff"
   ],
   "note": "False of the code: `$1 \u2026 ?` is accepted (counterexample). Proved: a `$n` after a `?` is always rejected, and for well-formed templates exactly these are (C08_accepted_iff)."
  },
  {
   "property": "C09",
   "status": "proved",
   "theorems": [
    "Sqlf.Props.C09_short_call_is_call",
    "Sqlf.Props.C09_call_value"
   ],
   "note": ""
  },
  {
   "property": "C10",
   "status": "proved",
   "theorems": [
    "Sqlf.Props.C10_string_arguments_exact"
   ],
   "note": ""
  },
  {
   "property": "C11",
   "status": "proved",
   "theorems": [
    "Sqlf.Props.C11_unclosed_call_rejected"
   ],
   "note": ""
  },
  {
   "property": "C12",
   "status": "partial",
   "theorems": [
    "Sqlf.Props.C12_copied_markers_partial",
    "Sqlf.Props.C12_marker_after_function_counterexample",
    "Sqlf.Props.C12_markers_bound_partial"
   ],
   "note": "False of the code: a `?` or `$1` directly after a bare `#name` is copied (counterexample). Proved for every template (read up to a NUL): this is the only way a marker outside of quotes is copied."
  },
  {
   "property": "C13",
   "status": "proved",
   "theorems": [
    "Sqlf.Props.C13_question_keeps_order"
   ],
   "note": ""
  },
  {
   "property": "C14",
   "status": "proved",
   "theorems": [
    "Sqlf.Props.C14_dollar_placeholders_stable",
    "Sqlf.Props.C14_dollar_commit_succeeds"
   ],
   "note": ""
  },
  {
   "property": "C15",
   "status": "proved",
   "theorems": [
    "Sqlf.Props.C15_dollar_merges_equal_only"
   ],
   "note": ""
  },
  {
   "property": "C16",
   "status": "partial",
   "theorems": [
    "Sqlf.Props.C16_dollar_commit_panics_iff_unhashable_partial",
    "Sqlf.Props.C16_dollar_bytes_panic_counterexample"
   ],
   "note": "False of the code: Dollar-style commit of an unhashable value panics (counterexample). Proved: it panics exactly on unhashable values."
  },
  {
   "property": "C17",
   "status": "proved",
   "theorems": [
    "Sqlf.Props.C17_other_styles_are_question"
   ],
   "note": ""
  },
  {
   "property": "C18",
   "status": "proved",
   "theorems": [
    "Sqlf.Props.C18_building_terminates",
    "Sqlf.Props.C18_building_terminates_in_context"
   ],
   "note": "Trees of fragments, columns and tables with the built-in functions; query builders are covered by C59 and C76."
  },
  {
   "property": "C19",
   "status": "proved",
   "theorems": [
    "Sqlf.Props.C19_query_is_substituted_template",
    "Sqlf.Props.C19_in_context"
   ],
   "note": "Refinement: build = denotation, for all trees without user code and query builders (C76/C77 cover those with query builders)."
  },
  {
   "property": "C20",
   "status": "partial",
   "theorems": [
    "Sqlf.Props.C20_question_one_to_one_partial",
    "Sqlf.Props.C20_join_leak_counterexample",
    "Sqlf.Props.C20_no_placeholder_without_argument"
   ],
   "note": "False of the code: the iteration that ends a #join leaves its argument behind (counterexample). Proved for trees in which no #join does that. For all trees: every placeholder has an argument of its own."
  },
  {
   "property": "C21",
   "status": "proved",
   "theorems": [
    "Sqlf.Props.C21_dollar_placeholders_resolve"
   ],
   "note": ""
  },
  {
   "property": "C22",
   "status": "proved",
   "theorems": [
    "Sqlf.Props.C22_values_never_in_text_question",
    "Sqlf.Props.C22_values_never_in_text_dollar"
   ],
   "note": ""
  },
  {
   "property": "C23",
   "status": "partial",
   "theorems": [
    "Sqlf.Props.C23_styles_agree_partial",
    "Sqlf.Props.C23_styles_differ_counterexample"
   ],
   "note": "False for values that cannot be map keys (counterexample). Proved for all others."
  },
  {
   "property": "C24",
   "status": "proved",
   "theorems": [
    "Sqlf.Props.C24_every_argument_bound_question",
    "Sqlf.Props.C24_every_argument_bound_dollar",
    "Sqlf.Props.C24_every_fragment_built",
    "Sqlf.Props.C24_unbuildable_fragment",
    "Sqlf.Props.C24_reported_unused",
    "Sqlf.Props.C24_builds_only_if_all_used",
    "Sqlf.Props.C24_reports_first_unused"
   ],
   "note": ""
  },
  {
   "property": "C25",
   "status": "proved",
   "theorems": [
    "Sqlf.Props.C25_missing_argument_is_error"
   ],
   "note": ""
  },
  {
   "property": "C26",
   "status": "proved",
   "theorems": [
    "Sqlf.Props.C26_missing_reference_is_error"
   ],
   "note": ""
  },
  {
   "property": "C27",
   "status": "proved",
   "theorems": [
    "Sqlf.Props.C27_prefix_and_suffix"
   ],
   "note": ""
  },
  {
   "property": "C28",
   "status": "proved",
   "theorems": [
    "Sqlf.Props.C28_body_is_trimmed"
   ],
   "note": ""
  },
  {
   "property": "C29",
   "status": "proved",
   "theorems": [
    "Sqlf.Props.C29_join_of_a_range",
    "Sqlf.Props.C29_join_of_all",
    "Sqlf.Props.C29_join_of_all_fragments",
    "Sqlf.Props.C29_join_of_all_arguments"
   ],
   "note": ""
  },
  {
   "property": "C30",
   "status": "proved",
   "theorems": [
    "Sqlf.Props.C30_join_range_must_exist"
   ],
   "note": ""
  },
  {
   "property": "C31",
   "status": "partial",
   "theorems": [
    "Sqlf.Props.C31_failing_item_fails_join_partial",
    "Sqlf.Props.C31_index_failure_ends_join",
    "Sqlf.Props.C31_failing_fragment_fails_build_partial",
    "Sqlf.Props.C31_counterexample"
   ],
   "note": "False of the code: an item failing with ErrInvalidIndex ends a #join without explicit end (counterexample). Proved for all other failures; C31_index_failure_ends_join says exactly what happens in the remaining case."
  },
  {
   "property": "C32",
   "status": "partial",
   "theorems": [
    "Sqlf.Props.C32_no_argument_without_placeholder_partial",
    "Sqlf.Props.C32_join_leak_counterexample"
   ],
   "note": "False of the code as for C20 (counterexample). Proved for trees in which no #join drops an item that committed values."
  },
  {
   "property": "C33",
   "status": "proved",
   "theorems": [
    "Sqlf.Props.C33_references_are_scoped"
   ],
   "note": ""
  },
  {
   "property": "C34",
   "status": "proved",
   "theorems": [
    "Sqlf.Props.C34_arguments_append_only"
   ],
   "note": ""
  },
  {
   "property": "C35",
   "status": "partial",
   "theorems": [
    "Sqlf.Props.C35_panics_become_errors_partial",
    "Sqlf.Props.C35_number_literal_counterexample"
   ],
   "note": "False of the code: a number literal for a string parameter panics outside of safeCall (counterexample). Proved: besides that, only a bind variable of the fragment's own template with an unhashable value panics."
  },
  {
   "property": "C36",
   "status": "proved",
   "theorems": [
    "Sqlf.Props.C36_building_changes_nothing"
   ],
   "note": ""
  },
  {
   "property": "C37",
   "status": "proved",
   "theorems": [
    "Sqlf.Props.C37_rebuild_reuses_placeholders"
   ],
   "note": ""
  },
  {
   "property": "C38",
   "status": "proved",
   "theorems": [
    "Sqlf.Props.C38_derived_context_is_used",
    "Sqlf.Props.C38_rejected_functions_build_nothing",
    "Sqlf.Props.C38_calls_reach_the_nearest",
    "Sqlf.Props.C38_seen_at_any_depth",
    "Sqlf.Props.C38_nearest_definition_wins"
   ],
   "note": ""
  },
  {
   "property": "C39",
   "status": "proved",
   "theorems": [
    "Sqlf.Props.C39_function_maps_validated",
    "Sqlf.Props.C39_iteration_order_irrelevant"
   ],
   "note": ""
  },
  {
   "property": "C40",
   "status": "partial",
   "theorems": [
    "Sqlf.Props.C40_called_names",
    "Sqlf.Props.C40_callable_iff",
    "Sqlf.Props.C40_nonascii_name_uncallable_counterexample",
    "Sqlf.Props.C40_ascii_names_callable_partial"
   ],
   "note": "False for names with non-ASCII letters (counterexample). Proved for ASCII names, and exactly: an accepted name is callable if and only if it is ASCII (C40_callable_iff)."
  },
  {
   "property": "C41",
   "status": "partial",
   "theorems": [
    "Sqlf.Props.C41_built_calls_fit",
    "Sqlf.Props.C41_wrong_count_rejected",
    "Sqlf.Props.C41_wrong_literal_not_run",
    "Sqlf.Props.C41_wrong_literal_rejected_partial",
    "Sqlf.Props.C41_number_for_string_panics_counterexample"
   ],
   "note": "False for number literals given to string or bool parameters, which panic (counterexample). Proved for everything else; also: the function is never run. Also proved: in a fragment that builds, every call in the template names a defined function and fits its signature."
  },
  {
   "property": "C42",
   "status": "proved",
   "theorems": [
    "Sqlf.Props.C42_invalid_index_survives_nesting"
   ],
   "note": ""
  },
  {
   "property": "C43",
   "status": "proved",
   "theorems": [
    "Sqlf.Props.C43_custom_function_joined",
    "Sqlf.Props.C43_other_functions_are_rejected"
   ],
   "note": ""
  },
  {
   "property": "C44",
   "status": "proved",
   "theorems": [
    "Sqlf.Props.C44_argsFlatted_is_flatten"
   ],
   "note": ""
  },
  {
   "property": "C45",
   "status": "partial",
   "theorems": [
    "Sqlf.Props.C45_argsFlatted_panics_iff_partial",
    "Sqlf.Props.C45_nil_slice_pointer_counterexample"
   ],
   "note": "False for nil pointers to slices (counterexample). Proved: it panics exactly for those."
  },
  {
   "property": "C46",
   "status": "proved",
   "theorems": [
    "Sqlf.Props.C46_literal_is_one_region",
    "Sqlf.Props.C46_quoted_string_reads_back",
    "Sqlf.Props.C46_interpolate_quotes_strings"
   ],
   "note": ""
  },
  {
   "property": "C47",
   "status": "proved",
   "theorems": [
    "Sqlf.Props.C47_interpolate_fills_in",
    "Sqlf.Props.C47_everything_else_copied"
   ],
   "note": ""
  },
  {
   "property": "C48",
   "status": "partial",
   "theorems": [
    "Sqlf.Props.C48_interpolate_panics_iff_partial",
    "Sqlf.Props.C48_interpolate_errors_iff",
    "Sqlf.Props.C48_interpolate_returns_partial",
    "Sqlf.Props.C48_interpolate_panics_counterexample",
    "Sqlf.Props.C48_nil_pointer_counterexample"
   ],
   "note": "False for bind variables out of range and for nil pointers with a method of the type they point to, such as (*time.Time)(nil) (counterexamples). Proved for all others; exactly which queries panic and which return an error is characterised."
  },
  {
   "property": "C49",
   "status": "partial",
   "theorems": [
    "Sqlf.Props.C49_interpolation_style_independent_partial",
    "Sqlf.Props.C49_query_interpolation_style_independent_partial",
    "Sqlf.Props.C49_digit_after_placeholder_counterexample",
    "Sqlf.Props.C49_negative_zero_counterexample",
    "Sqlf.Props.C49_subqueries_interpolation_style_independent_partial"
   ],
   "note": "False if a digit follows a placeholder, and for 0.0/-0.0 (counterexamples). Proved for tidy trees and query builders without those."
  },
  {
   "property": "C50",
   "status": "proved",
   "theorems": [
    "Sqlf.Props.C50_scanRow_drops_extra_columns",
    "Sqlf.Props.C50_scanRow_too_few_columns"
   ],
   "note": ""
  },
  {
   "property": "C51",
   "status": "partial",
   "theorems": [
    "Sqlf.Props.C51_scan_too_few_columns",
    "Sqlf.Props.C51_scan_returns_all_rows_partial",
    "Sqlf.Props.C51_scan_ignores_abort_counterexample"
   ],
   "note": "False of the code: rows.Err is not checked (counterexample). Proved for iterations that are not aborted."
  },
  {
   "property": "C52",
   "status": "partial",
   "theorems": [
    "Sqlf.Props.C52_count_panics_iff",
    "Sqlf.Props.C52_count_wraps_errors",
    "Sqlf.Props.C52_count_value",
    "Sqlf.Props.C52_count_error_partial",
    "Sqlf.Props.C52_count_panics_counterexample"
   ],
   "note": "The error path panics where Interpolate does (C48, counterexample); exactly when: C52_count_panics_iff. The value path, and the errors otherwise, are proved in full."
  },
  {
   "property": "C53",
   "status": "proved",
   "theorems": [
    "Sqlf.Props.C53_clauses_in_order",
    "Sqlf.Props.C53_clauses_in_order_in_context",
    "Sqlf.Props.C53_order_of_calls"
   ],
   "note": ""
  },
  {
   "property": "C54",
   "status": "partial",
   "theorems": [
    "Sqlf.Props.C54_query_question_args_in_order_partial",
    "Sqlf.Props.C54_order_of_arguments_partial",
    "Sqlf.Props.C54_select_args_counterexample",
    "Sqlf.Props.C54_subqueries_question_args_in_order_partial"
   ],
   "note": "False of the code: SELECT is built last (counterexample). Proved if SELECT, or everything it is built after, commits no values. Which argument every placeholder gets in the other case: C54_order_of_arguments_partial."
  },
  {
   "property": "C55",
   "status": "partial",
   "theorems": [
    "Sqlf.Props.C55_tables_of_any_calls",
    "Sqlf.Props.C55_rows_without_clash",
    "Sqlf.Props.C55_counterexample",
    "Sqlf.Props.C55_no_join_is_lost_partial"
   ],
   "note": "False of the code for joins under a name given to From (counterexample). Proved for all other calls; C55_tables_of_any_calls says exactly which tables are written for any calls, these included."
  },
  {
   "property": "C56",
   "status": "partial",
   "theorems": [
    "Sqlf.Props.C56_columns_need_their_table",
    "Sqlf.Props.C56_counterexample",
    "Sqlf.Props.C56_needed_joins_are_kept_partial",
    "Sqlf.Props.C56_optional_joins_partial"
   ],
   "note": "One half proved without restriction; the other is false of the code for CTEs that are also dependencies (counterexample) and proved otherwise. Exactly which joins are written: C60_exactly_what_is_written."
  },
  {
   "property": "C57",
   "status": "partial",
   "theorems": [
    "Sqlf.Props.C57_counterexample",
    "Sqlf.Props.C57_tables_of_conditions_partial"
   ],
   "note": "False of the code for unneeded mandatory joins under Distinct (counterexample). Proved for all others."
  },
  {
   "property": "C58",
   "status": "partial",
   "theorems": [
    "Sqlf.Props.C58_looked_up_tables_are_given",
    "Sqlf.Props.C58_counterexample",
    "Sqlf.Props.C58_unknown_tables_partial"
   ],
   "note": "False of the code for joins under a name given to From (counterexample). Proved for all other calls; for any calls, C58_looked_up_tables_are_given with exactly the tables that are looked up."
  },
  {
   "property": "C59",
   "status": "proved",
   "theorems": [
    "Sqlf.Props.C59_dependency_analysis_terminates"
   ],
   "note": ""
  },
  {
   "property": "C60",
   "status": "partial",
   "theorems": [
    "Sqlf.Props.C60_written_by_any_calls",
    "Sqlf.Props.C60_counterexample",
    "Sqlf.Props.C60_only_needed_ctes_partial",
    "Sqlf.Props.C60_exactly_needed_ctes_partial",
    "Sqlf.Props.C60_exactly_what_is_written"
   ],
   "note": "False of the code: dependencies of a CTE used by an unaliased table are not collected (counterexample). Proved otherwise; `only needed ones` without restriction. C60_written_by_any_calls says exactly which CTEs and tables are written, for any calls, those cases included."
  },
  {
   "property": "C61",
   "status": "partial",
   "theorems": [
    "Sqlf.Props.C61_builds_repeat_partial",
    "Sqlf.Props.C61_builds_between_calls_partial",
    "Sqlf.Props.C61_distinct_order_counterexample",
    "Sqlf.Props.C61_invalid_order_counterexample",
    "Sqlf.Props.C61_after_builds",
    "Sqlf.Props.C61_invalid_order_fails_again"
   ],
   "note": "False of the code with Distinct and OrderBy and with an invalid order (counterexamples). Proved for all other query builders, with any builds in between. Builds between the calls that make a builder do not matter either (C61_builds_between_calls_partial). For every query builder without user code, C61_after_builds says exactly what k builds leave behind: the columns ordered by are selected k times more, and invalid orders become errors (then the second build fails, C61_invalid_order_fails_again)."
  },
  {
   "property": "C62",
   "status": "partial",
   "theorems": [
    "Sqlf.Props.C62_counterexample",
    "Sqlf.Props.C62_later_builds_fail_partial"
   ],
   "note": "False of the code: the first build ignores invalid orders (counterexample). Proved: all builds after a successful one fail, and the error names every invalid order."
  },
  {
   "property": "C63",
   "status": "partial",
   "theorems": [
    "Sqlf.Props.C63_joins_never_panic_partial",
    "Sqlf.Props.C63_counterexample",
    "Sqlf.Props.C63_panics_are_local_partial"
   ],
   "note": "False of the code for nil ON conditions and CrossJoin (counterexample). Proved: all other joins do not panic, and panics do not depend on earlier calls."
  },
  {
   "property": "C64",
   "status": "partial",
   "theorems": [
    "Sqlf.Props.C64_with_debug_never_panics_partial",
    "Sqlf.Props.C64_complete_queries_never_panic_partial",
    "Sqlf.Props.C64_no_table_counterexample",
    "Sqlf.Props.C64_column_of_nil_counterexample",
    "Sqlf.Props.C64_nil_fragment_counterexample",
    "Sqlf.Props.C64_table_template_counterexample"
   ],
   "note": "False of the code for incomplete queries: no table, a column of a nil fragment, a nil fragment in a column's expression, a table name that is a template (counterexamples). Proved for complete ones, with Debug too where C73 holds; a nil column is an error."
  },
  {
   "property": "C65",
   "status": "proved",
   "theorems": [
    "Sqlf.Props.C65_from_in_any_order"
   ],
   "note": ""
  },
  {
   "property": "C66",
   "status": "proved",
   "theorems": [
    "Sqlf.Props.C66_limit_and_offset"
   ],
   "note": ""
  },
  {
   "property": "C67",
   "status": "proved",
   "theorems": [
    "Sqlf.Props.C67_where_in"
   ],
   "note": ""
  },
  {
   "property": "C68",
   "status": "proved",
   "theorems": [
    "Sqlf.Props.C68_unions_in_order"
   ],
   "note": ""
  },
  {
   "property": "C69",
   "status": "proved",
   "theorems": [
    "Sqlf.Props.C69_errors_are_sticky",
    "Sqlf.Props.C69_no_errors_without_cause",
    "Sqlf.Props.C69_errors_are_sticky_with_builds"
   ],
   "note": ""
  },
  {
   "property": "C70",
   "status": "proved",
   "theorems": [
    "Sqlf.Props.C70_tables_stay_addressable"
   ],
   "note": ""
  },
  {
   "property": "C71",
   "status": "partial",
   "theorems": [
    "Sqlf.Props.C71_counterexample",
    "Sqlf.Props.C71_all_conditions_partial",
    "Sqlf.Props.C71_only_the_last_condition"
   ],
   "note": "False of the code: a last condition failing with ErrInvalidIndex vanishes (counterexample). Proved otherwise, and that only the last condition can vanish, in this way (C71_only_the_last_condition)."
  },
  {
   "property": "C72",
   "status": "partial",
   "theorems": [
    "Sqlf.Props.C72_counterexample",
    "Sqlf.Props.C72_conjunction_partial"
   ],
   "note": "False of the code for conditions with OR outside of parentheses (counterexample). Proved for all others."
  },
  {
   "property": "C73",
   "status": "partial",
   "theorems": [
    "Sqlf.Props.C73_debug_success_partial",
    "Sqlf.Props.C73_same_outcome_partial",
    "Sqlf.Props.C73_top_level",
    "Sqlf.Props.C73_panics_counterexample",
    "Sqlf.Props.C73_nil_pointer_counterexample"
   ],
   "note": "False of the code: printing can panic (counterexamples). Proved: successful builds are the same; outcomes are the same if the printed queries contain nothing that can be taken for a placeholder and no committed value makes Interpolate panic; exact characterisation at top level."
  },
  {
   "property": "C74",
   "status": "proved",
   "theorems": [
    "Sqlf.Props.C74_joining_again_replaces"
   ],
   "note": ""
  },
  {
   "property": "C75",
   "status": "proved",
   "theorems": [
    "Sqlf.Props.C75_select_replaces_others_add",
    "Sqlf.Props.C75_replaced_select"
   ],
   "note": ""
  },
  {
   "property": "C76",
   "status": "proved",
   "theorems": [
    "Sqlf.Props.C76_query_is_specified"
   ],
   "note": ""
  },
  {
   "property": "C77",
   "status": "proved",
   "theorems": [
    "Sqlf.Props.C77_subqueries_are_specified"
   ],
   "note": ""
  },
  {
   "property": "C78",
   "status": "proved",
   "theorems": [
    "Sqlf.Props.C78_query_dollar_placeholders_resolve",
    "Sqlf.Props.C78_subqueries_dollar_placeholders_resolve"
   ],
   "note": ""
  },
  {
   "property": "C79",
   "status": "proved",
   "theorems": [
    "Sqlf.Props.C79_query_values_never_in_text_question",
    "Sqlf.Props.C79_query_values_never_in_text_dollar"
   ],
   "note": ""
  },
  {
   "property": "C80",
   "status": "partial",
   "theorems": [
    "Sqlf.Props.C80_query_styles_agree_partial",
    "Sqlf.Props.C80_styles_differ_counterexample",
    "Sqlf.Props.C80_any_queries_styles_agree_partial",
    "Sqlf.Props.C80_subqueries_styles_agree_partial"
   ],
   "note": "False for values that cannot be map keys (counterexample). Proved for all others."
  },
  {
   "property": "C81",
   "status": "partial",
   "theorems": [
    "Sqlf.Props.C81_no_placeholder_without_argument",
    "Sqlf.Props.C81_query_question_one_to_one_partial",
    "Sqlf.Props.C81_query_no_argument_without_placeholder_partial",
    "Sqlf.Props.C81_join_leak_counterexample",
    "Sqlf.Props.C81_subqueries_question_one_to_one_partial",
    "Sqlf.Props.C81_subqueries_no_argument_without_placeholder_partial",
    "Sqlf.Props.C81_subqueries_no_placeholder_without_argument"
   ],
   "note": "False of the code as for C20 (counterexample). Proved for query builders in which no #join drops an item that committed values. For all query builders: every placeholder has an argument of its own."
  },
  {
   "property": "C82",
   "status": "proved",
   "theorems": [
    "Sqlf.Props.C82_accepts_templates",
    "Sqlf.Props.C82_reads_templates"
   ],
   "note": ""
  },
  {
   "property": "C83",
   "status": "partial",
   "theorems": [
    "Sqlf.Props.C83_query_is_printed",
    "Sqlf.Props.C83_nothing_printed_without_debug",
    "Sqlf.Props.C83_nested_counterexample"
   ],
   "note": "Proved: the last line is the query with the arguments of the context filled in; without Debug nothing is printed. In the Question style a nested query builder is printed with wrong values (counterexample)."
  },
  {
   "property": "C84",
   "status": "proved",
   "theorems": [
    "Sqlf.Props.C84_wrappers_are_transparent",
    "Sqlf.Props.C84_builds_in_order",
    "Sqlf.Props.C84_commit_and_args"
   ],
   "note": ""
  },
  {
   "property": "C85",
   "status": "partial",
   "theorems": [
    "Sqlf.Props.C85_calls_do_what_they_say_partial",
    "Sqlf.Props.C85_others_stay_partial",
    "Sqlf.Props.C85_listed_histories_partial",
    "Sqlf.Props.C85_shared_array_counterexample"
   ],
   "note": "False of the code when the Args or Fragments of one fragment are spread into another one and have spare capacity (counterexample). Proved for all histories without that, for every growth of append."
  },
  {
   "property": "C86",
   "status": "partial",
   "theorems": [
    "Sqlf.Props.C86_only_the_on_prefix_partial",
    "Sqlf.Props.C86_pointers_are_like_copies_partial",
    "Sqlf.Props.C86_meaning_is_unique",
    "Sqlf.Props.C86_made_by_calls",
    "Sqlf.Props.C86_on_is_changed_counterexample"
   ],
   "note": "False of the code: joins set the prefix of the ON fragment (counterexample). Proved: nothing else is changed, and in programs that do not change a fragment after it was used pointers are like copies."
  },
  {
   "property": "C87",
   "status": "proved",
   "theorems": [
    "Sqlf.Props.C87_positions_are_extra",
    "Sqlf.Props.C87_expressions_are_located",
    "Sqlf.Props.C87_errors_are_located"
   ],
   "note": "Model/Position.lean is the parser with positions; it is proved to agree with the parser of the other theorems on every template."
  },
  {
   "property": "C88",
   "status": "partial",
   "theorems": [
    "Sqlf.Props.C88_own_and_shared_builders_partial",
    "Sqlf.Props.C88_changed_while_built_counterexample",
    "Sqlf.Props.C88_shared_builders_partial",
    "Sqlf.Props.C88_fair_schedules_finish_partial",
    "Sqlf.Props.C88_builders_stay_partial",
    "Sqlf.Props.C88_distinct_order_counterexample"
   ],
   "note": "False of the code with Distinct and OrderBy (counterexample: a goroutine returns the ordering column twice). Proved for builders made by calls without that combination and with valid orders, with sequentially consistent memory: same results in every schedule, fair schedules finish, builders stay the same. The same for goroutines that also make and change query builders of their own."
  },
  {
   "property": "C89",
   "status": "proved",
   "theorems": [
    "Sqlf.Props.C89_unshared_builders",
    "Sqlf.Props.C89_fragments_undisturbed",
    "Sqlf.Props.C89_alone_is_sequential"
   ],
   "note": "Model/Threads.lean is the evaluator as a goroutine; alone it is proved to be the sequential evaluator."
  },
  {
   "property": "C90",
   "status": "partial",
   "theorems": [
    "Sqlf.Props.C90_own_and_shared_only_the_prefix_partial",
    "Sqlf.Props.C90_no_race_unshared_partial",
    "Sqlf.Props.C90_only_the_prefix_partial",
    "Sqlf.Props.C90_prefix_counterexample",
    "Sqlf.Props.C90_touches_counterexample"
   ],
   "note": "False of the code: builds set the SELECT prefix of the builder (counterexample). Proved: no race without shared query builders; otherwise the prefix is the only field raced on (builders without Distinct and OrderBy together)."
  },
  {
   "property": "C91",
   "status": "proved",
   "theorems": [
    "Sqlf.Props.C91_lists_are_shared",
    "Sqlf.Props.C91_item_is_built",
    "Sqlf.Props.C91_index_outside_the_list",
    "Sqlf.Props.C91_join_of_a_list",
    "Sqlf.Props.C91_join_of_arguments",
    "Sqlf.Props.C91_fragment_lists",
    "Sqlf.Props.C91_arguments_are_shared"
   ],
   "note": "propertiesFunc is the function the documentation writes around Properties.Build; C43 and C13-C15 do the rest."
  },
  {
   "property": "C92",
   "status": "proved",
   "theorems": [
    "Sqlf.Props.C92_scan_sends_the_query",
    "Sqlf.Props.C92_count_sends_the_query",
    "Sqlf.Props.C92_nothing_is_sent",
    "Sqlf.Props.C92_one_answer_is_used",
    "Sqlf.Props.C92_one_answer_is_counted"
   ],
   "note": "The database is any function from queries to answers; the model also gives the list of queries sent."
  },
  {
   "property": "C93",
   "status": "partial",
   "theorems": [
    "Sqlf.Props.C93_column_text_partial",
    "Sqlf.Props.C93_column_text_exactly",
    "Sqlf.Props.C93_anonymous_column_text_partial",
    "Sqlf.Props.C93_table_text",
    "Sqlf.Props.C93_alias_column_text_partial",
    "Sqlf.Props.C93_columns_texts_partial",
    "Sqlf.Props.C93_alias_columns_texts_partial",
    "Sqlf.Props.C93_with_alias_partial",
    "Sqlf.Props.C93_expression_columns",
    "Sqlf.Props.C93_select_list_partial",
    "Sqlf.Props.C93_marker_in_name_counterexample"
   ],
   "note": "Full for names that contain no #, ?, $ and no NUL byte and do not begin or end with a space; a column name is read as a template, so Column(\"a?\") fails (counterexample). Exactly: a column is built to its text in every context if and only if the text, as a template, refers to nothing (C93_column_text_exactly)."
  },
  {
   "property": "C94",
   "status": "proved",
   "theorems": [
    "Sqlf.Props.C94_only_arguments",
    "Sqlf.Props.C94_always_the_same",
    "Sqlf.Props.C94_trial_call"
   ],
   "note": "Full. It also justifies leaving out the joinTested cache of the code (C94_trial_call)."
  },
  {
   "property": "C95",
   "status": "proved",
   "theorems": [
    "Sqlf.Props.C95_errors_explained",
    "Sqlf.Props.C95_query_errors_explained",
    "Sqlf.Props.C95_contexts_registered"
   ],
   "note": "Full. User code answers for its own errors (any error is accepted of it); which of several unused arguments is reported is C24."
  },
  {
   "property": "C96",
   "status": "partial",
   "theorems": [
    "Sqlf.Props.C96_built_query_interpolates_partial",
    "Sqlf.Props.C96_count_returns_the_error_partial",
    "Sqlf.Props.C96_count_panics_counterexample",
    "Sqlf.Props.C96_nil_pointer_counterexample"
   ],
   "note": "False of the code for queries with text that looks like a placeholder, and for nil pointers such as (*time.Time)(nil) among the arguments (counterexamples). Proved for all others."
  },
  {
   "property": "C97",
   "status": "proved",
   "theorems": [
    "Sqlf.Props.C97_values_influence_nothing",
    "Sqlf.Props.C97_values_never_in_errors",
    "Sqlf.Props.C97_values_influence_nothing_later"
   ],
   "note": ""
  },
  {
   "property": "C98",
   "status": "proved",
   "theorems": [
    "Sqlf.Props.C98_parts_can_be_replaced",
    "Sqlf.Props.C98_parts_can_be_replaced_later",
    "Sqlf.Props.C98_one_argument",
    "Sqlf.Props.C98_plain_text",
    "Sqlf.Props.C98_expression_column",
    "Sqlf.Props.C98_wrapped_in_code",
    "Sqlf.Props.C98_tables_must_agree"
   ],
   "note": "The relation of what may be replaced by what is arbitrary, as long as the replacement builds to the same in every context and state and refers to the same tables; C98_tables_must_agree shows that the second condition is needed."
  },
  {
   "property": "C99",
   "status": "proved",
   "theorems": [
    "Sqlf.Props.C99_style_decides_placeholders_only",
    "Sqlf.Props.C99_style_decides_placeholders_only_later",
    "Sqlf.Props.C99_no_code_is_blind",
    "Sqlf.Props.C99_parentheses_are_blind",
    "Sqlf.Props.C99_code_that_looks"
   ],
   "note": "What it means that user code does not look at placeholders is a relation between two runs of the code (Spec/Styles.lean); C99_code_that_looks shows that the condition is needed, C23_styles_differ_counterexample that values must be hashable."
  },
  {
   "property": "C100",
   "status": "proved",
   "theorems": [
    "Sqlf.Props.C100_last_format_counts",
    "Sqlf.Props.C100_formats_change_times_only",
    "Sqlf.Props.C100_no_times"
   ],
   "note": ""
  },
  {
   "property": "C101",
   "status": "proved",
   "theorems": [
    "Sqlf.Props.C101_position_texts_differ",
    "Sqlf.Props.C101_positions_are_known"
   ],
   "note": ""
  },
  {
   "property": "C102",
   "status": "proved",
   "theorems": [
    "Sqlf.Props.C102_nested_query",
    "Sqlf.Props.C102_arguments_stay_inside",
    "Sqlf.Props.C102_by_hand"
   ],
   "note": "User code that calls BuildQuery is a constructor of the model's user code; the statement with commits by hand is for trees of fragments, columns and tables and for contexts with the built-in functions."
  },
  {
   "property": "C103",
   "status": "proved",
   "theorems": [
    "Sqlf.Props.C103_own_builders",
    "Sqlf.Props.C103_no_race"
   ],
   "note": "Model/Jobs.lean: goroutines with lists of calls and builds. With shared builders see C88 and C90."
  },
  {
   "property": "C104",
   "status": "proved",
   "theorems": [
    "Sqlf.Props.C104_texts_stay_in_literals",
    "Sqlf.Props.C104_built_and_interpolated"
   ],
   "note": "Literals are read with doubled quotes (no backslash escapes). Formats of times with a quote are excluded: the code does not escape them, see the example beside the theorem. C104_built_and_interpolated is the property for values given to fragments and query builders."
  },
  {
   "property": "C105",
   "status": "proved",
   "theorems": [
    "Sqlf.Props.C105_nothing_left_to_fill_in"
   ],
   "note": "Floats must be written without quotes and markers and times without quotes; true of %f and of the default format, which are parameters of the model."
  },
  {
   "property": "C106",
   "status": "partial",
   "theorems": [
    "Sqlf.Props.C106_scan_row_exactly_partial",
    "Sqlf.Props.C106_others_stay_partial",
    "Sqlf.Props.C106_out_of_reach",
    "Sqlf.Props.C106_scan_partial",
    "Sqlf.Props.C106_scan_literals",
    "Sqlf.Props.C106_lost_field_counterexample"
   ],
   "note": "False of the code: `append` in ScanRow overwrites the array behind `dest` (counterexample). Proved: exactly which places are overwritten, for every array, slice and growth policy, and that Scan and ScanRow assign as they should wherever no slice of the caller reaches behind another."
  },
  {
   "property": "C107",
   "status": "partial",
   "theorems": [
    "Sqlf.Props.C107_kept_partial",
    "Sqlf.Props.C107_same_queries_partial",
    "Sqlf.Props.C107_slices_stay",
    "Sqlf.Props.C107_deps_counterexample"
   ],
   "note": "False of the code: With keeps the slice of dependencies (counterexample). Proved for all histories without an assignment to an element of a slice of dependencies."
  },
  {
   "property": "C108",
   "status": "proved",
   "theorems": [
    "Sqlf.Props.C108_arguments_are_separate"
   ],
   "note": ""
  },
  {
   "property": "C109",
   "status": "partial",
   "theorems": [
    "Sqlf.Props.C109_args_is_a_snapshot_partial",
    "Sqlf.Props.C109_append_counterexample",
    "Sqlf.Props.C109_assign_counterexample"
   ],
   "note": "False of the code: Args returns the slice of the store, so that changing or appending to it changes the context (counterexamples). Proved: what is committed later does not change the list."
  },
  {
   "property": "C110",
   "status": "proved",
   "theorems": [
    "Sqlf.Props.C110_flattened_list",
    "Sqlf.Props.C110_list_is_new"
   ],
   "note": ""
  },
  {
   "property": "C111",
   "status": "proved",
   "theorems": [
    "Sqlf.Props.C111_used_iff_asked",
    "Sqlf.Props.C111_build_is_of_the_value",
    "Sqlf.Props.C111_flags_change_no_build"
   ],
   "note": ""
  },
  {
   "property": "C112",
   "status": "partial",
   "theorems": [
    "Sqlf.Props.C112_function_gets_the_literals_partial",
    "Sqlf.Props.C112_defined_types_never_run",
    "Sqlf.Props.C112_defined_types_counterexample",
    "Sqlf.Props.C112_written_calls_partial"
   ],
   "note": "False of the code for parameters of defined string and bool types (counterexample): such functions are accepted and never run (C112_defined_types_never_run). Proved for all other signatures, for the call and for its text in a template."
  },
  {
   "property": "C113",
   "status": "partial",
   "theorems": [
    "Sqlf.Props.C113_answer_is_kept",
    "Sqlf.Props.C113_tested_once",
    "Sqlf.Props.C113_judged_as_it_is_partial",
    "Sqlf.Props.C113_judged_as_it_is_counterexample"
   ],
   "note": "False of the code: the answer is kept, so a function that builds a query which is not complete yet is refused for ever (counterexample). Proved for functions that refer to no query builder; that the answer is kept and the function is tested once is proved for all."
  },
  {
   "property": "C114",
   "status": "proved",
   "theorems": [
    "Sqlf.Props.C114_building_queries_returns",
    "Sqlf.Props.C114_building_fragments_returns",
    "Sqlf.Props.C114_self_reference_never_returns",
    "Sqlf.Props.C114_endless_list_never_returns",
    "Sqlf.Props.C114_self_call_never_returns"
   ],
   "note": ""
  },
  {
   "property": "C115",
   "status": "proved",
   "theorems": [
    "Sqlf.Props.C115_programs_end",
    "Sqlf.Props.C115_programs_end_from_new",
    "Sqlf.Props.C115_goroutines_end"
   ],
   "note": ""
  },
  {
   "property": "C116",
   "status": "proved",
   "theorems": [
    "Sqlf.Props.C116_fragments_refuse",
    "Sqlf.Props.C116_texts",
    "Sqlf.Props.C116_query_builders_refuse",
    "Sqlf.Props.C116_nothing_changes"
   ],
   "note": ""
  },
  {
   "property": "C117",
   "status": "partial",
   "theorems": [
    "Sqlf.Props.C117_both_results",
    "Sqlf.Props.C117_entries_before_the_refused_partial",
    "Sqlf.Props.C117_only_allowed_functions_partial",
    "Sqlf.Props.C117_order_counterexample"
   ],
   "note": "False of the code: the functions visited before the refused entry have been added, and which these are depends on the iteration order (counterexample). Proved: exactly these are added, all allowed; everything else in the statement."
  },
  {
   "property": "C118",
   "status": "partial",
   "theorems": [
    "Sqlf.Props.C118_one_at_a_time_partial",
    "Sqlf.Props.C118_lost_argument_counterexample",
    "Sqlf.Props.C118_same_placeholder_counterexample"
   ],
   "note": "False of the code: CommitArg takes no lock, so a value can be lost and two values can get one placeholder (counterexamples). Proved for calls that do not overlap, as under a mutex."
  }
 ]
}
